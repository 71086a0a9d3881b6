import Verif.Model.Figures
import Mathlib.Tactic.NormNum

/-!
C97 — plotting several datasets into one figure.
-/

namespace TS

namespace Spec

/-- Everything is drawn in an axis made for it. -/
def InPlace (f : Fig) : Prop := ∀ ax ∈ f, ∀ x ∈ ax.shows, x.2 = ax.role

/-- Something of a dataset is drawn in the axis made for it. -/
def ShownIn (f : Fig) (d : ℕ) (what : AxRole) : Prop := ∃ ax ∈ f, ax.role = what ∧ (d, what) ∈ ax.shows

/-- Two datasets share an axis. -/
def Overlaid (f : Fig) (d e : ℕ) (what : AxRole) : Prop := ∃ ax ∈ f, ax.role = what ∧ (d, what) ∈ ax.shows ∧ (e, what) ∈ ax.shows

end Spec

/-- A first call, on an empty figure, draws what was asked for in axes made for it, for every method and all options. -/
theorem C97_first (k : FigKind) (d : ℕ) (o : FigOpts) :
    ∃ f, figPlot k d o [] = .ok f ∧ Spec.InPlace f ∧ (k.wantsImage o = true → Spec.ShownIn f d .image) ∧
      (k.wantsMain o = true → Spec.ShownIn f d .main ∧ (o.resid = true → Spec.ShownIn f d .resid)) := by
  obtain ⟨i, m, r, s⟩ := o
  cases k <;> cases i <;> cases m <;> cases r <;>
    refine ⟨_, rfl, ?_, ?_, ?_⟩ <;>
    simp [Spec.InPlace, Spec.ShownIn, FigKind.wantsImage, FigKind.wantsMain, pickAxes]

/-- The two axes after the calls in `ds`. -/
private def twoAxes (ds : List ℕ) : Fig := [⟨.main, ds.map fun d => (d, .main)⟩, ⟨.resid, ds.map fun d => (d, .resid)⟩]

private theorem run_two (k : FigKind) (ds : List ℕ) (cs : List (ℕ × FigOpts))
    (h : ∀ c ∈ cs, c.2.image = false ∧ c.2.main = true ∧ c.2.resid = true ∧ c.2.save = false) :
    figRun k true (twoAxes ds) cs = .ok (twoAxes (ds ++ cs.map Prod.fst)) := by
  induction cs generalizing ds with
  | nil => simp [figRun]
  | cons c cs ih =>
    obtain ⟨d, i, m, r, s⟩ := c
    have h0 := h _ List.mem_cons_self
    simp only at h0
    obtain ⟨rfl, rfl, rfl, rfl⟩ := h0
    have h1 : figCall k true (twoAxes ds) (d, ⟨false, true, true, false⟩) = .ok (twoAxes (ds ++ [d])) := by
      unfold twoAxes
      rw [List.map_append, List.map_append]
      cases k <;> rfl
    simp only [figRun, h1, bind, Except.bind]
    rw [ih (ds ++ [d]) (fun c hc => h c (List.mem_cons_of_mem _ hc))]
    simp

/-- The axis after the calls in `ds`. -/
private def oneAxis (ds : List ℕ) : Fig := [⟨.main, ds.map fun d => (d, .main)⟩]

private theorem run_one (k : FigKind) (hk : k ≠ .scf) (ds : List ℕ) (cs : List (ℕ × FigOpts))
    (h : ∀ c ∈ cs, c.2.image = false ∧ c.2.resid = false ∧ c.2.save = false) :
    figRun k true (oneAxis ds) cs = .ok (oneAxis (ds ++ cs.map Prod.fst)) := by
  induction cs generalizing ds with
  | nil => simp [figRun]
  | cons c cs ih =>
    obtain ⟨d, i, m, r, s⟩ := c
    have h0 := h _ List.mem_cons_self
    simp only at h0
    obtain ⟨rfl, rfl, rfl⟩ := h0
    have h1 : figCall k true (oneAxis ds) (d, ⟨false, m, false, false⟩) = .ok (oneAxis (ds ++ [d])) := by
      unfold oneAxis
      rw [List.map_append]
      cases k
      · rfl
      · rfl
      · rfl
      · exact absurd rfl hk
    simp only [figRun, h1, bind, Except.bind]
    rw [ih (ds ++ [d]) (fun c hc => h c (List.mem_cons_of_mem _ hc))]
    simp

/-- Any number of calls with residuals and without the image, on a figure that stays open: they share the two axes of the first call, the
curves in one and the residuals in the other.  Missing for the full claim: calls with the image, a figure that is saved or closed in
between, calls with different options; there it fails (the theorems below). -/
theorem C97_overlay_resid_partial (k : FigKind) (cs : List (ℕ × FigOpts)) (hne : cs ≠ [])
    (h : ∀ c ∈ cs, c.2.image = false ∧ c.2.main = true ∧ c.2.resid = true ∧ c.2.save = false) :
    ∃ f, figRun k true [] cs = .ok f ∧ f.map PAxis.role = [.main, .resid] ∧ Spec.InPlace f ∧
      ∀ c ∈ cs, ∀ e ∈ cs, Spec.Overlaid f c.1 e.1 .main ∧ Spec.Overlaid f c.1 e.1 .resid := by
  have hrun : figRun k true [] cs = .ok (twoAxes (cs.map Prod.fst)) := by
    cases cs with
    | nil => exact absurd rfl hne
    | cons c cs =>
      obtain ⟨d, i, m, r, s⟩ := c
      have h0 := h _ List.mem_cons_self
      simp only at h0
      obtain ⟨rfl, rfl, rfl, rfl⟩ := h0
      have h1 : figCall k true [] (d, ⟨false, true, true, false⟩) = .ok (twoAxes [d]) := by cases k <;> rfl
      simp only [figRun, h1, bind, Except.bind]
      rw [run_two k [d] cs (fun c hc => h c (List.mem_cons_of_mem _ hc))]
      simp
  refine ⟨_, hrun, rfl, ?_, ?_⟩
  · intro ax hax x hx
    simp only [twoAxes, List.mem_cons, List.not_mem_nil, or_false] at hax
    rcases hax with rfl | rfl <;> (simp only [List.mem_map] at hx; obtain ⟨_, _, rfl⟩ := hx; rfl)
  · intro c hc e he
    have hc' : c.1 ∈ cs.map Prod.fst := List.mem_map.2 ⟨c, hc, rfl⟩
    have he' : e.1 ∈ cs.map Prod.fst := List.mem_map.2 ⟨e, he, rfl⟩
    exact ⟨⟨_, List.mem_cons_self, rfl, List.mem_map.2 ⟨_, hc', rfl⟩, List.mem_map.2 ⟨_, he', rfl⟩⟩,
      ⟨_, List.mem_cons_of_mem _ List.mem_cons_self, rfl, List.mem_map.2 ⟨_, hc', rfl⟩, List.mem_map.2 ⟨_, he', rfl⟩⟩⟩

/-- The same without residuals, for all methods but that of the SCF: one axis for all curves.  Missing: as above. -/
theorem C97_overlay_partial (k : FigKind) (hk : k ≠ .scf) (cs : List (ℕ × FigOpts)) (hne : cs ≠ [])
    (h : ∀ c ∈ cs, c.2.image = false ∧ c.2.resid = false ∧ c.2.save = false) :
    ∃ f, figRun k true [] cs = .ok f ∧ f.map PAxis.role = [.main] ∧ Spec.InPlace f ∧
      ∀ c ∈ cs, ∀ e ∈ cs, Spec.Overlaid f c.1 e.1 .main := by
  have hrun : figRun k true [] cs = .ok (oneAxis (cs.map Prod.fst)) := by
    cases cs with
    | nil => exact absurd rfl hne
    | cons c cs =>
      obtain ⟨d, i, m, r, s⟩ := c
      have h0 := h _ List.mem_cons_self
      simp only at h0
      obtain ⟨rfl, rfl, rfl⟩ := h0
      have h1 : figCall k true [] (d, ⟨false, m, false, false⟩) = .ok (oneAxis [d]) := by
        cases k
        · rfl
        · rfl
        · rfl
        · exact absurd rfl hk
      simp only [figRun, h1, bind, Except.bind]
      rw [run_one k hk [d] cs (fun c hc => h c (List.mem_cons_of_mem _ hc))]
      simp
  refine ⟨_, hrun, rfl, ?_, ?_⟩
  · intro ax hax x hx
    simp only [oneAxis, List.mem_cons, List.not_mem_nil, or_false] at hax
    subst hax
    simp only [List.mem_map] at hx
    obtain ⟨_, _, rfl⟩ := hx
    rfl
  · intro c hc e he
    have hc' : c.1 ∈ cs.map Prod.fst := List.mem_map.2 ⟨c, hc, rfl⟩
    have he' : e.1 ∈ cs.map Prod.fst := List.mem_map.2 ⟨e, he, rfl⟩
    exact ⟨_, List.mem_cons_self, rfl, List.mem_map.2 ⟨_, hc', rfl⟩, List.mem_map.2 ⟨_, he', rfl⟩⟩

/-- Three datasets with residuals. -/
example : (∀ c ∈ ([(1, ⟨false, true, true, false⟩), (2, ⟨false, true, true, false⟩), (3, ⟨false, true, true, false⟩)] : List (ℕ × FigOpts)),
    c.2.image = false ∧ c.2.main = true ∧ c.2.resid = true ∧ c.2.save = false) ∧
    figRun .pspec true [] [(1, ⟨false, true, true, false⟩), (2, ⟨false, true, true, false⟩)] =
      .ok [⟨.main, [(1, .main), (2, .main)]⟩, ⟨.resid, [(1, .resid), (2, .resid)]⟩] := by
  refine ⟨by simp, rfl⟩

/-- Delta-variance, wavelet and VCS: once a call has made both axes, later calls may or may not show residuals. -/
theorem C97_mixed (k : FigKind) (hk : k = .curve ∨ k = .vcs) (d : ℕ) (o : FigOpts) (ho : o.resid = true ∧ o.save = false)
    (cs : List (ℕ × FigOpts)) (h : ∀ c ∈ cs, c.2.save = false) :
    ∃ f, figRun k true [] ((d, o) :: cs) = .ok f ∧ f.map PAxis.role = [.main, .resid] ∧ Spec.InPlace f ∧
      ∀ c ∈ (d, o) :: cs, Spec.ShownIn f c.1 .main ∧ (c.2.resid = true → Spec.ShownIn f c.1 .resid) := by
  have key : ∀ (cs : List (ℕ × FigOpts)) (ds es : List ℕ), (∀ c ∈ cs, c.2.save = false) →
      figRun k true [⟨.main, ds.map fun d => (d, .main)⟩, ⟨.resid, es.map fun d => (d, .resid)⟩] cs =
        .ok [⟨.main, (ds ++ cs.map Prod.fst).map fun d => (d, .main)⟩,
          ⟨.resid, (es ++ (cs.filter fun c => c.2.resid).map Prod.fst).map fun d => (d, .resid)⟩] := by
    intro cs
    induction cs with
    | nil => intro ds es _; simp [figRun]
    | cons c cs ih =>
      intro ds es h
      obtain ⟨d, i, m, r, s⟩ := c
      have h0 := h _ List.mem_cons_self
      simp only at h0
      subst h0
      cases r with
      | false =>
        have h1 : figCall k true [⟨.main, ds.map fun d => (d, .main)⟩, ⟨.resid, es.map fun d => (d, .resid)⟩] (d, ⟨i, m, false, false⟩) =
            .ok [⟨.main, (ds ++ [d]).map fun d => (d, .main)⟩, ⟨.resid, es.map fun d => (d, .resid)⟩] := by
          rw [List.map_append]
          rcases hk with rfl | rfl <;> rfl
        simp only [figRun, h1, bind, Except.bind]
        rw [ih _ _ (fun c hc => h c (List.mem_cons_of_mem _ hc))]
        simp
      | true =>
        have h1 : figCall k true [⟨.main, ds.map fun d => (d, .main)⟩, ⟨.resid, es.map fun d => (d, .resid)⟩] (d, ⟨i, m, true, false⟩) =
            .ok [⟨.main, (ds ++ [d]).map fun d => (d, .main)⟩, ⟨.resid, (es ++ [d]).map fun d => (d, .resid)⟩] := by
          rw [List.map_append, List.map_append]
          rcases hk with rfl | rfl <;> rfl
        simp only [figRun, h1, bind, Except.bind]
        rw [ih _ _ (fun c hc => h c (List.mem_cons_of_mem _ hc))]
        simp
  obtain ⟨i, m, r, s⟩ := o
  obtain ⟨rfl, rfl⟩ : r = true ∧ s = false := ho
  have h1 : figCall k true [] (d, ⟨i, m, true, false⟩) =
      .ok [⟨.main, [d].map fun d => (d, .main)⟩, ⟨.resid, [d].map fun d => (d, .resid)⟩] := by
    rcases hk with rfl | rfl <;> rfl
  refine ⟨_, by simp only [figRun, h1, bind, Except.bind]; exact key cs [d] [d] h, rfl, ?_, ?_⟩
  · intro ax hax x hx
    simp only [List.mem_cons, List.not_mem_nil, or_false] at hax
    rcases hax with rfl | rfl <;> (simp only [List.mem_map] at hx; obtain ⟨_, _, rfl⟩ := hx; rfl)
  · intro c hc
    refine ⟨⟨_, List.mem_cons_self, rfl, List.mem_map.2 ⟨c.1, ?_, rfl⟩⟩, fun hr =>
      ⟨_, List.mem_cons_of_mem _ List.mem_cons_self, rfl, List.mem_map.2 ⟨c.1, ?_, rfl⟩⟩⟩
    · rcases List.mem_cons.1 hc with rfl | hc
      · simp
      · exact List.mem_append_right _ (List.mem_map.2 ⟨c, hc, rfl⟩)
    · rcases List.mem_cons.1 hc with rfl | hc
      · simp
      · exact List.mem_append_right _ (List.mem_map.2 ⟨c, List.mem_filter.2 ⟨hc, hr⟩, rfl⟩)

/-- A figure with one axis (from a call without residuals, or the user's own) cannot take a call with residuals, which is the default, in
any method: the variable of the residual axis is not assigned. -/
theorem C97_one_axis_violated (k : FigKind) (ax : PAxis) (d : ℕ) (o : FigOpts) (hm : o.main = true) (hr : o.resid = true) :
    figPlot k d o [ax] = .error .unboundLocal := by
  obtain ⟨i, m, r, s⟩ := o
  simp only at hm hr
  subst hm hr
  cases k <;> cases i <;> rfl

/-- The SCF cannot draw the curve a second time into its own single axis, with or without residuals. -/
theorem C97_scf_again_violated (ax : PAxis) (d : ℕ) (o : FigOpts) (hm : o.main = true) :
    figPlot .scf d o [ax] = .error .unboundLocal := by
  obtain ⟨i, m, r, s⟩ := o
  simp only at hm
  subst hm
  cases i <;> cases r <;> rfl

/-- Power spectra: a call without residuals (and without the image) raises on the two axes of a call with residuals. -/
theorem C97_fewer_violated (d e : ℕ) (m n : Bool) :
    figRun .pspec true [] [(d, ⟨false, m, true, false⟩), (e, ⟨false, n, false, false⟩)] = .error .unboundLocal := rfl

/-- With the image and residuals nothing is overlaid: the colour bar is a fourth axis, and the second call makes four new ones. -/
theorem C97_image_violated (k : FigKind) (hk : k = .pspec ∨ k = .scf) (d e : ℕ) (hde : d ≠ e) :
    ∃ f, figRun k true [] [(d, ⟨true, true, true, false⟩), (e, ⟨true, true, true, false⟩)] = .ok f ∧ f.length = 8 ∧
      ∀ what, ¬ Spec.Overlaid f d e what := by
  rcases hk with rfl | rfl <;>
  · refine ⟨[⟨.image, [(d, .image)]⟩, ⟨.main, [(d, .main)]⟩, ⟨.resid, [(d, .resid)]⟩, ⟨.bar, []⟩,
      ⟨.image, [(e, .image)]⟩, ⟨.main, [(e, .main)]⟩, ⟨.resid, [(e, .resid)]⟩, ⟨.bar, []⟩], rfl, rfl, ?_⟩
    rintro what ⟨ax, hax, rfl, h1, h2⟩
    simp only [List.mem_cons, List.not_mem_nil, or_false] at hax
    rcases hax with rfl | rfl | rfl | rfl | rfl | rfl | rfl | rfl <;> simp_all

/-- With the image but without residuals two calls share their axes, and a third does not. -/
theorem C97_image_third_violated (k : FigKind) (hk : k = .pspec ∨ k = .scf) (d e g : ℕ) (hde : d ≠ g) (heg : e ≠ g) :
    (∃ f, figRun k true [] [(d, ⟨true, true, false, false⟩), (e, ⟨true, true, false, false⟩)] = .ok f ∧ Spec.Overlaid f d e .main) ∧
    ∃ f, figRun k true [] [(d, ⟨true, true, false, false⟩), (e, ⟨true, true, false, false⟩), (g, ⟨true, true, false, false⟩)] = .ok f ∧
      ¬ Spec.Overlaid f d g .main ∧ ¬ Spec.Overlaid f e g .main := by
  rcases hk with rfl | rfl <;>
  · refine ⟨⟨[⟨.image, [(d, .image), (e, .image)]⟩, ⟨.main, [(d, .main), (e, .main)]⟩, ⟨.bar, []⟩, ⟨.bar, []⟩], rfl,
      ⟨_, List.mem_cons_of_mem _ List.mem_cons_self, rfl, by simp, by simp⟩⟩,
      [⟨.image, [(d, .image), (e, .image)]⟩, ⟨.main, [(d, .main), (e, .main)]⟩, ⟨.bar, []⟩, ⟨.bar, []⟩,
        ⟨.image, [(g, .image)]⟩, ⟨.main, [(g, .main)]⟩, ⟨.bar, []⟩], rfl, ?_, ?_⟩ <;>
    · rintro ⟨ax, hax, h0, h1, h2⟩
      simp only [List.mem_cons, List.not_mem_nil, or_false] at hax
      rcases hax with rfl | rfl | rfl | rfl | rfl | rfl | rfl <;>
        simp [hde, heg, hde.symm, heg.symm] at h0 h1 h2

/-- After a call with the image and without residuals, residuals are drawn in the axis of the colour bar. -/
theorem C97_bar_violated (k : FigKind) (hk : k = .pspec ∨ k = .scf) (d e : ℕ) :
    ∃ f, figRun k true [] [(d, ⟨true, true, false, false⟩), (e, ⟨false, true, true, false⟩)] = .ok f ∧ ¬ Spec.InPlace f ∧
      ∃ ax ∈ f, ax.role = .bar ∧ (e, .resid) ∈ ax.shows := by
  have : ∀ f : Fig, (∃ ax ∈ f, ax.role = .bar ∧ (e, AxRole.resid) ∈ ax.shows) → ¬ Spec.InPlace f := by
    rintro f ⟨ax, hax, hr, hs⟩ h
    have := h ax hax _ hs
    rw [hr] at this
    cases this
  rcases hk with rfl | rfl <;>
  · refine ⟨[⟨.image, [(d, .image)]⟩, ⟨.main, [(d, .main), (e, .main)]⟩, ⟨.bar, [(e, .resid)]⟩], rfl, this _ ?_, ?_⟩ <;>
    exact ⟨_, List.mem_cons_of_mem _ (List.mem_cons_of_mem _ List.mem_cons_self), rfl, by simp⟩

/-! ### Distance metrics -/

/-- The figure of a distance metric shows both datasets in the same axes, and the legend goes to the axis of the curves, when the figure
stays open, neither dataset is saved on its own, both have the same options and the image is not shown.  Missing for the full claim: the
other cases, where it fails (the theorems below). -/
theorem C97_distance_partial (k : FigKind) (hk : k ≠ .scf) (r m1 m2 : Bool) :
    ∃ f, distFigure k true [] ⟨false, m1, r, false⟩ ⟨false, m2, r, false⟩ = .ok f ∧ Spec.InPlace f ∧
      Spec.Overlaid f 1 2 .main ∧ (r = true → Spec.Overlaid f 1 2 .resid) ∧ f.head?.map PAxis.role = some .main := by
  have h2 : ∀ r m1 m2, k ≠ .scf → distFigure k true [] ⟨false, m1, r, false⟩ ⟨false, m2, r, false⟩ =
      .ok (if r then [⟨.main, [(1, .main), (2, .main)]⟩, ⟨.resid, [(1, .resid), (2, .resid)]⟩] else [⟨.main, [(1, .main), (2, .main)]⟩]) := by
    intro r m1 m2 hk
    cases k <;> cases r <;> first | rfl | exact absurd rfl hk
  rw [h2 r m1 m2 hk]
  cases r
  · refine ⟨_, rfl, ?_, ⟨_, List.mem_cons_self, rfl, by simp, by simp⟩, by simp, rfl⟩
    intro ax hax x hx
    simp at hax
    subst hax
    simp at hx
    rcases hx with rfl | rfl <;> rfl
  · refine ⟨_, rfl, ?_, ⟨_, List.mem_cons_self, rfl, by simp, by simp⟩, fun _ =>
      ⟨_, List.mem_cons_of_mem _ List.mem_cons_self, rfl, by simp, by simp⟩, rfl⟩
    intro ax hax x hx
    simp at hax
    rcases hax with rfl | rfl <;> (simp at hx; rcases hx with rfl | rfl <;> rfl)

private theorem dist_fail (k : FigKind) (hk : k ≠ .vcs) (keep : Bool) (f : Fig) (o1 o2 : FigOpts) (h : o2.save = true ∨ keep = false) :
    ∀ g, distFigure k keep f o1 o2 ≠ .ok g := by
  intro g hg
  unfold distFigure figCall at hg
  rcases h1 : figPlot k 1 o1 f with e | f1
  · rw [h1] at hg; cases hg
  · rw [h1] at hg
    simp only [bind, Except.bind, pure, Except.pure] at hg
    rcases h2 : figPlot k 2 o2 (figDone keep o1 f1) with e | f2
    · rw [h2] at hg; cases hg
    · rw [h2] at hg
      have : figDone keep o2 f2 = [] := by
        unfold figDone
        rcases h with h | h <;> simp [h]
      simp only [this] at hg
      simp [hk] at hg

/-- Saving the plot of the second dataset, or a backend whose window is closed before `show` returns: the figure is gone and `axes[0]`
raises, whatever the other options.  (VCS saves or shows an empty figure instead.) -/
theorem C97_distance_gone_violated (keep : Bool) (o1 o2 : FigOpts) (h : o2.save = true ∨ keep = false) :
    (∀ k, k ≠ .vcs → ∀ f g, distFigure k keep f o1 o2 ≠ .ok g) ∧
    (∀ r m1 m2, distFigure .curve false [] ⟨false, m1, r, false⟩ ⟨false, m2, r, false⟩ = .error .indexError) ∧
    ∀ f g, distFigure .vcs keep f o1 o2 = .ok g → g = [] := by
  refine ⟨fun k hk f g => dist_fail k hk keep f o1 o2 h g, fun r m1 m2 => by cases r <;> rfl, ?_⟩
  intro f g hg
  unfold distFigure figCall at hg
  rcases h1 : figPlot .vcs 1 o1 f with e | f1
  · rw [h1] at hg; cases hg
  · rw [h1] at hg
    simp only [bind, Except.bind, pure, Except.pure] at hg
    rcases h2 : figPlot .vcs 2 o2 (figDone keep o1 f1) with e | f2
    · rw [h2] at hg; cases hg
    · rw [h2] at hg
      have : figDone keep o2 f2 = [] := by
        unfold figDone
        rcases h with h | h <;> simp [h]
      simp [this] at hg
      exact hg

/-- Saving the plot of the first dataset: the figure of the distance metric shows the second only. -/
theorem C97_distance_first_violated (k : FigKind) (hk : k ≠ .scf) (r m1 m2 : Bool) :
    ∃ f, distFigure k true [] ⟨false, m1, r, true⟩ ⟨false, m2, r, false⟩ = .ok f ∧ Spec.ShownIn f 2 .main ∧ ¬ Spec.ShownIn f 1 .main := by
  have h2 : distFigure k true [] ⟨false, m1, r, true⟩ ⟨false, m2, r, false⟩ =
      .ok (if r then [⟨.main, [(2, .main)]⟩, ⟨.resid, [(2, .resid)]⟩] else [⟨.main, [(2, .main)]⟩]) := by
    cases k <;> cases r <;> first | rfl | exact absurd rfl hk
  rw [h2]
  cases r
  · refine ⟨_, rfl, ⟨_, List.mem_cons_self, rfl, by simp⟩, ?_⟩
    rintro ⟨ax, hax, _, hs⟩
    simp at hax
    subst hax
    simp at hs
  · refine ⟨_, rfl, ⟨_, List.mem_cons_self, rfl, by simp⟩, ?_⟩
    rintro ⟨ax, hax, hr, hs⟩
    simp at hax
    rcases hax with rfl | rfl <;> simp at hs

/-- SCF, on a figure with a curve and its residuals: asking for the image as well raises, with or without the curve. -/
theorem C97_scf_image_violated (f : Fig) (hf : f.length = 2) (d : ℕ) (o : FigOpts) (hi : o.image = true) (hr : o.resid = true) :
    figPlot .scf d o f = .error .unboundLocal := by
  obtain ⟨i, m, r, s⟩ := o
  obtain rfl : i = true := hi
  obtain rfl : r = true := hr
  simp [figPlot, pickAxes, hf, drawImage, FigKind.wantsImage, drawIn, bind, Except.bind]

/-- With the image the legend of a power-spectrum distance goes to the image, which has no labelled curves. -/
theorem C97_distance_legend_violated (m1 m2 : Bool) :
    ∃ f, distFigure .pspec true [] ⟨true, m1, false, false⟩ ⟨true, m2, false, false⟩ = .ok f ∧
      f.head?.map PAxis.role = some .image ∧ Spec.Overlaid f 1 2 .main :=
  ⟨[⟨.image, [(1, .image), (2, .image)]⟩, ⟨.main, [(1, .main), (2, .main)]⟩, ⟨.bar, []⟩, ⟨.bar, []⟩], rfl, rfl,
    ⟨_, List.mem_cons_of_mem _ List.mem_cons_self, rfl, by simp, by simp⟩⟩

end TS
