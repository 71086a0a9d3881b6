import Verif.Model.Results
import Verif.Props.C39
import Verif.Lemmas.PlawFit

/-! C98: results belong to the settings they are shown with.  After a computation the stored values are those of the current lags, scales
or radii, whatever was done before; they stay so until a setting is changed or the computation is repeated, and a call that raises changes
nothing. -/

namespace TS

namespace Spec

/-- The stored values belong, one by one, to the lags (in pixels) at the same places, with the current weights. -/
def CurveInStep {W Opt Img : Type*} (stat : W → Opt → ℝ → Py (Option (ℝ × ℝ) × Img)) (opt : Opt) (o : CurveObj W Img)
    (g : ℝ → Option (ℝ × ℝ)) : Prop :=
  (∀ x ∈ curvePixels o.kind o.lags, ∃ i, stat o.weights opt x = .ok (g x, i)) ∧
    o.curve = some ((curvePixels o.kind o.lags).map fun x => .val (g x))

/-- Operations that should not change what the results belong to: fits, and assignments that are rejected. -/
def Quiet {W Opt : Type*} (side : ℕ) : CurveCmd W Opt → Prop
  | .fit _ _ => True
  | .setLags l => checkLags side l ≠ .ok ()
  | .setWeights _ shapeOk => shapeOk = false
  | .compute _ _ => False

/-- A lag between the limits that were given. -/
def Within (xlow xhigh : Option ℝ) (x : ℝ) : Prop := (∀ a, xlow = some a → a ≤ x) ∧ (∀ b, xhigh = some b → x ≤ b)

end Spec

open Spec

private theorem fillSlots_ok {α β : Type*} (f : α → Py β) (l : List α) (h : (fillSlots f l).2 = none) :
    (∀ v ∈ l, ∃ b, f v = .ok b) ∧ ∀ g : α → β, (∀ v ∈ l, f v = .ok (g v)) → (fillSlots f l).1 = l.map fun v => .val (g v) := by
  induction l with
  | nil => exact ⟨by simp, fun _ _ => rfl⟩
  | cons v vs ih =>
    unfold fillSlots at h
    cases hv : f v with
    | error e => rw [hv] at h; cases h
    | ok b =>
      rw [hv] at h
      obtain ⟨h1, h2⟩ := ih h
      refine ⟨?_, fun g hg => ?_⟩
      · intro w hw
        rcases List.mem_cons.1 hw with rfl | hw
        · exact ⟨b, hv⟩
        · exact h1 w hw
      · have hb : b = g v := by
          have := hg v (List.mem_cons_self ..)
          rw [hv] at this
          exact Except.ok.inj this
        unfold fillSlots
        rw [hv]
        simp only [List.map_cons, hb]
        rw [h2 g (fun w hw => hg w (List.mem_cons_of_mem _ hw))]

private theorem fillSlots_all {α β : Type*} (f : α → Py β) (g : α → β) (l : List α) (h : ∀ v ∈ l, f v = .ok (g v)) :
    fillSlots f l = (l.map fun v => .val (g v), none) := by
  induction l with
  | nil => rfl
  | cons v vs ih =>
    unfold fillSlots
    rw [h v (List.mem_cons_self ..), ih fun w hw => h w (List.mem_cons_of_mem _ hw)]
    rfl

private theorem fillSlots_pick {α β : Type*} [Nonempty β] (f : α → Py β) (l : List α) (h : (fillSlots f l).2 = none) :
    ∃ g : α → β, (∀ v ∈ l, f v = .ok (g v)) ∧ (fillSlots f l).1 = l.map fun v => .val (g v) := by
  obtain ⟨h1, h2⟩ := fillSlots_ok f l h
  classical
  refine ⟨fun v => if hv : v ∈ l then (h1 v hv).choose else Classical.arbitrary β, ?_, ?_⟩
  · intro v hv
    simp only [hv, dite_true]
    exact (h1 v hv).choose_spec
  · apply h2
    intro v hv
    simp only [hv, dite_true]
    exact (h1 v hv).choose_spec

private theorem fillSlots_first {α β : Type*} (f : α → Py β) (v : α) (vs : List α) (e : PyErr) (h : f v = .error e) :
    fillSlots f (v :: vs) = (List.replicate (vs.length + 1) .unset, some e) := by
  unfold fillSlots
  rw [h]

section curve
variable {W Opt Img : Type*} (stat : W → Opt → ℝ → Py (Option (ℝ × ℝ) × Img))

private theorem step_lags_ok (o : CurveObj W Img) (l : LagInput) (h : checkLags o.side l = .ok ()) :
    curveStep stat o (.setLags l) = ({ o with lags := l }, none) := by
  simp only [curveStep, h]

private theorem step_lags_err (o : CurveObj W Img) (l : LagInput) (e : PyErr) (h : checkLags o.side l = .error e) :
    curveStep stat o (.setLags l) = (o, some e) := by
  simp only [curveStep, h]

private theorem step_fit_ok (o : CurveObj W Img) (a b : Option ℝ) (p : List (ℝ × Slot (Option (ℝ × ℝ))))
    (h : curvePoints o a b = .ok p) : curveStep stat o (.fit a b) = ({ o with fitted := some p }, none) := by
  simp only [curveStep, h]

private theorem step_fit_err (o : CurveObj W Img) (a b : Option ℝ) (e : PyErr)
    (h : curvePoints o a b = .error e) : curveStep stat o (.fit a b) = (o, some e) := by
  simp only [curveStep, h]

private theorem quiet_step (o : CurveObj W Img) (c : CurveCmd W Opt) (h : Quiet o.side c) :
    (curveStep stat o c).1.kind = o.kind ∧ (curveStep stat o c).1.side = o.side ∧ (curveStep stat o c).1.lags = o.lags ∧
      (curveStep stat o c).1.weights = o.weights ∧ (curveStep stat o c).1.curve = o.curve ∧
      (curveStep stat o c).1.images = o.images := by
  cases c with
  | setLags l =>
    cases hl : checkLags o.side l with
    | ok u => exact absurd hl h
    | error e => rw [step_lags_err stat o l e hl]; exact ⟨rfl, rfl, rfl, rfl, rfl, rfl⟩
  | setWeights w b =>
    have hb : b = false := h
    subst hb
    exact ⟨rfl, rfl, rfl, rfl, rfl, rfl⟩
  | compute a b => exact absurd h id
  | fit a b =>
    cases hp : curvePoints o a b with
    | ok p => rw [step_fit_ok stat o a b p hp]; exact ⟨rfl, rfl, rfl, rfl, rfl, rfl⟩
    | error e => rw [step_fit_err stat o a b e hp]; exact ⟨rfl, rfl, rfl, rfl, rfl, rfl⟩

private theorem quiet_run (cs : List (CurveCmd W Opt)) : ∀ (o : CurveObj W Img), (∀ c ∈ cs, Quiet o.side c) →
    (curveRun stat o cs).kind = o.kind ∧ (curveRun stat o cs).side = o.side ∧ (curveRun stat o cs).lags = o.lags ∧
      (curveRun stat o cs).weights = o.weights ∧ (curveRun stat o cs).curve = o.curve ∧
      (curveRun stat o cs).images = o.images := by
  induction cs with
  | nil => intro o _; exact ⟨rfl, rfl, rfl, rfl, rfl, rfl⟩
  | cons c cs ih =>
    intro o h
    obtain ⟨a1, a2, a3, a4, a5, a6⟩ := quiet_step stat o c (h c (List.mem_cons_self ..))
    obtain ⟨b1, b2, b3, b4, b5, b6⟩ := ih (curveStep stat o c).1 (by
      intro d hd
      rw [a2]
      exact h d (List.mem_cons_of_mem _ hd))
    have hr : curveRun stat o (c :: cs) = curveRun stat (curveStep stat o c).1 cs := rfl
    rw [hr]
    exact ⟨b1.trans a1, b2.trans a2, b3.trans a3, b4.trans a4, b5.trans a5, b6.trans a6⟩

private theorem compute_ok [Nonempty Img] (o : CurveObj W Img) (opt : Opt) (keep : Bool)
    (h : (curveStep stat o (.compute opt keep)).2 = none) :
    ∃ g : ℝ → Option (ℝ × ℝ) × Img, (∀ x ∈ curvePixels o.kind o.lags, stat o.weights opt x = .ok (g x)) ∧
      fillSlots (stat o.weights opt) (curvePixels o.kind o.lags) = ((curvePixels o.kind o.lags).map fun x => .val (g x), none) := by
  have h' : (fillSlots (stat o.weights opt) (curvePixels o.kind o.lags)).2 = none := h
  obtain ⟨g, h1, h2⟩ := fillSlots_pick _ _ h'
  exact ⟨g, h1, Prod.ext h2 h'⟩

/-- **C98 (curves).** After a computation that does not raise, and any number of fits and rejected assignments, the stored values are
those of the current lags and weights: whatever object it was called on.  Missing for the full property: computations that raise
(`C98_lost_violated`) and accepted assignments (`C98_stale_violated`). -/
theorem C98_curve_partial [Nonempty Img] (o : CurveObj W Img) (opt : Opt) (keep : Bool) (cs : List (CurveCmd W Opt))
    (h : (curveStep stat o (.compute opt keep)).2 = none) (hq : ∀ c ∈ cs, Quiet o.side c) :
    (curveRun stat o (.compute opt keep :: cs)).lags = o.lags ∧ (curveRun stat o (.compute opt keep :: cs)).weights = o.weights ∧
      ∃ g, CurveInStep stat opt (curveRun stat o (.compute opt keep :: cs)) g := by
  obtain ⟨g, hg, hf⟩ := compute_ok stat o opt keep h
  have hr : curveRun stat o (.compute opt keep :: cs) = curveRun stat (curveCompute stat o opt keep).1 cs := rfl
  obtain ⟨b1, b2, b3, b4, b5, _⟩ := quiet_run stat cs (curveCompute stat o opt keep).1 hq
  rw [hr]
  refine ⟨b3, b4, fun x => (g x).1, ?_, ?_⟩
  · rw [b1, b3, b4]
    intro x hx
    exact ⟨(g x).2, hg x hx⟩
  · rw [b1, b3, b5]
    unfold curveCompute
    simp only [hf, List.map_map]
    rfl

/-- **C98 (units of the scales).** The values of a wavelet transform belong to the scales in pixels, in whatever unit they were
assigned: the i-th value is that of `s * f` pixels, where `f` is the number of pixels in the unit. -/
theorem C98_scales [Nonempty Img] (o : CurveObj W Img) (hk : o.kind = .wavelet) (v : List ℝ) (f : ℝ)
    (hl : o.lags = .quantity v f) (opt : Opt) (keep : Bool) (h : (curveStep stat o (.compute opt keep)).2 = none) :
    ∃ g : ℝ → Option (ℝ × ℝ), (∀ s ∈ v, ∃ i, stat o.weights opt (s * f) = .ok (g s, i)) ∧
      (curveStep stat o (.compute opt keep)).1.curve = some (v.map fun s => .val (g s)) := by
  obtain ⟨g, hg, hf⟩ := compute_ok stat o opt keep h
  have hp : curvePixels o.kind o.lags = v.map (· * f) := by rw [hk, hl]; rfl
  refine ⟨fun s => (g (s * f)).1, ?_, ?_⟩
  · intro s hs
    exact ⟨(g (s * f)).2, hg _ (by rw [hp]; exact List.mem_map.2 ⟨s, hs, rfl⟩)⟩
  · show (curveCompute stat o opt keep).1.curve = _
    rw [hp] at hf
    unfold curveCompute
    rw [hp]
    simp only [hf, List.map_map]
    rfl

/-- **C98 (repeating).** A computation does not depend on what the object was used for before: two objects with the same lags and weights
get the same values, raise the same exception, and for the wavelet transform keep the same images. -/
theorem C98_repeat (o₁ o₂ : CurveObj W Img) (opt : Opt) (keep : Bool) (hk : o₁.kind = o₂.kind) (hl : o₁.lags = o₂.lags)
    (hw : o₁.weights = o₂.weights) :
    (curveStep stat o₁ (.compute opt keep)).2 = (curveStep stat o₂ (.compute opt keep)).2 ∧
      (curveStep stat o₁ (.compute opt keep)).1.curve = (curveStep stat o₂ (.compute opt keep)).1.curve ∧
      (o₁.kind = .wavelet →
        (curveStep stat o₁ (.compute opt keep)).1.images = (curveStep stat o₂ (.compute opt keep)).1.images) := by
  refine ⟨?_, ?_, fun h => ?_⟩
  · show (fillSlots _ _).2 = (fillSlots _ _).2
    rw [hk, hl, hw]
  · unfold curveStep curveCompute
    simp only [hk, hl, hw]
  · unfold curveStep curveCompute
    simp only [← hk, h, hl, hw]

/-- **C98 (images of the wavelet transform).** After a computation, `Wf` has the image of each current scale when images were asked for,
and is None when not, also when an earlier call kept them. -/
theorem C98_images [Nonempty Img] (o : CurveObj W Img) (opt : Opt) (keep : Bool) (cs : List (CurveCmd W Opt))
    (hk : o.kind = .wavelet) (h : (curveStep stat o (.compute opt keep)).2 = none) (hq : ∀ c ∈ cs, Quiet o.side c) :
    ∃ im : ℝ → Img, (∀ x ∈ curvePixels o.kind o.lags, ∃ v, stat o.weights opt x = .ok (v, im x)) ∧
      curveImages (curveRun stat o (.compute opt keep :: cs)) =
        .ok (if keep then some ((curvePixels o.kind o.lags).map fun x => .val (im x)) else none) := by
  obtain ⟨g, hg, hf⟩ := compute_ok stat o opt keep h
  have hr : curveRun stat o (.compute opt keep :: cs) = curveRun stat (curveCompute stat o opt keep).1 cs := rfl
  obtain ⟨b1, _, _, _, _, b6⟩ := quiet_run stat cs (curveCompute stat o opt keep).1 hq
  refine ⟨fun x => (g x).2, fun x hx => ⟨(g x).1, hg x hx⟩, ?_⟩
  have b1' : (curveRun stat o (.compute opt keep :: cs)).kind = .wavelet := by rw [hr, b1]; exact hk
  unfold curveImages
  rw [b1', hr, b6]
  rw [hk] at hf ⊢
  unfold curveCompute
  simp only [hk, hf, List.map_map]
  rfl

/-- **C98, violation.** The images kept by the delta-variance cannot be read: `convolve_arrays` and `convolve_weights` raise
AttributeError after every program, also when they were asked for. -/
theorem C98_convolve_violated (o : CurveObj W Img) (hk : o.kind = .deltavar) (cs : List (CurveCmd W Opt)) :
    curveImages (curveRun stat o cs) = .error .attributeError := by
  have : (curveRun stat o cs).kind = .deltavar := by
    induction cs generalizing o with
    | nil => exact hk
    | cons c cs ih =>
      apply ih (curveStep stat o c).1
      cases c with
      | setLags l =>
        cases hl : checkLags o.side l with
        | ok u => rw [step_lags_ok stat o l hl]; exact hk
        | error e => rw [step_lags_err stat o l e hl]; exact hk
      | setWeights w b => cases b <;> exact hk
      | compute a b => exact hk
      | fit a b =>
        cases hp : curvePoints o a b with
        | ok p => rw [step_fit_ok stat o a b p hp]; exact hk
        | error e => rw [step_fit_err stat o a b e hp]; exact hk
  unfold curveImages
  rw [this]

private theorem zipWith_map_and (l : List ℝ) (p q : ℝ → Bool) :
    List.zipWith (· && ·) (l.map p) (l.map q) = l.map fun x => p x && q x := by
  induction l with
  | nil => rfl
  | cons a t ih => simp only [List.map_cons, List.zipWith_cons_cons, ih]

private theorem mask_map {α β : Type*} (l : List α) (p : α → Bool) (f : α → β) :
    npMask (l.map f) (l.map p) = .ok ((l.filter p).map f) := by
  unfold npMask
  rw [if_pos (by simp)]
  congr 1
  induction l with
  | nil => rfl
  | cons a t ih =>
    cases hp : p a <;> simp [hp] at ih ⊢ <;> exact ih

private noncomputable def lowOk (xlow : Option ℝ) (x : ℝ) : Bool :=
  match xlow with | some a => decide (log10 a ≤ log10 x) | none => true

private noncomputable def highOk (xhigh : Option ℝ) (x : ℝ) : Bool :=
  match xhigh with | some b => decide (log10 x ≤ log10 b) | none => true

private theorem curveMask_eq (l : List ℝ) (xlow xhigh : Option ℝ) (n : ℕ) (hn : n = l.length) :
    curveMask l n xlow xhigh = .ok (l.map fun x => lowOk xlow x && highOk xhigh x) := by
  subst hn
  have hrep : List.replicate l.length true = l.map fun _ => true := by simp
  unfold curveMask npAnd
  cases xlow <;> cases xhigh <;> simp only [hrep] <;> rw [if_pos (by simp), zipWith_map_and] <;> rfl

open Classical in
/-- **C98 (points of a fit).** While values and lags are in step, a fit uses exactly the lags between the limits, each with its own
value. Missing: values and lags out of step (`C98_stale_violated`, `C98_lost_violated`). -/
theorem C98_points_partial (opt : Opt) (o : CurveObj W Img) (g : ℝ → Option (ℝ × ℝ)) (h : CurveInStep stat opt o g)
    (hpos : ∀ x ∈ curvePixels o.kind o.lags, 0 < x) (xlow xhigh : Option ℝ) (hlow : ∀ a, xlow = some a → 0 < a)
    (hhigh : ∀ b, xhigh = some b → 0 < b) :
    (curveStep stat o (.fit xlow xhigh)).2 = none ∧
      (curveStep stat o (.fit xlow xhigh)).1.fitted =
        some (((curvePixels o.kind o.lags).filter fun x => Within xlow xhigh x).map fun x => (x, .val (g x))) := by
  have hp : curvePoints o xlow xhigh =
      .ok (((curvePixels o.kind o.lags).filter fun x => Within xlow xhigh x).map fun x => (x, .val (g x))) := by
    unfold curvePoints
    rw [h.2]
    simp only [bind, Except.bind, pure, Except.pure]
    rw [curveMask_eq _ _ _ _ (by simp)]
    simp only
    rw [mask_map]
    have hid := mask_map (curvePixels o.kind o.lags) (fun x => lowOk xlow x && highOk xhigh x) id
    rw [List.map_id, List.map_id] at hid
    rw [hid]
    simp only
    have hf : (curvePixels o.kind o.lags).filter (fun x => lowOk xlow x && highOk xhigh x) =
        (curvePixels o.kind o.lags).filter fun x => Within xlow xhigh x := by
      apply List.filter_congr
      intro x hx
      have hx0 := hpos x hx
      rw [Bool.eq_iff_iff, Bool.and_eq_true, decide_eq_true_iff]
      unfold Within
      refine and_congr ?_ ?_
      · cases xlow with
        | none => simp [lowOk]
        | some a => simp [lowOk, log10_le_iff (hlow a rfl) hx0]
      · cases xhigh with
        | none => simp [highOk]
        | some b => simp [highOk, log10_le_iff hx0 (hhigh b rfl)]
    rw [hf]
    congr 1
    induction (curvePixels o.kind o.lags).filter fun x => Within xlow xhigh x with
    | nil => rfl
    | cons a t ih => simp only [List.map_cons, List.zip_cons_cons, ih]
  rw [step_fit_ok stat o _ _ _ hp]
  exact ⟨rfl, rfl⟩

/-- **C98 (different lengths).** A fit never cuts lags and values to a common length: when their numbers differ it raises, and the
attributes of the earlier fit stay. -/
theorem C98_lengths (o : CurveObj W Img) (c : List (Slot (Option (ℝ × ℝ)))) (hc : o.curve = some c)
    (hne : c.length ≠ (curvePixels o.kind o.lags).length) (xlow xhigh : Option ℝ) :
    (curveStep stat o (.fit xlow xhigh)).2 ≠ none ∧ (curveStep stat o (.fit xlow xhigh)).1 = o := by
  have : ∃ e, curvePoints o xlow xhigh = .error e := by
    unfold curvePoints
    rw [hc]
    simp only [bind, Except.bind]
    cases hm : curveMask (curvePixels o.kind o.lags) c.length xlow xhigh with
    | error e => exact ⟨e, rfl⟩
    | ok m =>
      simp only
      cases hy : npMask c m with
      | error e => exact ⟨e, rfl⟩
      | ok y =>
        simp only
        unfold npMask at hy ⊢
        split_ifs at hy with h1
        rw [if_neg (by rw [← h1]; exact fun h => hne h.symm)]
        exact ⟨_, rfl⟩
  obtain ⟨e, he⟩ := this
  rw [step_fit_err stat o _ _ _ he]
  exact ⟨by simp, rfl⟩

/-- **C98, violation.** Assigning lags leaves the values of the old ones in place, and a fit pairs them when the numbers agree: the
new lags with the old values, without an error. -/
theorem C98_stale_violated [Nonempty Img] (o : CurveObj W Img) (opt : Opt) (keep : Bool) (l : LagInput)
    (h : (curveStep stat o (.compute opt keep)).2 = none) (hl : checkLags o.side l = .ok ())
    (hn : (curvePixels o.kind l).length = (curvePixels o.kind o.lags).length) :
    ∃ g : ℝ → Option (ℝ × ℝ), (∀ x ∈ curvePixels o.kind o.lags, ∃ i, stat o.weights opt x = .ok (g x, i)) ∧
      (curveRun stat o [.compute opt keep, .setLags l, .fit none none]).lags = l ∧
      (curveRun stat o [.compute opt keep, .setLags l, .fit none none]).fitted =
        some ((curvePixels o.kind l).zip ((curvePixels o.kind o.lags).map fun x => .val (g x))) := by
  obtain ⟨g, hg, hf⟩ := compute_ok stat o opt keep h
  refine ⟨fun x => (g x).1, fun x hx => ⟨(g x).2, hg x hx⟩, ?_⟩
  set o1 := (curveCompute stat o opt keep).1 with ho1
  have hs : (curveStep stat o1 (.setLags l)).1 = { o1 with lags := l } := by
    rw [step_lags_ok stat o1 l hl]
  have hr : curveRun stat o [.compute opt keep, .setLags l, .fit none none] =
      (curveStep stat { o1 with lags := l } (.fit none none)).1 := by
    show (curveStep stat (curveStep stat o1 (.setLags l)).1 (.fit none none)).1 = _
    rw [hs]
  have hcurve : o1.curve = some ((curvePixels o.kind o.lags).map fun x => .val (g x).1) := by
    rw [ho1]
    unfold curveCompute
    simp only [hf, List.map_map]
    rfl
  have hp : curvePoints { o1 with lags := l } none none =
      .ok ((curvePixels o.kind l).zip ((curvePixels o.kind o.lags).map fun x => .val (g x).1)) := by
    have hk1 : o1.kind = o.kind := rfl
    unfold curvePoints
    simp only [hcurve, hk1, bind, Except.bind, pure, Except.pure]
    rw [curveMask_eq (curvePixels o.kind l) none none _ (by simp [hn])]
    simp only [lowOk, highOk, Bool.and_self]
    have m1 := mask_map (curvePixels o.kind l) (fun _ => true) id
    have m2 := mask_map (curvePixels o.kind o.lags) (fun _ => true) (fun x => Slot.val (g x).1)
    have he : (curvePixels o.kind l).map (fun _ => true) = (curvePixels o.kind o.lags).map fun _ => true := by
      simp [hn]
    rw [List.map_id, List.filter_true, List.map_id] at m1
    rw [← he, List.filter_true] at m2
    rw [m2]
    simp only
    rw [m1]
  rw [hr, step_fit_ok stat _ _ _ _ hp]
  exact ⟨rfl, rfl⟩

/-- **C98, violation.** A computation that raises at its first lag (for example with an unknown `boundary`) throws away the earlier
results: what is then read are unset values, with no sign of it. -/
theorem C98_lost_violated (o : CurveObj W Img) (opt : Opt) (keep : Bool) (x : ℝ) (xs : List ℝ) (e : PyErr)
    (hl : curvePixels o.kind o.lags = x :: xs) (he : stat o.weights opt x = .error e) :
    (curveStep stat o (.compute opt keep)).2 = some e ∧
      (curveStep stat o (.compute opt keep)).1.curve = some (List.replicate (xs.length + 1) .unset) := by
  unfold curveStep curveCompute
  simp only [hl, fillSlots_first _ _ _ _ he, List.map_replicate, and_self]

end curve

section tsallis
variable {Opt D R : Type*} (dist : Opt → ℝ → Py D) (fit1 : Opt → Slot D → Py R)

private theorem ts_rejected (cs : List (TsCmd Opt)) : ∀ o : TsObj D R,
    (∀ c ∈ cs, ∃ l, c = .setLags l ∧ checkLags o.side l ≠ .ok ()) → tsRun dist fit1 o cs = o := by
  induction cs with
  | nil => intro o _; rfl
  | cons c cs ih =>
    intro o h
    obtain ⟨l, rfl, hl⟩ := h c (List.mem_cons_self ..)
    have hs : (tsStep dist fit1 o (.setLags l)).1 = o := by
      cases hc : checkLags o.side l with
      | ok u => exact absurd hc hl
      | error e => simp only [tsStep, hc]
    show tsRun dist fit1 (tsStep dist fit1 o (.setLags l)).1 cs = o
    rw [hs]
    exact ih o fun d hd => h d (List.mem_cons_of_mem _ hd)

private theorem tsFitRows_all (opt : Opt) (d : ℝ → D) (r : D → R) (xs : List ℝ) (n : ℕ) (hn : xs.length ≤ n)
    (h : ∀ x ∈ xs, fit1 opt (.val (d x)) = .ok (r (d x))) :
    tsFitRows fit1 opt n (xs.map fun x => .val (d x)) =
      (xs.map (fun x => .val (r (d x))) ++ List.replicate (n - xs.length) .unset, none) := by
  induction xs generalizing n with
  | nil => simp [tsFitRows]
  | cons x xs ih =>
    cases n with
    | zero => simp at hn
    | succ n =>
      simp only [List.map_cons, tsFitRows]
      rw [h x (List.mem_cons_self ..)]
      simp only
      rw [ih n (by simpa using hn) fun y hy => h y (List.mem_cons_of_mem _ hy)]
      simp

private theorem ts_made (o : TsObj D R) (opt : Opt) (d : ℝ → D)
    (hd : ∀ x ∈ curvePixels .wavelet o.lags, dist opt x = .ok (d x)) :
    (tsStep dist fit1 o (.make opt)).1 = { o with dists := some ((curvePixels .wavelet o.lags).map fun x => .val (d x)) } := by
  show (tsMake dist o opt).1 = _
  unfold tsMake
  rw [fillSlots_all _ d _ hd]

private theorem ts_fitted (o : TsObj D R) (opt : Opt) (d : ℝ → D) (r : D → R) (xs : List ℝ)
    (hx : o.dists = some (xs.map fun x => .val (d x))) (hn : xs.length ≤ (curvePixels .wavelet o.lags).length)
    (h : ∀ x ∈ xs, fit1 opt (.val (d x)) = .ok (r (d x))) :
    tsStep dist fit1 o (.fit opt) = ({ o with rows := some (xs.map (fun x => .val (r (d x))) ++
      List.replicate ((curvePixels .wavelet o.lags).length - xs.length) .unset) }, none) := by
  show tsFit fit1 o opt = _
  unfold tsFit
  rw [hx]
  simp only
  rw [tsFitRows_all fit1 opt d r xs _ hn h]

/-- **C98 (Tsallis).** After `make_tsallis` and `fit_tsallis` without a change of lags in between or afterwards, the table has a row for
each current lag, with the fit of the distribution of this lag.  Missing for the full property: changed lags
(`C98_tsallis_stale_violated`, `C98_tsallis_longer_violated`). -/
theorem C98_tsallis_partial (o : TsObj D R) (opt opt' : Opt) (d : ℝ → D) (r : D → R) (cs cs' : List (TsCmd Opt))
    (hd : ∀ x ∈ curvePixels .wavelet o.lags, dist opt x = .ok (d x))
    (hr : ∀ x ∈ curvePixels .wavelet o.lags, fit1 opt' (.val (d x)) = .ok (r (d x)))
    (hc : ∀ c ∈ cs, ∃ l, c = .setLags l ∧ checkLags o.side l ≠ .ok ())
    (hc' : ∀ c ∈ cs', ∃ l, c = .setLags l ∧ checkLags o.side l ≠ .ok ()) :
    (tsRun dist fit1 o (.make opt :: cs ++ .fit opt' :: cs')).lags = o.lags ∧
    tsTable (tsRun dist fit1 o (.make opt :: cs ++ .fit opt' :: cs')) =
      .ok ((curvePixels .wavelet o.lags).map fun x => (x, .val (r (d x)))) := by
  have h1 := ts_made dist fit1 o opt d hd
  have h2 : tsRun dist fit1 o (.make opt :: cs ++ .fit opt' :: cs') =
      tsRun dist fit1 (tsStep dist fit1 (tsRun dist fit1 (tsStep dist fit1 o (.make opt)).1 cs) (.fit opt')).1 cs' := by
    simp only [tsRun, List.cons_append, List.foldl_cons, List.foldl_append]
  rw [h2, h1, ts_rejected dist fit1 cs
    { o with dists := some ((curvePixels .wavelet o.lags).map fun x => .val (d x)) } hc]
  have hf := ts_fitted dist fit1 ({ o with dists := some ((curvePixels .wavelet o.lags).map fun x => .val (d x)) } : TsObj D R)
    opt' d r (curvePixels .wavelet o.lags) rfl (le_refl _) hr
  rw [hf]
  simp only
  rw [ts_rejected dist fit1 cs' _ (by exact hc')]
  refine ⟨rfl, ?_⟩
  unfold tsTable
  simp only [List.length_append, List.length_map, List.length_replicate, Nat.sub_self, Nat.add_zero, if_true, List.replicate_zero,
    List.append_nil]
  congr 1
  induction curvePixels .wavelet o.lags with
  | nil => rfl
  | cons a t ih => simp only [List.map_cons, List.zip_cons_cons, ih]

/-- **C98, violation.** The table shows the lags of the moment: after assigning as many other lags it lists the new lags with the fits of
the old ones. -/
theorem C98_tsallis_stale_violated (o : TsObj D R) (opt opt' : Opt) (d : ℝ → D) (r : D → R) (l : LagInput)
    (hd : ∀ x ∈ curvePixels .wavelet o.lags, dist opt x = .ok (d x))
    (hr : ∀ x ∈ curvePixels .wavelet o.lags, fit1 opt' (.val (d x)) = .ok (r (d x)))
    (hl : checkLags o.side l = .ok ())
    (hn : (curvePixels .wavelet l).length = (curvePixels .wavelet o.lags).length) :
    tsTable (tsRun dist fit1 o [.make opt, .fit opt', .setLags l]) =
      .ok ((curvePixels .wavelet l).zip ((curvePixels .wavelet o.lags).map fun x => .val (r (d x)))) := by
  have h2 : tsRun dist fit1 o [.make opt, .fit opt', .setLags l] =
      (tsStep dist fit1 (tsStep dist fit1 (tsStep dist fit1 o (.make opt)).1 (.fit opt')).1 (.setLags l)).1 := rfl
  have hf := ts_fitted dist fit1 ({ o with dists := some ((curvePixels .wavelet o.lags).map fun x => .val (d x)) } : TsObj D R)
    opt' d r (curvePixels .wavelet o.lags) rfl (le_refl _) hr
  rw [h2, ts_made dist fit1 o opt d hd, hf]
  simp only [tsStep, hl, tsTable, List.length_append, List.length_map, List.length_replicate, Nat.sub_self, Nat.add_zero,
    List.replicate_zero, List.append_nil, hn, if_true]

/-- **C98, violation.** With more lags than distributions, `fit_tsallis` leaves the last rows unset without an error, and the table
lists them as results of the new lags. -/
theorem C98_tsallis_longer_violated (o : TsObj D R) (opt opt' : Opt) (d : ℝ → D) (r : D → R) (l : LagInput)
    (hd : ∀ x ∈ curvePixels .wavelet o.lags, dist opt x = .ok (d x))
    (hr : ∀ x ∈ curvePixels .wavelet o.lags, fit1 opt' (.val (d x)) = .ok (r (d x)))
    (hl : checkLags o.side l = .ok ())
    (hn : (curvePixels .wavelet o.lags).length < (curvePixels .wavelet l).length) :
    (tsStep dist fit1 (tsRun dist fit1 o [.make opt, .setLags l]) (.fit opt')).2 = none ∧
    ∃ t, tsTable (tsRun dist fit1 o [.make opt, .setLags l, .fit opt']) = .ok t ∧ t.length = (curvePixels .wavelet l).length ∧
      ∀ i, (curvePixels .wavelet o.lags).length ≤ i → (hi : i < t.length) → (t[i]).2 = .unset := by
  have h2 : tsRun dist fit1 o [.make opt, .setLags l] =
      { o with lags := l, dists := some ((curvePixels .wavelet o.lags).map fun x => .val (d x)) } := by
    show (tsStep dist fit1 (tsStep dist fit1 o (.make opt)).1 (.setLags l)).1 = _
    rw [ts_made dist fit1 o opt d hd]
    simp only [tsStep, hl]
  have h3 : tsRun dist fit1 o [.make opt, .setLags l, .fit opt'] =
      (tsStep dist fit1 (tsRun dist fit1 o [.make opt, .setLags l]) (.fit opt')).1 := rfl
  have hf := ts_fitted dist fit1
    ({ o with lags := l, dists := some ((curvePixels .wavelet o.lags).map fun x => .val (d x)) } : TsObj D R)
    opt' d r (curvePixels .wavelet o.lags) rfl (le_of_lt hn) hr
  rw [h3, h2, hf]
  refine ⟨rfl, (curvePixels .wavelet l).zip ((curvePixels .wavelet o.lags).map (fun x => .val (r (d x))) ++
      List.replicate ((curvePixels .wavelet l).length - (curvePixels .wavelet o.lags).length) .unset), ?_, ?_, ?_⟩
  · simp only [tsTable, List.length_append, List.length_map, List.length_replicate]
    rw [if_pos (by omega)]
  · simp only [List.length_zip, List.length_append, List.length_map, List.length_replicate]
    omega
  · intro i h1 hi
    rw [List.getElem_zip]
    simp only
    rw [List.getElem_append_right (by simpa using h1)]
    simp

/-- **C98 (Tsallis, fewer lags).** With fewer lags than distributions `fit_tsallis` raises IndexError. -/
theorem C98_tsallis_shorter (o : TsObj D R) (opt opt' : Opt) (d : ℝ → D) (r : D → R) (l : LagInput)
    (hd : ∀ x ∈ curvePixels .wavelet o.lags, dist opt x = .ok (d x))
    (hr : ∀ x ∈ curvePixels .wavelet o.lags, fit1 opt' (.val (d x)) = .ok (r (d x)))
    (hl : checkLags o.side l = .ok ())
    (hn : (curvePixels .wavelet l).length < (curvePixels .wavelet o.lags).length) :
    (tsStep dist fit1 (tsRun dist fit1 o [.make opt, .setLags l]) (.fit opt')).2 = some .indexError := by
  have h2 : tsRun dist fit1 o [.make opt, .setLags l] =
      { o with lags := l, dists := some ((curvePixels .wavelet o.lags).map fun x => .val (d x)) } := by
    show (tsStep dist fit1 (tsStep dist fit1 o (.make opt)).1 (.setLags l)).1 = _
    rw [ts_made dist fit1 o opt d hd]
    simp only [tsStep, hl]
  rw [h2]
  show (tsFitRows fit1 opt' (curvePixels .wavelet l).length _).2 = _
  revert hn hr
  generalize (curvePixels .wavelet l).length = n
  generalize curvePixels .wavelet o.lags = xs
  intro hr hn
  clear h2 hd hl
  induction xs generalizing n with
  | nil => simp at hn
  | cons x xs ih =>
    simp only [List.map_cons, tsFitRows]
    rw [hr x (List.mem_cons_self ..)]
    cases n with
    | zero => rfl
    | succ n => exact ih n (fun y hy => hr y (List.mem_cons_of_mem _ hy)) (by simpa using hn)

end tsallis

section moments
variable {A H : Type*} (moments : ℝ → LagInput → A) (hist : Slot A → Py H)

/-- **C98 (moment maps).** A computation that does not raise leaves the maps of the radius that was given, or of the current one, and
this radius is the current one afterwards; histograms made then are histograms of these maps.  Missing for the full property: the radius
check comes too late (`C98_moments_lost_violated`). -/
theorem C98_moments_partial (o : StatMomObj A H) (radius : Option LagInput) (minFrac : ℝ) (h : (momCompute moments o radius minFrac).2 = none) :
    (momCompute moments o radius minFrac).1.radius = radius.getD o.radius ∧
      (momCompute moments o radius minFrac).1.maps = some (.val (moments minFrac (radius.getD o.radius))) ∧
      ∀ v, hist (.val (moments minFrac (radius.getD o.radius))) = .ok v →
        (momHists hist (momCompute moments o radius minFrac).1).1.hists = some v := by
  by_cases h1 : minFrac ≤ 0 ∨ 1 < minFrac
  · simp [momCompute, if_pos h1] at h
  · cases radius with
    | none =>
      refine ⟨by simp [momCompute, if_neg h1], by simp [momCompute, if_neg h1], fun v hv => ?_⟩
      simp only [Option.getD_none] at hv
      simp only [momCompute, if_neg h1, momHists, hv]
    | some r =>
      cases hr : checkRadius o.side r with
      | error e => simp [momCompute, if_neg h1, hr] at h
      | ok u =>
        refine ⟨by simp [momCompute, if_neg h1, hr], by simp [momCompute, if_neg h1, hr], fun v hv => ?_⟩
        simp only [Option.getD_some] at hv
        simp only [momCompute, if_neg h1, hr, momHists, hv]

/-- **C98 (moment maps, min_frac).** A rejected `min_frac` changes nothing. -/
theorem C98_moments_frac (o : StatMomObj A H) (radius : Option LagInput) (minFrac : ℝ) (h : ¬ (0 < minFrac ∧ minFrac ≤ 1)) :
    momCompute moments o radius minFrac = (o, some .valueError) := by
  unfold momCompute
  rw [if_pos (by by_contra hc; push Not at hc; exact h hc)]

/-- **C98, violation.** A rejected radius destroys the maps of an earlier computation, although the radius stays: the maps read
afterwards are uninitialised memory. -/
theorem C98_moments_lost_violated (o : StatMomObj A H) (r : LagInput) (minFrac : ℝ) (e : PyErr) (h : 0 < minFrac ∧ minFrac ≤ 1)
    (hr : checkRadius o.side r = .error e) :
    (momCompute moments o (some r) minFrac).2 = some e ∧ (momCompute moments o (some r) minFrac).1.radius = o.radius ∧
      (momCompute moments o (some r) minFrac).1.maps = some .unset := by
  have hn : ¬ (minFrac ≤ 0 ∨ 1 < minFrac) := by
    rintro (h1 | h1) <;> linarith [h.1, h.2]
  unfold momCompute
  simp only [if_neg hn, hr, and_self]

end moments

section genus
variable {Img C : Type*} (smooth : ℝ → Py Img) (curve : Img → C)

/-- **C98 (genus).** After a computation the curves are those of the current radii, and when images were asked for, `smoothed_images` has
one for each current radius.  Missing for the full property: images of an earlier call (`C98_genus_stale_violated`). -/
theorem C98_genus_partial (o : GenObj Img C) (keep : Bool) (s : ℝ → Img) (h : ∀ w ∈ o.radii, smooth w = .ok (s w)) :
    (genMake smooth curve keep o).2 = none ∧ (genMake smooth curve keep o).1.radii = o.radii ∧
      (genMake smooth curve keep o).1.curves = some (o.radii.map fun w => .val (curve (s w))) ∧
      (keep = true → genImages (genMake smooth curve keep o).1 = .ok (o.radii.map s)) ∧
      (keep = false → o.images = none → genImages (genMake smooth curve keep o).1 = .error .valueError) := by
  have hf := fillSlots_all (fun w => (smooth w).map fun i => (i, curve i)) (fun w => (s w, curve (s w))) o.radii
    (fun w hw => by simp only [h w hw]; rfl)
  unfold genMake
  rw [hf]
  refine ⟨rfl, rfl, ?_, ?_, ?_⟩
  · simp only [List.map_map]
    rfl
  · rintro rfl
    simp only [genImages, if_true, List.filterMap_map]
    congr 1
    induction o.radii with
    | nil => rfl
    | cons a t ih => simp [ih]
  · rintro rfl hi
    simp only [genImages, hi, Bool.false_eq_true, if_false]

/-- **C98, violation.** Images kept by an earlier call stay when the curves are computed again for other radii without keeping them. -/
theorem C98_genus_stale_violated (o : GenObj Img C) (radii : List ℝ) (s : ℝ → Img) (h : ∀ w, smooth w = .ok (s w)) :
    genImages (genMake smooth curve false { (genMake smooth curve true o).1 with radii := radii }).1 = .ok (o.radii.map s) ∧
      (genMake smooth curve false { (genMake smooth curve true o).1 with radii := radii }).1.curves =
        some (radii.map fun w => .val (curve (s w))) := by
  have h1 := (C98_genus_partial smooth curve o true s fun w _ => h w).2.2.2.1 rfl
  refine ⟨h1, ?_⟩
  exact (C98_genus_partial smooth curve { (genMake smooth curve true o).1 with radii := radii } false s fun w _ => h w).2.2.1

end genus

/-- **C98, violation.** `n_eigs` of a PCA can be assigned after the computation; `var_proportion`, documented as the fraction of the first
`n_eigs` eigenvalues, stays that of the old number. -/
theorem C98_pca_violated : ∃ (st : PcaState) (v : ℕ), st.varProp = pcaVarProp st.meanSub st.eigvals st.nEigs ∧ (pcaSetN st v).2 = none ∧
    (pcaSetN st v).1.nEigs = v ∧
    (pcaSetN st v).1.varProp ≠ pcaVarProp (pcaSetN st v).1.meanSub (pcaSetN st v).1.eigvals (pcaSetN st v).1.nEigs := by
  refine ⟨⟨[3, 1], fun _ _ => 0, 1, 4, pcaVarProp true [3, 1] 1, true⟩, 2, rfl, rfl, rfl, ?_⟩
  show pcaVarProp true [3, 1] 1 ≠ pcaVarProp true [3, 1] 2
  norm_num [pcaVarProp, pcaTotal, divO]

/-! Non-vacuity: a statistic that doubles its lag. -/

/-- Values of a delta-variance object at lags of 2 and 4 pixels. -/
example : ∃ o : CurveObj Unit Unit, (curveStep (fun _ (_ : Unit) x => .ok (some (2 * x, 1), ())) o (.compute () false)).2 = none ∧
    curvePixels o.kind o.lags = [2, 4] ∧ Quiet (Opt := Unit) (W := Unit) o.side (.setLags .foreign) ∧
    (∀ x ∈ curvePixels o.kind o.lags, 0 < x) := by
  refine ⟨⟨.deltavar, 16, .quantity [2, 4] 1, (), none, none, none⟩, rfl, rfl, ?_, ?_⟩
  · show checkLags 16 .foreign ≠ .ok ()
    intro h; cases h
  · intro x hx
    have hx' : x ∈ ([2, 4] : List ℝ) := hx
    simp only [List.mem_cons, List.not_mem_nil, or_false] at hx'
    rcases hx' with rfl | rfl <;> norm_num

/-- As many other lags are accepted: the fit then uses 3 and 6 with the values of 2 and 4. -/
example : ∃ g : ℝ → Option (ℝ × ℝ), (∀ x ∈ ([2, 4] : List ℝ), ∃ i : Unit, (.ok (some (2 * x, 1), ()) : Py _) = .ok (g x, i)) ∧
    (curveRun (fun (_ : Unit) (_ : Unit) x => .ok (some (2 * x, 1), ())) ⟨.deltavar, 16, .quantity [2, 4] 1, (), none, none, none⟩
      [.compute () false, .setLags (.quantity [3, 6] 1), .fit none none]).fitted =
      some (([3, 6] : List ℝ).zip (([2, 4] : List ℝ).map fun x => .val (g x))) := by
  obtain ⟨g, h1, -, h2⟩ := C98_stale_violated (fun (_ : Unit) (_ : Unit) x => .ok (some (2 * x, 1), ()))
    ⟨.deltavar, 16, .quantity [2, 4] 1, (), none, none, none⟩ () false (.quantity [3, 6] 1) rfl
    (C39_resolvable 16 _ _ (by
      intro v hv
      simp only [List.map_cons, List.map_nil, mul_one, List.mem_cons, List.not_mem_nil, or_false] at hv
      rcases hv with rfl | rfl <;> norm_num)) rfl
  exact ⟨g, h1, h2⟩

/-- Three lags instead of two are accepted after the distributions were made: the third row of the table is unset. -/
example : ∃ t, tsTable (tsRun (fun (_ : Unit) x => .ok x) (fun _ s => match s with | .val x => .ok (x + 1) | .unset => .error .valueError)
      (⟨16, .quantity [2, 4] 1, none, none⟩ : TsObj ℝ ℝ) [.make (), .setLags (.quantity [2, 4, 8] 1), .fit ()]) = .ok t ∧ t.length = 3 ∧
      ∀ i, 2 ≤ i → (hi : i < t.length) → (t[i]).2 = .unset :=
  (C98_tsallis_longer_violated (fun (_ : Unit) x => .ok x) (fun _ s => match s with | .val x => .ok (x + 1) | .unset => .error .valueError)
    (⟨16, .quantity [2, 4] 1, none, none⟩ : TsObj ℝ ℝ) () () (fun x => x) (fun x => x + 1) (.quantity [2, 4, 8] 1)
    (fun _ _ => rfl) (fun _ _ => rfl)
    (C39_resolvable 16 _ _ (by
      intro v hv
      simp only [List.map_cons, List.map_nil, mul_one, List.mem_cons, List.not_mem_nil, or_false] at hv
      rcases hv with rfl | rfl | rfl <;> norm_num)) (by simp [curvePixels])).2

/-- A radius of one pixel is rejected. -/
example : checkRadius 16 (.quantity [1] 1) = .error .valueError := by
  norm_num [checkRadius]

end TS
