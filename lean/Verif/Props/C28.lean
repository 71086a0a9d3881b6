import Verif.Model.DistanceInit
import Mathlib.Tactic.NormNum
import Mathlib.Data.Real.Basic
import Mathlib.Tactic.FieldSimp

/-! C28 — the constructors of the Distance classes treat each dataset on its own. -/

namespace TS

namespace Spec

/-- What the documentation promises for one dataset: an object that already carries its result is kept,
anything else is run with the options given for *that* dataset. -/
def OwnTreatment {O : Type*} (g : Given) (own : O) (a : Act O) : Prop :=
  (g = .object true → a = .keep) ∧ (g ≠ .object true → a = .run own)

/-- The options for the second dataset: its own, or those of the first when `None` was given. -/
def second {K : Type*} (kw : K) : Option K → K
  | none => kw
  | some k => k

/-- One entry of a value given once for both datasets or separately. -/
def ofFirst {B : Type*} : Breaks B → B
  | .one b => b
  | .two b _ => b
/-- The entry for the second dataset. -/
def ofSecond {B : Type*} : Breaks B → B
  | .one b => b
  | .two _ b => b
end Spec

private theorem own_actOf {O : Type*} (g : Given) (o : O) : Spec.OwnTreatment g o (actOf g o) := by
  cases g with
  | raw => exact ⟨fun h => (by cases h), fun _ => rfl⟩
  | object c => cases c
                · exact ⟨fun h => (by cases h), fun _ => rfl⟩
                · exact ⟨fun _ => rfl, fun h => absurd rfl h⟩

/-- MVC, VCS, wavelet and bispectrum distances: each dataset is kept or run by its own state, with its
own break, limits and keyword arguments. -/
theorem C28_own_treatment {B L K : Type*} (d1 d2 : Given) (breaks : Breaks B) (low high : L × L) (kw : K)
    (kw2 : Option K) :
    (Spec.OwnTreatment d1 ⟨Spec.ofFirst breaks, low.1, high.1, kw⟩ (mvcInit d1 d2 breaks low high kw kw2).1 ∧
     Spec.OwnTreatment d2 ⟨Spec.ofSecond breaks, low.2, high.2, Spec.second kw kw2⟩
      (mvcInit d1 d2 breaks low high kw kw2).2) ∧
    (Spec.OwnTreatment d1 (Spec.ofFirst breaks, kw) (vcsDistInit d1 d2 breaks kw kw2).1 ∧
     Spec.OwnTreatment d2 (Spec.ofSecond breaks, Spec.second kw kw2) (vcsDistInit d1 d2 breaks kw kw2).2) ∧
    (Spec.OwnTreatment d1 (low.1, high.1, kw) (waveletInit d1 d2 low high kw kw2).1 ∧
     Spec.OwnTreatment d2 (low.2, high.2, Spec.second kw kw2) (waveletInit d1 d2 low high kw kw2).2) ∧
    (Spec.OwnTreatment d1 kw (bispecInit d1 d2 kw).1 ∧ Spec.OwnTreatment d2 kw (bispecInit d1 d2 kw).2) := by
  cases breaks <;> cases kw2 <;>
    exact ⟨⟨own_actOf _ _, own_actOf _ _⟩, ⟨own_actOf _ _, own_actOf _ _⟩,
      ⟨own_actOf _ _, own_actOf _ _⟩, own_actOf _ _, own_actOf _ _⟩

/-- VCA: everything but the keyword arguments of the second cube; those are right only when they were not
given separately. Missing: keyword arguments given for the second cube (`C28_vca_violated`). -/
theorem C28_vca_partial {B L K : Type*} (d1 d2 : Given) (breaks : Breaks B) (low high : L × L) (kw : K)
    (kw2 : Option K) (h : kw2 = none ∨ kw2 = some kw) :
    Spec.OwnTreatment d1 ⟨Spec.ofFirst breaks, low.1, high.1, kw⟩ (vcaInit d1 d2 breaks low high kw kw2).1 ∧
    Spec.OwnTreatment d2 ⟨Spec.ofSecond breaks, low.2, high.2, Spec.second kw kw2⟩
      (vcaInit d1 d2 breaks low high kw kw2).2 := by
  rcases h with rfl | rfl <;> cases breaks <;> exact ⟨own_actOf _ _, own_actOf _ _⟩

/-- VCA violates the property: whenever the second cube has to be run and was given its own keyword
arguments, it is run with those of the first. -/
theorem C28_vca_violated {B L K : Type*} (d1 d2 : Given) (breaks : Breaks B) (low high : L × L) (kw k2 : K)
    (hne : k2 ≠ kw) (hrun : d2 ≠ .object true) :
    ¬ Spec.OwnTreatment d2 ⟨Spec.ofSecond breaks, low.2, high.2, Spec.second kw (some k2)⟩
      (vcaInit d1 d2 breaks low high kw (some k2)).2 := by
  intro h
  have h1 := h.2 hrun
  have h2 : (vcaInit d1 d2 breaks low high kw (some k2)).2 =
      Act.run ⟨breaks.pair.2, low.2, high.2, kw⟩ := (own_actOf d2 _).2 hrun
  rw [h2] at h1
  injection h1 with h1
  exact hne ((congrArg PsOpts.kwargs h1).symm)

/-- The dictionary without the keys the constructor sets itself. -/
def Spec.without {V : Type*} (keys : List String) (d : KwDict V) : KwDict V :=
  fun s => if s ∈ keys then none else d s

private theorem pspecRun_eq {B L V : Type*} (o : PsOpts B L (KwDict V)) :
    pspecRun o = if (o.kwargs "fit_kwargs").isSome then .error .typeError
      else .ok (.run { o with kwargs := Spec.without ["low_cut", "high_cut", "fit_2D"] o.kwargs }) := by
  have hk : ((o.kwargs.pop "low_cut").pop "high_cut").pop "fit_2D"
      = Spec.without ["low_cut", "high_cut", "fit_2D"] o.kwargs := by
    funext s
    unfold KwDict.pop Spec.without
    by_cases h1 : s = "low_cut" <;> by_cases h2 : s = "high_cut" <;> by_cases h3 : s = "fit_2D" <;>
      simp [h1, h2, h3]
  unfold pspecRun callKw
  simp only [hk]
  by_cases h : (o.kwargs "fit_kwargs").isSome = true
  · rw [if_pos, if_pos h]
    simp [Spec.without, h]
  · rw [if_neg, if_neg h]
    simp [Spec.without]
    simpa using h

/-- PSpec: each dataset on its own, with its own keyword arguments (minus those that are set from the
other parameters), as long as no `fit_kwargs` are passed in the dictionaries. Missing: `fit_kwargs` in the dictionaries
(`C28_pspec_fit_kwargs_raise`). -/
theorem C28_pspec_partial {B L V : Type*} (d1 d2 : Given) (breaks : Breaks B) (low high : L × L)
    (kw : KwDict V) (kw2 : Option (KwDict V)) (h1 : kw "fit_kwargs" = none)
    (h2 : Spec.second kw kw2 "fit_kwargs" = none) :
    ∃ a1 a2, pspecInit d1 d2 breaks low high kw kw2 = .ok (a1, a2) ∧
      Spec.OwnTreatment d1 ⟨Spec.ofFirst breaks, low.1, high.1,
        Spec.without ["low_cut", "high_cut", "fit_2D"] kw⟩ a1 ∧
      Spec.OwnTreatment d2 ⟨Spec.ofSecond breaks, low.2, high.2,
        Spec.without ["low_cut", "high_cut", "fit_2D"] (Spec.second kw kw2)⟩ a2 := by
  have hb1 : breaks.pair.1 = Spec.ofFirst breaks := by cases breaks <;> rfl
  have hb2 : breaks.pair.2 = Spec.ofSecond breaks := by cases breaks <;> rfl
  have hk2 : kw2.getD kw = Spec.second kw kw2 := by cases kw2 <;> rfl
  have key : ∀ (g : Given) (o : PsOpts B L (KwDict V)), o.kwargs "fit_kwargs" = none →
      whenNeeded (needsRun g) (pspecRun o) =
        (.ok (actOf g { o with kwargs := Spec.without ["low_cut", "high_cut", "fit_2D"] o.kwargs }) :
          Py (Act (PsOpts B L (KwDict V)))) := by
    intro g o ho
    unfold actOf whenNeeded
    split_ifs
    · rw [pspecRun_eq, if_neg (by simp [ho])]
    · rfl
  refine ⟨_, _, ?_, own_actOf _ _, own_actOf _ _⟩
  unfold pspecInit
  simp only [hk2, hb1, hb2]
  rw [key d1 _ h1, key d2 _ h2]
  rfl

/-- Passing `fit_kwargs` through the dictionary makes the constructor raise whenever that dataset has to
be run. -/
theorem C28_pspec_fit_kwargs_raise {B L V : Type*} (d1 d2 : Given) (breaks : Breaks B) (low high : L × L)
    (kw : KwDict V) (kw2 : Option (KwDict V)) (hrun : d1 ≠ .object true)
    (h : (kw "fit_kwargs").isSome) :
    pspecInit d1 d2 breaks low high kw kw2 = .error .typeError := by
  have hn : needsRun d1 = true := by
    cases d1 with
    | raw => rfl
    | object c => cases c
                  · rfl
                  · exact absurd rfl hrun
  unfold pspecInit
  simp only [hn, whenNeeded, if_true, pspecRun_eq, h]
  rfl

/-! ### Dendrograms -/

/-- Dendrogram_Distance: a first dataset given as raw data is run with the requested deltas and the
keyword arguments minus `make_hists` and `verbose`; so is the second when its keyword arguments are not
given separately or do not contain those two keys. Missing: those two keys for the second dataset (`C28_dendro_second_kwargs_raise`) and
objects that are run again (`C28_dendro_rerun_keeps_old_deltas`). -/
theorem C28_dendro_partial {V : Type} (minDeltas : List ℝ) (kw : KwDict V) (kw2 : Option (KwDict V))
    (h : kw2 = none ∨ ∃ k, kw2 = some k ∧ k "make_hists" = none ∧ k "verbose" = none) :
    dendroInit minDeltas .raw .raw kw kw2 = .ok
      (.run (minDeltas, Spec.without ["make_hists", "verbose"] kw),
       .run (minDeltas, Spec.without ["make_hists", "verbose"] (Spec.second kw kw2))) := by
  have hk : (kw.pop "make_hists").pop "verbose" = Spec.without ["make_hists", "verbose"] kw := by
    funext s
    unfold KwDict.pop Spec.without
    by_cases h1 : s = "make_hists" <;> by_cases h2 : s = "verbose" <;> simp [h1, h2]
  have hc : ∀ (d : KwDict V) (r : Act (List ℝ × KwDict V)), d "make_hists" = none → d "verbose" = none →
      callKw ["verbose", "make_hists"] d r = .ok r := by
    intro d r h1 h2
    unfold callKw
    simp [h1, h2]
  have hw : ∀ d : KwDict V, d "make_hists" = none → d "verbose" = none →
      Spec.without ["make_hists", "verbose"] d = d := by
    intro d h1 h2
    funext s
    unfold Spec.without
    by_cases e1 : s = "make_hists"
    · subst e1; simp [h1]
    · by_cases e2 : s = "verbose"
      · subst e2; simp [h2]
      · simp [e1, e2]
  unfold dendroInit
  simp only [dendroNeeds, whenNeeded, dendroDeltas, hk, bind, Except.bind, if_true, pure, Except.pure]
  rw [hc _ _ (by simp [Spec.without]) (by simp [Spec.without])]
  rcases h with rfl | ⟨k, rfl, h1, h2⟩
  · simp only [Option.getD_none, Spec.second]
    rw [hc _ _ (by simp [Spec.without]) (by simp [Spec.without])]
  · simp only [Option.getD_some, Spec.second]
    rw [hc _ _ h1 h2, hw k h1 h2]

/-- Violation: separate keyword arguments for the second dataset that contain `verbose` (or
`make_hists`) make the constructor raise, although the same key is accepted for the first dataset. -/
theorem C28_dendro_second_kwargs_raise {V : Type} (minDeltas : List ℝ) (d1 : DendroIn) (kw k2 : KwDict V)
    (hd1 : ∃ b, dendroNeeds minDeltas d1 = .ok b) (h : (k2 "verbose").isSome ∨ (k2 "make_hists").isSome) :
    dendroInit minDeltas d1 .raw kw (some k2) = .error .typeError := by
  obtain ⟨b, hb⟩ := hd1
  have hc : callKw ["verbose", "make_hists"] k2 (Act.run (dendroDeltas minDeltas .raw, k2))
      = .error .typeError := by
    unfold callKw
    rw [if_pos]
    rcases h with h | h <;> simp [h]
  have hc1 : ∀ r : Act (List ℝ × KwDict V),
      callKw ["verbose", "make_hists"] ((kw.pop "make_hists").pop "verbose") r = .ok r := by
    intro r
    unfold callKw KwDict.pop
    simp
  unfold dendroInit
  simp only [hb, bind, Except.bind, hc1, Option.getD_some]
  cases b <;> simp [dendroNeeds, whenNeeded, hc]

/-- Violation: a given object whose `min_deltas` differ from the requested ones is run again, but with its
old `min_deltas`, so the two datasets still do not share them. -/
theorem C28_dendro_rerun_keeps_old_deltas {V : Type} (minDeltas own : List ℝ) (hlen : own.length = minDeltas.length)
    (hne : own ≠ minDeltas) (slope : Bool) (kw : KwDict V) (kw2 : Option (KwDict V)) :
    ∀ a2, dendroInit minDeltas (.object slope own) .raw kw kw2 = .ok a2 →
      ∃ k k', a2 = (.run (own, k), .run (minDeltas, k')) := by
  intro a2 h
  have hc1 : ∀ r : Act (List ℝ × KwDict V),
      callKw ["verbose", "make_hists"] ((kw.pop "make_hists").pop "verbose") r = .ok r := by
    intro r
    unfold callKw KwDict.pop
    simp
  unfold dendroInit at h
  have hn : dendroNeeds minDeltas (.object slope own) = .ok true := by
    simp [dendroNeeds, hlen, hne]
  have hr : dendroNeeds minDeltas .raw = .ok true := rfl
  simp only [hn, hr, bind, Except.bind, whenNeeded, hc1, dendroDeltas, if_true, pure, Except.pure] at h
  unfold callKw at h
  split_ifs at h
  cases h
  exact ⟨_, _, rfl⟩

/-! ### SCF -/

/-- Two raw cubes are run on lags that are the default ones on the coarser grid and stretched on the
finer one: lag 1 times the first pixel scale equals lag 2 times the second (`scale` is their ratio). -/
theorem C28_scf_raw (default : List ℝ) (scale : ℝ) (hs : 0 < scale) :
    ∃ l1 l2, scfInit default scale .raw .raw = .ok (.run l1, .run l2) ∧
      l1 = l2.map (fun t => scale * t) ∧ (l1 = default ∨ l2 = default) := by
  unfold scfInit scfCommonLags
  by_cases h1 : scale = 1
  · refine ⟨default, default, ?_, ?_, Or.inl rfl⟩
    · rw [if_pos h1]; simp [bind, Except.bind, pure, Except.pure, scfAct]
    · rw [h1]; simp
  · by_cases h2 : 1 < scale
    · refine ⟨_, default, ?_, rfl, Or.inr rfl⟩
      rw [if_neg h1, if_pos h2]; rfl
    · refine ⟨default, default.map (fun t => t / scale), ?_, ?_, Or.inl rfl⟩
      · rw [if_neg h1, if_neg h2]; rfl
      · rw [List.map_map]
        have : ((fun t => scale * t) ∘ fun t => t / scale) = (id : ℝ → ℝ) := by
          funext t; simp only [Function.comp, id]; field_simp
        rw [this, List.map_id]

/-- Two objects on the same grid with the same lags: each is kept when it carries its spectrum and run
with its lags otherwise. Missing: an object with a raw cube (`C28_scf_violated`) and different numbers of lags
(`C28_scf_size_mismatch_accepted`). -/
theorem C28_scf_objects_partial (default lags : List ℝ) (c1 c2 : Bool) :
    scfInit default 1 (.object c1 lags) (.object c2 lags) =
      .ok (if c1 then .keep else .run lags, if c2 then .keep else .run lags) := by
  unfold scfInit scfCommonLags scfAct
  cases c1 <;> cases c2 <;> simp [bind, Except.bind, pure, Except.pure]

/-- Violation: what happens to the second dataset depends on the first.  A raw second cube is run when
the first is raw, and raises AttributeError when the first is an object on the same grid. -/
theorem C28_scf_violated (default lags : List ℝ) (c : Bool) :
    scfInit default 1 .raw .raw = .ok (.run default, .run default) ∧
    scfInit default 1 (.object c lags) .raw = .error .attributeError := by
  unfold scfInit scfCommonLags scfAct
  simp [bind, Except.bind, pure, Except.pure]

/-- Violation: an object with a different number of lags passes as matching and is kept, so the two
surfaces have different sizes. -/
theorem C28_scf_size_mismatch_accepted (default lags : List ℝ) (h : default.length ≠ lags.length) :
    scfInit default 1 .raw (.object true lags) = .ok (.run default, .keep) := by
  unfold scfInit scfCommonLags scfAct
  simp [bind, Except.bind, pure, Except.pure, h]

/-- An object as second dataset of a raw first one, with as many lags as the default ones: it is kept
or completed when its lags are the default ones, and run again on the default lags otherwise. -/
theorem C28_scf_object_second (default own : List ℝ) (hl : default.length = own.length) (c : Bool) :
    scfInit default 1 .raw (.object c own) =
      .ok (.run default, if own = default ∧ c then .keep else .run default) := by
  unfold scfInit scfCommonLags scfAct
  by_cases h : default = own
  · subst h
    cases c <;> simp [bind, Except.bind, pure, Except.pure]
  · have h' : own ≠ default := fun e => h e.symm
    simp [bind, Except.bind, pure, Except.pure, hl, h, h']

/-! ### Delta-variance -/

/-- Two raw images with common lags: each is run with its own keyword arguments on lags with a common
angular size. -/
theorem C28_deltavar_raw {K : Type} (lags : List ℝ) (scale : ℝ) (hs : 0 < scale) (kw : K) (kw2 : Option K) :
    ∃ l1 l2, dvInit true lags scale .raw .raw kw kw2 = .ok (.run (l1, kw), .run (l2, Spec.second kw kw2)) ∧
      l1 = l2.map (fun t => scale * t) ∧ (l1 = lags ∨ l2 = lags) := by
  have hk2 : kw2.getD kw = Spec.second kw kw2 := by cases kw2 <;> rfl
  refine ⟨_, _, by cases kw2 <;> rfl, ?_, ?_⟩
  · rcases lt_trichotomy scale 1 with h | h | h
    · rw [if_neg (not_lt.2 h.le), if_pos h, List.map_map]
      have : ((fun t => scale * t) ∘ fun t => t / scale) = (id : ℝ → ℝ) := by
        funext t; simp only [Function.comp, id]; field_simp
      rw [this, List.map_id]
    · rw [h]; simp
    · rw [if_pos h, if_neg (not_lt.2 h.le)]
  · by_cases h : 1 < scale
    · right; rw [if_neg (not_lt.2 h.le)]
    · left; rw [if_neg h]

/-- Two objects on one grid that have the common lags are kept if fitted; the first one, if not fitted, is
run with its own keyword arguments. Missing: `use_common_lags=False`, an object with raw data, and the keyword arguments of the second
(`C28_deltavar_own_lags_raise`, `C28_deltavar_mixed_raise`, `C28_deltavar_second_kwargs_ignored`). -/
theorem C28_deltavar_objects_partial {K : Type} (lags : List ℝ) (c1 : Bool) (kw : K) (kw2 : Option K) :
    dvInit true lags 1 (.object c1 lags) (.object true lags) kw kw2 =
      .ok (if c1 then .keep else .run (lags, kw), .keep) := by
  unfold dvInit dvAct
  cases c1 <;> simp [bind, Except.bind, pure, Except.pure]

/-- Violation: the second dataset is checked by the type of the first, so mixing an object and raw data
always raises. -/
theorem C28_deltavar_mixed_raise {K : Type} (lags own : List ℝ) (scale : ℝ) (c : Bool) (kw : K)
    (kw2 : Option K) :
    dvInit true lags scale .raw (.object c own) kw kw2 = .error .typeError ∧
    dvInit true lags scale (.object c own) .raw kw kw2 = .error .attributeError := ⟨rfl, rfl⟩

/-- Violation: `use_common_lags=False` always raises. -/
theorem C28_deltavar_own_lags_raise {K : Type} (lags : List ℝ) (scale : ℝ) (d1 d2 : DvIn) (kw : K)
    (kw2 : Option K) : ∃ e, dvInit false lags scale d1 d2 kw kw2 = .error e := by
  cases d1 <;> cases d2 <;> exact ⟨_, rfl⟩

/-- Violation: a second object without a fit is run with the keyword arguments of the first dataset. -/
theorem C28_deltavar_second_kwargs_ignored {K : Type} (lags : List ℝ) (kw k2 : K) :
    dvInit true lags 1 (.object true lags) (.object false lags) kw (some k2) =
      .ok (.keep, .run (lags, kw)) := by
  unfold dvInit dvAct
  simp [bind, Except.bind, pure, Except.pure]

/-- Violation: an object with other lags is run again with its old lags. -/
theorem C28_deltavar_rerun_keeps_old_lags {K : Type} (lags own : List ℝ) (hlen : own.length = lags.length)
    (hne : own ≠ lags) (c : Bool) (kw : K) (kw2 : Option K) :
    dvInit true lags 1 (.object c own) (.object true lags) kw kw2 = .ok (.run (own, kw), .keep) := by
  unfold dvInit dvAct
  simp [bind, Except.bind, pure, Except.pure, hlen, hne]

/-! ### PCA and moments -/

/-- PCA: each cube on its own; 'auto' is refused; an object must have more than `n_eigs` eigenvalues. -/
theorem C28_pca (nEigs : ℤ) (meanSub : Bool) (d1 d2 : PcaIn) :
    pcaInit .auto meanSub d1 d2 = .error .valueError ∧
    (∀ a1 a2, pcaInit (.num nEigs) meanSub d1 d2 = .ok (a1, a2) ↔
      ∀ x ∈ [(d1, a1), (d2, a2)],
        (∀ k, x.1 = .object (some k) → x.2 = .keep ∧ 0 < nEigs ∧ nEigs < k) ∧
        ((∀ k, x.1 ≠ .object (some k)) → x.2 = .run (meanSub, nEigs))) := by
  refine ⟨rfl, ?_⟩
  have key : ∀ d a, pcaAct nEigs meanSub d = .ok a ↔
      (∀ k, d = .object (some k) → a = .keep ∧ 0 < nEigs ∧ nEigs < k) ∧
        ((∀ k, d ≠ .object (some k)) → a = .run (meanSub, nEigs)) := by
    intro d a
    cases d with
    | raw => simp [pcaAct, eq_comm]
    | object o =>
      cases o with
      | none => simp [pcaAct, eq_comm]
      | some k =>
        simp only [pcaAct]
        split_ifs with h1 h2
        · simp only [false_iff]
          rintro ⟨h, _⟩
          have := h k rfl
          omega
        · simp only [false_iff]
          rintro ⟨h, _⟩
          have := h k rfl
          omega
        · constructor
          · intro h
            cases h
            refine ⟨?_, fun h => absurd rfl (h k)⟩
            intro k' hk'
            cases hk'
            exact ⟨rfl, by omega, by omega⟩
          · rintro ⟨h, _⟩
            rw [(h k rfl).1]
  intro a1 a2
  unfold pcaInit
  simp only [List.mem_cons, List.not_mem_nil, or_false, forall_eq_or_imp, forall_eq]
  rw [← key d1 a1, ← key d2 a2]
  cases h1 : pcaAct nEigs meanSub d1 with
  | error e => simp [bind, Except.bind]
  | ok b1 =>
    cases h2 : pcaAct nEigs meanSub d2 with
    | error e => simp [bind, Except.bind]
    | ok b2 => simp [bind, Except.bind, pure, Except.pure]

/-- Statistical moments: each image on its own; two raw images get radii of a common angular size; an
object is kept only when computed with a radius within one pixel of the common one. -/
theorem C28_moments (radius scale : ℝ) (hs : 0 < scale) (p1 p2 : Bool) (d1 d2 : MomIn) :
    ∃ r1 r2, r1 = scale * r2 ∧ (r1 = radius ∨ r2 = radius) ∧
      ∀ x ∈ [(d1, r1, p1, (momInit radius scale p1 p2 d1 d2).1),
             (d2, r2, p2, (momInit radius scale p1 p2 d1 d2).2)],
        (x.1 = .raw → x.2.2.2 = .run (x.2.1, x.2.2.1)) ∧
        (∀ c own, x.1 = .object c own →
          (x.2.2.2 = .keep ↔ c = true ∧ |own - x.2.1| < 1) ∧
          (1 ≤ |own - x.2.1| → x.2.2.2 = .run (x.2.1, x.2.2.1))) := by
  refine ⟨if 1 < scale then scale * radius else radius, if scale < 1 then radius / scale else radius,
    ?_, ?_, ?_⟩
  · rcases lt_trichotomy scale 1 with h | h | h
    · rw [if_neg (not_lt.2 h.le), if_pos h]; field_simp
    · rw [h]; simp
    · rw [if_pos h, if_neg (not_lt.2 h.le)]
  · by_cases h : 1 < scale
    · right; rw [if_neg (not_lt.2 h.le)]
    · left; rw [if_neg h]
  · have key : ∀ (r : ℝ) (p : Bool) (d : MomIn), (d = .raw → momAct r p d = .run (r, p)) ∧
        (∀ c own, d = .object c own → (momAct r p d = .keep ↔ c = true ∧ |own - r| < 1) ∧
          (1 ≤ |own - r| → momAct r p d = .run (r, p))) := by
      intro r p d
      refine ⟨?_, ?_⟩
      · rintro rfl; rfl
      · rintro c own rfl
        simp only [momAct]
        split_ifs with h1 h2
        · simp [not_lt.2 h1]
        · simp only [Bool.not_eq_true'] at h2
          simp [h2, h1]
        · simp only [Bool.not_eq_true', Bool.not_eq_false] at h2
          simp [h2, h1]; exact not_le.1 h1
    intro x hx
    simp only [List.mem_cons, List.not_mem_nil, or_false] at hx
    rcases hx with rfl | rfl
    · exact key _ _ _
    · exact key _ _ _

/-- Non-vacuity: distinct keyword arguments and a second cube that has to be run. -/
example : ∃ (d2 : Given) (kw k2 : ℕ), d2 ≠ .object true ∧ k2 ≠ kw :=
  ⟨.object false, 0, 1, by simp, by norm_num⟩
/-- Lags of equal number that differ. -/
example : ([1, 2] : List ℝ).length = ([1, 3] : List ℝ).length ∧ ([1, 2] : List ℝ) ≠ [1, 3] := by
  constructor
  · rfl
  · intro h; simp at h

end TS
