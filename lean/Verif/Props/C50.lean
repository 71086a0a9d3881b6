import Verif.Props.C49

/-! C50 — Moments and the noise scale given to make_moment_errors. -/

namespace TS

namespace Spec

/-- The three error maps of the object are those for noise `s` (a number or NaN), from the moments `m0`, `m1` it holds. -/
def ErrorsFor (L : SpecLib) (st : MomentsSt) (s : Option ℝ) (m0 m1 : Arr2 (Option ℝ)) : Prop :=
  ∃ e0 e1 e2, moment0Error (L.strategy st.cube) st.how st.cube (.const s) 0 = .ok e0 ∧
    moment1Error (L.strategy st.cube) st.how st.cube (.const s) m0 m1 = .ok e1 ∧
    linewidthSigmaErr (L.strategy st.cube) st.how st.cube (.const s) m0 m1 (L.moment2 st.how st.cube) (some e1) = .ok e2 ∧
    st.m0e = some e0 ∧ st.m1e = some e1 ∧ st.lwe = some e2

end Spec
open Spec

/-- Only a non-negative (or NaN) Quantity of the right kind, or None, can become the scale; anything else raises and
changes nothing. -/
theorem C50_scale_setter (st : MomentsSt) (v : ScaleArg) :
    (∃ e, st.setScale v = (st, some e) ∧ ((v = .noUnit ∧ e = .typeError) ∨ (v = .wrongUnit ∧ e = .unitsError) ∨
      (∃ x, v = .quantity (some x) ∧ x < 0 ∧ e = .valueError))) ∨
    (v = .none ∧ st.setScale v = ({ st with scale := none }, none)) ∨
    (∃ q, v = .quantity q ∧ (∀ x, q = some x → 0 ≤ x) ∧ st.setScale v = ({ st with scale := some q }, none)) := by
  cases v with
  | none => right; left; exact ⟨rfl, rfl⟩
  | noUnit => left; exact ⟨_, rfl, Or.inl ⟨rfl, rfl⟩⟩
  | wrongUnit => left; exact ⟨_, rfl, Or.inr (Or.inl ⟨rfl, rfl⟩)⟩
  | quantity q =>
    cases q with
    | none => right; right; exact ⟨none, rfl, by simp, by simp [MomentsSt.setScale]⟩
    | some x =>
      by_cases hx : x < 0
      · left
        refine ⟨.valueError, ?_, Or.inr (Or.inr ⟨x, rfl, hx, rfl⟩)⟩
        simp [MomentsSt.setScale, hx]
      · right; right
        refine ⟨some x, rfl, ?_, ?_⟩
        · intro y hy; cases hy; exact not_lt.1 hx
        · simp [MomentsSt.setScale, hx]

/-- In every history the stored noise is never negative. -/
theorem C50_scale_never_negative (L : SpecLib) (st : MomentsSt) (h : ∀ x, st.scale = some (some x) → 0 ≤ x) (ops : List MomOp) :
    ∀ x, (st.run L ops).scale = some (some x) → 0 ≤ x := by
  unfold MomentsSt.run
  induction ops generalizing st with
  | nil => exact h
  | cons o ops ih =>
    rw [List.foldl_cons]
    apply ih
    cases o with
    | setScale v =>
      intro x hx
      simp only [MomentsSt.step] at hx
      rcases C50_scale_setter st v with ⟨e, he, _⟩ | ⟨_, he⟩ | ⟨q, _, hq, he⟩
      · rw [he] at hx; exact h x hx
      · rw [he] at hx; cases hx
      · rw [he] at hx
        simp only [Option.some.injEq] at hx
        exact hq x hx
    | applyMask c => exact h
    | makeMoments u =>
      intro x hx
      simp only [MomentsSt.step, MomentsSt.makeMoments] at hx
      split_ifs at hx <;> exact h x hx
    | makeErrors a =>
      intro x hx
      apply h x
      rw [← hx]
      simp only [MomentsSt.step, MomentsSt.makeErrors]
      split
      · rfl
      · split
        · rename_i hs; simp [hs]
        · rename_i hs; simp [hs]
        · rename_i hs
          split
          · simp [hs]
          · split_ifs
            · split
              · simp [hs]
              · split <;> simp [hs]
            · simp [hs]

/-- When the object has a scale (and moments with units, method slice or cube), every call computes all errors with the
object's scale. Missing: a scale given as an argument only, the method `ray` and moments without units (`C50_argument_alone_violated`,
`C50_ray_violated`, `C50_units_false_violated`). -/
theorem C50_object_scale_partial (L : SpecLib) (st : MomentsSt) (hh : st.how = .slice ∨ st.how = .cube)
    (m0 m1 lw : Arr2 (Option ℝ)) (hm : st.moments = some (m0, m1, lw)) (hu : st.units = true) (s : Option ℝ) (hs : st.scale = some s)
    (arg : Option (Option ℝ)) :
    (st.makeErrors L arg).2 = none ∧ ErrorsFor L (st.makeErrors L arg).1 s m0 m1 ∧
      (st.makeErrors L arg).1.moments = st.moments ∧ (st.makeErrors L arg).1.cube = st.cube := by
  have hc : checkNoise st.cube (.const s) = .ok () := rfl
  obtain ⟨e0, h0⟩ : ∃ e0, moment0Error (L.strategy st.cube) st.how st.cube (.const s) 0 = .ok e0 := by
    obtain ⟨a, b, ha, hb, _⟩ := C49_moment0_agree_partial (L.strategy st.cube) st.cube (.const s) 0 hc
    rcases hh with e | e <;> rw [e]
    · exact ⟨a, ha⟩
    · exact ⟨b, hb⟩
  obtain ⟨e1, h1⟩ : ∃ e1, moment1Error (L.strategy st.cube) st.how st.cube (.const s) m0 m1 = .ok e1 := by
    rcases hh with e | e <;> rw [e]
    · exact ⟨_, rfl⟩
    · exact ⟨_, rfl⟩
  obtain ⟨e2, h2⟩ : ∃ e2, linewidthSigmaErr (L.strategy st.cube) st.how st.cube (.const s) m0 m1 (L.moment2 st.how st.cube) (some e1) = .ok e2 := by
    rcases hh with e | e <;> rw [e]
    · exact ⟨_, rfl⟩
    · exact ⟨_, rfl⟩
  have key : st.makeErrors L arg = ({ st with m0e := some e0, m1e := some e1, lwe := some e2 }, none) := by
    unfold MomentsSt.makeErrors
    rw [hm]
    simp only [hs, h0, hu, if_true, h1, h2]
  rw [key]
  exact ⟨rfl, ⟨e0, e1, e2, h0, h1, h2, rfl, rfl, rfl⟩, rfl, rfl⟩

/-- The `scale` argument is ignored when the object has a scale: the call does the same whatever is passed. -/
theorem C50_argument_ignored (L : SpecLib) (st : MomentsSt) (s : Option ℝ) (hs : st.scale = some s) (arg : Option (Option ℝ)) :
    st.makeErrors L arg = st.makeErrors L none := by
  unfold MomentsSt.makeErrors
  cases hm : st.moments with
  | none => rfl
  | some m => simp only [hs]

/-- The `scale` argument does nothing when the object has none: the call succeeds and changes nothing at all. -/
theorem C50_argument_alone_violated (L : SpecLib) (st : MomentsSt) (hs : st.scale = none) (hm : st.moments.isSome) (s : Option ℝ) :
    st.makeErrors L (some s) = (st, none) := by
  unfold MomentsSt.makeErrors
  cases hm' : st.moments with
  | none => rw [hm'] at hm; cases hm
  | some m => simp only [hs]

/-- So after a fresh object, `make_moments()` and `make_moment_errors(scale=s)`, reading the errors raises AttributeError. -/
theorem C50_no_errors_violated (L : SpecLib) (c : SCube) (s : Option ℝ) (st : MomentsSt) (h : MomentsSt.new c .none .slice = .ok st) :
    (st.run L [.makeMoments true, .makeErrors (some s)]).moment0Err = .error .attributeError := by
  have : st = ⟨c, .slice, none, none, true, none, none, none⟩ := by
    unfold MomentsSt.new at h
    rw [if_pos (Or.inl rfl)] at h
    injection h with h
    exact h.symm
  subst this
  rfl

/-- And after errors were computed with noise `a`, clearing the scale and calling with `scale=b` keeps the errors for `a`. -/
theorem C50_stale_violated (L : SpecLib) (st : MomentsSt) (hh : st.how = .slice ∨ st.how = .cube) (a b : ℝ) (ha : 0 ≤ a) :
    ErrorsFor L (st.run L [.makeMoments true, .setScale (.quantity (some a)), .makeErrors none, .setScale .none, .makeErrors (some (some b))])
      (some a) (L.moment0 st.how st.cube) (L.moment1 st.how st.cube) := by
  have h1 : (st.step L (.makeMoments true)).1 = { st with moments := some (L.moment0 st.how st.cube, L.moment1 st.how st.cube, L.linewidth st.how st.cube), units := true } := rfl
  have h2 : ∀ st' : MomentsSt, (st'.step L (.setScale (.quantity (some a)))).1 = { st' with scale := some (some a) } := by
    intro st'; simp [MomentsSt.step, MomentsSt.setScale, not_lt.2 ha]
  unfold MomentsSt.run
  simp only [List.foldl_cons, List.foldl_nil]
  rw [h1, h2]
  set st1 : MomentsSt := { st with moments := some (L.moment0 st.how st.cube, L.moment1 st.how st.cube, L.linewidth st.how st.cube), units := true, scale := some (some a) } with hst1
  obtain ⟨_, p2, p3, p4⟩ := C50_object_scale_partial L st1 hh (L.moment0 st.how st.cube) (L.moment1 st.how st.cube) (L.linewidth st.how st.cube)
    rfl rfl (some a) rfl none
  set st2 := (st1.makeErrors L none).1 with hst2
  have e2 : (st1.step L (.makeErrors none)).1 = st2 := rfl
  rw [e2]
  have e3 : (st2.step L (.setScale .none)).1 = { st2 with scale := none } := rfl
  rw [e3]
  have e4 : ((({ st2 with scale := none } : MomentsSt)).step L (.makeErrors (some (some b)))).1 = { st2 with scale := none } := by
    have := C50_argument_alone_violated L { st2 with scale := none } rfl (by simp only; rw [p3]; rfl) (some b)
    simp only [MomentsSt.step]
    rw [this]
  rw [e4]
  exact p2

/-- With no scale anywhere, the errors are zero maps of the shape of the moments. -/
theorem C50_no_scale_zero (L : SpecLib) (st : MomentsSt) (hs : st.scale = none) (m0 m1 lw : Arr2 (Option ℝ))
    (hm : st.moments = some (m0, m1, lw)) :
    ∃ e0 e1 e2, st.makeErrors L none = ({ st with m0e := some e0, m1e := some e1, lwe := some e2 }, none) ∧
      (e0.n = m0.n ∧ e0.m = m0.m ∧ ∀ y x, e0.get y x = some 0) ∧ (e1.n = m1.n ∧ e1.m = m1.m ∧ ∀ y x, e1.get y x = some 0) ∧
      (e2.n = lw.n ∧ e2.m = lw.m ∧ ∀ y x, e2.get y x = some 0) := by
  unfold MomentsSt.makeErrors
  simp only [hm, hs]
  exact ⟨_, _, _, rfl, ⟨rfl, rfl, fun _ _ => rfl⟩, ⟨rfl, rfl, fun _ _ => rfl⟩, ⟨rfl, rfl, fun _ _ => rfl⟩⟩

/-- Errors before moments: ValueError, nothing changed. -/
theorem C50_before_moments (L : SpecLib) (st : MomentsSt) (hm : st.moments = none) (arg : Option (Option ℝ)) :
    st.makeErrors L arg = (st, some .valueError) := by
  unfold MomentsSt.makeErrors
  simp only [hm]

/-- The documented method 'ray' is accepted by the constructor but no error can ever be computed with it. -/
theorem C50_ray_violated (L : SpecLib) (c : SCube) (s : ℝ) (hs : 0 ≤ s) :
    ∃ st, MomentsSt.new c (.quantity (some s)) .ray = .ok st ∧
      (((st.step L (.makeMoments true)).1).makeErrors L none).2 = some .valueError := by
  refine ⟨⟨c, .ray, some (some s), none, true, none, none, none⟩, ?_, ?_⟩
  · unfold MomentsSt.new MomentsSt.setScale
    simp [not_lt.2 hs]
  · rfl

/-- `make_moments(units=False)` always raises AttributeError, after replacing the moments. -/
theorem C50_units_false_violated (L : SpecLib) (st : MomentsSt) :
    (st.makeMoments L false).2 = some .attributeError ∧ (st.makeMoments L false).1.moments.isSome := ⟨rfl, rfl⟩

/-- Not vacuous: an object with scale 2 and moments exists and gets errors. -/
example (L : SpecLib) (c : SCube) : ∃ st, MomentsSt.new c (.quantity (some 2)) .slice = .ok st ∧
    (((st.step L (.makeMoments true)).1).makeErrors L none).2 = none := by
  refine ⟨⟨c, .slice, some (some 2), none, true, none, none, none⟩, ?_, ?_⟩
  · unfold MomentsSt.new MomentsSt.setScale
    norm_num
  · exact (C50_object_scale_partial L _ (Or.inl rfl) _ _ _ rfl rfl _ rfl none).1

end TS
