import Verif.Model.BaseStat
import Mathlib.Data.List.Basic

/-!
C57 — headers, data and beams of a statistic are type-checked.
-/

namespace TS

namespace Spec

/-- The number of elements of an array. -/
def size (a : NArr) : ℕ := a.shape.prod

/-- An array without axes of length one. -/
def Squeezed (a : NArr) : Prop := ∀ n ∈ a.shape, n ≠ 1

end Spec

/-- A header assignment succeeds exactly for FITS headers (always, with nothing stored, when the statistic needs none); when it
fails nothing changes, and it never touches data or beam. -/
theorem C57_header {H B : Type*} (fl : StatFlags) (st : StatSt H B) (x : Obj NArr H) :
    (fl.needHeader = false → (setHeader fl st x).2 = none ∧ (setHeader fl st x).1.header = some none) ∧
    (fl.needHeader = true → ∀ i h, x = .hdr i h → (setHeader fl st x).2 = none ∧ (setHeader fl st x).1.header = some (some h)) ∧
    (fl.needHeader = true → (∀ i h, x ≠ .hdr i h) → setHeader fl st x = (st, some .typeError)) ∧
    (setHeader fl st x).1.data = st.data ∧ (setHeader fl st x).1.beam = st.beam := by
  unfold setHeader
  cases hn : fl.needHeader
  · exact ⟨fun _ => ⟨rfl, rfl⟩, by simp, by simp, rfl, rfl⟩
  · simp only [Bool.true_eq_false, if_false]
    refine ⟨by simp, ?_, ?_, ?_, ?_⟩
    · rintro _ i h rfl; exact ⟨rfl, rfl⟩
    · intro _ h
      cases x with
      | arr => rfl
      | hdr i c => exact absurd rfl (h i c)
      | other => rfl
    · cases x <;> rfl
    · cases x <;> rfl

/-- A data assignment succeeds exactly for arrays (always, with nothing stored, when the statistic keeps no data); the stored array
has the same values and number of elements but no axis of length one; when it fails nothing changes. -/
theorem C57_data {H B : Type*} (fl : StatFlags) (st : StatSt H B) (x : Obj NArr H) :
    (fl.noData = true → (setData fl st x).2 = none ∧ (setData fl st x).1.data = some none) ∧
    (fl.noData = false → ∀ i q a, x = .arr i q a → (setData fl st x).2 = none ∧
      ∃ b, (setData fl st x).1.data = some (some b) ∧ b.vals = a.vals ∧ Spec.size b = Spec.size a ∧ Spec.Squeezed b ∧
        b.shape.Sublist a.shape) ∧
    (fl.noData = false → (∀ i q a, x ≠ .arr i q a) → setData fl st x = (st, some .typeError)) ∧
    (setData fl st x).1.header = st.header ∧ (setData fl st x).1.beam = st.beam := by
  unfold setData
  cases hn : fl.noData
  · simp only [Bool.false_eq_true, if_false]
    refine ⟨by simp, ?_, ?_, ?_, ?_⟩
    · rintro _ i q a rfl
      refine ⟨rfl, a.squeeze, rfl, rfl, ?_, ?_, List.filter_sublist⟩
      · unfold Spec.size NArr.squeeze
        simp only
        induction a.shape with
        | nil => rfl
        | cons n l ih =>
          by_cases h1 : n = 1
          · subst h1
            rw [List.filter_cons_of_neg (by simp), ih, List.prod_cons, one_mul]
          · rw [List.filter_cons_of_pos (by simp [h1]), List.prod_cons, List.prod_cons, ih]
      · intro n hn
        unfold NArr.squeeze at hn
        simp only [List.mem_filter, bne_iff_ne] at hn
        exact hn.2
    · intro _ h
      cases x with
      | arr i q a => exact absurd rfl (h i q a)
      | hdr => rfl
      | other => rfl
    · cases x <;> rfl
    · cases x <;> rfl
  · exact ⟨fun _ => ⟨rfl, rfl⟩, by simp, by simp, rfl, rfl⟩

/-- A cube with one channel becomes a map. -/
example (H B : Type) (st : StatSt H B) (v : ℕ → ℝ) :
    (setData ⟨true, false⟩ st (.arr 1 false ⟨[1, 5, 7], v⟩)).1.data = some (some ⟨[5, 7], v⟩) := rfl

/-- A beam that is not a beam object is refused and the old one stays; without a beam argument and without a beam in the header the
old one stays too. -/
theorem C57_beam {H B : Type*} (hb : H → Option B) (st : StatSt H B) :
    loadBeam hb st .other = (st, some .typeError) ∧
    (∀ b, (loadBeam hb st (.beam b)).2 = none ∧ (loadBeam hb st (.beam b)).1.beam = some b) ∧
    (∀ h, st.header = some (some h) → (loadBeam hb st .none).2 = none ∧
      (loadBeam hb st .none).1.beam = (hb h).orElse (fun _ => st.beam)) ∧
    (st.header = none → loadBeam hb st .none = (st, none)) := by
  refine ⟨rfl, fun b => ⟨rfl, rfl⟩, fun h hh => ?_, fun hh => ?_⟩
  · unfold loadBeam
    simp only [hh]
    cases hb h <;> exact ⟨rfl, rfl⟩
  · unfold loadBeam
    simp only [hh]

/-- Whatever is assigned or loaded, in any order and with any failures in between: a statistic that needs no header never has one, a
statistic that keeps no data never has any, and stored data has no axis of length one. -/
theorem C57_history {H B : Type*} (fl : StatFlags) (hb : H → Option B) (ops : List (StatOp H B)) :
    let st := ops.foldl (statStep fl hb) ⟨none, none, none⟩
    (fl.needHeader = false → st.header = none ∨ st.header = some none) ∧
    (fl.needHeader = true → st.header ≠ some none) ∧
    (fl.noData = true → st.data = none ∨ st.data = some none) ∧
    (fl.noData = false → st.data ≠ some none) ∧
    (∀ a, st.data = some (some a) → Spec.Squeezed a) := by
  let Inv : StatSt H B → Prop := fun st =>
    (fl.needHeader = false → st.header = none ∨ st.header = some none) ∧
    (fl.needHeader = true → st.header ≠ some none) ∧
    (fl.noData = true → st.data = none ∨ st.data = some none) ∧
    (fl.noData = false → st.data ≠ some none) ∧
    (∀ a, st.data = some (some a) → Spec.Squeezed a)
  have hH : ∀ st x, Inv st → Inv (setHeader fl st x).1 := by
    intro st x ⟨i1, i2, i3, i4, i5⟩
    have hk := C57_header fl st x
    refine ⟨fun hn => Or.inr (hk.1 hn).2, fun hn => ?_, ?_, ?_, ?_⟩
    · cases x with
      | hdr i h => rw [(hk.2.1 hn i h rfl).2]; simp
      | arr i q a => rw [hk.2.2.1 hn (by simp)]; exact i2 hn
      | other i => rw [hk.2.2.1 hn (by simp)]; exact i2 hn
    · rw [hk.2.2.2.1]; exact i3
    · rw [hk.2.2.2.1]; exact i4
    · rw [hk.2.2.2.1]; exact i5
  have hD : ∀ st x, Inv st → Inv (setData fl st x).1 := by
    intro st x ⟨i1, i2, i3, i4, i5⟩
    have hk := C57_data fl st x
    refine ⟨?_, ?_, fun hn => Or.inr (hk.1 hn).2, fun hn => ?_, fun a ha => ?_⟩
    · rw [hk.2.2.2.1]; exact i1
    · rw [hk.2.2.2.1]; exact i2
    · cases x with
      | arr i q a =>
        obtain ⟨_, b, hb, _⟩ := hk.2.1 hn i q a rfl
        rw [hb]; simp
      | hdr i c => rw [hk.2.2.1 hn (by simp)]; exact i4 hn
      | other i => rw [hk.2.2.1 hn (by simp)]; exact i4 hn
    · cases hn : fl.noData with
      | true => rw [(hk.1 hn).2] at ha; exact absurd ha (by simp)
      | false =>
        cases x with
        | arr i q c =>
          obtain ⟨_, b, hb, _, _, hs, _⟩ := hk.2.1 hn i q c rfl
          rw [hb, Option.some.injEq, Option.some.injEq] at ha
          rw [← ha]; exact hs
        | hdr i c => rw [hk.2.2.1 hn (by simp)] at ha; exact i5 a ha
        | other i => rw [hk.2.2.1 hn (by simp)] at ha; exact i5 a ha
  have hBoth : ∀ st x h, Inv st → Inv (setBoth fl st x h).1 := by
    intro st x h hi
    unfold setBoth
    have := hD st x hi
    cases hs : setData fl st x with
    | mk st1 e =>
      rw [hs] at this
      cases e with
      | some e => exact this
      | none => exact hH st1 h this
  have hI : ∀ st d h c f, Inv st → Inv (inputDataHeader fl st d h c f).1 := by
    intro st d h c f hi
    unfold inputDataHeader
    cases h with
    | some h =>
      simp only
      cases inputData d true c f with
      | error e => exact hi
      | ok l =>
        cases l with
        | nil => exact hi
        | cons x l => exact hBoth _ _ _ hi
    | none =>
      simp only
      split
      · exact hi
      · split
        · exact hBoth _ _ _ hi
        · exact hi
        · exact hi
  have hB : ∀ st b, Inv st → Inv (loadBeam hb st b).1 := by
    intro st b hi
    have e1 : (loadBeam hb st b).1.header = st.header ∧ (loadBeam hb st b).1.data = st.data := by
      unfold loadBeam
      cases b with
      | beam b => exact ⟨rfl, rfl⟩
      | other => exact ⟨rfl, rfl⟩
      | none =>
        simp only
        cases hh : st.header with
        | none => exact ⟨hh, rfl⟩
        | some o =>
          cases o with
          | none => exact ⟨hh, rfl⟩
          | some h =>
            simp only
            cases hb h with
            | none => exact ⟨hh, rfl⟩
            | some b => exact ⟨rfl, rfl⟩
    change (_ ∧ _ ∧ _ ∧ _ ∧ _)
    rw [e1.1, e1.2]
    exact hi
  have : ∀ st, Inv st → Inv (ops.foldl (statStep fl hb) st) := by
    induction ops with
    | nil => intro st hi; exact hi
    | cons op ops ih =>
      intro st hi
      rw [List.foldl_cons]
      apply ih
      cases op with
      | header x => exact hH st x hi
      | data x => exact hD st x hi
      | input d h c f => exact hI st d h c f hi
      | beam b => exact hB st b hi
  exact this _ ⟨fun _ => Or.inl rfl, fun _ => by simp, fun _ => Or.inl rfl, fun _ => by simp, fun a ha => by simp at ha⟩

/-- What holds of giving data and header together: when it succeeds both are stored; when the data are refused nothing changes. Missing:
a refused header, after which the new data stay (`C57_input_violated`). -/
theorem C57_input_partial {H B : Type*} (st : StatSt H B) (i j : ℕ) (q : Bool) (a : NArr) (h : H) (needCopy : Bool) (fresh : ℕ) :
    (∀ d, inputData d true needCopy fresh = .ok [.arr i q a] →
      (inputDataHeader ⟨true, false⟩ st d (some (.hdr j h)) needCopy fresh).2 = none ∧
      (inputDataHeader ⟨true, false⟩ st d (some (.hdr j h)) needCopy fresh).1.header = some (some h) ∧
      (inputDataHeader ⟨true, false⟩ st d (some (.hdr j h)) needCopy fresh).1.data = some (some a.squeeze)) ∧
    (∀ (fl : StatFlags) d x e, inputData d true needCopy fresh = .error e →
      inputDataHeader fl st d (some x) needCopy fresh = (st, some e)) ∧
    (∀ (fl : StatFlags) k b, inputDataHeader fl st (.obj (.arr k false b)) none needCopy fresh = (st, some .valueError)) := by
  refine ⟨fun d hd => ?_, fun fl d x e hd => ?_, fun fl k b => rfl⟩
  · unfold inputDataHeader
    simp only [hd]
    exact ⟨rfl, rfl, rfl⟩
  · unfold inputDataHeader
    simp only [hd]

/-- VIOLATION: when the header given with the data is not a FITS header, TypeError is raised but the new data has already replaced
the old, beside the old header. -/
theorem C57_input_violated {H B : Type*} (st : StatSt H B) (i j : ℕ) (a : NArr) (fresh : ℕ) :
    inputDataHeader ⟨true, false⟩ st (.obj (.arr i false a)) (some (.other j)) false fresh =
      ({ st with data := some (some a.squeeze) }, some .typeError) := rfl

example : ∃ st' : StatSt ℕ ℕ, inputDataHeader ⟨true, false⟩ ⟨some (some 3), some (some ⟨[2], fun _ => 0⟩), none⟩
    (.obj (.arr 1 false ⟨[4], fun _ => 1⟩)) (some (.other 2)) false 9 = (st', some .typeError) ∧
    st'.header = some (some 3) ∧ st'.data = some (some ⟨[4], fun _ => 1⟩) := ⟨_, rfl, rfl, rfl⟩

end TS
