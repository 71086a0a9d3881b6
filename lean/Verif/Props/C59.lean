import Verif.Model.Io

/-!
C59 — `input_data` accepts the documented types.
-/

namespace TS

namespace Spec

/-- What is inside a Python object, without its identity. -/
inductive Content (A H : Type*) where
  | array (quantity : Bool) (a : A)
  | header (h : H)
  | other

/-- Forget the identity of an object. -/
def content {A H : Type*} : Obj A H → Content A H
  | .arr _ q c => .array q c
  | .hdr _ c => .header c
  | .other _ => .other

/-- The identity of an object. -/
def ident {A H : Type*} : Obj A H → ℕ
  | .arr i _ _ => i
  | .hdr i _ => i
  | .other i => i

/-- The data that comes with an input, when it is one of the documented kinds. -/
def dataOf {A H : Type*} : InputArg A H → Option (Obj A H)
  | .cube d _ | .lowerDim d _ | .hdu d _ => some d
  | .seq [d, _] => some d
  | .obj (.arr i q c) => some (.arr i q c)
  | _ => none

/-- The header that comes with an input, when there is one. -/
def headerOf {A H : Type*} : InputArg A H → Option (Obj A H)
  | .cube _ h | .lowerDim _ h | .hdu _ h => some h
  | .seq [_, h] => some h
  | _ => none

end Spec

private theorem content_makeCopy {A H : Type*} (b : Bool) (f : ℕ) (x : Obj A H) : Spec.content (makeCopy b f x) = Spec.content x := by
  unfold makeCopy
  cases b
  · rfl
  · cases x <;> rfl

/-- With `no_header`: exactly the documented kinds (and bare arrays) are accepted and the one thing returned is the input's data;
everything else raises TypeError. -/
theorem C59_no_header {A H : Type*} (d : InputArg A H) (needCopy : Bool) (fresh : ℕ) :
    (∀ x, Spec.dataOf d = some x → ∃ y, inputData d true needCopy fresh = .ok [y] ∧ Spec.content y = Spec.content x) ∧
    (Spec.dataOf d = none → inputData d true needCopy fresh = .error .typeError) := by
  unfold inputData inputList
  constructor
  · intro x hx
    cases d with
    | cube f h => cases hx; exact ⟨_, rfl, content_makeCopy _ _ _⟩
    | lowerDim f h => cases hx; exact ⟨_, rfl, content_makeCopy _ _ _⟩
    | hdu f h => cases hx; exact ⟨_, rfl, content_makeCopy _ _ _⟩
    | seq items =>
      match items, hx with
      | [a, b], hx => cases hx; exact ⟨_, rfl, rfl⟩
    | obj o =>
      cases o with
      | arr i q c => cases hx; exact ⟨_, rfl, content_makeCopy _ _ _⟩
      | hdr i c => exact absurd hx (by simp [Spec.dataOf])
      | other i => exact absurd hx (by simp [Spec.dataOf])
  · intro hx
    cases d with
    | cube f h => exact absurd hx (by simp [Spec.dataOf])
    | lowerDim f h => exact absurd hx (by simp [Spec.dataOf])
    | hdu f h => exact absurd hx (by simp [Spec.dataOf])
    | seq items =>
      match items, hx with
      | [], _ => rfl
      | [_], _ => rfl
      | [a, b], hx => exact absurd hx (by simp [Spec.dataOf])
      | _ :: _ :: _ :: l, _ =>
        simp only [List.length_cons]
        rw [if_pos (by omega)]
        rfl
    | obj o =>
      cases o with
      | arr i q c => exact absurd hx (by simp [Spec.dataOf])
      | hdr i c => rfl
      | other i => rfl

/-- Without `no_header`: exactly the inputs that carry a header are accepted, and data and header are returned in this order;
everything else, bare arrays included, raises TypeError. -/
theorem C59_with_header {A H : Type*} (d : InputArg A H) (needCopy : Bool) (fresh : ℕ) :
    (∀ x h, Spec.dataOf d = some x → Spec.headerOf d = some h →
      ∃ y, inputData d false needCopy fresh = .ok [y, h] ∧ Spec.content y = Spec.content x) ∧
    (Spec.headerOf d = none → inputData d false needCopy fresh = .error .typeError) := by
  unfold inputData inputList
  constructor
  · intro x h hx hh
    cases d with
    | cube f h => cases hx; cases hh; exact ⟨_, rfl, content_makeCopy _ _ _⟩
    | lowerDim f h => cases hx; cases hh; exact ⟨_, rfl, content_makeCopy _ _ _⟩
    | hdu f h => cases hx; cases hh; exact ⟨_, rfl, content_makeCopy _ _ _⟩
    | seq items =>
      match items, hx, hh with
      | [a, b], hx, hh => cases hx; cases hh; exact ⟨_, rfl, rfl⟩
    | obj o => exact absurd hh (by simp [Spec.headerOf])
  · intro hh
    cases d with
    | cube f h => exact absurd hh (by simp [Spec.headerOf])
    | lowerDim f h => exact absurd hh (by simp [Spec.headerOf])
    | hdu f h => exact absurd hh (by simp [Spec.headerOf])
    | seq items =>
      match items, hh with
      | [], _ => rfl
      | [_], _ => rfl
      | [a, b], hh => exact absurd hh (by simp [Spec.headerOf])
      | _ :: _ :: _ :: l, _ =>
        simp only [List.length_cons]
        rw [if_pos (by omega)]
        rfl
    | obj o =>
      cases o with
      | arr i q c => rfl
      | hdr i c => rfl
      | other i => rfl

/-- A header and an array in an HDU. -/
example : ∃ y, inputData (A := ℕ) (H := ℕ) (.hdu (.arr 1 false 42) (.hdr 2 7)) false true 99 = .ok [y, .hdr 2 7] ∧
    Spec.content y = .array false 42 := 
  (C59_with_header (.hdu (.arr 1 false 42) (.hdr 2 7)) true 99).1 (.arr 1 false 42) (.hdr 2 7) rfl rfl

/-- What holds of `need_copy`: except for tuples and lists the returned data is a new object; without it the caller's own. Missing:
tuples and lists (`C59_copy_violated`). -/
theorem C59_copy_partial {A H : Type*} (d : InputArg A H) (noHeader needCopy : Bool) (fresh : ℕ) (x y : Obj A H) (rest : List (Obj A H))
    (hd : ∀ items, d ≠ .seq items) (hx : Spec.dataOf d = some x) (h : inputData d noHeader needCopy fresh = .ok (y :: rest)) :
    Spec.ident y = if needCopy then fresh else Spec.ident x := by
  have key : ∀ z : Obj A H, Spec.ident (makeCopy needCopy fresh z) = if needCopy then fresh else Spec.ident z := by
    intro z
    unfold makeCopy
    cases needCopy
    · rfl
    · cases z <;> rfl
  have step : ∀ z l, (do let out ← (Except.ok (z :: l) : Py (List (Obj A H))); if noHeader then return out.take 1 else return out) =
      (.ok (y :: rest) : Py (List (Obj A H))) → z = y := by
    intro z l hz
    cases noHeader
    · simp only [bind, Except.bind, pure, Except.pure, Bool.false_eq_true, if_false, Except.ok.injEq, List.cons.injEq] at hz
      exact hz.1
    · simp only [bind, Except.bind, pure, Except.pure, if_true, Except.ok.injEq, List.take_succ_cons, List.cons.injEq] at hz
      exact hz.1
  unfold inputData inputList at h
  cases d with
  | cube f hh => cases hx; rw [← step _ _ h]; exact key _
  | lowerDim f hh => cases hx; rw [← step _ _ h]; exact key _
  | hdu f hh => cases hx; rw [← step _ _ h]; exact key _
  | seq items => exact absurd rfl (hd items)
  | obj o =>
    cases o with
    | arr i q c =>
      cases hx
      cases noHeader with
      | false => exact absurd h (by simp [bind, Except.bind])
      | true => rw [← step _ _ h]; exact key _
    | hdr i c => exact absurd hx (by simp [Spec.dataOf])
    | other i => exact absurd hx (by simp [Spec.dataOf])

/-- VIOLATION: for a tuple or list `need_copy` is ignored, the caller's own array is returned. -/
theorem C59_copy_violated {A H : Type*} (x h : Obj A H) (noHeader needCopy : Bool) (fresh : ℕ) :
    ∃ rest, inputData (.seq [x, h]) noHeader needCopy fresh = .ok (x :: rest) := by
  cases noHeader
  · exact ⟨[h], rfl⟩
  · exact ⟨[], rfl⟩

/-- VIOLATION: the two items of a tuple or list are not looked at, so any two objects are accepted, e.g. header and data in the
wrong order. -/
theorem C59_pair_unchecked_violated {A H : Type*} (x y : Obj A H) (needCopy : Bool) (fresh : ℕ) :
    inputData (.seq [x, y]) false needCopy fresh = .ok [x, y] ∧ inputData (.seq [x, y]) true needCopy fresh = .ok [x] := ⟨rfl, rfl⟩

example : inputData (A := ℕ) (H := ℕ) (.seq [.hdr 1 5, .other 2]) true false 9 = .ok [.hdr 1 5] :=
  (C59_pair_unchecked_violated _ _ _ _).2

end TS
