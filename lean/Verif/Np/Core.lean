import Mathlib.Data.Int.Init
import Mathlib.Tactic.Ring
import Mathlib.Tactic.Linarith

/-!
Python and numpy primitives used by the model: exceptions as values, basic slicing
(`start:stop:step`) and arrays as "shape plus index function".
These model the Python language and numpy, not code in /repo.
-/

namespace TS

/-- The Python exceptions the modelled code raises (or hits). -/
inductive PyErr where
  | valueError | typeError | indexError | keyError | attributeError | nameError
  | unboundLocal | notImplemented | zeroDivision | warningRaised | unitsError | unitConversionError
  | wcsError | importError | linAlgError | runtimeError | oserror
  deriving DecidableEq, Repr

/-- Result of a Python call. -/
abbrev Py (α : Type*) := Except PyErr α

/-- A Python basic slice `start:stop:step` (`none` = omitted). -/
structure PySlice where
  start : Option ℤ := none
  stop  : Option ℤ := none
  step  : ℤ := 1

/-- A slice resolved against an axis: first index, step and number of selected entries. -/
structure SliceIx where
  start : ℤ
  step  : ℤ
  len   : ℕ
  deriving DecidableEq, Repr

/-- Clamp of one endpoint, CPython `PySlice_AdjustIndices`: negative values count from the
end, then the value is clamped to `[0,n]` (positive step) or `[-1,n-1]` (negative step). -/
def adjustIx (n : ℤ) (neg : Bool) (v : ℤ) : ℤ :=
  if v < 0 then
    if v + n < 0 then (if neg then -1 else 0) else v + n
  else if n ≤ v then (if neg then n - 1 else n) else v

/-- CPython `slice.indices(n)` (step 0, a ValueError in Python, never occurs in the model). -/
def PySlice.resolve (s : PySlice) (n : ℕ) : SliceIx :=
  let neg : Bool := decide (s.step < 0)
  let start : ℤ := match s.start with
    | some v => adjustIx n neg v
    | none => if neg then (n : ℤ) - 1 else 0
  let stop : ℤ := match s.stop with
    | some v => adjustIx n neg v
    | none => if neg then -1 else n
  let len : ℕ :=
    if neg then (if stop < start then ((start - stop - 1) / (-s.step) + 1).toNat else 0)
    else (if start < stop then ((stop - start - 1) / s.step + 1).toNat else 0)
  ⟨start, s.step, len⟩

/-- Index in the sliced axis of the `k`-th selected entry. -/
def SliceIx.ix (s : SliceIx) (k : ℕ) : ℕ := (s.start + s.step * k).toNat

/-- Position `k` at which index `i` is selected, if it is. -/
def SliceIx.find (s : SliceIx) (i : ℕ) : Option ℕ :=
  (List.range s.len).find? (fun k => s.ix k == i)

/-- 1D numpy array: length and entries (only entries below the length are meaningful). -/
structure Arr1 (α : Type*) where
  n : ℕ
  get : ℕ → α

/-- 2D numpy array: shape `(n, m)` and entries. -/
structure Arr2 (α : Type*) where
  n : ℕ
  m : ℕ
  get : ℕ → ℕ → α

/-- 3D numpy array: shape `(n, m, p)` and entries. -/
structure Arr3 (α : Type*) where
  n : ℕ
  m : ℕ
  p : ℕ
  get : ℕ → ℕ → ℕ → α

variable {α β γ : Type*}

/-- Same shape and same entries (extensional equality of arrays). -/
def Arr1.Same (a b : Arr1 α) : Prop := a.n = b.n ∧ ∀ i < a.n, a.get i = b.get i

/-- Same shape and same entries. -/
def Arr2.Same (a b : Arr2 α) : Prop :=
  a.n = b.n ∧ a.m = b.m ∧ ∀ i < a.n, ∀ j < a.m, a.get i j = b.get i j

/-- Same shape and same entries. -/
def Arr3.Same (a b : Arr3 α) : Prop :=
  a.n = b.n ∧ a.m = b.m ∧ a.p = b.p ∧
    ∀ i < a.n, ∀ j < a.m, ∀ k < a.p, a.get i j k = b.get i j k

/-- Elementwise map (numpy ufunc). -/
def Arr1.map (f : α → β) (a : Arr1 α) : Arr1 β := ⟨a.n, fun i => f (a.get i)⟩
/-- Elementwise map (numpy ufunc). -/
def Arr2.map (f : α → β) (a : Arr2 α) : Arr2 β := ⟨a.n, a.m, fun i j => f (a.get i j)⟩
/-- Elementwise map (numpy ufunc). -/
def Arr3.map (f : α → β) (a : Arr3 α) : Arr3 β :=
  ⟨a.n, a.m, a.p, fun i j k => f (a.get i j k)⟩

/-- `a[s]`. -/
def Arr1.slice (a : Arr1 α) (s : PySlice) : Arr1 α :=
  let r := s.resolve a.n
  ⟨r.len, fun k => a.get (r.ix k)⟩

/-- `a[s, :]`. -/
def Arr2.slice0 (a : Arr2 α) (s : PySlice) : Arr2 α :=
  let r := s.resolve a.n
  ⟨r.len, a.m, fun i j => a.get (r.ix i) j⟩

/-- `a[:, s]`. -/
def Arr2.slice1 (a : Arr2 α) (s : PySlice) : Arr2 α :=
  let r := s.resolve a.m
  ⟨a.n, r.len, fun i j => a.get i (r.ix j)⟩

/-- `a[s, :, :]`. -/
def Arr3.slice0 (a : Arr3 α) (s : PySlice) : Arr3 α :=
  let r := s.resolve a.n
  ⟨r.len, a.m, a.p, fun i j k => a.get (r.ix i) j k⟩

/-- `a[:, s, :]`. -/
def Arr3.slice1 (a : Arr3 α) (s : PySlice) : Arr3 α :=
  let r := s.resolve a.m
  ⟨a.n, r.len, a.p, fun i j k => a.get i (r.ix j) k⟩

/-- `a[:, :, s]`. -/
def Arr3.slice2 (a : Arr3 α) (s : PySlice) : Arr3 α :=
  let r := s.resolve a.p
  ⟨a.n, a.m, r.len, fun i j k => a.get i j (r.ix k)⟩

/-- `a[s, :] = src` (the right-hand side is read before writing, as numpy does for
overlapping memory).  Different shapes raise ValueError; broadcasting of a length-1
source is not needed by the code and is treated as an error here. -/
def Arr2.setSlice0 (a : Arr2 α) (s : PySlice) (src : Arr2 α) : Py (Arr2 α) :=
  let r := s.resolve a.n
  if src.n = r.len ∧ src.m = a.m then
    .ok ⟨a.n, a.m, fun i j => match r.find i with
      | some k => src.get k j
      | none => a.get i j⟩
  else .error .valueError

/-- `a[s, :, :] = src`. -/
def Arr3.setSlice0 (a : Arr3 α) (s : PySlice) (src : Arr3 α) : Py (Arr3 α) :=
  let r := s.resolve a.n
  if src.n = r.len ∧ src.m = a.m ∧ src.p = a.p then
    .ok ⟨a.n, a.m, a.p, fun i j l => match r.find i with
      | some k => src.get k j l
      | none => a.get i j l⟩
  else .error .valueError

/-- `a[:, s, :] = src`. -/
def Arr3.setSlice1 (a : Arr3 α) (s : PySlice) (src : Arr3 α) : Py (Arr3 α) :=
  let r := s.resolve a.m
  if src.n = a.n ∧ src.m = r.len ∧ src.p = a.p then
    .ok ⟨a.n, a.m, a.p, fun i j l => match r.find j with
      | some k => src.get i k l
      | none => a.get i j l⟩
  else .error .valueError

/-- `np.concatenate((a, b), axis=1)` in 2D; row counts must agree. -/
def Arr2.concat1 (a b : Arr2 α) : Py (Arr2 α) :=
  if a.n = b.n then
    .ok ⟨a.n, a.m + b.m, fun i j => if j < a.m then a.get i j else b.get i (j - a.m)⟩
  else .error .valueError

/-- `np.concatenate((a, b), axis=2)` in 3D; the other axes must agree. -/
def Arr3.concat2 (a b : Arr3 α) : Py (Arr3 α) :=
  if a.n = b.n ∧ a.m = b.m then
    .ok ⟨a.n, a.m, a.p + b.p, fun i j k => if k < a.p then a.get i j k else b.get i j (k - a.p)⟩
  else .error .valueError

/-- Source index of `np.roll` by `s` on an axis of length `n`: `out[i] = in[(i - s) mod n]`. -/
def rollIx (n : ℕ) (s : ℤ) (i : ℕ) : ℕ := (((i : ℤ) - s) % (n : ℤ)).toNat

/-- `np.roll(a, s)`. -/
def Arr1.roll (a : Arr1 α) (s : ℤ) : Arr1 α := ⟨a.n, fun i => a.get (rollIx a.n s i)⟩
/-- `np.roll(a, s, axis=0)`. -/
def Arr2.roll0 (a : Arr2 α) (s : ℤ) : Arr2 α := ⟨a.n, a.m, fun i j => a.get (rollIx a.n s i) j⟩
/-- `np.roll(a, s, axis=1)`. -/
def Arr2.roll1 (a : Arr2 α) (s : ℤ) : Arr2 α := ⟨a.n, a.m, fun i j => a.get i (rollIx a.m s j)⟩
/-- `np.roll(a, s, axis=0)`. -/
def Arr3.roll0 (a : Arr3 α) (s : ℤ) : Arr3 α :=
  ⟨a.n, a.m, a.p, fun i j k => a.get (rollIx a.n s i) j k⟩
/-- `np.roll(a, s, axis=1)`. -/
def Arr3.roll1 (a : Arr3 α) (s : ℤ) : Arr3 α :=
  ⟨a.n, a.m, a.p, fun i j k => a.get i (rollIx a.m s j) k⟩
/-- `np.roll(a, s, axis=2)`. -/
def Arr3.roll2 (a : Arr3 α) (s : ℤ) : Arr3 α :=
  ⟨a.n, a.m, a.p, fun i j k => a.get i j (rollIx a.p s k)⟩

/-- `np.fft.fftshift` in 2D: every axis rolled by `n // 2`. -/
def Arr2.fftshift (a : Arr2 α) : Arr2 α :=
  (a.roll0 ((a.n / 2 : ℕ) : ℤ)).roll1 ((a.m / 2 : ℕ) : ℤ)

/-- `np.fft.fftshift` in 3D: every axis rolled by `n // 2`. -/
def Arr3.fftshift (a : Arr3 α) : Arr3 α :=
  ((a.roll0 ((a.n / 2 : ℕ) : ℤ)).roll1 ((a.m / 2 : ℕ) : ℤ)).roll2 ((a.p / 2 : ℕ) : ℤ)

/-- `int(x)` for an exact number given as a fraction of integers: truncation toward zero. -/
def truncDiv (a b : ℤ) : ℤ := Int.tdiv a b

/-! ### Facts about slices -/

theorem rollIx_lt {n : ℕ} (h : 0 < n) (s : ℤ) (i : ℕ) : rollIx n s i < n := by
  unfold rollIx
  have h1 : (0 : ℤ) < n := by exact_mod_cast h
  have := Int.emod_lt_of_pos ((i : ℤ) - s) h1
  have := Int.emod_nonneg ((i : ℤ) - s) (by omega : (n : ℤ) ≠ 0)
  omega

theorem rollIx_cast {n : ℕ} (h : 0 < n) (s : ℤ) (i : ℕ) :
    ((rollIx n s i : ℕ) : ℤ) = ((i : ℤ) - s) % n := by
  unfold rollIx
  have := Int.emod_nonneg ((i : ℤ) - s) (by omega : (n : ℤ) ≠ 0)
  omega

/-- A step-1 slice selects the contiguous block. -/
theorem SliceIx.find_step_one {s : SliceIx} (hs : s.step = 1) (h0 : 0 ≤ s.start) (i : ℕ) :
    s.find i = if s.start ≤ i ∧ (i : ℤ) < s.start + s.len then some (i - s.start.toNat) else none := by
  unfold SliceIx.find
  split
  · rename_i h
    rw [List.find?_range_eq_some]
    refine ⟨?_, ?_, ?_⟩
    · simp [SliceIx.ix, hs]; omega
    · simp; omega
    · intro j hj
      simp [SliceIx.ix, hs]; omega
  · rename_i h
    rw [List.find?_eq_none]
    intro k hk
    simp [SliceIx.ix, hs] at hk ⊢
    omega

end TS
