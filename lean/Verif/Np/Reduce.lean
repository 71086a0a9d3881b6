import Verif.Np.Nan
import Mathlib.Algebra.BigOperators.Group.Finset.Basic
import Mathlib.Algebra.BigOperators.Ring.Finset
import Mathlib.Algebra.Order.BigOperators.Group.Finset

/-! NaN-aware reductions of 2D and 3D arrays (`none` = NaN), external contracts of numpy; and the
bookkeeping of loops that fill an array. -/

namespace TS
open Finset

/-- `np.nansum(a)`: NaNs count as zero. -/
noncomputable def Arr2.nansum (a : Arr2 (Option ℝ)) : ℝ :=
  ∑ i ∈ range a.n, ∑ j ∈ range a.m, (a.get i j).getD 0

/-- `np.sum(np.isfinite(a))`. -/
def Arr2.nFinite (a : Arr2 (Option ℝ)) : ℕ :=
  ∑ i ∈ range a.n, ∑ j ∈ range a.m, if (a.get i j).isSome then 1 else 0

/-- `np.nansum(a, axis=0)`. -/
noncomputable def Arr3.nansum0 (a : Arr3 (Option ℝ)) : Arr2 ℝ :=
  ⟨a.m, a.p, fun i j => ∑ v ∈ range a.n, (a.get v i j).getD 0⟩

/-- Square with NaN. -/
noncomputable def sqO (a : Option ℝ) : Option ℝ := a.map (fun t => t ^ 2)

/-- Elementwise binary operation; shapes must agree.  Simplified: numpy's broadcasting of axes of
length one is not modelled here and is an error. -/
def Arr3.zip {α β γ : Type*} (f : α → β → γ) (a : Arr3 α) (b : Arr3 β) : Py (Arr3 γ) :=
  if a.n = b.n ∧ a.m = b.m ∧ a.p = b.p then
    .ok ⟨a.n, a.m, a.p, fun i j k => f (a.get i j k) (b.get i j k)⟩
  else .error .valueError

/-- `a[i, j] = v` for an index inside the array. -/
def Arr2.set {α : Type*} (a : Arr2 α) (i j : ℕ) (v : α) : Arr2 α :=
  ⟨a.n, a.m, fun i' j' => if i' = i ∧ j' = j then v else a.get i' j'⟩

theorem nansum_nonneg_of {f : ℕ → Option ℝ} {n : ℕ} (h : ∀ i < n, ∀ v, f i = some v → 0 ≤ v) :
    0 ≤ ∑ i ∈ range n, (f i).getD 0 := by
  apply sum_nonneg
  intro i hi
  cases hf : f i with
  | none => simp
  | some v => simpa using h i (mem_range.1 hi) v hf

end TS
