import Verif.Np.Core
import Mathlib.Analysis.Real.Sqrt
import Mathlib.Algebra.BigOperators.Group.Finset.Basic
import Mathlib.Data.Finset.Prod

/-!
Specification of the spectral correlation function: given the set of pairs of sky pixels that are
compared, one minus the root of the mean over the pairs of
`∑_v (T_v(p) - T_v(q))² / (∑_v T_v(p)² + ∑_v T_v(q)²)`, where channels missing in a spectrum are left out
and pairs of spectra without any signal do not count.
-/

namespace TS.Spec
open Finset

/-- A sky pixel. -/
abbrev Pix := ℕ × ℕ

/-- Sum over the channels in which both spectra have a value of the squared difference. -/
noncomputable def sqDiff (data : Arr3 (Option ℝ)) (p q : Pix) : ℝ :=
  ∑ v ∈ range data.n, match data.get v p.1 p.2, data.get v q.1 q.2 with
    | some a, some b => (a - b) ^ 2
    | _, _ => 0

/-- Sum of the squares of the values present in a spectrum. -/
noncomputable def power (data : Arr3 (Option ℝ)) (p : Pix) : ℝ :=
  ∑ v ∈ range data.n, match data.get v p.1 p.2 with
    | some a => a ^ 2
    | none => 0

open Classical in
/-- The SCF from a set of pixel pairs (`none` when no pair carries signal). -/
noncomputable def scf (data : Arr3 (Option ℝ)) (P : Finset (Pix × Pix)) : Option ℝ :=
  let good := P.filter (fun pq => power data pq.1 + power data pq.2 ≠ 0)
  if good = ∅ then none
  else some (1 - Real.sqrt
    ((∑ pq ∈ good, sqDiff data pq.1 pq.2 / (power data pq.1 + power data pq.2)) / good.card))

/-- Pairs of pixels of an `m × p` map whose first member is the second moved by `(k, l)` on the
periodic map. -/
def periodicPairs (m p : ℕ) (k l : ℤ) : Finset (Pix × Pix) :=
  ((range m ×ˢ range p) ×ˢ (range m ×ˢ range p)).filter (fun pq =>
    (m : ℤ) ∣ (pq.1.1 : ℤ) - (pq.2.1 + k) ∧ (p : ℤ) ∣ (pq.1.2 : ℤ) - (pq.2.2 + l))

/-- Pairs of pixels of an `m × p` map separated by exactly `(k, l)`, both inside the map. -/
def insidePairs (m p : ℕ) (k l : ℤ) : Finset (Pix × Pix) :=
  ((range m ×ˢ range p) ×ˢ (range m ×ˢ range p)).filter (fun pq =>
    (pq.1.1 : ℤ) = pq.2.1 + k ∧ (pq.1.2 : ℤ) = pq.2.2 + l)

end TS.Spec
