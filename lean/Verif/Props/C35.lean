import Verif.Model.Pca
import Verif.Lemmas.L2
import Verif.Props.C33
import Mathlib.Tactic.Linarith
import Mathlib.Data.List.GetD

/-! C35 — laws of the PCA distance. -/

namespace TS
open Finset

namespace Spec

/-- The compared eigenvalue number `i` (0-based): the first eigenvalue is skipped without mean
subtraction. -/
noncomputable def compared (ms : Bool) (e : List ℝ) (i : ℕ) : ℝ := e.getD (if ms then i else i + 1) 0

/-- How many are compared for `n_eigs = k`. -/
def comparedCount (ms : Bool) (k : ℕ) : ℕ := if ms then k else k - 1

/-- Fraction of the compared sum. -/
noncomputable def eigShare (ms : Bool) (k : ℕ) (e : List ℝ) (i : ℕ) : ℝ :=
  compared ms e i / ∑ j ∈ range (comparedCount ms k), compared ms e j

/-- Admissible spectrum: more than enough eigenvalues and a positive compared sum. -/
def Admissible (ms : Bool) (k : ℕ) (e : List ℝ) : Prop :=
  k ≤ e.length ∧ 0 < ∑ j ∈ range (comparedCount ms k), compared ms e j

end Spec

private theorem slice_eq (ms : Bool) (k : ℕ) (e : List ℝ) (h : k ≤ e.length) :
    (if ms then e.take k else (e.take k).drop 1) =
      (List.range (Spec.comparedCount ms k)).map (Spec.compared ms e) := by
  apply List.ext_getElem
  · cases ms <;> simp [Spec.comparedCount, h]
  · intro i h1 h2
    simp only [List.length_map, List.length_range] at h2
    cases ms
    · simp only [Spec.comparedCount, Bool.false_eq_true, if_false] at h2
      simp only [Bool.false_eq_true, if_false, List.getElem_drop, List.getElem_take, List.getElem_map,
        List.getElem_range, Spec.compared]
      rw [List.getD_eq_getElem _ _ (by omega)]
      congr 1; omega
    · simp only [Spec.comparedCount, if_true] at h2
      simp only [if_true, List.getElem_take, List.getElem_map, List.getElem_range, Spec.compared]
      rw [List.getD_eq_getElem _ _ (by omega)]

private theorem sum_map_range' (n : ℕ) (f : ℕ → ℝ) : ((List.range n).map f).sum = ∑ k ∈ range n, f k := by
  induction n with
  | zero => simp
  | succ n ih => rw [List.range_succ, List.map_append, List.sum_append, ih, sum_range_succ]; simp

theorem normalised_eq (ms : Bool) (k : ℕ) (e : List ℝ) (h : Spec.Admissible ms k e) :
    pcaNormalised ms k e = (List.range (Spec.comparedCount ms k)).map (fun i => some (Spec.eigShare ms k e i)) := by
  unfold pcaNormalised
  simp only
  rw [slice_eq ms k e h.1, sum_map_range', List.map_map]
  apply List.map_congr_left
  intro i _
  simp [Function.comp, divO, h.2.ne', Spec.eigShare]

private theorem fold_sq (l : List ℝ) :
    (l.map some).foldr (fun d acc => addO (mulO d d) acc) (some 0) = some (l.map (fun x => x ^ 2)).sum := by
  induction l with
  | nil => rfl
  | cons a l ih =>
    rw [List.map_cons, List.foldr_cons, ih, List.map_cons, List.sum_cons]
    simp [addO, mulO, pow_two]

/-- The value: Euclidean distance of the two normalised spectra. -/
theorem C35_value (ms : Bool) (k : ℕ) (e1 e2 : List ℝ) (h1 : Spec.Admissible ms k e1)
    (h2 : Spec.Admissible ms k e2) :
    pcaDistance ms k e1 e2 = .ok (some (Real.sqrt (∑ i ∈ range (Spec.comparedCount ms k),
      (Spec.eigShare ms k e1 i - Spec.eigShare ms k e2 i) ^ 2))) := by
  set N := Spec.comparedCount ms k with hN
  have hN0 : N ≠ 0 := by
    intro h0
    have := h1.2
    rw [← hN, h0] at this
    simp at this
  unfold pcaDistance
  rw [normalised_eq ms k e1 h1, normalised_eq ms k e2 h2, ← hN]
  simp only [List.length_map, List.length_range, true_or, if_true, or_self, if_neg hN0, max_self]
  have hd : (List.range N).map (fun i => subO
      (if N = 1 then ((List.range N).map (fun i => some (Spec.eigShare ms k e1 i))).getD 0 none
        else ((List.range N).map (fun i => some (Spec.eigShare ms k e1 i))).getD i none)
      (if N = 1 then ((List.range N).map (fun i => some (Spec.eigShare ms k e2 i))).getD 0 none
        else ((List.range N).map (fun i => some (Spec.eigShare ms k e2 i))).getD i none)) =
      ((List.range N).map (fun i => Spec.eigShare ms k e1 i - Spec.eigShare ms k e2 i)).map some := by
    rw [List.map_map]
    apply List.map_congr_left
    intro i hi
    have hi' := List.mem_range.1 hi
    by_cases hN1 : N = 1
    · have : i = 0 := by omega
      subst this
      simp [hN1, subO]
    · simp only [if_neg hN1]
      rw [List.getD_eq_getElem _ _ (by simpa using hi'), List.getD_eq_getElem _ _ (by simpa using hi')]
      simp [subO]
  rw [hd, fold_sq, List.map_map, sum_map_range']
  rfl

/-- Symmetric, non-negative, zero exactly for equal shares. -/
theorem C35_laws (ms : Bool) (k : ℕ) (e1 e2 : List ℝ) (h1 : Spec.Admissible ms k e1)
    (h2 : Spec.Admissible ms k e2) :
    pcaDistance ms k e1 e2 = pcaDistance ms k e2 e1 ∧
    ∃ d, pcaDistance ms k e1 e2 = .ok (some d) ∧ 0 ≤ d ∧
      (d = 0 ↔ ∀ i < Spec.comparedCount ms k, Spec.eigShare ms k e1 i = Spec.eigShare ms k e2 i) := by
  rw [C35_value ms k e1 e2 h1 h2, C35_value ms k e2 e1 h2 h1]
  refine ⟨?_, _, rfl, Real.sqrt_nonneg _, ?_⟩
  · have := l2_sub_comm (Spec.comparedCount ms k) (Spec.eigShare ms k e1) (Spec.eigShare ms k e2)
    unfold l2 at this
    rw [this]
  · have := l2_eq_zero (n := Spec.comparedCount ms k) (f := fun i => Spec.eigShare ms k e1 i - Spec.eigShare ms k e2 i)
    unfold l2 at this
    rw [this]
    simp [sub_eq_zero]

/-- Equal spectra, and cubes differing by a factor (eigenvalues times `c`), are at distance zero. -/
theorem C35_scale (ms : Bool) (k : ℕ) (e : List ℝ) (h : Spec.Admissible ms k e) (c : ℝ) (hc : 0 < c) :
    pcaDistance ms k e (e.map (c * ·)) = .ok (some 0) := by
  have hg : ∀ i, Spec.compared ms (e.map (c * ·)) i = c * Spec.compared ms e i := by
    intro i
    unfold Spec.compared
    have := List.getD_map (f := (c * ·)) (l := e) (d := (0 : ℝ)) (n := if ms then i else i + 1)
    rw [mul_zero] at this
    exact this
  have hs : ∑ j ∈ range (Spec.comparedCount ms k), Spec.compared ms (e.map (c * ·)) j =
      c * ∑ j ∈ range (Spec.comparedCount ms k), Spec.compared ms e j := by
    rw [mul_sum]; exact sum_congr rfl (fun j _ => hg j)
  have h2 : Spec.Admissible ms k (e.map (c * ·)) := by
    refine ⟨by simpa using h.1, ?_⟩
    rw [hs]; exact mul_pos hc h.2
  rw [C35_value ms k _ _ h h2]
  have : ∀ i, Spec.eigShare ms k (e.map (c * ·)) i = Spec.eigShare ms k e i := by
    intro i
    unfold Spec.eigShare
    rw [hs, hg, mul_div_mul_left _ _ hc.ne']
  simp [this]

/-- Two whole cubes without missing voxels, one being the other times any non-zero factor: the eigenvalues
found for them, whatever `eigh` returns, are at distance zero. -/
theorem C35_scaled_cubes (eps : ℝ) (ms : Bool) (cube cube' : Arr3 (Option ℝ)) (x : ℕ → ℕ → ℝ) (c : ℝ) (hc : c ≠ 0)
    (h : Spec.FullCube cube x) (h' : Spec.FullCube cube' (fun i k => c * x i k))
    (hs : cube'.n = cube.n ∧ cube'.m = cube.m ∧ cube'.p = cube.p) (lam lam' : ℕ → ℝ) (V V' : ℕ → ℕ → ℝ) (ord ord' : ℕ → ℕ)
    (hE : Spec.IsEigh cube.n (varCovCube eps ms cube).get lam V) (hE' : Spec.IsEigh cube'.n (varCovCube eps ms cube').get lam' V')
    (arg arg' : NEigsArg) (me me' : Option ℝ) (cm cm' : CutMethod) (st st' : PcaState)
    (hp : computePca cube.n lam V ord ms arg me cm = .ok st) (hp' : computePca cube'.n lam' V' ord' ms arg' me' cm' = .ok st')
    (k : ℕ) (ha : Spec.Admissible ms k st.eigvals) :
    pcaDistance ms k st.eigvals st'.eigvals = .ok (some 0) := by
  have hpos : 0 < c ^ 2 := by positivity
  rw [hs.1] at hE' hp'
  have hE2 : Spec.IsEigh cube.n (fun i j => c ^ 2 * (varCovCube eps ms cube).get i j) (fun k => c ^ 2 * lam k) V := by
    refine ⟨hE.1, fun i hi k hk => ?_⟩
    rw [mul_assoc, ← hE.2 i hi k hk, mul_sum]
    exact sum_congr rfl (fun j _ => by ring)
  have p1 := eigh_perm cube.n _ _ (fun i hi j hj => C32_scale eps ms cube cube' x c h h' hs i j hi hj) lam' _ V' V hE' hE2
  obtain ⟨s1, s2, -⟩ := C33_sorted _ _ _ _ _ _ _ _ _ hp
  obtain ⟨s1', s2', -⟩ := C33_sorted _ _ _ _ _ _ _ _ _ hp'
  have e : st'.eigvals = st.eigvals.map (c ^ 2 * ·) := by
    refine List.Perm.eq_of_pairwise (le := fun a b : ℝ => b ≤ a) (fun a b _ _ h1 h2 => le_antisymm h2 h1) s2' ?_ ?_
    · rw [List.pairwise_map]
      exact s2.imp (fun hab => mul_le_mul_of_nonneg_left hab hpos.le)
    · refine s1'.trans (p1.trans ?_)
      have := (s1.map (c ^ 2 * ·)).symm
      rwa [List.map_map] at this
  rw [e]
  exact C35_scale ms k _ ha _ hpos

/-- Triangle inequality. -/
theorem C35_triangle (ms : Bool) (k : ℕ) (e1 e2 e3 : List ℝ) (h1 : Spec.Admissible ms k e1)
    (h2 : Spec.Admissible ms k e2) (h3 : Spec.Admissible ms k e3) :
    ∃ a b c, pcaDistance ms k e1 e3 = .ok (some a) ∧ pcaDistance ms k e1 e2 = .ok (some b) ∧
      pcaDistance ms k e2 e3 = .ok (some c) ∧ a ≤ b + c :=
  ⟨_, _, _, C35_value ms k e1 e3 h1 h3, C35_value ms k e1 e2 h1 h2, C35_value ms k e2 e3 h2 h3,
    l2_sub_triangle _ _ _ _⟩

/-- Normalised non-negative spectra are at most √2 apart. -/
theorem C35_bounded (ms : Bool) (k : ℕ) (e1 e2 : List ℝ) (h1 : Spec.Admissible ms k e1)
    (h2 : Spec.Admissible ms k e2) (p1 : ∀ x ∈ e1, 0 ≤ x) (p2 : ∀ x ∈ e2, 0 ≤ x) :
    ∃ d, pcaDistance ms k e1 e2 = .ok (some d) ∧ d ≤ Real.sqrt 2 := by
  refine ⟨_, C35_value ms k e1 e2 h1 h2, Real.sqrt_le_sqrt ?_⟩
  have nn : ∀ e : List ℝ, (∀ x ∈ e, 0 ≤ x) → ∀ i, 0 ≤ Spec.compared ms e i := by
    intro e pe i
    unfold Spec.compared
    rcases Nat.lt_or_ge (if ms then i else i + 1) e.length with h | h
    · rw [List.getD_eq_getElem _ _ h]; exact pe _ (List.getElem_mem h)
    · rw [List.getD_eq_default _ _ h]
  have s0 : ∀ e : List ℝ, Spec.Admissible ms k e → (∀ x ∈ e, 0 ≤ x) → ∀ i, 0 ≤ Spec.eigShare ms k e i :=
    fun e he pe i => div_nonneg (nn e pe i) he.2.le
  have s1 : ∀ e : List ℝ, Spec.Admissible ms k e →
      ∑ i ∈ range (Spec.comparedCount ms k), Spec.eigShare ms k e i = 1 := by
    intro e he
    unfold Spec.eigShare
    rw [← sum_div, div_self he.2.ne']
  have sle : ∀ e : List ℝ, Spec.Admissible ms k e → (∀ x ∈ e, 0 ≤ x) →
      ∀ i ∈ range (Spec.comparedCount ms k), Spec.eigShare ms k e i ≤ 1 := by
    intro e he pe i hi
    rw [← s1 e he]
    exact single_le_sum (fun j _ => s0 e he pe j) hi
  calc ∑ i ∈ range (Spec.comparedCount ms k), (Spec.eigShare ms k e1 i - Spec.eigShare ms k e2 i) ^ 2
      ≤ ∑ i ∈ range (Spec.comparedCount ms k), (Spec.eigShare ms k e1 i + Spec.eigShare ms k e2 i) := by
        apply sum_le_sum
        intro i hi
        have a0 := s0 e1 h1 p1 i
        have b0 := s0 e2 h2 p2 i
        have a1 := sle e1 h1 p1 i hi
        have b1 := sle e2 h2 p2 i hi
        nlinarith [mul_nonneg a0 b0, mul_nonneg a0 (sub_nonneg.2 a1), mul_nonneg b0 (sub_nonneg.2 b1)]
    _ = 2 := by rw [sum_add_distrib, s1 e1 h1, s1 e2 h2]; norm_num

/-- 'auto' is rejected, and so is an object holding no more eigenvalues than asked for. -/
theorem C35_rejects (ms : Bool) (d1 d2 : PcaIn) (k : ℤ) (n : ℕ) (hk : (n : ℤ) ≤ k) :
    pcaInit .auto ms d1 d2 = .error .valueError ∧
    pcaInit (.num k) ms (.object (some n)) d2 = .error .valueError := by
  refine ⟨rfl, ?_⟩
  simp only [pcaInit, pcaAct]
  split_ifs
  · rfl
  · rfl

example : Spec.Admissible false 3 [10, 3, 1, 0] ∧ Spec.eigShare false 3 [10, 3, 1, 0] 0 = 3 / 4 := by
  constructor
  · exact ⟨by simp, by norm_num [Spec.comparedCount, Spec.compared, Finset.sum_range_succ]⟩
  · norm_num [Spec.eigShare, Spec.comparedCount, Spec.compared, Finset.sum_range_succ]

end TS
