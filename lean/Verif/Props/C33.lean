import Verif.Model.Pca
import Verif.Props.C32
import Mathlib.Data.List.GetD
import Mathlib.Tactic.Linarith
import Mathlib.Tactic.IntervalCases
import Mathlib.LinearAlgebra.Matrix.Trace
import Mathlib.LinearAlgebra.Matrix.NonsingularInverse
import Mathlib.LinearAlgebra.Matrix.Charpoly.Basic
import Mathlib.Algebra.Polynomial.Roots
import Mathlib.Analysis.Matrix.Spectrum

/-! C33 — eigenvalue selection and the variance fraction of PCA. -/

namespace TS
open Finset

namespace Spec

/-- Contract of `np.linalg.eigh` for a symmetric `n × n` matrix: an orthonormal set of columns `V` that
diagonalises it. -/
def IsEigh (n : ℕ) (C : ℕ → ℕ → ℝ) (lam : ℕ → ℝ) (V : ℕ → ℕ → ℝ) : Prop :=
  (∀ k < n, ∀ l < n, ∑ i ∈ range n, V i k * V i l = if k = l then 1 else 0) ∧
  ∀ i < n, ∀ k < n, ∑ j ∈ range n, C i j * V j k = lam k * V i k

/-- Contract of `np.argsort(lam)[::-1]`: a reordering of the indices by non-increasing value. -/
def IsOrder (n : ℕ) (lam : ℕ → ℝ) (ord : ℕ → ℕ) : Prop :=
  ((List.range n).map ord).Perm (List.range n) ∧ ∀ i j, i ≤ j → j < n → lam (ord j) ≤ lam (ord i)

end Spec

private theorem sortDesc_pairwise (l : List ℝ) : (sortDesc l).Pairwise (fun a b => b ≤ a) := by
  unfold sortDesc
  have : Std.Total (fun a b : ℝ => b ≤ a) := ⟨fun a b => le_total b a⟩
  have : IsTrans ℝ (fun a b => b ≤ a) := ⟨fun a b c h1 h2 => le_trans h2 h1⟩
  exact List.pairwise_insertionSort _ _

private theorem sortDesc_perm (l : List ℝ) : (sortDesc l).Perm l := List.perm_insertionSort _ _

/-- The eigenvalues of a result are those of the covariance, largest first. -/
theorem C33_sorted (n : ℕ) (lam : ℕ → ℝ) (V : ℕ → ℕ → ℝ) (ord : ℕ → ℕ) (ms : Bool) (arg : NEigsArg)
    (me : Option ℝ) (cm : CutMethod) (st : PcaState)
    (h : computePca n lam V ord ms arg me cm = .ok st) :
    st.eigvals.Perm ((List.range n).map lam) ∧ st.eigvals.Pairwise (fun a b => b ≤ a) ∧
      st.eigvals.length = n := by
  unfold computePca at h
  simp only [bind, Except.bind, pure, Except.pure] at h
  split at h
  · cases h
  · cases h
    have hp := sortDesc_perm ((List.range n).map lam)
    exact ⟨hp, sortDesc_pairwise _, by rw [hp.length_eq]; simp⟩

private theorem sorted_eq (n : ℕ) (lam : ℕ → ℝ) (ord : ℕ → ℕ) (ho : Spec.IsOrder n lam ord) :
    sortDesc ((List.range n).map lam) = (List.range n).map (fun k => lam (ord k)) := by
  have h1 := sortDesc_perm ((List.range n).map lam)
  have h2 : ((List.range n).map (fun k => lam (ord k))).Perm ((List.range n).map lam) := by
    have := ho.1.map lam
    rwa [List.map_map] at this
  have h3 : ((List.range n).map (fun k => lam (ord k))).Pairwise (fun a b => b ≤ a) := by
    rw [List.pairwise_map]
    refine (List.pairwise_lt_range (n := n)).imp_of_mem ?_
    intro a b ha hb hab
    exact ho.2 a b hab.le (List.mem_range.1 hb)
  have : Std.Antisymm (fun a b : ℝ => b ≤ a) := ⟨fun a b h1 h2 => le_antisymm h2 h1⟩
  exact List.Perm.eq_of_pairwise (fun a b _ _ h1 h2 => le_antisymm h2 h1) (sortDesc_pairwise _) h3
    (h1.trans h2.symm)

/-- The columns of `eigvecs` stay paired with their eigenvalues: `C v_k = eigvals[k] v_k`. -/
theorem C33_pairs (n : ℕ) (C : ℕ → ℕ → ℝ) (lam : ℕ → ℝ) (V : ℕ → ℕ → ℝ) (ord : ℕ → ℕ)
    (hE : Spec.IsEigh n C lam V) (ho : Spec.IsOrder n lam ord) (ms : Bool) (arg : NEigsArg)
    (me : Option ℝ) (cm : CutMethod) (st : PcaState)
    (h : computePca n lam V ord ms arg me cm = .ok st) (i k : ℕ) (hi : i < n) (hk : k < n) :
    ∑ j ∈ range n, C i j * st.eigvecs j k = st.eigvals.getD k 0 * st.eigvecs i k := by
  unfold computePca at h
  simp only [bind, Except.bind, pure, Except.pure] at h
  split at h
  · cases h
  · cases h
    simp only
    have hok : ord k < n := by
      have : ord k ∈ (List.range n).map ord := List.mem_map.2 ⟨k, List.mem_range.2 hk, rfl⟩
      exact List.mem_range.1 (ho.1.mem_iff.1 this)
    rw [sorted_eq n lam ord ho, hE.2 i hi (ord k) hok]
    congr 1
    rw [List.getD_eq_getElem _ _ (by simpa using hk)]
    simp

/-- How many eigenvalues are kept: all for -1, the number asked for when it is between 1 and the number
of channels, and an error otherwise. -/
theorem C33_n_eigs (n : ℕ) (hn : 0 < n) (lam : ℕ → ℝ) (V : ℕ → ℕ → ℝ) (ord : ℕ → ℕ) (ms : Bool) (k : ℤ)
    (me : Option ℝ) (cm : CutMethod) :
    (k = -1 → ∃ st, computePca n lam V ord ms (.num k) me cm = .ok st ∧ st.nEigs = n) ∧
    (1 ≤ k ∧ k ≤ n → ∃ st, computePca n lam V ord ms (.num k) me cm = .ok st ∧ (st.nEigs : ℤ) = k) ∧
    (k ≠ -1 → ¬ (1 ≤ k ∧ k ≤ n) → computePca n lam V ord ms (.num k) me cm = .error .warningRaised) ∧
    computePca n lam V ord ms .auto none cm = .error .valueError := by
  have hlen : (sortDesc ((List.range n).map lam)).length = n := by
    rw [(sortDesc_perm _).length_eq]; simp
  refine ⟨?_, ?_, ?_, rfl⟩
  · rintro rfl
    unfold computePca nEigsFor
    simp only [if_true, hlen, nEigsSetter, if_neg (by omega : ¬ n ≤ 0), bind, Except.bind, pure,
      Except.pure]
    exact ⟨_, rfl, rfl⟩
  · rintro ⟨h1, h2⟩
    unfold computePca nEigsFor
    simp only [hlen, if_neg (by omega : ¬ k = -1), if_neg (by omega : ¬ (k < -1 ∨ (n : ℤ) < k ∨ k = 0)),
      nEigsSetter, if_neg (by omega : ¬ k.toNat ≤ 0), bind, Except.bind, pure, Except.pure]
    exact ⟨_, rfl, by simp; omega⟩
  · intro h1 h2
    unfold computePca nEigsFor
    simp only [hlen, if_neg h1, if_pos (by omega : (k < -1 ∨ (n : ℤ) < k ∨ k = 0)), bind, Except.bind]

private theorem sum_map_range (n : ℕ) (f : ℕ → ℝ) : ((List.range n).map f).sum = ∑ k ∈ range n, f k := by
  induction n with
  | zero => simp
  | succ n ih => rw [List.range_succ, List.map_append, List.sum_append, ih, sum_range_succ]; simp

private theorem sum_take_le {l : List ℝ} (h : ∀ x ∈ l, 0 ≤ x) {a b : ℕ} (hab : a ≤ b) :
    (l.take a).sum ≤ (l.take b).sum := by
  have : l.take b = l.take a ++ (l.take b).drop a := by
    conv_lhs => rw [← List.take_append_drop a (l.take b)]
    rw [List.take_take, min_eq_left hab]
  rw [this, List.sum_append]
  have : 0 ≤ ((l.take b).drop a).sum := List.sum_nonneg (fun x hx => h x
    (List.mem_of_mem_take (List.mem_of_mem_drop hx)))
  linarith

/-- The variance fraction of non-negative eigenvalues is between 0 and 1, does not decrease with the
number kept, and is 1 when all are kept; without mean subtraction the first eigenvalue is left out of
both sums. -/
theorem C33_fraction (ms : Bool) (e : List ℝ) (h0 : ∀ x ∈ e, 0 ≤ x) (ht : 0 < pcaTotal ms e) :
    (∀ k, ∃ v, pcaVarProp ms e k = some v ∧ 0 ≤ v ∧ v ≤ 1 ∧
      v * (if ms then e.sum else e.sum - e.getD 0 0) =
        (if ms then (e.take k).sum else (e.take k).sum - (e.take k).getD 0 0)) ∧
    (∀ k l v w, k ≤ l → pcaVarProp ms e k = some v → pcaVarProp ms e l = some w → v ≤ w) ∧
    pcaVarProp ms e e.length = some 1 := by
  have drop_sum : ∀ l : List ℝ, (l.drop 1).sum = l.sum - l.getD 0 0 := by
    intro l; cases l <;> simp
  have val : ∀ k, pcaVarProp ms e k = some ((if ms then (e.take k).sum else ((e.take k).drop 1).sum) /
      pcaTotal ms e) := by
    intro k
    unfold pcaVarProp
    simp [divO, ht.ne']
  have dt : ∀ k, (e.take k).drop 1 = (e.drop 1).take (k - 1) := by
    intro k
    rw [List.drop_take]
  have num_mono : ∀ k l, k ≤ l → (if ms then (e.take k).sum else ((e.take k).drop 1).sum) ≤
      (if ms then (e.take l).sum else ((e.take l).drop 1).sum) := by
    intro k l hkl
    cases ms
    · simp only [Bool.false_eq_true, if_false, dt]
      exact sum_take_le (fun x hx => h0 x (List.mem_of_mem_drop hx)) (by omega)
    · simp only [if_true]; exact sum_take_le h0 hkl
  have num_full : ∀ k, e.length ≤ k → (if ms then (e.take k).sum else ((e.take k).drop 1).sum) =
      pcaTotal ms e := by
    intro k hk
    rw [List.take_of_length_le hk]; rfl
  have num_nonneg : ∀ k, 0 ≤ (if ms then (e.take k).sum else ((e.take k).drop 1).sum) := by
    intro k
    have := num_mono 0 k (Nat.zero_le _)
    refine le_trans ?_ this
    cases ms <;> simp
  have num_le : ∀ k, (if ms then (e.take k).sum else ((e.take k).drop 1).sum) ≤ pcaTotal ms e := by
    intro k
    rw [← num_full (max k e.length) (le_max_right _ _)]
    exact num_mono _ _ (le_max_left _ _)
  refine ⟨?_, ?_, ?_⟩
  · intro k
    refine ⟨_, val k, div_nonneg (num_nonneg k) ht.le, (div_le_one ht).2 (num_le k), ?_⟩
    have e1 : (if ms then e.sum else e.sum - e.getD 0 0) = pcaTotal ms e := by
      unfold pcaTotal; rw [drop_sum]
    rw [e1, div_mul_cancel₀ _ ht.ne', drop_sum]
  · intro k l v w hkl hv hw
    rw [val] at hv hw
    cases hv; cases hw
    exact div_le_div_of_nonneg_right (num_mono k l hkl) ht.le
  · rw [val, num_full _ le_rfl, div_self ht.ne']

private theorem countP_prefix {l : List ℝ} (hs : l.Pairwise (fun a b => b ≤ a)) (t : ℝ) :
    (∀ x ∈ l.take (l.countP (fun v => decide (t ≤ v))), t ≤ x) ∧
    (∀ x ∈ l.drop (l.countP (fun v => decide (t ≤ v))), x < t) := by
  induction l with
  | nil => simp
  | cons a l ih =>
    rw [List.pairwise_cons] at hs
    obtain ⟨h1, h2⟩ := ih hs.2
    by_cases ha : t ≤ a
    · rw [List.countP_cons_of_pos (by simpa using ha)]
      constructor
      · intro x hx
        rw [List.take_succ_cons] at hx
        rcases List.mem_cons.1 hx with rfl | hx
        · exact ha
        · exact h1 x hx
      · intro x hx
        rw [List.drop_succ_cons] at hx
        exact h2 x hx
    · rw [List.countP_cons_of_neg (by simpa using ha)]
      have : l.countP (fun v => decide (t ≤ v)) = 0 := by
        rw [List.countP_eq_zero]
        intro x hx
        have := hs.1 x hx
        simp; linarith [not_le.1 ha]
      rw [this]
      constructor
      · intro x hx; simp at hx
      · intro x hx
        simp only [List.drop_zero] at hx
        rcases List.mem_cons.1 hx with rfl | hx
        · exact not_le.1 ha
        · exact lt_of_le_of_lt (hs.1 x hx) (not_le.1 ha)

/-- The cut by value keeps exactly the eigenvalues at or above the threshold, which are the first ones;
it is an error when there are none. -/
theorem C33_cut_by_value (n : ℕ) (lam : ℕ → ℝ) (V : ℕ → ℕ → ℝ) (ord : ℕ → ℕ) (ms : Bool) (t : ℝ) :
    (∀ st, computePca n lam V ord ms .auto (some t) .value = .ok st →
      1 ≤ st.nEigs ∧ (∀ x ∈ st.eigvals.take st.nEigs, t ≤ x) ∧ (∀ x ∈ st.eigvals.drop st.nEigs, x < t)) ∧
    ((∀ k < n, lam k < t) → computePca n lam V ord ms .auto (some t) .value = .error .valueError) := by
  have hp := sortDesc_perm ((List.range n).map lam)
  have hs := sortDesc_pairwise ((List.range n).map lam)
  set e := sortDesc ((List.range n).map lam) with he
  constructor
  · intro st h
    unfold computePca nEigsFor setNEigs at h
    rw [← he] at h
    simp only [bind, Except.bind, nEigsSetter] at h
    split_ifs at h with hc
    simp only [pure, Except.pure] at h
    cases h
    exact ⟨by simp only; omega, countP_prefix hs t⟩
  · intro h
    have hc : e.countP (fun v => decide (t ≤ v)) = 0 := by
      rw [List.countP_eq_zero]
      intro x hx
      obtain ⟨k, hk, rfl⟩ := List.mem_map.1 (hp.mem_iff.1 hx)
      simpa using h k (List.mem_range.1 hk)
    unfold computePca nEigsFor setNEigs
    rw [← he]
    simp only [hc, bind, Except.bind, nEigsSetter, le_refl, if_true]

private theorem countP_range_prefix (n : ℕ) (p : ℕ → Bool) (hp : ∀ i j, i ≤ j → p j = true → p i = true) :
    ∀ k < n, p k = true ↔ k < (List.range n).countP p := by
  induction n with
  | zero => intro k hk; omega
  | succ n ih =>
    intro k hk
    rw [List.range_succ, List.countP_append]
    by_cases hn : p n = true
    · have all : (List.range n).countP p = n := by
        rw [List.countP_eq_length.2 ?_, List.length_range]
        intro a ha
        exact hp a n (List.mem_range.1 ha).le hn
      rw [all]
      simp only [List.countP_cons, hn, List.countP_nil, if_true]
      constructor
      · intro _; omega
      · intro _; exact hp k n (by omega) hn
    · simp only [List.countP_cons, hn, List.countP_nil, Bool.false_eq_true, if_false, add_zero]
      rcases Nat.lt_succ_iff_lt_or_eq.1 hk with h | rfl
      · exact ih k h
      · constructor
        · intro h; exact absurd h hn
        · intro h
          have := List.countP_le_length (p := p) (l := List.range k)
          rw [List.length_range] at this
          omega

/-- The cut by proportion, for non-negative eigenvalues of positive sum: at least one is kept, and `m` is
at most the kept number exactly when the first `m` hold no more than the proportion `t` of the variance
(`m ≥ 2`; for `m = 1` one is kept anyway). -/
theorem C33_cut_by_proportion (n : ℕ) (lam : ℕ → ℝ) (h0 : ∀ k < n, 0 ≤ lam k)
    (hs : 0 < ∑ k ∈ range n, lam k) (V : ℕ → ℕ → ℝ) (ord : ℕ → ℕ) (ms : Bool) (t : ℝ) :
    ∃ st, computePca n lam V ord ms .auto (some t) .proportion = .ok st ∧ 1 ≤ st.nEigs ∧ st.nEigs ≤ n ∧
      ∀ m, 2 ≤ m → m ≤ n → (m ≤ st.nEigs ↔
        (st.eigvals.take m).sum ≤ t * ∑ k ∈ range n, lam k) := by
  have hp := sortDesc_perm ((List.range n).map lam)
  set e := sortDesc ((List.range n).map lam) with he
  have hsum : e.sum = ∑ k ∈ range n, lam k := by
    rw [hp.sum_eq, sum_map_range]
  have hlen : e.length = n := by rw [hp.length_eq]; simp
  have hpos : ∀ x ∈ e, 0 ≤ x := by
    intro x hx
    obtain ⟨k, hk, rfl⟩ := List.mem_map.1 (hp.mem_iff.1 hx)
    exact h0 k (List.mem_range.1 hk)
  have hn : 0 < n := by
    by_contra h
    have : n = 0 := by omega
    subst this; simp at hs
  set p : ℕ → Bool := fun k => leNan (cumFraction e k) t with hpdef
  have hpk : ∀ k, p k = true ↔ (e.take (k + 1)).sum ≤ t * e.sum := by
    intro k
    have hne : e.sum ≠ 0 := by rw [hsum]; exact hs.ne'
    have : cumFraction e k = some ((e.take (k + 1)).sum / e.sum) := by
      simp [cumFraction, divO, hne]
    simp only [hpdef, this, leNan, decide_eq_true_eq]
    rw [div_le_iff₀ (by rw [hsum]; exact hs)]
  have mono : ∀ i j, i ≤ j → p j = true → p i = true := by
    intro i j hij h
    rw [hpk] at h ⊢
    exact le_trans (sum_take_le hpos (by omega)) h
  have pre := countP_range_prefix n p mono
  have hle : (List.range n).countP p ≤ n := by
    have := List.countP_le_length (p := p) (l := List.range n)
    rwa [List.length_range] at this
  unfold computePca nEigsFor setNEigs
  rw [← he]
  simp only [hlen, ← hpdef]
  by_cases hc : (List.range n).countP p = 0
  · refine ⟨⟨e, fun i j => V i (ord j), 1, pcaTotal ms e, pcaVarProp ms e 1, ms⟩, ?_, le_refl _, ?_, ?_⟩
    · simp only [hc, bind, Except.bind, if_true, nEigsSetter, pure, Except.pure]
      rfl
    · exact hn
    · intro m h2 hm
      simp only
      have := pre (m - 1) (by omega)
      rw [hpk, hc, hsum, show m - 1 + 1 = m by omega] at this
      constructor
      · intro h; omega
      · intro h; have := this.1 h; omega
  · refine ⟨⟨e, fun i j => V i (ord j), (List.range n).countP p, pcaTotal ms e,
      pcaVarProp ms e ((List.range n).countP p), ms⟩, ?_, Nat.one_le_iff_ne_zero.2 hc, hle, ?_⟩
    · simp only [if_neg hc, bind, Except.bind, nEigsSetter, pure, Except.pure]
      rw [if_neg (by omega : ¬ (List.range n).countP p ≤ 0)]
    · intro m h2 hm
      simp only
      have := pre (m - 1) (by omega)
      rw [hpk, hsum, show m - 1 + 1 = m by omega] at this
      rw [this]; omega

/-- An unknown cut method is rejected. -/
theorem C33_unknown_method (n : ℕ) (lam : ℕ → ℝ) (V : ℕ → ℕ → ℝ) (ord : ℕ → ℕ) (ms : Bool) (t : ℝ) :
    computePca n lam V ord ms .auto (some t) .other = .error .valueError := rfl

/-- Without missing voxels all eigenvalues are non-negative, so the above applies to every such cube. -/
theorem C33_nonneg (eps : ℝ) (ms : Bool) (cube : Arr3 (Option ℝ)) (x : ℕ → ℕ → ℝ)
    (hx : Spec.FullCube cube x) (hN : 1 ≤ cube.m * cube.p) (lam : ℕ → ℝ) (V : ℕ → ℕ → ℝ)
    (hE : Spec.IsEigh cube.n (varCovCube eps ms cube).get lam V) (k : ℕ) (hk : k < cube.n) : 0 ≤ lam k := by
  have hpsd := C32_psd eps ms cube x hx hN (fun i => V i k)
  have : ∑ i ∈ range cube.n, ∑ j ∈ range cube.n, V i k * V j k * (varCovCube eps ms cube).get i j = lam k := by
    have h1 : ∀ i ∈ range cube.n, ∑ j ∈ range cube.n, V i k * V j k * (varCovCube eps ms cube).get i j
        = lam k * (V i k * V i k) := by
      intro i hi
      rw [← mul_assoc, mul_comm (lam k) (V i k), mul_assoc, ← hE.2 i (mem_range.1 hi) k hk, mul_sum]
      exact sum_congr rfl (fun j _ => by ring)
    rw [sum_congr rfl h1, ← mul_sum, hE.1 k hk k hk]
    simp
  rw [this] at hpsd
  exact hpsd

/-- With mean subtraction the total variance is the sum of the channel variances (the trace of the
covariance): nothing is lost by the decomposition. -/
theorem C33_total (n : ℕ) (C : ℕ → ℕ → ℝ) (lam : ℕ → ℝ) (V : ℕ → ℕ → ℝ) (ord : ℕ → ℕ)
    (hE : Spec.IsEigh n C lam V) (arg : NEigsArg) (me : Option ℝ) (cm : CutMethod) (st : PcaState)
    (h : computePca n lam V ord true arg me cm = .ok st) :
    st.total = ∑ i ∈ range n, C i i := by
  have ht : st.total = ∑ k ∈ range n, lam k := by
    unfold computePca at h
    simp only [bind, Except.bind, pure, Except.pure] at h
    split at h
    · cases h
    · cases h
      simp only [pcaTotal, if_true]
      rw [(sortDesc_perm _).sum_eq, sum_map_range]
  rw [ht]
  let M : Matrix (Fin n) (Fin n) ℝ := Matrix.of (fun i j => C i j)
  let U : Matrix (Fin n) (Fin n) ℝ := Matrix.of (fun i k => V i k)
  let L : Matrix (Fin n) (Fin n) ℝ := Matrix.diagonal (fun k => lam k)
  have h1 : U.transpose * U = 1 := by
    ext k l
    rw [Matrix.mul_apply, Matrix.one_apply]
    have := hE.1 k k.2 l l.2
    rw [Finset.sum_range] at this
    simp only [Matrix.transpose_apply, U, Matrix.of_apply]
    rw [this]
    simp [Fin.ext_iff]
  have h2 : M * U = U * L := by
    ext i k
    rw [Matrix.mul_apply, Matrix.mul_diagonal]
    have := hE.2 i i.2 k k.2
    rw [Finset.sum_range] at this
    simp only [M, U, Matrix.of_apply]
    rw [this]; ring
  have h3 : U * U.transpose = 1 := by
    rwa [mul_eq_one_comm]
  have h4 : M = U * L * U.transpose := by
    rw [← h2, Matrix.mul_assoc, h3, Matrix.mul_one]
  have h5 : Matrix.trace M = Matrix.trace L := by
    rw [h4, Matrix.trace_mul_comm, ← Matrix.mul_assoc, h1, Matrix.one_mul]
  rw [Finset.sum_range, Finset.sum_range]
  simp only [Matrix.trace, Matrix.diag, M, L, Matrix.diagonal_apply_eq, Matrix.of_apply] at h5
  exact h5.symm

/-- The stored variance fraction of a result: of non-negative eigenvalues with a positive total it is the
kept sum over the whole sum (without the first eigenvalue in either when no mean was subtracted), and it
is between 0 and 1; keeping all gives 1, and keeping more never gives less. -/
theorem C33_var_proportion (n : ℕ) (lam : ℕ → ℝ) (h0 : ∀ k < n, 0 ≤ lam k) (V : ℕ → ℕ → ℝ) (ord : ℕ → ℕ) (ms : Bool)
    (arg : NEigsArg) (me : Option ℝ) (cm : CutMethod) (st : PcaState) (h : computePca n lam V ord ms arg me cm = .ok st)
    (ht : 0 < (if ms then st.eigvals.sum else st.eigvals.sum - st.eigvals.getD 0 0)) :
    st.total = (if ms then st.eigvals.sum else st.eigvals.sum - st.eigvals.getD 0 0) ∧
    ∃ v, st.varProp = some v ∧ 0 ≤ v ∧ v ≤ 1 ∧
      v * st.total = (if ms then (st.eigvals.take st.nEigs).sum
        else (st.eigvals.take st.nEigs).sum - (st.eigvals.take st.nEigs).getD 0 0) ∧
      (st.nEigs = n → v = 1) ∧
      ∀ arg' me' cm' st', computePca n lam V ord ms arg' me' cm' = .ok st' → st.nEigs ≤ st'.nEigs →
        ∃ v', st'.varProp = some v' ∧ v ≤ v' := by
  have hs := C33_sorted n lam V ord ms arg me cm st h
  have shape : ∀ arg me cm st, computePca n lam V ord ms arg me cm = .ok st →
      st.eigvals = sortDesc ((List.range n).map lam) ∧ st.varProp = pcaVarProp ms st.eigvals st.nEigs ∧
        st.total = pcaTotal ms st.eigvals := by
    intro arg me cm st h
    unfold computePca at h
    simp only [bind, Except.bind, pure, Except.pure] at h
    split at h
    · cases h
    · cases h
      exact ⟨rfl, rfl, rfl⟩
  obtain ⟨q1, q2, q3⟩ := shape _ _ _ _ h
  have hT : pcaTotal ms st.eigvals = (if ms then st.eigvals.sum else st.eigvals.sum - st.eigvals.getD 0 0) := by
    unfold pcaTotal
    cases ms
    · cases st.eigvals <;> simp
    · rfl
  have hn : ∀ x ∈ st.eigvals, 0 ≤ x := by
    intro x hx
    obtain ⟨k, hk, rfl⟩ := List.mem_map.1 (hs.1.mem_iff.1 hx)
    exact h0 k (List.mem_range.1 hk)
  obtain ⟨f1, f2, f3⟩ := C33_fraction ms st.eigvals hn (by rw [hT]; exact ht)
  obtain ⟨v, v1, v2, v3, v4⟩ := f1 st.nEigs
  refine ⟨q3.trans hT, v, q2.trans v1, v2, v3, by rw [q3, hT]; exact v4, ?_, ?_⟩
  · intro e
    rw [e, ← hs.2.2, f3] at v1
    exact (Option.some.inj v1).symm
  · intro arg' me' cm' st' h' hle
    obtain ⟨r1, r2, r3⟩ := shape _ _ _ _ h'
    obtain ⟨w, w1, -⟩ := f1 st'.nEigs
    refine ⟨w, by rw [r2, r1, ← q1]; exact w1, f2 _ _ _ _ hle v1 w1⟩

/-- The eigenvalues found by `eigh` are determined by the matrix, up to their order. -/
theorem eigh_perm (n : ℕ) (C C' : ℕ → ℕ → ℝ) (hC : ∀ i < n, ∀ j < n, C i j = C' i j) (lam lam' : ℕ → ℝ) (V V' : ℕ → ℕ → ℝ)
    (h : Spec.IsEigh n C lam V) (h' : Spec.IsEigh n C' lam' V') :
    ((List.range n).map lam).Perm ((List.range n).map lam') := by
  have key : ∀ (C : ℕ → ℕ → ℝ) (lam : ℕ → ℝ) (V : ℕ → ℕ → ℝ), Spec.IsEigh n C lam V →
      (Matrix.of (fun i j : Fin n => C i j)).charpoly.roots = (((List.range n).map lam : List ℝ) : Multiset ℝ) := by
    intro C lam V hE
    let M : Matrix (Fin n) (Fin n) ℝ := Matrix.of (fun i j : Fin n => C i j)
    let U : Matrix (Fin n) (Fin n) ℝ := Matrix.of (fun i j : Fin n => V i j)
    let L : Matrix (Fin n) (Fin n) ℝ := Matrix.diagonal (fun k : Fin n => lam k)
    have h1 : U.transpose * U = 1 := by
      ext k l
      rw [Matrix.mul_apply, Matrix.one_apply]
      have := hE.1 k k.2 l l.2
      rw [Finset.sum_range] at this
      simpa [U, Matrix.transpose_apply, Fin.ext_iff] using this
    have h2 : M * U = U * L := by
      ext i k
      rw [Matrix.mul_apply, Matrix.mul_diagonal]
      have := hE.2 i i.2 k k.2
      rw [Finset.sum_range] at this
      simp only [M, U, Matrix.of_apply]
      rw [this]; ring
    have h3 : U * U.transpose = 1 := by rwa [mul_eq_one_comm]
    have h4 : M = (U * L) * U.transpose := by
      rw [← h2, Matrix.mul_assoc, h3, Matrix.mul_one]
    have h5 : M.charpoly = L.charpoly := by
      rw [h4, Matrix.charpoly_mul_comm, ← Matrix.mul_assoc, h1, Matrix.one_mul]
    show M.charpoly.roots = _
    rw [h5, Matrix.charpoly_diagonal, ← Finset.prod_range (fun i => Polynomial.X - Polynomial.C (lam i))]
    have := Polynomial.roots_multiset_prod_X_sub_C (((List.range n).map lam : List ℝ) : Multiset ℝ)
    rw [← Multiset.map_coe, Multiset.map_map] at this
    exact this
  have e := key C lam V h
  rw [show (Matrix.of (fun i j : Fin n => C i j)) = Matrix.of (fun i j : Fin n => C' i j) from by
    ext i j; exact hC i i.2 j j.2, key C' lam' V' h'] at e
  exact (Multiset.coe_eq_coe.1 e).symm

/-- Everything but the eigenvectors is determined by the covariance matrix: whichever eigenvectors and
order `eigh` and `argsort` return, the eigenvalues, the number kept, the total, the variance fraction and
the errors are the same. -/
theorem C33_determined (n : ℕ) (C : ℕ → ℕ → ℝ) (lam lam' : ℕ → ℝ) (V V' : ℕ → ℕ → ℝ) (ord ord' : ℕ → ℕ)
    (h : Spec.IsEigh n C lam V) (h' : Spec.IsEigh n C lam' V') (ms : Bool) (arg : NEigsArg) (me : Option ℝ) (cm : CutMethod) :
    (computePca n lam V ord ms arg me cm).map (fun st => (st.eigvals, st.nEigs, st.total, st.varProp)) =
      (computePca n lam' V' ord' ms arg me cm).map (fun st => (st.eigvals, st.nEigs, st.total, st.varProp)) := by
  have hp := eigh_perm n C C (fun _ _ _ _ => rfl) lam lam' V V' h h'
  have hs : sortDesc ((List.range n).map lam) = sortDesc ((List.range n).map lam') :=
    List.Perm.eq_of_pairwise (fun a b _ _ h1 h2 => le_antisymm h2 h1) (sortDesc_pairwise _) (sortDesc_pairwise _)
      ((sortDesc_perm _).trans (hp.trans (sortDesc_perm _).symm))
  unfold computePca
  rw [hs]
  simp only [bind, Except.bind, pure, Except.pure]
  cases nEigsFor arg me cm (sortDesc ((List.range n).map lam')) <;> simp only [Except.map]

/-- Every symmetric matrix has an `eigh` decomposition. -/
theorem eigh_exists (n : ℕ) (C : ℕ → ℕ → ℝ) (hC : ∀ i < n, ∀ j < n, C i j = C j i) : ∃ lam V, Spec.IsEigh n C lam V := by
  let M : Matrix (Fin n) (Fin n) ℝ := Matrix.of (fun i j : Fin n => C i j)
  have hA : M.IsHermitian := by
    ext i j
    simp only [M, Matrix.conjTranspose_apply, Matrix.of_apply, star_trivial]
    exact hC j j.2 i i.2
  refine ⟨fun k => if h : k < n then hA.eigenvalues ⟨k, h⟩ else 0, fun i k => if h : i < n then if h' : k < n then hA.eigenvectorBasis ⟨k, h'⟩ ⟨i, h⟩ else 0 else 0, ?_, ?_⟩
  · intro k hk l hl
    rw [Finset.sum_range]
    have := orthonormal_iff_ite.1 hA.eigenvectorBasis.orthonormal ⟨l, hl⟩ ⟨k, hk⟩
    simp only [PiLp.inner_apply, Fin.mk.injEq] at this
    simp only [hk, hl, Fin.is_lt, dif_pos, Fin.eta]
    simpa [mul_comm, eq_comm] using this
  · intro i hi k hk
    rw [Finset.sum_range]
    have := congrFun (hA.mulVec_eigenvectorBasis ⟨k, hk⟩) ⟨i, hi⟩
    simp only [hk, hi, Fin.is_lt, dif_pos, Fin.eta]
    simpa [Matrix.mulVec, dotProduct, M] using this

/-- Every list of values has a non-increasing order. -/
theorem order_exists (n : ℕ) (lam : ℕ → ℝ) : ∃ ord, Spec.IsOrder n lam ord := by
  have : Std.Total (fun a b : ℕ => lam b ≤ lam a) := ⟨fun a b => le_total _ _⟩
  have : IsTrans ℕ (fun a b => lam b ≤ lam a) := ⟨fun a b c h1 h2 => le_trans h2 h1⟩
  classical
  set l := List.insertionSort (fun a b : ℕ => lam b ≤ lam a) (List.range n) with hl
  have hp : l.Perm (List.range n) := List.perm_insertionSort _ _
  have hw : l.Pairwise (fun a b => lam b ≤ lam a) := List.pairwise_insertionSort _ _
  have hlen : l.length = n := by rw [hp.length_eq]; simp
  refine ⟨fun k => l.getD k 0, ?_, ?_⟩
  · have e : (List.range n).map (fun k => l.getD k 0) = l := by
      apply List.ext_getElem
      · simp [hlen]
      · intro i h1 h2
        rw [List.getElem_map, List.getElem_range, List.getD_eq_getElem _ _ h2]
    rw [e]; exact hp
  · intro i j hij hj
    simp only
    rw [List.getD_eq_getElem _ _ (by omega), List.getD_eq_getElem _ _ (by omega)]
    rcases hij.eq_or_lt with rfl | hlt
    · exact le_refl _
    · exact List.pairwise_iff_getElem.1 hw i j _ _ hlt

/-- The contracts of `eigh` and `argsort` assumed above can be met for every cube. -/
theorem C33_contracts_met (eps : ℝ) (ms : Bool) (cube : Arr3 (Option ℝ)) :
    ∃ lam V ord, Spec.IsEigh cube.n (varCovCube eps ms cube).get lam V ∧ Spec.IsOrder cube.n lam ord := by
  obtain ⟨lam, V, h⟩ := eigh_exists cube.n (varCovCube eps ms cube).get (fun i _ j _ => C32_symmetric eps ms cube i j)
  obtain ⟨ord, ho⟩ := order_exists cube.n lam
  exact ⟨lam, V, ord, h, ho⟩

/-- Non-vacuity: a diagonal covariance with its unit vectors. -/
example : Spec.IsEigh 2 (fun i j => if i = j then (i : ℝ) + 1 else 0) (fun k => (k : ℝ) + 1)
    (fun i k => if i = k then 1 else 0) ∧ Spec.IsOrder 2 (fun k => (k : ℝ) + 1) (fun k => 1 - k) := by
  refine ⟨⟨?_, ?_⟩, ?_, ?_⟩
  · intro k hk l hl
    interval_cases k <;> interval_cases l <;> simp [Finset.sum_range_succ]
  · intro i hi k hk
    interval_cases i <;> interval_cases k <;> simp [Finset.sum_range_succ]
  · decide
  · intro i j hij hj
    have : 1 - j ≤ 1 - i := by omega
    simpa using this
example : 0 < pcaTotal false [3, 2, 1] ∧ pcaVarProp false [3, 2, 1] 2 = some (2 / 3) := by
  constructor <;> norm_num [pcaTotal, pcaVarProp, divO]

end TS
