import Verif.Model.ResidBoot
import Verif.Spec.Boot
import Mathlib.Analysis.InnerProductSpace.PiL2
import Mathlib.Analysis.InnerProductSpace.Projection.Minimal
import Mathlib.Tactic.LinearCombination
import Mathlib.Tactic.Linarith
import Mathlib.Tactic.Ring
import Mathlib.Tactic.FieldSimp
import Mathlib.Tactic.Positivity

namespace TS
open Spec

variable {n p : ℕ}

theorem predict_add (X : Fin n → Fin p → ℝ) (a b : Fin p → ℝ) (i : Fin n) :
    predict X (fun j => a j + b j) i = predict X a i + predict X b i := by
  simp [predict, mul_add, Finset.sum_add_distrib]

theorem predict_smul (X : Fin n → Fin p → ℝ) (c : ℝ) (b : Fin p → ℝ) (i : Fin n) :
    predict X (fun j => c * b j) i = c * predict X b i := by
  simp only [predict, Finset.mul_sum]
  exact Finset.sum_congr rfl fun j _ => by ring

/-- The residual is orthogonal to every column. -/
def Normal (X : Fin n → Fin p → ℝ) (y : Fin n → ℝ) (b : Fin p → ℝ) : Prop :=
  ∀ v, ∑ i, (y i - predict X b i) * predict X v i = 0

theorem lsq_normal {X : Fin n → Fin p → ℝ} {y b} (h : IsLsq X y b) : Normal X y b := by
  intro v
  set A := ∑ i, (y i - predict X b i) * predict X v i with hA
  set B := ∑ i, predict X v i ^ 2 with hB
  have key : ∀ t : ℝ, 0 ≤ t ^ 2 * B - 2 * t * A := by
    intro t
    have := h (fun j => b j + t * v j)
    have e : ∀ i, (y i - predict X (fun j => b j + t * v j) i) ^ 2
        = (y i - predict X b i) ^ 2 + (t ^ 2 * predict X v i ^ 2 - 2 * t * ((y i - predict X b i) * predict X v i)) := by
      intro i
      rw [predict_add X b (fun j => t * v j), predict_smul]; ring
    simp only [e, Finset.sum_add_distrib, Finset.sum_sub_distrib, ← Finset.mul_sum] at this
    linarith
  have hB0 : 0 ≤ B := Finset.sum_nonneg fun i _ => sq_nonneg _
  have h1 := key (A / (B + 1))
  have hp : 0 < B + 1 := by linarith
  have e : (A / (B + 1)) ^ 2 * B - 2 * (A / (B + 1)) * A = - (A ^ 2 * (B + 2)) / (B + 1) ^ 2 := by
    field_simp; ring
  rw [e] at h1
  have h2 : 0 ≤ -(A ^ 2 * (B + 2)) := by
    by_contra hc
    exact absurd h1 (not_le.mpr (div_neg_of_neg_of_pos (not_le.mp hc) (by positivity)))
  have : A ^ 2 = 0 := by nlinarith [sq_nonneg A]
  exact pow_eq_zero_iff (two_ne_zero) |>.mp this

theorem normal_lsq {X : Fin n → Fin p → ℝ} {y b} (h : Normal X y b) : IsLsq X y b := by
  intro b'
  have := h (fun j => b' j + (-1) * b j)
  have e : ∀ i, (y i - predict X b' i) ^ 2 = (y i - predict X b i) ^ 2
      + (predict X (fun j => b' j + (-1) * b j) i ^ 2
        - 2 * ((y i - predict X b i) * predict X (fun j => b' j + (-1) * b j) i)) := by
    intro i
    rw [predict_add X b' (fun j => (-1) * b j), predict_smul]; ring
  simp only [e, Finset.sum_add_distrib, Finset.sum_sub_distrib, ← Finset.mul_sum, this]
  have : 0 ≤ ∑ i, predict X (fun j => b' j + (-1) * b j) i ^ 2 := Finset.sum_nonneg fun i _ => sq_nonneg _
  linarith

theorem normal_unique {X : Fin n → Fin p → ℝ} (hX : Independent X) {y b b'} (h : Normal X y b) (h' : Normal X y b') : b = b' := by
  have hz : ∀ i, predict X (fun j => b j + (-1) * b' j) i = 0 := by
    have e : ∑ i, predict X (fun j => b j + (-1) * b' j) i ^ 2 = 0 := by
      have a1 := h (fun j => b j + (-1) * b' j)
      have a2 := h' (fun j => b j + (-1) * b' j)
      have : ∀ i, predict X (fun j => b j + (-1) * b' j) i ^ 2
          = (y i - predict X b' i) * predict X (fun j => b j + (-1) * b' j) i
            - (y i - predict X b i) * predict X (fun j => b j + (-1) * b' j) i := by
        intro i
        rw [predict_add X b (fun j => (-1) * b' j), predict_smul]; ring
      simp only [this, Finset.sum_sub_distrib, a1, a2, sub_zero]
    intro i
    have := (Finset.sum_eq_zero_iff_of_nonneg (fun i _ => sq_nonneg _)).mp e i (Finset.mem_univ i)
    exact pow_eq_zero_iff (two_ne_zero) |>.mp this
  have := hX _ hz
  funext j
  have := congrFun this j
  simp at this; linarith

theorem boot_lsq_unique {X : Fin n → Fin p → ℝ} (hX : Independent X) {y b b'} (h : IsLsq X y b) (h' : IsLsq X y b') : b = b' :=
  normal_unique hX (lsq_normal h) (lsq_normal h')

theorem normal_comb {X : Fin n → Fin p → ℝ} {y z b d} (c e : ℝ) (h : Normal X y b) (h' : Normal X z d) :
    Normal X (fun i => c * y i + e * z i) (fun j => c * b j + e * d j) := by
  intro v
  have : ∀ i, (c * y i + e * z i - predict X (fun j => c * b j + e * d j) i) * predict X v i
      = c * ((y i - predict X b i) * predict X v i) + e * ((z i - predict X d i) * predict X v i) := by
    intro i
    rw [predict_add X (fun j => c * b j) (fun j => e * d j), predict_smul, predict_smul]; ring
  simp only [this, Finset.sum_add_distrib, ← Finset.mul_sum, h v, h' v]; ring

theorem normal_exact (X : Fin n → Fin p → ℝ) (b) : Normal X (predict X b) b := by intro v; simp

theorem ols_eq {ols : Ols} (ho : Regression ols) {X : Fin n → Fin p → ℝ} (hX : Independent X) {y b} (h : Normal X y b) :
    ols n p X y = b := normal_unique hX (lsq_normal (ho n p X y)) h

theorem ols_comb {ols : Ols} (ho : Regression ols) {X : Fin n → Fin p → ℝ} (hX : Independent X) (c e : ℝ) (y z : Fin n → ℝ) :
    ols n p X (fun i => c * y i + e * z i) = fun j => c * ols n p X y j + e * ols n p X z j :=
  ols_eq ho hX (normal_comb c e (lsq_normal (ho n p X y)) (lsq_normal (ho n p X z)))

/-! ### The standard deviation -/

theorem bootStd_nonneg (l : List ℝ) : 0 ≤ bootStd l := Real.sqrt_nonneg _

theorem bootStd_spread (l : List ℝ) : IsSpread l (bootStd l) := by
  refine ⟨bootStd_nonneg l, ?_⟩
  unfold bootStd
  rw [Real.sq_sqrt]
  · simp [sampleMean]
  · apply div_nonneg _ (Nat.cast_nonneg _)
    apply List.sum_nonneg
    intro x hx
    obtain ⟨v, _, rfl⟩ := List.mem_map.mp hx
    exact sq_nonneg _

theorem spread_unique {l : List ℝ} {s t : ℝ} (h : IsSpread l s) (h' : IsSpread l t) : s = t := by
  have : s ^ 2 = t ^ 2 := h.2.trans h'.2.symm
  exact (pow_left_inj₀ h.1 h'.1 two_ne_zero).mp this

theorem avg_affine (l : List ℝ) (hl : l ≠ []) (c d : ℝ) : sampleMean (l.map fun v => c * v + d) = c * sampleMean l + d := by
  have hn : (l.length : ℝ) ≠ 0 := by
    have := List.length_pos_of_ne_nil hl
    positivity
  have : (l.map fun v => c * v + d).sum = c * l.sum + l.length * d := by
    clear hl hn
    induction l with
    | nil => simp
    | cons a l ih => simp [ih]; ring
  simp only [sampleMean, this, List.length_map]
  field_simp

theorem avg_scale (l : List ℝ) (c : ℝ) : sampleMean (l.map fun v => c * v) = c * sampleMean l := by
  by_cases h : l = []
  · simp [h, sampleMean]
  · simpa using avg_affine l h c 0

theorem spread_affine {l : List ℝ} (hl : l ≠ []) {s : ℝ} (c d : ℝ) (h : IsSpread l s) :
    IsSpread (l.map fun v => c * v + d) (|c| * s) := by
  refine ⟨mul_nonneg (abs_nonneg _) h.1, ?_⟩
  rw [avg_affine l hl, mul_pow, sq_abs, h.2, List.map_map, ← avg_scale, List.map_map]
  congr 1
  apply List.map_congr_left
  intro v _
  simp only [Function.comp]; ring

theorem bootStd_affine {l : List ℝ} (hl : l ≠ []) (c d : ℝ) : bootStd (l.map fun v => c * v + d) = |c| * bootStd l :=
  spread_unique (bootStd_spread _) (spread_affine hl c d (bootStd_spread l))

/-! ### The returned errors -/

theorem residualBootstrap_two (ols : Ols) (m : LinModel n p) {draws : List (Fin n → Fin n)} (hn : 2 ≤ n) (hd : 2 ≤ draws.length) :
    residualBootstrap ols m draws = .ok (.perParam fun j => bootStd (draws.map fun d => bootSample ols m d j)) := by
  match draws, hd with
  | a :: b :: l, _ =>
    have : ¬ (n ≤ 1 ∧ a :: b :: l ≠ []) := by omega
    simp only [residualBootstrap, bootSamples, this, if_false]
    simp [bind, Except.bind, pure, Except.pure, Function.comp_def]

/-- A change of the data that acts on every resampled fit as `v ↦ c v + b` multiplies the errors by `|c|`. -/
theorem boot_affine (ols : Ols) (m m' : LinModel n p) {draws : List (Fin n → Fin n)} (hd : 2 ≤ draws.length) (c : ℝ)
    (b : Fin p → ℝ) (h : ∀ d, bootSample ols m' d = fun j => c * bootSample ols m d j + b j) (j : Fin p) :
    bootStd (draws.map fun d => bootSample ols m' d j) = |c| * bootStd (draws.map fun d => bootSample ols m d j) := by
  have hne : (draws.map fun d => bootSample ols m d j) ≠ [] := by
    intro e; have := congrArg List.length e; simp at this; subst this; simp at hd
  rw [← bootStd_affine hne c (b j), List.map_map]
  congr 1
  apply List.map_congr_left
  intro d _
  simp [h d]

/-! ### Whitening -/

theorem predict_wexog (m : LinModel n p) (b : Fin p → ℝ) (i : Fin n) :
    predict m.wexog b i = Real.sqrt (m.weights i) * predict m.exog b i := by
  simp only [predict, LinModel.wexog, Finset.mul_sum]
  exact Finset.sum_congr rfl fun j _ => by ring

theorem wresid_eq (ols : Ols) (m : LinModel n p) (i : Fin n) :
    m.wresid ols i = m.wendog i - predict m.wexog (m.params ols) i := rfl

theorem wexog_independent (m : LinModel n p) (hX : Independent m.exog) (hw : ∀ i, 0 < m.weights i) : Independent m.wexog := by
  intro b hb
  apply hX b
  intro i
  have := hb i
  rw [predict_wexog] at this
  exact (mul_eq_zero.mp this).resolve_left (Real.sqrt_pos.mpr (hw i)).ne'

theorem params_wlsq {ols : Ols} (ho : Regression ols) (m : LinModel n p) (hw : ∀ i, 0 ≤ m.weights i) :
    IsWlsq m.exog m.weights m.endog (m.params ols) := by
  intro b'
  have := ho n p m.wexog m.wendog b'
  have e : ∀ b i, (m.wendog i - predict m.wexog b i) ^ 2 = m.weights i * (m.endog i - predict m.exog b i) ^ 2 := by
    intro b i
    rw [predict_wexog, LinModel.wendog, ← mul_sub, mul_pow, Real.sq_sqrt (hw i)]
  simp only [e] at this
  exact this

/-- The constant part of the resampled fits does not depend on the draw. -/
theorem bootSample_split {ols : Ols} (ho : Regression ols) (m : LinModel n p) (hX : Independent m.exog) (d : Fin n → Fin n) :
    bootSample ols m d = fun j => ols n p m.exog m.wendog j + ols n p m.exog (fun i => m.wresid ols (d i)) j := by
  have := ols_comb ho hX 1 1 m.wendog (fun i => m.wresid ols (d i))
  simpa [bootSample] using this

theorem params_affine {ols : Ols} (ho : Regression ols) (m : LinModel n p) (hX : Independent m.exog) (hw : ∀ i, 0 < m.weights i)
    {k : ℝ} (hk : 0 < k) (c : ℝ) (b : Fin p → ℝ) :
    LinModel.params ols ⟨m.exog, fun i => c * m.endog i + predict m.exog b i, fun i => k * m.weights i⟩
      = fun j => c * m.params ols j + b j := by
  set m' : LinModel n p := ⟨m.exog, fun i => c * m.endog i + predict m.exog b i, fun i => k * m.weights i⟩ with hm'
  have hI : Independent m'.wexog := wexog_independent m' hX (fun i => mul_pos hk (hw i))
  apply ols_eq ho hI
  intro v
  have h0 := lsq_normal (ho n p m.wexog m.wendog) v
  have e : ∀ i, (m'.wendog i - predict m'.wexog (fun j => c * m.params ols j + b j) i) * predict m'.wexog v i
      = k * c * ((m.wendog i - predict m.wexog (ols n p m.wexog m.wendog) i) * predict m.wexog v i) := by
    intro i
    simp only [predict_wexog, LinModel.wendog, hm']
    rw [Real.sqrt_mul hk.le, predict_add m.exog (fun j => c * m.params ols j) b, predict_smul]
    have hs := Real.mul_self_sqrt hk.le
    simp only [LinModel.params]
    linear_combination (c * (√(m.weights i) * m.endog i - √(m.weights i) * predict m.exog (ols n p m.wexog m.wendog) i)
      * (√(m.weights i) * predict m.exog v i)) * hs
  simp only [e, ← Finset.mul_sum, h0, mul_zero]

theorem wresid_affine {ols : Ols} (ho : Regression ols) (m : LinModel n p) (hX : Independent m.exog) (hw : ∀ i, 0 < m.weights i)
    {k : ℝ} (hk : 0 < k) (c : ℝ) (b : Fin p → ℝ) (i : Fin n) :
    LinModel.wresid ols ⟨m.exog, fun i => c * m.endog i + predict m.exog b i, fun i => k * m.weights i⟩ i
      = √k * c * m.wresid ols i := by
  rw [wresid_eq, wresid_eq, params_affine ho m hX hw hk c b]
  simp only [predict_wexog, LinModel.wendog]
  rw [Real.sqrt_mul hk.le, predict_add m.exog (fun j => c * m.params ols j) b, predict_smul]
  ring

theorem bootSample_affine {ols : Ols} (ho : Regression ols) (m : LinModel n p) (hX : Independent m.exog) (hw : ∀ i, 0 < m.weights i)
    {k : ℝ} (hk : 0 < k) (c : ℝ) (b : Fin p → ℝ) : ∃ s : Fin p → ℝ, ∀ d,
    bootSample ols ⟨m.exog, fun i => c * m.endog i + predict m.exog b i, fun i => k * m.weights i⟩ d
      = fun j => √k * c * bootSample ols m d j + s j := by
  set m' : LinModel n p := ⟨m.exog, fun i => c * m.endog i + predict m.exog b i, fun i => k * m.weights i⟩ with hm'
  refine ⟨fun j => ols n p m.exog m'.wendog j - √k * c * ols n p m.exog m.wendog j, fun d => ?_⟩
  rw [bootSample_split ho m' hX, bootSample_split ho m hX]
  have := ols_comb ho hX (√k * c) 0 (fun i => m.wresid ols (d i)) (fun _ => 0)
  have e : (fun i => m'.wresid ols (d i)) = fun i => √k * c * m.wresid ols (d i) + 0 * 0 := by
    funext i; rw [wresid_affine ho m hX hw hk c b]; ring
  rw [e]
  funext j
  rw [show m'.exog = m.exog from rfl, this]
  ring

/-! ### Designs -/

theorem line_independent (x : Fin n → ℝ) {i j : Fin n} (h : x i ≠ x j) : Independent (lineDesign x) := by
  intro b hb
  have h1 := hb i
  have h2 := hb j
  simp only [predict, lineDesign, Fin.sum_univ_two, Matrix.cons_val_zero, Matrix.cons_val_one, one_mul] at h1 h2
  have e : (x i - x j) * b 1 = 0 := by linarith
  have b1 : b 1 = 0 := (mul_eq_zero.mp e).resolve_left (sub_ne_zero.mpr h)
  have b0 : b 0 = 0 := by rw [b1] at h1; linarith
  funext k
  fin_cases k
  · exact b0
  · exact b1

theorem bootSlopeErr_eq (ols : Ols) (x y w : Fin n → ℝ) {draws : List (Fin n → Fin n)} (hn : 2 ≤ n) (hd : 2 ≤ draws.length) :
    bootSlopeErr ols x y w draws = .ok (bootStd (draws.map fun d => bootSample ols ⟨lineDesign x, y, w⟩ d 1)) := by
  simp [bootSlopeErr, residualBootstrap_two ols _ hn hd, bind, Except.bind, BootOut.at]

/-- A regression exists. -/
theorem exists_regression : ∃ ols : Ols, Regression ols := by
  have key : ∀ n p (X : Fin n → Fin p → ℝ) (y : Fin n → ℝ), ∃ b, IsLsq X y b := by
    intro n p X y
    let f : (Fin p → ℝ) →ₗ[ℝ] EuclideanSpace ℝ (Fin n) :=
      { toFun := fun b => WithLp.toLp 2 (fun i => predict X b i)
        map_add' := fun a b => by ext i; exact predict_add X a b i
        map_smul' := fun c b => by ext i; exact predict_smul X c b i }
    have hc : IsComplete (LinearMap.range f : Set (EuclideanSpace ℝ (Fin n))) :=
      (Submodule.closed_of_finiteDimensional (LinearMap.range f)).isComplete
    obtain ⟨v, hv, hmin⟩ := Submodule.exists_norm_eq_iInf_of_complete_subspace _ hc (WithLp.toLp 2 y)
    have ho := (Submodule.norm_eq_iInf_iff_inner_eq_zero _ hv).mp hmin
    obtain ⟨b, rfl⟩ := hv
    refine ⟨b, normal_lsq fun u => ?_⟩
    have := ho (f u) ⟨u, rfl⟩
    simpa [f, PiLp.inner_apply, mul_comm] using this
  choose ols h using key
  exact ⟨ols, h⟩

end TS
