import Verif.Model.EllipFit
import Verif.Lemmas.Psds
import Verif.Lemmas.PlawFit
import Verif.Props.C14
import Mathlib.Tactic.Linarith
import Mathlib.Tactic.FieldSimp

/-! C80 — the elliptical power-law fit of 2D surfaces (`fit_2Dpspec`, `SCF.fit_2Dplaw`). -/

namespace TS
open Finset

namespace Spec

/-- log10 of an elliptical power law: index `gamma` in the radius of the ellipse with axis ratio `q` whose
long axis points along `(cos theta, -sin theta)`. -/
noncomputable def ellipSurface (amp q theta gamma x y : ℝ) : ℝ :=
  amp + gamma * log10 (Real.sqrt (q ^ 2 * (x * Real.cos theta - y * Real.sin theta) ^ 2 +
    (x * Real.sin theta + y * Real.cos theta) ^ 2))

/-- The parameter bounds declared by the model class (elliptical_powerlaw.py:232-235). -/
def InBounds (p : EllipPar) : Prop :=
  -10 ≤ p.amp ∧ (∀ t, p.e = some t → |t| ≤ 50) ∧ |p.theta| ≤ Real.pi ∧ |p.gamma| ≤ 20

/-- The parameters reproduce every point. -/
def Reproduces (p : EllipPar) (d : List (ℝ × ℝ × ℝ)) : Prop :=
  ∀ q ∈ d, q.2.2 = p.eval q.1 q.2.1

/-- A fitter that, from this starting point, reproduces every data set some allowed parameters reproduce. -/
def Converges (lm : LevMar) (fix : Bool) (start : EllipPar) : Prop :=
  ∀ w d p, InBounds p → (fix = true → p.e = none) → Reproduces p d → Reproduces (lm fix w start d).1 d

/-- Points that determine an ellipse: two radii on the x axis, one point on the y axis and one off the axes. -/
def Determining (S : ℝ → ℝ → Prop) : Prop :=
  ∃ a b c d e : ℝ, a ≠ 0 ∧ b ≠ 0 ∧ a ^ 2 ≠ b ^ 2 ∧ c ≠ 0 ∧ d ≠ 0 ∧ e ≠ 0 ∧ S a 0 ∧ S b 0 ∧ S 0 c ∧ S d e

end Spec
open Spec

/-- The model is the elliptical power law. -/
theorem C80_surface (p : EllipPar) (x y : ℝ) (h : x ≠ 0 ∨ y ≠ 0) :
    p.eval x y = ellipSurface p.amp (ellipOf p.e) p.theta p.gamma x y := by
  have hpos := C14_positive x y p.theta p.e h
  unfold EllipPar.eval ellipEvaluate ellipSurface
  simp only
  rw [if_neg hpos.ne', ← C14_ellipse]
  have : log10 (Real.sqrt (ellipQuad x y (ellipOf p.e) p.theta)) =
      (1 / 2) * log10 (ellipQuad x y (ellipOf p.e) p.theta) := by
    unfold log10 Real.logb
    rw [Real.log_sqrt hpos.le]; ring
  rw [this]; ring

private theorem eval_log (p : EllipPar) (x y : ℝ) (h : x ≠ 0 ∨ y ≠ 0) :
    p.eval x y = p.amp + p.gamma / 2 * log10 (ellipQuad x y (ellipOf p.e) p.theta) := by
  have hpos := C14_positive x y p.theta p.e h
  unfold EllipPar.eval ellipEvaluate
  simp only
  rw [if_neg hpos.ne']; ring

private theorem quad_form (x y q t : ℝ) : ellipQuad x y q t =
    x ^ 2 * (q ^ 2 * Real.cos t ^ 2 + Real.sin t ^ 2) + x * y * (2 * (1 - q ^ 2) * Real.sin t * Real.cos t) +
      y ^ 2 * (q ^ 2 * Real.sin t ^ 2 + Real.cos t ^ 2) := by
  unfold ellipQuad; ring

private theorem common_factor {q q' A B C A' B' C' lam : ℝ} (q0 : 0 < q) (q1 : q ≤ 1) (q0' : 0 < q') (q1' : q' ≤ 1)
    (hl0 : 0 < lam) (t1 : A + C = 1 + q ^ 2) (t1' : A' + C' = 1 + q' ^ 2) (d1 : A * C - B ^ 2 / 4 = q ^ 2)
    (d1' : A' * C' - B' ^ 2 / 4 = q' ^ 2) (hA : A = lam * A') (hB : B = lam * B') (hC : C = lam * C') :
    lam = 1 ∧ q' = q := by
  have hqq : q = lam * q' := by
    have h2 : q ^ 2 = (lam * q') ^ 2 := by
      rw [← d1, mul_pow, ← d1', hA, hB, hC]; ring
    exact (pow_left_inj₀ q0.le (by positivity) (by norm_num)).1 h2
  have htr : 1 + q ^ 2 = lam * (1 + q' ^ 2) := by rw [← t1, ← t1', hA, hC]; ring
  have hl1 : lam = 1 := by
    have hf : (1 - lam) * (1 - lam * q' ^ 2) = 0 := by
      rw [hqq] at htr; linear_combination htr
    rcases mul_eq_zero.1 hf with h0 | h0
    · linarith
    · have h1 : q * q' = 1 := by rw [hqq]; linarith
      have h2 : q' = 1 := by
        apply le_antisymm q1'
        have := mul_le_mul_of_nonneg_right q1 q0'.le
        linarith
      have h3 : q = 1 := by rw [h2] at h1; linarith
      rw [h2, h3] at hqq; linarith
  exact ⟨hl1, by rw [hqq, hl1, one_mul]⟩

private theorem same_axis {q t t' : ℝ} (q0 : 0 < q) (hlt : q < 1)
    (hA : q ^ 2 * Real.cos t ^ 2 + Real.sin t ^ 2 = q ^ 2 * Real.cos t' ^ 2 + Real.sin t' ^ 2)
    (hB : 2 * (1 - q ^ 2) * Real.sin t * Real.cos t = 2 * (1 - q ^ 2) * Real.sin t' * Real.cos t') :
    ∃ k : ℤ, t' = t + k * Real.pi := by
  have tr := Real.sin_sq_add_cos_sq t
  have tr' := Real.sin_sq_add_cos_sq t'
  have hw : 1 - q ^ 2 ≠ 0 := by nlinarith
  have hs2 : Real.sin t' ^ 2 = Real.sin t ^ 2 := by
    apply mul_left_cancel₀ hw
    linear_combination -hA + q ^ 2 * tr - q ^ 2 * tr'
  have hc2 : Real.cos t' ^ 2 = Real.cos t ^ 2 := by linarith
  have hsc : Real.sin t' * Real.cos t' = Real.sin t * Real.cos t := by
    apply mul_left_cancel₀ hw
    linear_combination -hB / 2
  have hsin : Real.sin (t' - t) = 0 := by
    rw [Real.sin_sub]
    have : (Real.sin t' * Real.cos t - Real.cos t' * Real.sin t) ^ 2 = 0 := by
      have : (Real.sin t' * Real.cos t - Real.cos t' * Real.sin t) ^ 2 =
          Real.sin t' ^ 2 * Real.cos t ^ 2 + Real.cos t' ^ 2 * Real.sin t ^ 2 -
            2 * (Real.sin t' * Real.cos t') * (Real.sin t * Real.cos t) := by ring
      rw [this, hs2, hc2, hsc]; ring
    exact pow_eq_zero_iff (by norm_num) |>.1 this
  obtain ⟨k, hk⟩ := Real.sin_eq_zero_iff.1 hsin
  exact ⟨k, by rw [hk]; ring⟩

/-- **C80 (the parameters are determined by the surface).** Two parameter sets whose models agree on four
such points have the same index, amplitude and axis ratio and, unless circular, the same angle up to
multiples of π. -/
theorem C80_identifiable (p p' : EllipPar) (hg : p.gamma ≠ 0) (S : ℝ → ℝ → Prop) (hS : Determining S)
    (h : ∀ x y, S x y → p.eval x y = p'.eval x y) :
    p'.gamma = p.gamma ∧ p'.amp = p.amp ∧ ellipOf p'.e = ellipOf p.e ∧
    (ellipOf p.e < 1 → ∃ k : ℤ, p'.theta = p.theta + k * Real.pi) := by
  obtain ⟨a, b, c, d, e, ha, hb, hab, hc, hd, he, s1, s2, s3, s4⟩ := hS
  obtain ⟨q0, q1⟩ := C14_ellip_range p.e
  obtain ⟨q0', q1'⟩ := C14_ellip_range p'.e
  set q := ellipOf p.e with hq
  set q' := ellipOf p'.e with hq'
  set A := q ^ 2 * Real.cos p.theta ^ 2 + Real.sin p.theta ^ 2 with hA
  set B := 2 * (1 - q ^ 2) * Real.sin p.theta * Real.cos p.theta with hB
  set C := q ^ 2 * Real.sin p.theta ^ 2 + Real.cos p.theta ^ 2 with hC
  set A' := q' ^ 2 * Real.cos p'.theta ^ 2 + Real.sin p'.theta ^ 2 with hA'
  set B' := 2 * (1 - q' ^ 2) * Real.sin p'.theta * Real.cos p'.theta with hB'
  set C' := q' ^ 2 * Real.sin p'.theta ^ 2 + Real.cos p'.theta ^ 2 with hC'
  have tr := Real.sin_sq_add_cos_sq p.theta
  have tr' := Real.sin_sq_add_cos_sq p'.theta
  have hQ : ∀ x y, ellipQuad x y q p.theta = x ^ 2 * A + x * y * B + y ^ 2 * C := fun x y => quad_form x y q p.theta
  have hQ' : ∀ x y, ellipQuad x y q' p'.theta = x ^ 2 * A' + x * y * B' + y ^ 2 * C' :=
    fun x y => quad_form x y q' p'.theta
  have hp : ∀ x y, (x ≠ 0 ∨ y ≠ 0) → 0 < x ^ 2 * A + x * y * B + y ^ 2 * C := fun x y hxy => by
    rw [← hQ]; exact C14_positive x y p.theta p.e hxy
  have hp' : ∀ x y, (x ≠ 0 ∨ y ≠ 0) → 0 < x ^ 2 * A' + x * y * B' + y ^ 2 * C' := fun x y hxy => by
    rw [← hQ']; exact C14_positive x y p'.theta p'.e hxy
  have hEq : ∀ x y, (x ≠ 0 ∨ y ≠ 0) → S x y →
      p.amp + p.gamma / 2 * log10 (x ^ 2 * A + x * y * B + y ^ 2 * C) =
        p'.amp + p'.gamma / 2 * log10 (x ^ 2 * A' + x * y * B' + y ^ 2 * C') := by
    intro x y hxy hs
    have := h x y hs
    rw [eval_log p x y hxy, eval_log p' x y hxy, ← hq, ← hq', hQ, hQ'] at this
    exact this
  have hA0 : 0 < A := by have := hp 1 0 (by norm_num); simpa using this
  have hA0' : 0 < A' := by have := hp' 1 0 (by norm_num); simpa using this
  -- the index
  have e1 := hEq a 0 (Or.inl ha) s1
  have e2 := hEq b 0 (Or.inl hb) s2
  simp only [mul_zero, zero_mul, add_zero, ne_eq, OfNat.ofNat_ne_zero, not_false_eq_true, zero_pow] at e1 e2
  rw [log10_mul (by positivity) hA0, log10_mul (by positivity) hA0'] at e1 e2
  have hne : log10 (a ^ 2) - log10 (b ^ 2) ≠ 0 := by
    rw [sub_ne_zero]
    intro hh
    exact hab (log10_inj (by positivity) (by positivity) hh)
  have hgam : p'.gamma = p.gamma := by
    have : (p'.gamma - p.gamma) * (log10 (a ^ 2) - log10 (b ^ 2)) = 0 := by linear_combination 2 * (e2 - e1)
    rcases mul_eq_zero.1 this with h0 | h0
    · linarith
    · exact absurd h0 hne
  -- a common factor of the two quadratic forms
  set lam := A / A' with hlam
  have hl0 : 0 < lam := div_pos hA0 hA0'
  have hAl : A = lam * A' := by rw [hlam]; field_simp
  have hprop : ∀ x y, (x ≠ 0 ∨ y ≠ 0) → S x y →
      x ^ 2 * A + x * y * B + y ^ 2 * C = lam * (x ^ 2 * A' + x * y * B' + y ^ 2 * C') := by
    intro x y hxy hs
    apply log10_inj (hp x y hxy) (mul_pos hl0 (hp' x y hxy))
    rw [log10_mul hl0 (hp' x y hxy)]
    have h1 := hEq x y hxy hs
    rw [hgam] at h1 e1
    have hll : log10 A = log10 lam + log10 A' := by rw [hAl, log10_mul hl0 hA0']
    have hg2 : p.gamma / 2 ≠ 0 := div_ne_zero hg (by norm_num)
    apply mul_left_cancel₀ hg2
    linear_combination h1 - e1 + p.gamma / 2 * hll
  have hCl : C = lam * C' := by
    have := hprop 0 c (Or.inr hc) s3
    simp only [mul_zero, zero_mul, zero_add, ne_eq, OfNat.ofNat_ne_zero, not_false_eq_true, zero_pow] at this
    have h2 : c ^ 2 ≠ 0 := pow_ne_zero 2 hc
    apply mul_left_cancel₀ h2
    linarith
  have hBl : B = lam * B' := by
    have := hprop d e (Or.inl hd) s4
    apply mul_left_cancel₀ (mul_ne_zero hd he)
    rw [hAl, hCl] at this
    linarith
  -- trace and determinant
  have t1 : A + C = 1 + q ^ 2 := by rw [hA, hC]; linear_combination (1 + q ^ 2) * tr
  have t1' : A' + C' = 1 + q' ^ 2 := by rw [hA', hC']; linear_combination (1 + q' ^ 2) * tr'
  have d1 : A * C - B ^ 2 / 4 = q ^ 2 := by
    rw [hA, hB, hC]
    linear_combination q ^ 2 * (Real.sin p.theta ^ 2 + Real.cos p.theta ^ 2 + 1) * tr
  have d1' : A' * C' - B' ^ 2 / 4 = q' ^ 2 := by
    rw [hA', hB', hC']
    linear_combination q' ^ 2 * (Real.sin p'.theta ^ 2 + Real.cos p'.theta ^ 2 + 1) * tr'
  obtain ⟨hl1, hq1⟩ := common_factor q0 q1 q0' q1' hl0 t1 t1' d1 d1' hAl hBl hCl
  have hamp : p'.amp = p.amp := by
    rw [hgam] at e1
    rw [hl1, one_mul] at hAl
    rw [hAl] at e1
    linarith
  refine ⟨hgam, hamp, hq1, ?_⟩
  intro hlt
  rw [hl1, one_mul] at hAl hBl
  rw [hA, hA', hq1] at hAl
  rw [hB, hB', hq1] at hBl
  exact same_axis q0 hlt hAl hBl

private theorem modPi_add (t : ℝ) (k : ℤ) : modPi (t + k * Real.pi) = modPi t := by
  unfold modPi
  have : (t + k * Real.pi) / Real.pi = t / Real.pi + k := by
    have := Real.pi_pos.ne'
    field_simp
  rw [this, Int.floor_add_intCast]; push_cast; ring

/-! ### The fit -/

private theorem finite_map (l : List (ℝ × ℝ × ℝ)) :
    finitePts (l.map (fun q => (q.1, q.2.1, FVal.fin q.2.2))) = .ok l := by
  unfold finitePts
  induction l with
  | nil => rfl
  | cons q t ih =>
    rw [List.map_cons, List.mapM_cons]
    simp only [bind, Except.bind, pure, Except.pure]
    rw [ih]

private theorem finite_ok {pts : List (ℝ × ℝ × FVal)} {d : List (ℝ × ℝ × ℝ)} (h : finitePts pts = .ok d) :
    pts = d.map (fun q => (q.1, q.2.1, FVal.fin q.2.2)) := by
  unfold finitePts at h
  induction pts generalizing d with
  | nil => cases h; rfl
  | cons q t ih =>
    rw [List.mapM_cons] at h
    simp only [bind, Except.bind, pure, Except.pure] at h
    obtain ⟨x, y, v⟩ := q
    cases v with
    | fin v =>
      simp only at h
      split at h
      · cases h
      · rename_i r hr
        cases h
        rw [List.map_cons, ← ih hr]
    | inf => cases h
    | nan => cases h

private theorem finite_bad {pts : List (ℝ × ℝ × FVal)} (q : ℝ × ℝ × FVal) (hq : q ∈ pts)
    (hb : ∀ v, q.2.2 ≠ .fin v) : finitePts pts = .error .valueError := by
  unfold finitePts
  induction pts with
  | nil => simp at hq
  | cons r t ih =>
    rw [List.mapM_cons]
    simp only [bind, Except.bind, pure, Except.pure]
    rcases List.mem_cons.1 hq with rfl | hq'
    · obtain ⟨x, y, v⟩ := q
      cases v with
      | fin v => exact absurd rfl (hb v)
      | inf => rfl
      | nan => rfl
    · obtain ⟨x, y, v⟩ := r
      cases v with
      | fin v => simp only; rw [ih hq']
      | inf => rfl
      | nan => rfl

private theorem absResid_nonneg (d : List (ℝ × ℝ × ℝ)) (p : EllipPar) : 0 ≤ absResid d p := by
  unfold absResid
  apply List.sum_nonneg
  intro x hx
  obtain ⟨q, -, rfl⟩ := List.mem_map.1 hx
  exact abs_nonneg _

private theorem absResid_zero (d : List (ℝ × ℝ × ℝ)) (p : EllipPar) : absResid d p = 0 ↔ Reproduces p d := by
  unfold absResid Reproduces
  induction d with
  | nil => simp
  | cons q t ih =>
    have ht := absResid_nonneg t p
    unfold absResid at ht
    rw [List.map_cons, List.sum_cons, List.forall_mem_cons, ← ih]
    constructor
    · intro h
      have h0 := abs_nonneg (q.2.2 - p.eval q.1 q.2.1)
      have h1 : |q.2.2 - p.eval q.1 q.2.1| = 0 := by linarith
      exact ⟨by linarith [abs_eq_zero.1 h1], by linarith⟩
    · rintro ⟨h1, h2⟩
      rw [h1, h2]; simp

/-- **C80 (two starts).** The returned model is the better of the two fits, whatever the fitter does. -/
theorem C80_best (lm : LevMar) (o : EllipOpts) (ho : o.fix = false) (p0 : EllipPar) (d : List (ℝ × ℝ × ℝ)) :
    let r := lm false (radialWeights o.radial d) p0 d
    let f := lm false (radialWeights o.radial d) { p0 with theta := modPi (p0.theta + Real.pi / 2) } d
    ((ellipBest lm o p0 d).1 = r.1 ∨ (ellipBest lm o p0 d).1 = f.1) ∧
    absResid d (ellipBest lm o p0 d).1 ≤ absResid d r.1 ∧ absResid d (ellipBest lm o p0 d).1 ≤ absResid d f.1 := by
  intro r f
  unfold ellipBest
  simp only [ho, Bool.false_eq_true, if_false]
  split_ifs with h
  · exact ⟨Or.inr rfl, h.le, le_refl _⟩
  · exact ⟨Or.inl rfl, le_refl _, not_lt.1 h⟩

private theorem best_reproduces (lm : LevMar) (o : EllipOpts) (ho : o.fix = false) (p0 : EllipPar)
    (hc : Converges lm false p0 ∨ Converges lm false { p0 with theta := modPi (p0.theta + Real.pi / 2) })
    (d : List (ℝ × ℝ × ℝ)) (p : EllipPar) (hb : InBounds p) (hp : Reproduces p d) :
    Reproduces (ellipBest lm o p0 d).1 d := by
  obtain ⟨-, h1, h2⟩ := C80_best lm o ho p0 d
  rw [← absResid_zero]
  apply le_antisymm _ (absResid_nonneg _ _)
  rcases hc with hc | hc
  · exact h1.trans ((absResid_zero _ _).2 (hc _ d p hb (by simp) hp)).le
  · exact h2.trans ((absResid_zero _ _).2 (hc _ d p hb (by simp) hp)).le

private theorem mem_masked {n m : ℕ} {x y : ℕ → ℕ → ℝ} {v : ℕ → ℕ → FVal} {mask : ℕ → ℕ → Bool} {q : ℝ × ℝ × FVal} :
    q ∈ maskedPts n m x y v mask ↔ ∃ i < n, ∃ j < m, mask i j = true ∧ q = (x i j, y i j, v i j) := by
  unfold maskedPts
  simp only [List.mem_flatMap, List.mem_range, List.mem_filterMap]
  constructor
  · rintro ⟨i, hi, j, hj, h⟩
    split_ifs at h with hm
    · cases h; exact ⟨i, hi, j, hj, hm, rfl⟩
  · rintro ⟨i, hi, j, hj, hm, rfl⟩
    exact ⟨i, hi, j, hj, by rw [if_pos hm]⟩

private theorem masked_congr {n m : ℕ} {x y : ℕ → ℕ → ℝ} {v v' : ℕ → ℕ → FVal} {mask : ℕ → ℕ → Bool}
    (h : ∀ i < n, ∀ j < m, mask i j = true → v i j = v' i j) :
    maskedPts n m x y v mask = maskedPts n m x y v' mask := by
  unfold maskedPts
  rw [List.flatMap_def, List.flatMap_def]
  congr 1
  apply List.map_congr_left
  intro i hi
  apply List.filterMap_congr
  intro j hj
  split_ifs with hm
  · rw [h i (List.mem_range.1 hi) j (List.mem_range.1 hj) hm]
  · rfl

/-- Pixels used by `fit_2Dpspec`: frequency above the lower and up to the upper limit and, if asked, inside
the stored wedge. -/
def Used (n m : ℕ) (lo hi : ℝ) (azim : Option (Arr2 Bool)) (useAzim : Bool) (i j : ℕ) : Prop :=
  i < n ∧ j < m ∧ lo < Real.sqrt (((rowFreq n i : ℝ) / n) ^ 2 + ((colFreq m j : ℝ) / m) ^ 2) ∧
    Real.sqrt (((rowFreq n i : ℝ) / n) ^ 2 + ((colFreq m j : ℝ) / m) ^ 2) ≤ hi ∧
    ∀ a, azim = some a → useAzim = true → a.get i j = true

private theorem mask_iff {n m i j : ℕ} (hi : i < n) (hj : j < m) (lo hi' : ℝ) (azim : Option (Arr2 Bool)) (u : Bool) :
    (clipFunc lo hi' (some (Real.sqrt ((makeRadialFreqArrays n m).1.get i j ^ 2 +
      (makeRadialFreqArrays n m).2.get i j ^ 2))) && azimKeep azim u i j) = true ↔ Used n m lo hi' azim u i j := by
  rw [freqArrays_fst hi, freqArrays_snd hj]
  unfold Used clipFunc azimKeep
  simp only [Bool.and_eq_true, decide_eq_true_eq, hi, hj, true_and]
  cases azim with
  | none => simp
  | some a => cases u <;> simp [and_assoc]

/-- **C80 (selection).** Only the used pixels matter; without any, or with a used pixel that is missing,
zero or negative, a ValueError is raised. -/
theorem C80_selection (lm : LevMar) (perms : ℕ → ℕ → ℕ) (o : EllipOpts) (p0 : EllipPar) (low high : Option ℝ)
    (fmax : ℝ) (azim : Option (Arr2 Bool)) (u : Bool) (ps : Arr2 (Option ℝ)) :
    let used := Used ps.n ps.m (lowCutFor low ps.n ps.m) (high.getD fmax) azim u
    (∀ ps' : Arr2 (Option ℝ), ps'.n = ps.n → ps'.m = ps.m → (∀ i j, used i j → ps'.get i j = ps.get i j) →
      fit2Dpspec lm perms o p0 low high fmax azim u ps' = fit2Dpspec lm perms o p0 low high fmax azim u ps) ∧
    ((∀ i j, ¬ used i j) → fit2Dpspec lm perms o p0 low high fmax azim u ps = .error .valueError) ∧
    (∀ i j, used i j → (∀ v, ps.get i j = some v → v ≤ 0) →
      fit2Dpspec lm perms o p0 low high fmax azim u ps = .error .valueError) := by
  intro used
  refine ⟨?_, ?_, ?_⟩
  · rintro ⟨n', m', g'⟩ h1 h2 hg
    simp only at h1 h2 hg
    subst h1 h2
    unfold fit2Dpspec
    simp only
    rw [masked_congr (v := fun i j => log10F (g' i j)) (v' := fun i j => log10F (ps.get i j))]
    intro i hi j hj hm
    rw [mask_iff hi hj] at hm
    rw [hg i j hm]
  · intro hno
    unfold fit2Dpspec
    simp only
    rw [if_pos]
    rw [List.length_eq_zero_iff, List.eq_nil_iff_forall_not_mem]
    intro q hq
    obtain ⟨i, hi, j, hj, hm, -⟩ := mem_masked.1 hq
    rw [mask_iff hi hj] at hm
    exact hno i j hm
  · intro i j hu hv
    unfold fit2Dpspec
    simp only
    split_ifs with h0
    · rfl
    · unfold fitEllip
      rw [finite_bad _ (mem_masked.2 ⟨i, hu.1, j, hu.2.1, (mask_iff hu.1 hu.2.1 _ _ _ _).2 hu, rfl⟩)]
      · rfl
      · intro v
        simp only
        cases hp : ps.get i j with
        | none => simp [log10F]
        | some w =>
          have := hv w hp
          simp only [log10F]
          split_ifs with k1 k2
          · simp
          · simp
          · exact absurd (le_antisymm this (not_lt.1 k1)) k2

/-- An earlier wedge stays in force: after a spectrum with azimuthal limits and then one without, the fit
with `use_azimmask=True` still ignores every pixel outside the old wedge. -/
theorem C80_stale_wedge_violated (lm : LevMar) (perms : ℕ → ℕ → ℕ) (o : EllipOpts) (p0 : EllipPar)
    (low high : Option ℝ) (fmax : ℝ) (a : Arr2 Bool) (ps ps' : Arr2 (Option ℝ)) (h1 : ps'.n = ps.n) (h2 : ps'.m = ps.m)
    (h : ∀ i j, a.get i j = true → ps'.get i j = ps.get i j) :
    fit2Dpspec lm perms o p0 low high fmax (storeAzim (storeAzim none (some a)) none) true ps' =
      fit2Dpspec lm perms o p0 low high fmax (storeAzim (storeAzim none (some a)) none) true ps := by
  refine (C80_selection lm perms o p0 low high fmax _ true ps).1 ps' h1 h2 (fun i j hu => h i j ?_)
  exact hu.2.2.2.2 a rfl rfl

private theorem store_ok {p : EllipPar} {errs : List (Option ℝ)} {r : Fit2D} (h : storeFit2D p errs = .ok r) :
    r.slope = p.gamma ∧ r.theta = modPi p.theta ∧ r.ellip = ellipOf p.e := by
  unfold storeFit2D at h
  simp only [bind, Except.bind, pure, Except.pure] at h
  split at h
  · cases h
  · split at h
    · cases h
    · split at h
      · cases h
      · cases h; exact ⟨rfl, rfl, rfl⟩

private theorem fit_parts {lm : LevMar} {perms : ℕ → ℕ → ℕ} {o : EllipOpts} {p0 : EllipPar} {pts : List (ℝ × ℝ × FVal)}
    {r : EllipPar × List (Option ℝ)} (h : fitEllip lm perms o p0 pts = .ok r) :
    ∃ d, finitePts pts = .ok d ∧ o.method = "LevMarq" ∧ r.1 = (ellipBest lm o p0 d).1 ∧
      r.2 = if o.bootstrap then ellipBootErrs lm o perms (ellipBest lm o p0 d).1 d
        else ellipCovErrs (ellipBest lm o p0 d).2 := by
  unfold fitEllip at h
  simp only [bind, Except.bind, pure, Except.pure] at h
  split at h
  · cases h
  · rename_i d hd
    split_ifs at h with hm hb
    · cases h; exact ⟨d, hd, hm, rfl, by simp [hb]⟩
    · cases h; exact ⟨d, hd, hm, rfl, by simp [hb]⟩

private theorem fit2D_parts {lm : LevMar} {perms : ℕ → ℕ → ℕ} {o : EllipOpts} {p0 : EllipPar} {low high : Option ℝ}
    {fmax : ℝ} {azim : Option (Arr2 Bool)} {u : Bool} {ps : Arr2 (Option ℝ)} {r : Fit2D}
    (h : fit2Dpspec lm perms o p0 low high fmax azim u ps = .ok r) :
    ∃ d : List (ℝ × ℝ × ℝ), o.method = "LevMarq" ∧
      (∀ q, q ∈ d → ∃ i j, Used ps.n ps.m (lowCutFor low ps.n ps.m) (high.getD fmax) azim u i j ∧
        q.1 = (colFreq ps.m j : ℝ) / ps.m ∧ q.2.1 = (rowFreq ps.n i : ℝ) / ps.n ∧ log10F (ps.get i j) = .fin q.2.2) ∧
      (∀ i j, Used ps.n ps.m (lowCutFor low ps.n ps.m) (high.getD fmax) azim u i j →
        ∃ v, ((colFreq ps.m j : ℝ) / ps.m, (rowFreq ps.n i : ℝ) / ps.n, v) ∈ d ∧ log10F (ps.get i j) = .fin v) ∧
      ∃ errs, storeFit2D (ellipBest lm o p0 d).1 errs = .ok r ∧
        errs = if o.bootstrap then ellipBootErrs lm o perms (ellipBest lm o p0 d).1 d
          else ellipCovErrs (ellipBest lm o p0 d).2 := by
  unfold fit2Dpspec at h
  simp only [bind, Except.bind, pure, Except.pure] at h
  split_ifs at h
  split at h
  · cases h
  · rename_i s hs
    obtain ⟨d, hd, hmeth, e1, e2⟩ := fit_parts hs
    have hpts := finite_ok hd
    refine ⟨d, hmeth, ?_, ?_, s.2, by rw [← e1]; exact h, e2⟩
    · intro q hq
      have : (q.1, q.2.1, FVal.fin q.2.2) ∈ d.map (fun q => (q.1, q.2.1, FVal.fin q.2.2)) :=
        List.mem_map.2 ⟨q, hq, rfl⟩
      rw [← hpts] at this
      obtain ⟨i, hi, j, hj, hm, heq⟩ := mem_masked.1 this
      rw [freqArrays_fst hi, freqArrays_snd hj] at heq
      rw [mask_iff hi hj] at hm
      simp only [Prod.mk.injEq] at heq
      exact ⟨i, j, hm, heq.1, heq.2.1, heq.2.2.symm⟩
    · intro i j hu
      have := (mem_masked (x := fun i j => (makeRadialFreqArrays ps.n ps.m).2.get i j)
        (y := fun i j => (makeRadialFreqArrays ps.n ps.m).1.get i j) (v := fun i j => log10F (ps.get i j))
        (mask := fun i j => clipFunc (lowCutFor low ps.n ps.m) (high.getD fmax)
          (some (Real.sqrt ((makeRadialFreqArrays ps.n ps.m).1.get i j ^ 2 +
            (makeRadialFreqArrays ps.n ps.m).2.get i j ^ 2))) && azimKeep azim u i j)).2
        ⟨i, hu.1, j, hu.2.1, (mask_iff hu.1 hu.2.1 (lowCutFor low ps.n ps.m) (high.getD fmax) azim u).2 hu, rfl⟩
      rw [hpts] at this
      obtain ⟨q, hq, heq⟩ := List.mem_map.1 this
      rw [freqArrays_fst hu.1, freqArrays_snd hu.2.1] at heq
      simp only [Prod.mk.injEq] at heq
      refine ⟨q.2.2, ?_, heq.2.2.symm⟩
      rw [← heq.1, ← heq.2.1]; exact hq

/-- **C80 (a result).** With bootstrapped errors, at least one used pixel and only positive used pixels, the
fit returns. -/
theorem C80_returns (lm : LevMar) (perms : ℕ → ℕ → ℕ) (o : EllipOpts) (hbo : o.bootstrap = true)
    (hm : o.method = "LevMarq") (p0 : EllipPar) (low high : Option ℝ) (fmax : ℝ) (azim : Option (Arr2 Bool))
    (u : Bool) (ps : Arr2 (Option ℝ))
    (hex : ∃ i j, Used ps.n ps.m (lowCutFor low ps.n ps.m) (high.getD fmax) azim u i j)
    (hpos : ∀ i j, Used ps.n ps.m (lowCutFor low ps.n ps.m) (high.getD fmax) azim u i j →
      ∃ v, 0 < v ∧ ps.get i j = some v) :
    ∃ r, fit2Dpspec lm perms o p0 low high fmax azim u ps = .ok r := by
  have hfin : ∀ pts : List (ℝ × ℝ × FVal), (∀ q ∈ pts, ∃ v, q.2.2 = .fin v) → ∃ d, finitePts pts = .ok d := by
    intro pts
    induction pts with
    | nil => intro _; exact ⟨[], rfl⟩
    | cons q t ih =>
      intro h
      obtain ⟨d, hd⟩ := ih (fun q hq => h q (List.mem_cons_of_mem _ hq))
      obtain ⟨v, hv⟩ := h q (List.mem_cons_self)
      refine ⟨(q.1, q.2.1, v) :: d, ?_⟩
      unfold finitePts at hd ⊢
      rw [List.mapM_cons]
      simp only [bind, Except.bind, pure, Except.pure, hv]
      rw [hd]
  obtain ⟨i0, j0, hu0⟩ := hex
  have hmem := (mem_masked (x := fun i j => (makeRadialFreqArrays ps.n ps.m).2.get i j)
        (y := fun i j => (makeRadialFreqArrays ps.n ps.m).1.get i j) (v := fun i j => log10F (ps.get i j))
        (mask := fun i j => clipFunc (lowCutFor low ps.n ps.m) (high.getD fmax)
          (some (Real.sqrt ((makeRadialFreqArrays ps.n ps.m).1.get i j ^ 2 +
            (makeRadialFreqArrays ps.n ps.m).2.get i j ^ 2))) && azimKeep azim u i j)).2
        ⟨i0, hu0.1, j0, hu0.2.1, (mask_iff hu0.1 hu0.2.1 (lowCutFor low ps.n ps.m) (high.getD fmax) azim u).2 hu0, rfl⟩
  unfold fit2Dpspec
  simp only
  rw [if_neg]
  · obtain ⟨d, hd⟩ := hfin (maskedPts ps.n ps.m (fun i j => (makeRadialFreqArrays ps.n ps.m).2.get i j)
        (fun i j => (makeRadialFreqArrays ps.n ps.m).1.get i j) (fun i j => log10F (ps.get i j))
        (fun i j => clipFunc (lowCutFor low ps.n ps.m) (high.getD fmax)
          (some (Real.sqrt ((makeRadialFreqArrays ps.n ps.m).1.get i j ^ 2 +
            (makeRadialFreqArrays ps.n ps.m).2.get i j ^ 2))) && azimKeep azim u i j)) (by
      intro q hq
      obtain ⟨i, hi, j, hj, hmk, rfl⟩ := mem_masked.1 hq
      obtain ⟨v, hv, e⟩ := hpos i j ((mask_iff hi hj _ _ _ _).1 hmk)
      exact ⟨log10 v, by simp only; rw [e, log10F_pos hv]⟩)
    simp only [fitEllip, hd, bind, Except.bind, pure, Except.pure, hm, if_true, hbo]
    exact ⟨_, rfl⟩
  · intro h0
    rw [List.length_eq_zero_iff] at h0
    rw [h0] at hmem
    simp at hmem

/-- **C80 (ranges).** The angle is in `[0, π)`, the axis ratio in `(0, 1]`. -/
theorem C80_range (lm : LevMar) (perms : ℕ → ℕ → ℕ) (o : EllipOpts) (p0 : EllipPar) (low high : Option ℝ)
    (fmax : ℝ) (azim : Option (Arr2 Bool)) (u : Bool) (ps : Arr2 (Option ℝ)) (r : Fit2D)
    (h : fit2Dpspec lm perms o p0 low high fmax azim u ps = .ok r) :
    0 ≤ r.theta ∧ r.theta < Real.pi ∧ 0 < r.ellip ∧ r.ellip ≤ 1 := by
  obtain ⟨d, -, -, -, errs, hs, -⟩ := fit2D_parts h
  obtain ⟨-, e2, e3⟩ := store_ok hs
  rw [e2, e3]
  obtain ⟨a, b, -⟩ := C14_reported_theta 0 0 0 0 (ellipBest lm o p0 d).1.theta none
  exact ⟨a, b, C14_ellip_range _⟩

/-- **C80 (recovery).** If the used part of the map is exactly an elliptical power law (amplitude at least
`10⁻¹⁰`, index not zero), and the fitter converges from either of the two starting angles, then the fit
reports its index and axis ratio and, unless circular, its angle.  Missing: smaller amplitudes
(`C80_amplitude_violated`) and the errors (`C80_errors_violated`). -/
theorem C80_recovers_partial (lm : LevMar) (perms : ℕ → ℕ → ℕ) (o : EllipOpts) (ho : o.fix = false) (p0 : EllipPar)
    (hc : Converges lm false p0 ∨ Converges lm false { p0 with theta := modPi (p0.theta + Real.pi / 2) })
    (low high : Option ℝ) (fmax : ℝ) (azim : Option (Arr2 Bool)) (u : Bool) (ps : Arr2 (Option ℝ)) (r : Fit2D)
    (h : fit2Dpspec lm perms o p0 low high fmax azim u ps = .ok r) (hlo : 0 ≤ lowCutFor low ps.n ps.m)
    (p : EllipPar) (hb : InBounds p) (hg : p.gamma ≠ 0)
    (hps : ∀ i j, Used ps.n ps.m (lowCutFor low ps.n ps.m) (high.getD fmax) azim u i j →
      ps.get i j = some (10 ^ ellipSurface p.amp (ellipOf p.e) p.theta p.gamma ((colFreq ps.m j : ℝ) / ps.m)
        ((rowFreq ps.n i : ℝ) / ps.n)))
    (hdet : Determining (fun x y => ∃ i j, Used ps.n ps.m (lowCutFor low ps.n ps.m) (high.getD fmax) azim u i j ∧
      x = (colFreq ps.m j : ℝ) / ps.m ∧ y = (rowFreq ps.n i : ℝ) / ps.n)) :
    r.slope = p.gamma ∧ r.ellip = ellipOf p.e ∧ (ellipOf p.e < 1 → r.theta = modPi p.theta) := by
  obtain ⟨d, -, hd1, hd2, errs, hs, -⟩ := fit2D_parts h
  obtain ⟨e1, e2, e3⟩ := store_ok hs
  have hrep : Reproduces p d := by
    intro q hq
    obtain ⟨i, j, hu, h1, h2, h3⟩ := hd1 q hq
    have hne : q.1 ≠ 0 ∨ q.2.1 ≠ 0 := by
      by_contra hcon
      push Not at hcon
      have := hu.2.2.1
      rw [← h1, ← h2, hcon.1, hcon.2] at this
      simp at this
      linarith
    rw [hps i j hu, ← h1, ← h2, ← C80_surface p _ _ hne] at h3
    have h10 : (0 : ℝ) < 10 ^ p.eval q.1 q.2.1 := Real.rpow_pos_of_pos (by norm_num) _
    simp only [log10F] at h3
    rw [if_neg (not_lt.2 h10.le), if_neg h10.ne', FVal.fin.injEq] at h3
    rw [← h3]
    unfold log10
    exact Real.logb_rpow (by norm_num) (by norm_num)
  have hr := best_reproduces lm o ho p0 hc d p hb hrep
  obtain ⟨g1, -, g3, g4⟩ := C80_identifiable p (ellipBest lm o p0 d).1 hg _ hdet (by
    rintro x y ⟨i, j, hu, rfl, rfl⟩
    obtain ⟨v, hv, -⟩ := hd2 i j hu
    rw [← hrep _ hv, ← hr _ hv])
  refine ⟨by rw [e1, g1], by rw [e3, g3], fun hlt => ?_⟩
  obtain ⟨k, hk⟩ := g4 hlt
  rw [e2, hk, modPi_add]

/-- The default limits leave enough pixels on every square map of at least 9 pixels a side, when the 1D
spectrum reaches `4.25/n`. -/
theorem C80_default_limits (n : ℕ) (hn : 9 ≤ n) (fmax : ℝ) (hf : 4.25 / n ≤ fmax) :
    Determining (fun x y => ∃ i j, Used n n (lowCutFor none n n) ((none : Option ℝ).getD fmax) none false i j ∧
      x = (colFreq n j : ℝ) / n ∧ y = (rowFreq n i : ℝ) / n) := by
  have hn0 : (0 : ℝ) < n := by exact_mod_cast (by omega : 0 < n)
  have hlow : lowCutFor none n n = 2 / n := by
    unfold lowCutFor; simp; field_simp; norm_num
  have key : ∀ k l : ℤ, 0 ≤ k → 0 ≤ l → k ≤ 4 → l ≤ 4 → 9 ≤ k ^ 2 + l ^ 2 → k ^ 2 + l ^ 2 ≤ 18 →
      ∃ i j, Used n n (lowCutFor none n n) ((none : Option ℝ).getD fmax) none false i j ∧
        (l : ℝ) / n = (colFreq n j : ℝ) / n ∧ (k : ℝ) / n = (rowFreq n i : ℝ) / n := by
    intro k l hk hl hk4 hl4 h9 h18
    have hrow : rowFreq n (n - 1 - n / 2 - k.toNat) = k := by unfold rowFreq; omega
    have hcol : colFreq n (n / 2 + l.toNat) = l := by unfold colFreq; omega
    refine ⟨n - 1 - n / 2 - k.toNat, n / 2 + l.toNat, ⟨by omega, by omega, ?_, ?_, by simp⟩, by rw [hcol], by rw [hrow]⟩
    · rw [hrow, hcol, hlow]
      apply Real.lt_sqrt_of_sq_lt
      have : (9 : ℝ) ≤ (k : ℝ) ^ 2 + (l : ℝ) ^ 2 := by exact_mod_cast h9
      rw [div_pow, div_pow, div_pow, ← add_div]
      apply div_lt_div_of_pos_right _ (by positivity)
      linarith
    · rw [hrow, hcol]
      refine le_trans ?_ hf
      apply Real.sqrt_le_iff.2
      have : (k : ℝ) ^ 2 + (l : ℝ) ^ 2 ≤ 18 := by exact_mod_cast h18
      refine ⟨by positivity, ?_⟩
      rw [div_pow, div_pow, div_pow, ← add_div]
      apply div_le_div_of_nonneg_right _ (by positivity)
      norm_num; linarith
  refine ⟨3 / n, 4 / n, 3 / n, 3 / n, 3 / n, by positivity, by positivity, ?_, by positivity, by positivity, by positivity,
    ?_, ?_, ?_, ?_⟩
  · rw [div_pow, div_pow]
    intro h
    rw [div_left_inj' (by positivity)] at h
    norm_num at h
  · obtain ⟨i, j, hu, a, b⟩ := key 0 3 (by norm_num) (by norm_num) (by norm_num) (by norm_num) (by norm_num) (by norm_num)
    exact ⟨i, j, hu, by rw [← a]; norm_num, by rw [← b]; norm_num⟩
  · obtain ⟨i, j, hu, a, b⟩ := key 0 4 (by norm_num) (by norm_num) (by norm_num) (by norm_num) (by norm_num) (by norm_num)
    exact ⟨i, j, hu, by rw [← a]; norm_num, by rw [← b]; norm_num⟩
  · obtain ⟨i, j, hu, a, b⟩ := key 3 0 (by norm_num) (by norm_num) (by norm_num) (by norm_num) (by norm_num) (by norm_num)
    exact ⟨i, j, hu, by rw [← a]; norm_num, by rw [← b]; norm_num⟩
  · obtain ⟨i, j, hu, a, b⟩ := key 3 3 (by norm_num) (by norm_num) (by norm_num) (by norm_num) (by norm_num) (by norm_num)
    exact ⟨i, j, hu, by rw [← a]; norm_num, by rw [← b]; norm_num⟩

/-- **C80 (small amplitudes).** The model class bounds the log amplitude by −10: an exact elliptical power
law of smaller amplitude (the same map in other units) cannot be reproduced by any allowed parameters. -/
theorem C80_amplitude_violated (p : EllipPar) (hg : p.gamma ≠ 0) (hamp : p.amp < -10) (S : ℝ → ℝ → Prop)
    (hS : Determining S) (p' : EllipPar) (hb : InBounds p') :
    ¬ ∀ x y, S x y → p.eval x y = p'.eval x y := by
  intro h
  obtain ⟨-, h2, -⟩ := C80_identifiable p p' hg S hS h
  have := hb.1
  linarith

/-- **C80 (fixed ellipse).** With `fix_ellip_params=True` the ellipse is a circle and an exact isotropic power
law gives its index, provided errors are bootstrapped (see `C80_fixed_violated`). -/
theorem C80_fixed (lm : LevMar) (perms : ℕ → ℕ → ℕ) (o : EllipOpts) (ho : o.fix = true) (hbo : o.bootstrap = true)
    (hm : o.method = "LevMarq") (p0 : EllipPar) (hc : Converges lm true { p0 with e := none })
    (hfix : ∀ w s d, s.e = none → (lm true w s d).1.e = none) (pts : List (ℝ × ℝ × ℝ)) (p : EllipPar)
    (hb : InBounds p) (he : p.e = none) (hrep : Reproduces p pts) (x y z : ℝ) (v w : ℝ)
    (h1 : (x, y, v) ∈ pts) (h2 : (z * x, z * y, w) ∈ pts) (hxy : x ≠ 0 ∨ y ≠ 0) (hz : 0 < z) (hz1 : z ≠ 1) :
    ∃ r s f, fitEllip lm perms o p0 (pts.map (fun q => (q.1, q.2.1, FVal.fin q.2.2))) = .ok (r, s) ∧
      storeFit2D r s = .ok f ∧ f.slope = p.gamma ∧ f.ellip = 1 := by
  set r := (ellipBest lm o p0 pts).1 with hr
  have hbest : ellipBest lm o p0 pts = lm true (radialWeights o.radial pts) { p0 with e := none } pts := by
    unfold ellipBest; simp [ho]
  have hre : r.e = none := by rw [hr, hbest]; exact hfix _ _ _ rfl
  have hR : Reproduces r pts := by rw [hr, hbest]; exact hc _ pts p hb (fun _ => he) hrep
  refine ⟨r, ellipBootErrs lm o perms r pts, ⟨r.gamma, (ellipBootErrs lm o perms r pts).getD 3 none, modPi r.theta, (ellipBootErrs lm o perms r pts).getD 2 none, ellipOf r.e, ellipErrOf r.e ((ellipBootErrs lm o perms r pts).getD 1 none)⟩, ?_, ?_, ?_, ?_⟩
  · unfold fitEllip
    rw [finite_map]
    simp only [bind, Except.bind, pure, Except.pure, hm, if_true, hbo]
    rfl
  · rfl
  · have iso : ∀ t : EllipPar, t.e = none → ∀ x y : ℝ, (x ≠ 0 ∨ y ≠ 0) →
        t.eval x y = t.amp + t.gamma * log10 (Real.sqrt (x ^ 2 + y ^ 2)) := by
      intro t ht x y hxy
      unfold EllipPar.eval
      rw [ht]; exact C14_isotropic x y t.amp t.gamma t.theta hxy
    have hz' : z * x ≠ 0 ∨ z * y ≠ 0 := by
      rcases hxy with h | h
      · left; exact mul_ne_zero hz.ne' h
      · right; exact mul_ne_zero hz.ne' h
    have a1 := (hrep _ h1).symm.trans (hR _ h1)
    have a2 := (hrep _ h2).symm.trans (hR _ h2)
    simp only at a1 a2
    rw [iso p he x y hxy, iso r hre x y hxy] at a1
    rw [iso p he _ _ hz', iso r hre _ _ hz'] at a2
    have hpos : 0 < Real.sqrt (x ^ 2 + y ^ 2) := by
      apply Real.sqrt_pos.2
      rcases hxy with h | h <;> positivity
    have hs : Real.sqrt ((z * x) ^ 2 + (z * y) ^ 2) = z * Real.sqrt (x ^ 2 + y ^ 2) := by
      rw [show (z * x) ^ 2 + (z * y) ^ 2 = z ^ 2 * (x ^ 2 + y ^ 2) by ring, Real.sqrt_mul (by positivity),
        Real.sqrt_sq hz.le]
    rw [hs, log10_mul hz hpos] at a2
    have hlz : log10 z ≠ 0 := by
      intro h0
      apply hz1
      apply log10_inj hz one_pos
      rw [h0]; simp [log10]
    show r.gamma = p.gamma
    apply mul_right_cancel₀ hlz
    linarith
  · show ellipOf r.e = 1
    rw [hre]; rfl

/-- **C80 (fixed ellipse, map).** With `fix_ellip_params=True` a map that is an isotropic power law on the used
pixels gives its index and axis ratio 1, whenever a result is returned. -/
theorem C80_fixed_map (lm : LevMar) (perms : ℕ → ℕ → ℕ) (o : EllipOpts) (ho : o.fix = true) (p0 : EllipPar)
    (hc : Converges lm true { p0 with e := none }) (hfix : ∀ w s d, s.e = none → (lm true w s d).1.e = none)
    (low high : Option ℝ) (fmax : ℝ) (azim : Option (Arr2 Bool)) (u : Bool) (ps : Arr2 (Option ℝ)) (r : Fit2D)
    (h : fit2Dpspec lm perms o p0 low high fmax azim u ps = .ok r) (hlo : 0 ≤ lowCutFor low ps.n ps.m)
    (p : EllipPar) (hb : InBounds p) (he : p.e = none)
    (hps : ∀ i j, Used ps.n ps.m (lowCutFor low ps.n ps.m) (high.getD fmax) azim u i j →
      ps.get i j = some (10 ^ (p.amp + p.gamma * log10 (Real.sqrt (((colFreq ps.m j : ℝ) / ps.m) ^ 2 +
        ((rowFreq ps.n i : ℝ) / ps.n) ^ 2)))))
    (i j i' j' : ℕ) (h1 : Used ps.n ps.m (lowCutFor low ps.n ps.m) (high.getD fmax) azim u i j)
    (h2 : Used ps.n ps.m (lowCutFor low ps.n ps.m) (high.getD fmax) azim u i' j')
    (hne : ((colFreq ps.m j : ℝ) / ps.m) ^ 2 + ((rowFreq ps.n i : ℝ) / ps.n) ^ 2 ≠
      ((colFreq ps.m j' : ℝ) / ps.m) ^ 2 + ((rowFreq ps.n i' : ℝ) / ps.n) ^ 2) :
    r.slope = p.gamma ∧ r.ellip = 1 := by
  obtain ⟨d, -, hd1, hd2, errs, hs, -⟩ := fit2D_parts h
  obtain ⟨e1, -, e3⟩ := store_ok hs
  have hbest : ellipBest lm o p0 d = lm true (radialWeights o.radial d) { p0 with e := none } d := by
    unfold ellipBest; simp [ho]
  have iso : ∀ t : EllipPar, t.e = none → ∀ x y : ℝ, (x ≠ 0 ∨ y ≠ 0) →
      t.eval x y = t.amp + t.gamma * log10 (Real.sqrt (x ^ 2 + y ^ 2)) := by
    intro t ht x y hxy
    unfold EllipPar.eval
    rw [ht]; exact C14_isotropic x y t.amp t.gamma t.theta hxy
  have hnz : ∀ i j, Used ps.n ps.m (lowCutFor low ps.n ps.m) (high.getD fmax) azim u i j →
      (colFreq ps.m j : ℝ) / ps.m ≠ 0 ∨ (rowFreq ps.n i : ℝ) / ps.n ≠ 0 := by
    intro i j hu
    by_contra hcon
    push Not at hcon
    have := hu.2.2.1
    rw [hcon.1, hcon.2] at this
    simp at this
    linarith
  have hrep : Reproduces p d := by
    intro q hq
    obtain ⟨i, j, hu, h1, h2, h3⟩ := hd1 q hq
    rw [h1, h2, iso p he _ _ (hnz i j hu)]
    rw [hps i j hu, log10F_pos (Real.rpow_pos_of_pos (by norm_num) _), FVal.fin.injEq] at h3
    rw [← h3]
    unfold log10
    exact Real.logb_rpow (by norm_num) (by norm_num)
  have hre : (ellipBest lm o p0 d).1.e = none := by rw [hbest]; exact hfix _ _ _ rfl
  have hR : Reproduces (ellipBest lm o p0 d).1 d := by rw [hbest]; exact hc _ d p hb (fun _ => he) hrep
  have key : ∀ i j, Used ps.n ps.m (lowCutFor low ps.n ps.m) (high.getD fmax) azim u i j →
      p.amp + p.gamma * log10 (Real.sqrt (((colFreq ps.m j : ℝ) / ps.m) ^ 2 + ((rowFreq ps.n i : ℝ) / ps.n) ^ 2)) =
      (ellipBest lm o p0 d).1.amp + (ellipBest lm o p0 d).1.gamma *
        log10 (Real.sqrt (((colFreq ps.m j : ℝ) / ps.m) ^ 2 + ((rowFreq ps.n i : ℝ) / ps.n) ^ 2)) := by
    intro i j hu
    obtain ⟨v, hv, -⟩ := hd2 i j hu
    have a1 := (hrep _ hv).symm.trans (hR _ hv)
    simp only at a1
    rw [iso p he _ _ (hnz i j hu), iso _ hre _ _ (hnz i j hu)] at a1
    exact a1
  have hp : ∀ i j, Used ps.n ps.m (lowCutFor low ps.n ps.m) (high.getD fmax) azim u i j →
      0 < ((colFreq ps.m j : ℝ) / ps.m) ^ 2 + ((rowFreq ps.n i : ℝ) / ps.n) ^ 2 := by
    intro i j hu
    rcases hnz i j hu with h | h <;> positivity
  refine ⟨?_, by rw [e3, hre]; rfl⟩
  rw [e1]
  have k1 := key i j h1
  have k2 := key i' j' h2
  have hl : log10 (Real.sqrt (((colFreq ps.m j : ℝ) / ps.m) ^ 2 + ((rowFreq ps.n i : ℝ) / ps.n) ^ 2)) ≠
      log10 (Real.sqrt (((colFreq ps.m j' : ℝ) / ps.m) ^ 2 + ((rowFreq ps.n i' : ℝ) / ps.n) ^ 2)) := by
    intro hh
    have := log10_inj (Real.sqrt_pos.2 (hp i j h1)) (Real.sqrt_pos.2 (hp i' j' h2)) hh
    exact hne ((Real.sqrt_inj (hp i j h1).le (hp i' j' h2).le).1 this)
  apply mul_right_cancel₀ (sub_ne_zero.2 hl)
  linarith

/-- With the ellipse fixed and `bootstrap=False` the covariance has two rows and the fit always fails with
an IndexError. -/
theorem C80_fixed_violated (lm : LevMar) (perms : ℕ → ℕ → ℕ) (o : EllipOpts) (ho : o.fix = true)
    (hbo : o.bootstrap = false) (p0 : EllipPar)
    (hcov : ∀ w s d, ∃ v0 v1, (lm true w s d).2 = some [v0, v1]) (low high : Option ℝ) (fmax : ℝ)
    (azim : Option (Arr2 Bool)) (u : Bool) (ps : Arr2 (Option ℝ)) (r : Fit2D) :
    fit2Dpspec lm perms o p0 low high fmax azim u ps ≠ .ok r := by
  intro h
  obtain ⟨d, -, -, -, errs, hs, he⟩ := fit2D_parts h
  rw [if_neg (by simp [hbo])] at he
  have hbest : ellipBest lm o p0 d = lm true (radialWeights o.radial d) { p0 with e := none } d := by
    unfold ellipBest; simp [ho]
  obtain ⟨v0, v1, hv⟩ := hcov (radialWeights o.radial d) { p0 with e := none } d
  rw [hbest, hv] at he
  subst he
  simp [storeFit2D, ellipCovErrs, errAt, bind, Except.bind] at hs

/-- **C80 (covariance errors).** With `bootstrap=False` the errors never belong to the returned fit: when the
first fit is returned they come from the covariance of the second, when the second is returned they are
all NaN. -/
theorem C80_errors_violated (lm : LevMar) (perms : ℕ → ℕ → ℕ) (o : EllipOpts) (ho : o.fix = false)
    (hbo : o.bootstrap = false) (p0 : EllipPar) (pts : List (ℝ × ℝ × FVal)) (r : EllipPar × List (Option ℝ))
    (h : fitEllip lm perms o p0 pts = .ok r) :
    ∃ d, finitePts pts = .ok d ∧
    let a := lm false (radialWeights o.radial d) p0 d
    let b := lm false (radialWeights o.radial d) { p0 with theta := modPi (p0.theta + Real.pi / 2) } d
    (absResid d a.1 ≤ absResid d b.1 → r.1 = a.1 ∧ ∀ c, b.2 = some c → r.2 = c.map (fun v => some (Real.sqrt |v|))) ∧
    (absResid d b.1 < absResid d a.1 → r.1 = b.1 ∧ r.2 = [none, none, none, none]) := by
  obtain ⟨d, hd, -, e1, e2⟩ := fit_parts h
  refine ⟨d, hd, ?_⟩
  intro a b
  rw [if_neg (by simp [hbo])] at e2
  constructor
  · intro hle
    have : ellipBest lm o p0 d = (a.1, b.2) := by
      unfold ellipBest
      simp only [ho, Bool.false_eq_true, if_false]
      rw [if_neg (not_lt.2 hle)]
    rw [this] at e1 e2
    refine ⟨e1, fun c hc => ?_⟩
    rw [e2]
    show ellipCovErrs b.2 = _
    rw [hc]; rfl
  · intro hlt
    have : ellipBest lm o p0 d = (b.1, none) := by
      unfold ellipBest
      simp only [ho, Bool.false_eq_true, if_false]
      rw [if_pos hlt]
    rw [this] at e1 e2
    exact ⟨e1, e2⟩

/-- **C80 (bootstrap).** The replicates scatter about the data, not about the model: with the identity
permutation every residual about the model is doubled, whereas model plus permuted residuals keep the
sum of their squares. -/
theorem C80_bootstrap_violated (p : EllipPar) (d : List (ℝ × ℝ × ℝ)) :
    ellipReplicate p d id = d.map (fun q => (q.1, q.2.1, p.eval q.1 q.2.1 + 2 * (q.2.2 - p.eval q.1 q.2.1))) := by
  unfold ellipReplicate
  apply List.ext_getElem
  · simp
  · intro i h1 h2
    simp only [List.length_map, List.length_range] at h1
    simp only [List.getElem_map, List.getElem_range, id_eq]
    have h1' : i < d.length := h1
    have hget : d.getD i (0, 0, 0) = d[i] := by simp [List.getD, h1']
    rw [hget]
    refine Prod.ext rfl (Prod.ext rfl ?_)
    simp only; ring

/-- **C80 (direction).** For a falling power law the model is largest, at a given radius, along the array
direction `theta` (columns to the right, rows downwards, as in the azimuthal limits of the 1D spectrum). -/
theorem C80_direction (p : EllipPar) (hg : p.gamma < 0) (hq : ellipOf p.e < 1) (rad phi : ℝ) (hr : 0 < rad) :
    p.eval (rad * Real.cos phi) (-(rad * Real.sin phi)) ≤ p.eval (rad * Real.cos p.theta) (-(rad * Real.sin p.theta)) ∧
    (p.eval (rad * Real.cos phi) (-(rad * Real.sin phi)) = p.eval (rad * Real.cos p.theta) (-(rad * Real.sin p.theta)) ↔
      Real.sin (phi - p.theta) = 0) := by
  obtain ⟨q0, -⟩ := C14_ellip_range p.e
  set q := ellipOf p.e with hqd
  have hquad : ∀ f : ℝ, ellipQuad (rad * Real.cos f) (-(rad * Real.sin f)) q p.theta =
      rad ^ 2 * (q ^ 2 + (1 - q ^ 2) * Real.sin (f - p.theta) ^ 2) := by
    intro f
    rw [C14_ellipse, Real.sin_sub]
    have h1 := Real.sin_sq_add_cos_sq f
    have h2 := Real.sin_sq_add_cos_sq p.theta
    have h3 : (Real.cos f * Real.cos p.theta + Real.sin f * Real.sin p.theta) ^ 2 +
        (Real.sin f * Real.cos p.theta - Real.cos f * Real.sin p.theta) ^ 2 = 1 := by
      linear_combination (Real.sin p.theta ^ 2 + Real.cos p.theta ^ 2) * h1 + h2
    linear_combination rad ^ 2 * q ^ 2 * h3
  have hxy : ∀ f : ℝ, rad * Real.cos f ≠ 0 ∨ -(rad * Real.sin f) ≠ 0 := by
    intro f
    by_contra hcon
    push Not at hcon
    have h1 : Real.cos f = 0 := (mul_eq_zero.1 hcon.1).resolve_left hr.ne'
    have h2 : Real.sin f = 0 := (mul_eq_zero.1 (neg_eq_zero.1 hcon.2)).resolve_left hr.ne'
    have := Real.sin_sq_add_cos_sq f
    rw [h1, h2] at this; norm_num at this
  rw [eval_log p _ _ (hxy phi), eval_log p _ _ (hxy p.theta), ← hqd, hquad, hquad, sub_self, Real.sin_zero]
  have hw : 0 < 1 - q ^ 2 := by nlinarith
  have hlow : 0 < rad ^ 2 * (q ^ 2 + (1 - q ^ 2) * 0 ^ 2) := by
    have : 0 < rad ^ 2 * q ^ 2 := by positivity
    simpa using this
  have hle : rad ^ 2 * (q ^ 2 + (1 - q ^ 2) * 0 ^ 2) ≤ rad ^ 2 * (q ^ 2 + (1 - q ^ 2) * Real.sin (phi - p.theta) ^ 2) := by
    have := mul_nonneg hw.le (sq_nonneg (Real.sin (phi - p.theta)))
    have h4 : 0 ≤ rad ^ 2 * ((1 - q ^ 2) * Real.sin (phi - p.theta) ^ 2) := by positivity
    nlinarith
  have hlog : log10 (rad ^ 2 * (q ^ 2 + (1 - q ^ 2) * 0 ^ 2)) ≤
      log10 (rad ^ 2 * (q ^ 2 + (1 - q ^ 2) * Real.sin (phi - p.theta) ^ 2)) := by
    unfold log10
    exact Real.logb_le_logb_of_le (by norm_num) hlow hle
  constructor
  · have := mul_le_mul_of_nonpos_left hlog (by linarith : p.gamma / 2 ≤ 0)
    linarith
  · constructor
    · intro heq
      have h1 : log10 (rad ^ 2 * (q ^ 2 + (1 - q ^ 2) * Real.sin (phi - p.theta) ^ 2)) =
          log10 (rad ^ 2 * (q ^ 2 + (1 - q ^ 2) * 0 ^ 2)) := by
        apply mul_left_cancel₀ (by linarith : p.gamma / 2 ≠ 0)
        linarith
      have h2 := log10_inj (hlow.trans_le hle) hlow h1
      have h3 : (1 - q ^ 2) * Real.sin (phi - p.theta) ^ 2 = 0 := by
        have : rad ^ 2 ≠ 0 := by positivity
        have := mul_left_cancel₀ this h2
        linarith
      exact pow_eq_zero_iff (by norm_num) |>.1 ((mul_eq_zero.1 h3).resolve_left hw.ne')
    · intro h0
      rw [h0]

/-- The frequency grid of an odd number of rows runs opposite to the array rows, columns with them. -/
theorem C80_grid (n m : ℕ) (hn : Odd n) (i j : ℕ) (hi : i < n) (hj : j < m) :
    (makeRadialFreqArrays n m).1.get i j = -((makeRadialArrays n m none none).1.get i j : ℝ) / n ∧
    (makeRadialFreqArrays n m).2.get i j = ((makeRadialArrays n m none none).2.get i j : ℝ) / m := by
  rw [freqArrays_fst hi, freqArrays_snd hj]
  obtain ⟨k, hk⟩ := hn
  constructor
  · have : rowFreq n i = -(makeRadialArrays n m none none).1.get i j := by
      simp only [rowFreq, makeRadialArrays, axisCentre]; omega
    rw [this]; push_cast; rfl
  · have : colFreq m j = (makeRadialArrays n m none none).2.get i j := by
      simp only [colFreq, makeRadialArrays, axisCentre]; omega
    rw [this]

/-! ### The correlation surface -/

/-- Pixels used by `SCF.fit_2Dplaw`: lag (in pixels) above the lower and up to the upper limit and, if asked,
inside the stored wedge. -/
def UsedLag (n m : ℕ) (step lo hi : ℝ) (azim : Option (Arr2 Bool)) (useAzim : Bool) (i j : ℕ) : Prop :=
  i < n ∧ j < m ∧ lo < Real.sqrt ((rowFreq n i : ℝ) ^ 2 + (colFreq m j : ℝ) ^ 2) * step ∧
    Real.sqrt ((rowFreq n i : ℝ) ^ 2 + (colFreq m j : ℝ) ^ 2) * step ≤ hi ∧
    ∀ a, azim = some a → useAzim = true → a.get i j = true

private theorem lag_fst {n m i j : ℕ} (hi : i < n) :
    ((makeRadialArrays n m none none).1.slice0 ⟨none, none, -1⟩).get i j = rowFreq n i := by
  simp only [makeRadialArrays, Arr2.slice0, resolve_full_rev, rev_ix hi, axisCentre, rowFreq]
  omega

private theorem lag_snd {n m i j : ℕ} :
    ((makeRadialArrays n m none none).2.slice0 ⟨none, none, -1⟩).get i j = colFreq m j := by
  simp only [makeRadialArrays, Arr2.slice0, axisCentre, colFreq]
  omega

private theorem lag_mask_iff {n m i j : ℕ} (hi : i < n) (hj : j < m) (step lo hi' : ℝ) (azim : Option (Arr2 Bool)) (u : Bool) :
    (clipFunc lo hi' (some (Real.sqrt
      ((((makeRadialArrays n m none none).1.slice0 ⟨none, none, -1⟩).get i j : ℝ) ^ 2 +
        (((makeRadialArrays n m none none).2.slice0 ⟨none, none, -1⟩).get i j : ℝ) ^ 2) * step)) &&
      azimKeep azim u i j) = true ↔ UsedLag n m step lo hi' azim u i j := by
  rw [lag_fst hi, lag_snd]
  unfold UsedLag clipFunc azimKeep
  simp only [Bool.and_eq_true, decide_eq_true_eq, hi, hj, true_and]
  cases azim with
  | none => simp
  | some a => cases u <;> simp [and_assoc]

private theorem surface_scale (amp q t g x y z : ℝ) (q0 : 0 < q) (hz : 0 < z) (h : x ≠ 0 ∨ y ≠ 0) :
    ellipSurface amp q t g (z * x) (z * y) = ellipSurface (amp + g * log10 z) q t g x y := by
  unfold ellipSurface
  have hq : q ^ 2 * (z * x * Real.cos t - z * y * Real.sin t) ^ 2 + (z * x * Real.sin t + z * y * Real.cos t) ^ 2 =
      z ^ 2 * (q ^ 2 * (x * Real.cos t - y * Real.sin t) ^ 2 + (x * Real.sin t + y * Real.cos t) ^ 2) := by ring
  have hpos : 0 < q ^ 2 * (x * Real.cos t - y * Real.sin t) ^ 2 + (x * Real.sin t + y * Real.cos t) ^ 2 := by
    have h0 : 0 ≤ q ^ 2 * (x * Real.cos t - y * Real.sin t) ^ 2 := by positivity
    have h1 := sq_nonneg (x * Real.sin t + y * Real.cos t)
    rcases h0.lt_or_eq with h2 | h2
    · linarith
    · rcases h1.lt_or_eq with h3 | h3
      · linarith
      · exfalso
        have e1 : x * Real.cos t - y * Real.sin t = 0 := by
          have := (mul_eq_zero.1 h2.symm).resolve_left (by positivity)
          exact pow_eq_zero_iff (by norm_num) |>.1 this
        have e2 : x * Real.sin t + y * Real.cos t = 0 := pow_eq_zero_iff (by norm_num) |>.1 h3.symm
        have tr := Real.sin_sq_add_cos_sq t
        have ex : x = 0 := by linear_combination Real.cos t * e1 + Real.sin t * e2 - x * tr
        have ey : y = 0 := by linear_combination Real.cos t * e2 - Real.sin t * e1 - y * tr
        rcases h with h | h
        · exact h ex
        · exact h ey
  rw [hq, Real.sqrt_mul (by positivity), Real.sqrt_sq hz.le, log10_mul hz (Real.sqrt_pos.2 hpos)]
  ring

/-- **C80 (correlation surface).** If the used part of the surface is an elliptical power law of the lag in
pixels, the fit reports its index, axis ratio and angle whatever the spacing of the lags; the amplitude of
the fitted model is the one at a lag of one *step*, not of one pixel. Missing: the amplitude in pixels. -/
theorem C80_scf_partial (lm : LevMar) (perms : ℕ → ℕ → ℕ) (o : EllipOpts) (ho : o.fix = false) (p0 : EllipPar)
    (hc : Converges lm false p0 ∨ Converges lm false { p0 with theta := modPi (p0.theta + Real.pi / 2) })
    (step lo hi : ℝ) (hstep : 0 < step) (hlo : 0 ≤ lo) (azim : Option (Arr2 Bool)) (u : Bool) (surf : Arr2 (Option ℝ))
    (fitted : EllipPar) (r : Fit2D) (h : fit2Dplaw lm perms o p0 step lo hi azim u surf = .ok (fitted, r))
    (p : EllipPar) (hb : InBounds { p with amp := p.amp + p.gamma * log10 step }) (hg : p.gamma ≠ 0)
    (hps : ∀ i j, UsedLag surf.n surf.m step lo hi azim u i j →
      surf.get i j = some (10 ^ ellipSurface p.amp (ellipOf p.e) p.theta p.gamma (step * (colFreq surf.m j : ℝ))
        (step * (rowFreq surf.n i : ℝ))))
    (hdet : Determining (fun x y => ∃ i j, UsedLag surf.n surf.m step lo hi azim u i j ∧
      x = (colFreq surf.m j : ℝ) ∧ y = (rowFreq surf.n i : ℝ))) :
    r.slope = p.gamma ∧ r.ellip = ellipOf p.e ∧ (ellipOf p.e < 1 → r.theta = modPi p.theta) ∧
    fitted.amp = p.amp + p.gamma * log10 step := by
  unfold fit2Dplaw at h
  simp only [bind, Except.bind, pure, Except.pure] at h
  split_ifs at h
  split at h
  · cases h
  · rename_i s hs
    split at h
    · cases h
    · rename_i f hf
      cases h
      obtain ⟨d, hd, -, e1, -⟩ := fit_parts hs
      have hpts := finite_ok hd
      obtain ⟨g1, g2, g3⟩ := store_ok hf
      set p' : EllipPar := { p with amp := p.amp + p.gamma * log10 step } with hp'
      have hrep : Reproduces p' d := by
        intro q hq
        have : (q.1, q.2.1, FVal.fin q.2.2) ∈ d.map (fun q => (q.1, q.2.1, FVal.fin q.2.2)) :=
          List.mem_map.2 ⟨q, hq, rfl⟩
        rw [← hpts] at this
        obtain ⟨i, hi', j, hj, hm, heq⟩ := mem_masked.1 this
        rw [lag_mask_iff hi' hj] at hm
        rw [lag_fst hi', lag_snd] at heq
        simp only [Prod.mk.injEq] at heq
        obtain ⟨h1, h2, h3⟩ := heq
        have hne : q.1 ≠ 0 ∨ q.2.1 ≠ 0 := by
          by_contra hcon
          push Not at hcon
          have := hm.2.2.1
          rw [← h1, ← h2, hcon.1, hcon.2] at this
          simp at this
          linarith
        rw [hps i j hm, ← h1, ← h2, surface_scale _ _ _ _ _ _ _ (C14_ellip_range p.e).1 hstep hne] at h3
        have h10 := Real.rpow_pos_of_pos (by norm_num : (0 : ℝ) < 10)
          (ellipSurface (p.amp + p.gamma * log10 step) (ellipOf p.e) p.theta p.gamma q.1 q.2.1)
        simp only [log10F] at h3
        rw [if_neg (not_lt.2 h10.le), if_neg h10.ne', FVal.fin.injEq] at h3
        rw [h3, C80_surface p' _ _ hne]
        unfold log10
        exact Real.logb_rpow (by norm_num) (by norm_num)
      have hr := best_reproduces lm o ho p0 hc d p' hb hrep
      obtain ⟨k1, k2, k3, k4⟩ := C80_identifiable p' (ellipBest lm o p0 d).1 hg _ hdet (by
        rintro x y ⟨i, j, hu, rfl, rfl⟩
        have := (mem_masked
          (x := fun i j => (((makeRadialArrays surf.n surf.m none none).2.slice0 ⟨none, none, -1⟩).get i j : ℝ))
          (y := fun i j => (((makeRadialArrays surf.n surf.m none none).1.slice0 ⟨none, none, -1⟩).get i j : ℝ))
          (v := fun i j => log10F (surf.get i j))
          (mask := fun i j => clipFunc lo hi (some (Real.sqrt
            ((((makeRadialArrays surf.n surf.m none none).1.slice0 ⟨none, none, -1⟩).get i j : ℝ) ^ 2 +
              (((makeRadialArrays surf.n surf.m none none).2.slice0 ⟨none, none, -1⟩).get i j : ℝ) ^ 2) * step)) &&
            azimKeep azim u i j)).2
          ⟨i, hu.1, j, hu.2.1, (lag_mask_iff hu.1 hu.2.1 step lo hi azim u).2 hu, rfl⟩
        rw [hpts] at this
        obtain ⟨q, hq, heq⟩ := List.mem_map.1 this
        rw [lag_fst hu.1, lag_snd] at heq
        simp only [Prod.mk.injEq] at heq
        rw [← heq.1, ← heq.2.1, ← hrep q hq, ← hr q hq])
      refine ⟨by rw [g1, e1, k1], by rw [g3, e1, k3], fun hlt => ?_, by rw [e1, k2]⟩
      obtain ⟨k, hk⟩ := k4 hlt
      rw [g2, e1, hk, modPi_add]

/-! ### A fitter that converges, and a surface it recovers -/

open Classical in
/-- A fitter that finds allowed parameters reproducing the data whenever there are some. -/
noncomputable def oracleFit : LevMar := fun fix _ start d =>
  if h : ∃ p, InBounds p ∧ (fix = true → p.e = none) ∧ Reproduces p d then (h.choose, none) else (start, none)

example (fix : Bool) (s : EllipPar) : Converges oracleFit fix s := by
  intro w d p h1 h2 h3
  have h : ∃ p, InBounds p ∧ (fix = true → p.e = none) ∧ Reproduces p d := ⟨p, h1, h2, h3⟩
  unfold oracleFit
  rw [dif_pos h]
  exact h.choose_spec.2.2

/-- Allowed parameters of an elongated power law. -/
example : InBounds ⟨2, some 0, 1, -3⟩ ∧ ellipOf (some 0) = 1 / 2 := by
  refine ⟨⟨by norm_num, ?_, ?_, ?_⟩, ?_⟩
  · intro t ht; cases ht; norm_num
  · have := Real.pi_gt_three
    rw [abs_of_nonneg (by norm_num)]
    linarith
  · norm_num [abs_of_nonpos]
  · simp [ellipOf]; norm_num

/-- The 9 by 9 map of that power law is fitted without error, so that `C80_recovers_partial` applies to it. -/
example : ∃ r, fit2Dpspec oracleFit (fun _ => id) { bootstrap := false } ⟨0, some 0, Real.pi / 2, -2⟩ none none 0.5 none false
    ⟨9, 9, fun i j => some (10 ^ ellipSurface 2 (1 / 2) 1 (-3) ((colFreq 9 j : ℝ) / 9) ((rowFreq 9 i : ℝ) / 9))⟩ = .ok r := by
  have hfin : ∀ pts : List (ℝ × ℝ × FVal), (∀ q ∈ pts, ∃ v, q.2.2 = .fin v) → ∃ d, finitePts pts = .ok d := by
    intro pts
    induction pts with
    | nil => intro _; exact ⟨[], rfl⟩
    | cons q t ih =>
      intro h
      obtain ⟨d, hd⟩ := ih (fun q hq => h q (List.mem_cons_of_mem _ hq))
      obtain ⟨v, hv⟩ := h q (List.mem_cons_self)
      refine ⟨(q.1, q.2.1, v) :: d, ?_⟩
      unfold finitePts at hd ⊢
      rw [List.mapM_cons]
      simp only [bind, Except.bind, pure, Except.pure, hv]
      rw [hd]
  have hnone : ∀ fix w s d, (oracleFit fix w s d).2 = none := by
    intro fix w s d
    unfold oracleFit
    split_ifs <;> rfl
  unfold fit2Dpspec
  simp only
  rw [if_neg]
  · obtain ⟨d, hd⟩ := hfin (maskedPts 9 9 (fun i j => (makeRadialFreqArrays 9 9).2.get i j)
        (fun i j => (makeRadialFreqArrays 9 9).1.get i j)
        (fun i j => log10F (some ((10 : ℝ) ^ ellipSurface 2 (1 / 2) 1 (-3) ((colFreq 9 j : ℝ) / 9) ((rowFreq 9 i : ℝ) / 9))))
        (fun i j => clipFunc (lowCutFor none 9 9) ((none : Option ℝ).getD 0.5)
          (some (Real.sqrt ((makeRadialFreqArrays 9 9).1.get i j ^ 2 +
            (makeRadialFreqArrays 9 9).2.get i j ^ 2))) && azimKeep none false i j)) (by
      intro q hq
      obtain ⟨i, hi, j, hj, hm, rfl⟩ := mem_masked.1 hq
      have h10 := Real.rpow_pos_of_pos (by norm_num : (0 : ℝ) < 10)
        (ellipSurface 2 (1 / 2) 1 (-3) ((colFreq 9 j : ℝ) / 9) ((rowFreq 9 i : ℝ) / 9))
      refine ⟨log10 ((10 : ℝ) ^ ellipSurface 2 (1 / 2) 1 (-3) ((colFreq 9 j : ℝ) / 9) ((rowFreq 9 i : ℝ) / 9)), ?_⟩
      simp only [log10F]
      rw [if_neg (not_lt.2 h10.le), if_neg h10.ne'])
    simp only [fitEllip, hd, bind, Except.bind, pure, Except.pure, if_true, Bool.false_eq_true, if_false]
    have hb : (ellipBest oracleFit { bootstrap := false } ⟨0, some 0, Real.pi / 2, -2⟩ d).2 = none := by
      unfold ellipBest
      simp only [Bool.false_eq_true, if_false]
      split_ifs
      · rfl
      · exact hnone _ _ _ _
    rw [hb]
    exact ⟨_, rfl⟩
  · intro h0
    obtain ⟨a, b, c, d, e, -, -, -, -, -, -, ⟨i, j, hu, -, -⟩, -⟩ :=
      C80_default_limits 9 (le_refl _) 0.5 (by norm_num)
    rw [List.length_eq_zero_iff] at h0
    have := (mem_masked (x := fun i j => (makeRadialFreqArrays 9 9).2.get i j)
        (y := fun i j => (makeRadialFreqArrays 9 9).1.get i j)
        (v := fun i j => log10F (some ((10 : ℝ) ^ ellipSurface 2 (1 / 2) 1 (-3) ((colFreq 9 j : ℝ) / 9) ((rowFreq 9 i : ℝ) / 9))))
        (mask := fun i j => clipFunc (lowCutFor none 9 9) ((none : Option ℝ).getD 0.5)
          (some (Real.sqrt ((makeRadialFreqArrays 9 9).1.get i j ^ 2 +
            (makeRadialFreqArrays 9 9).2.get i j ^ 2))) && azimKeep none false i j)).2
        ⟨i, hu.1, j, hu.2.1, (mask_iff hu.1 hu.2.1 (lowCutFor none 9 9) _ none false).2 hu, rfl⟩
    have h9 : ((9 : ℕ) : ℝ) = 9 := by norm_num
    rw [h0] at this
    simp at this

/-- **C80 (weights).** With `radial_weighting` every solver call is given the weight 1/radius of each point (none at the origin): two solvers that agree
for those weights give the same fit; without it two solvers that agree for unweighted data do. -/
theorem C80_radial_weights (lm lm' : LevMar) (o : EllipOpts) (p0 : EllipPar) (d : List (ℝ × ℝ × ℝ)) :
    (o.radial = true → (∀ q ∈ d, q.1 ^ 2 + q.2.1 ^ 2 ≠ 0) → (∀ fx s, lm fx (some (d.map fun q => (Real.sqrt (q.1 ^ 2 + q.2.1 ^ 2))⁻¹)) s d =
        lm' fx (some (d.map fun q => (Real.sqrt (q.1 ^ 2 + q.2.1 ^ 2))⁻¹)) s d) → ellipBest lm o p0 d = ellipBest lm' o p0 d) ∧
    (o.radial = false → (∀ fx s, lm fx none s d = lm' fx none s d) → ellipBest lm o p0 d = ellipBest lm' o p0 d) := by
  constructor
  · intro ho _ h
    have hw : radialWeights o.radial d = some (d.map fun q => (Real.sqrt (q.1 ^ 2 + q.2.1 ^ 2))⁻¹) := by
      simp [radialWeights, ho, one_div]
    unfold ellipBest
    simp only [hw, h]
  · intro ho h
    have hw : radialWeights o.radial d = none := by simp [radialWeights, ho]
    unfold ellipBest
    simp only [hw, h]

private theorem percentile_even (c h : ℝ) (hh : 0 ≤ h) {n : ℕ} (hn : 0 < n) {q : ℝ} (q0 : 0 ≤ q) (q1 : q ≤ 100) :
    npPercentile ((List.range n).map fun k : ℕ => c + h * (k : ℝ)) q = c + h * (q / 100 * ((n : ℝ) - 1)) := by
  have hn1 : (1 : ℝ) ≤ n := by exact_mod_cast hn
  have hsort : ((List.range n).map fun k : ℕ => c + h * (k : ℝ)).insertionSort (· ≤ ·) = (List.range n).map fun k : ℕ => c + h * (k : ℝ) := by
    apply List.Pairwise.insertionSort_eq
    rw [List.pairwise_map]
    refine List.Pairwise.imp ?_ (List.pairwise_lt_range (n := n))
    intro a b hab
    have : (a : ℝ) ≤ b := by exact_mod_cast hab.le
    nlinarith
  have hget : ∀ k, k < n → ((List.range n).map fun k : ℕ => c + h * (k : ℝ)).getD k 0 = c + h * (k : ℝ) := by
    intro k hk
    simp [List.getD, hk]
  unfold npPercentile
  simp only [hsort, List.length_map, List.length_range]
  have hp0 : 0 ≤ q / 100 * ((n : ℝ) - 1) := mul_nonneg (by positivity) (by linarith)
  have hp1 : q / 100 * ((n : ℝ) - 1) ≤ (n : ℝ) - 1 := mul_le_of_le_one_left (by linarith) (by linarith)
  generalize hpos : q / 100 * ((n : ℝ) - 1) = pos at *
  have hk1 : (⌊pos⌋₊ : ℝ) ≤ pos := Nat.floor_le hp0
  have hkn : ⌊pos⌋₊ ≤ n - 1 := by
    have : (⌊pos⌋₊ : ℝ) ≤ ((n - 1 : ℕ) : ℝ) := by
      rw [Nat.cast_sub hn]
      push_cast
      linarith
    exact_mod_cast this
  rw [hget _ (by omega), hget _ (by omega)]
  rcases Nat.lt_or_ge ⌊pos⌋₊ (n - 1) with hlt | hge
  · rw [min_eq_left (by omega)]
    push_cast
    ring
  · have hke : ⌊pos⌋₊ = n - 1 := by omega
    have hpe : pos = (⌊pos⌋₊ : ℝ) := by
      apply le_antisymm _ hk1
      rw [hke, Nat.cast_sub hn]
      push_cast
      exact hp1
    rw [← hpe]
    ring

/-- **C80 (interval).** The bootstrap error is half of the central interval that holds the fraction `alpha`: for `n` evenly spread
replicates it is `alpha` times half their spread. -/
theorem C80_half_width (c h : ℝ) (hh : 0 ≤ h) {n : ℕ} (hn : 0 < n) {alpha : ℝ} (a0 : 0 ≤ alpha) (a1 : alpha ≤ 1) :
    halfWidth alpha ((List.range n).map fun k : ℕ => c + h * (k : ℝ)) = alpha * (h * ((n : ℝ) - 1) / 2) := by
  unfold halfWidth
  rw [percentile_even c h hh hn (by linarith) (by linarith), percentile_even c h hh hn (by linarith) (by linarith)]
  ring

/-- **C80 (latest wedge).** After spectra with two different azimuthal limits the fit uses the pixels of the last wedge. -/
theorem C80_latest_wedge (lm : LevMar) (perms : ℕ → ℕ → ℕ) (o : EllipOpts) (p0 : EllipPar)
    (low high : Option ℝ) (fmax : ℝ) (old : Option (Arr2 Bool)) (b : Arr2 Bool) (ps ps' : Arr2 (Option ℝ)) (h1 : ps'.n = ps.n)
    (h2 : ps'.m = ps.m) (h : ∀ i j, b.get i j = true → ps'.get i j = ps.get i j) :
    fit2Dpspec lm perms o p0 low high fmax (storeAzim old (some b)) true ps' =
      fit2Dpspec lm perms o p0 low high fmax (storeAzim old (some b)) true ps ∧
    (∀ i j, Used ps.n ps.m (lowCutFor low ps.n ps.m) (high.getD fmax) none true i j → b.get i j = true →
      (∀ v, ps.get i j = some v → v ≤ 0) →
      fit2Dpspec lm perms o p0 low high fmax (storeAzim old (some b)) true ps = .error .valueError) := by
  refine ⟨(C80_selection lm perms o p0 low high fmax _ true ps).1 ps' h1 h2 (fun i j hu => h i j (hu.2.2.2.2 b rfl rfl)), ?_⟩
  intro i j hu hb hv
  refine (C80_selection lm perms o p0 low high fmax _ true ps).2.2 i j ⟨hu.1, hu.2.1, hu.2.2.1, hu.2.2.2.1, ?_⟩ hv
  intro a ha _
  simp only [storeAzim, Option.some.injEq] at ha
  exact ha ▸ hb

end TS
