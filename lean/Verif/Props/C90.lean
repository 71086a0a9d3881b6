import Verif.Model.Ellipse
import Mathlib.Tactic.Linarith
import Mathlib.Tactic.FieldSimp
import Mathlib.Tactic.LinearCombination
import Mathlib.Tactic.FinCases
import Mathlib.LinearAlgebra.Matrix.ToLinearEquiv
import Mathlib.LinearAlgebra.Matrix.DotProduct
import Mathlib.Analysis.Matrix.PosDef
import Mathlib.Algebra.Polynomial.Roots
import Mathlib.Tactic.ComputeDegree
import Mathlib.Data.Complex.Basic
import Mathlib.Algebra.Order.Star.Real
import Mathlib.Analysis.SpecialFunctions.Trigonometric.Bounds

/-! C90 — the ellipse fitted to a contour. -/

namespace TS
open Matrix

namespace Spec

/-- The point lies on the ellipse with centre `(x0, y0)`, semi-axes `p`, `q`, the first at angle `th` from the x axis. -/
def OnEllipse (x0 y0 p q th : ℝ) (x : ℝ × ℝ) : Prop :=
  ((Real.cos th * (x.1 - x0) + Real.sin th * (x.2 - y0)) / p) ^ 2 + ((-Real.sin th * (x.1 - x0) + Real.cos th * (x.2 - y0)) / q) ^ 2 = 1

/-- Value of `k0 x² + k1 x y + k2 y² + k3 x + k4 y + k5`. -/
def conicAt (k : Fin 6 → ℝ) (x : ℝ × ℝ) : ℝ := k 0 * x.1 ^ 2 + k 1 * (x.1 * x.2) + k 2 * x.2 ^ 2 + k 3 * x.1 + k 4 * x.2 + k 5

/-- The conic passes through the points. -/
def Through {n : ℕ} (k : Fin 6 → ℝ) (pts : Fin n → ℝ × ℝ) : Prop := ∀ i, conicAt k (pts i) = 0

/-- No conic passes through the points. -/
def NoConic {n : ℕ} (pts : Fin n → ℝ × ℝ) : Prop := ∀ k, Through k pts → k = 0

/-- Sum of the squared algebraic distances of the points from a conic. -/
def algError {n : ℕ} (pts : Fin n → ℝ × ℝ) (k : Fin 6 → ℝ) : ℝ := ∑ i, conicAt k (pts i) ^ 2

/-- `np.linalg.eig` found three independent eigenvectors. -/
def Eigenbasis (M V : Matrix (Fin 3) (Fin 3) ℝ) : Prop :=
  V.det ≠ 0 ∧ ∀ j, ∃ l : ℝ, M *ᵥ (fun i => V i j) = l • (fun i => V i j)

end Spec
open Spec

/-! ### From the conic to the parameters -/

private theorem angle_trig (a b c : ℝ) (h : a ≠ c) :
    Real.cos (2 * conicAngle a b c) = -(a - c) / Real.sqrt ((a - c) ^ 2 + 4 * b ^ 2) ∧
    Real.sin (2 * conicAngle a b c) = -(2 * b) / Real.sqrt ((a - c) ^ 2 + 4 * b ^ 2) := by
  have hac : a - c ≠ 0 := sub_ne_zero.2 h
  set T := Real.sqrt ((a - c) ^ 2 + 4 * b ^ 2) with hT
  have hTpos : 0 < T := Real.sqrt_pos.2 (by positivity)
  have hroot : Real.sqrt (1 + (2 * b / (a - c)) ^ 2) = T / |a - c| := by
    rw [hT, ← Real.sqrt_sq_eq_abs, ← Real.sqrt_div (by positivity)]
    congr 1
    field_simp
    ring
  have hc : Real.cos (Real.arctan (2 * b / (a - c))) = |a - c| / T := by
    rw [Real.cos_arctan, hroot, one_div_div]
  have hs : Real.sin (Real.arctan (2 * b / (a - c))) = 2 * b / (a - c) * (|a - c| / T) := by
    rw [Real.sin_arctan, hroot]
    have : |a - c| ≠ 0 := abs_ne_zero.2 hac
    field_simp
  unfold conicAngle
  rw [if_neg h]
  by_cases hlt : c < a
  · simp only [if_pos hlt]
    have e : 2 * (0.5 * Real.arctan (2 * b / (a - c)) + 0.5 * Real.pi) = Real.arctan (2 * b / (a - c)) + Real.pi := by ring
    rw [e, Real.cos_add_pi, Real.sin_add_pi, hc, hs, abs_of_pos (by linarith)]
    constructor
    · ring
    · field_simp
  · simp only [if_neg hlt]
    have hlt' : a < c := lt_of_le_of_ne (not_lt.1 hlt) h
    have e : 2 * (0.5 * Real.arctan (2 * b / (a - c))) = Real.arctan (2 * b / (a - c)) := by ring
    rw [e, hc, hs, abs_of_neg (by linarith)]
    constructor
    · rfl
    · field_simp

/-- Coefficients of an ellipse. -/
private noncomputable def std (x0 y0 p q th : ℝ) : Fin 6 → ℝ :=
  let A := Real.cos th ^ 2 / p ^ 2 + Real.sin th ^ 2 / q ^ 2
  let B := Real.cos th * Real.sin th * (1 / p ^ 2 - 1 / q ^ 2)
  let C := Real.sin th ^ 2 / p ^ 2 + Real.cos th ^ 2 / q ^ 2
  ![A, 2 * B, C, -2 * (A * x0 + B * y0), -2 * (B * x0 + C * y0), A * x0 ^ 2 + 2 * B * x0 * y0 + C * y0 ^ 2 - 1]

private theorem on_iff (x0 y0 p q th : ℝ) (hp : 0 < p) (hq : 0 < q) (x : ℝ × ℝ) :
    OnEllipse x0 y0 p q th x ↔ conicAt (std x0 y0 p q th) x = 0 := by
  unfold OnEllipse std conicAt
  rw [← sub_eq_zero]
  simp only [Fin.isValue, Matrix.cons_val]
  have : ∀ a b : ℝ, a = b → (a = 0 ↔ b = 0) := by rintro a b rfl; rfl
  apply this
  field_simp
  ring

/-- Width of an axis from the sum and difference of the inverse squares. -/
private theorem axes (p q : ℝ) (hp : 0 < p) (hq : 0 < q) :
    2 / (1 / p ^ 2 + 1 / q ^ 2 - |1 / p ^ 2 - 1 / q ^ 2|) = (max p q) ^ 2 ∧
    2 / (1 / p ^ 2 + 1 / q ^ 2 + |1 / p ^ 2 - 1 / q ^ 2|) = (min p q) ^ 2 := by
  rcases le_total p q with h | h
  · have : 1 / q ^ 2 ≤ 1 / p ^ 2 := one_div_le_one_div_of_le (by positivity) (by gcongr)
    rw [abs_of_nonneg (by linarith), max_eq_right h, min_eq_left h]
    constructor
    · rw [show 1 / p ^ 2 + 1 / q ^ 2 - (1 / p ^ 2 - 1 / q ^ 2) = 2 / q ^ 2 by ring]; field_simp
    · rw [show 1 / p ^ 2 + 1 / q ^ 2 + (1 / p ^ 2 - 1 / q ^ 2) = 2 / p ^ 2 by ring]; field_simp
  · have : 1 / p ^ 2 ≤ 1 / q ^ 2 := one_div_le_one_div_of_le (by positivity) (by gcongr)
    rw [abs_of_nonpos (by linarith), max_eq_left h, min_eq_right h]
    constructor
    · rw [show 1 / p ^ 2 + 1 / q ^ 2 - -(1 / p ^ 2 - 1 / q ^ 2) = 2 / p ^ 2 by ring]; field_simp
    · rw [show 1 / p ^ 2 + 1 / q ^ 2 + -(1 / p ^ 2 - 1 / q ^ 2) = 2 / q ^ 2 by ring]; field_simp

private theorem sqrtNum_sq {x w : ℝ} (hw : 0 ≤ w) (h : x = w ^ 2) : sqrtNum x = w := by
  unfold sqrtNum
  rw [h, if_neg (not_lt.2 (sq_nonneg w)), Real.sqrt_sq hw]

private theorem axis_sq (k ab u w : ℝ) (hk : k ≠ 0) (hab : ab ≠ 0) :
    2 * (k ^ 3 * ab) / (-(k ^ 2 * ab) * (k * u - k * w)) = 2 / (w - u) := by
  have h1 : k ^ 3 * ab ≠ 0 := mul_ne_zero (pow_ne_zero _ hk) hab
  rw [show -(k ^ 2 * ab) * (k * u - k * w) = (w - u) * (k ^ 3 * ab) by ring, mul_div_mul_right _ _ h1]

private theorem params_std (x0 y0 p q th : ℝ) (hp : 0 < p) (hq : 0 < q) (k : ℝ) (hk : k ≠ 0) :
    let e := k • std x0 y0 p q th
    let P := conicParams (e 0) (e 1) (e 2) (e 3) (e 4) (e 5)
    P.xc = x0 ∧ P.yc = y0 ∧ ((0 < k ∧ P.a = max p q ∧ P.b = min p q) ∨ (k < 0 ∧ P.a = min p q ∧ P.b = max p q)) ∧
      P.theta = conicAngle (e 0) (e 1 / 2) (e 2) := by
  intro e P
  set cs := Real.cos th with hcs
  set sn := Real.sin th with hsn
  have hone : cs ^ 2 + sn ^ 2 = 1 := Real.cos_sq_add_sin_sq th
  set α := 1 / p ^ 2 with hα
  set β := 1 / q ^ 2 with hβ
  have hα0 : 0 < α := by positivity
  have hβ0 : 0 < β := by positivity
  have e0 : e 0 = k * (cs ^ 2 * α + sn ^ 2 * β) := by
    show k * (cs ^ 2 / p ^ 2 + sn ^ 2 / q ^ 2) = _
    rw [hα, hβ]; ring
  have e1 : e 1 / 2 = k * (cs * sn * (α - β)) := by
    show k * (2 * (cs * sn * (α - β))) / 2 = _
    ring
  have e2 : e 2 = k * (sn ^ 2 * α + cs ^ 2 * β) := by
    show k * (sn ^ 2 / p ^ 2 + cs ^ 2 / q ^ 2) = _
    rw [hα, hβ]; ring
  have e3 : e 3 / 2 = -(e 0 * x0 + e 1 / 2 * y0) := by
    show k * (-2 * ((cs ^ 2 / p ^ 2 + sn ^ 2 / q ^ 2) * x0 + cs * sn * (α - β) * y0)) / 2 = _
    rw [e0, e1, hα, hβ]; ring
  have e4 : e 4 / 2 = -(e 1 / 2 * x0 + e 2 * y0) := by
    show k * (-2 * (cs * sn * (α - β) * x0 + (sn ^ 2 / p ^ 2 + cs ^ 2 / q ^ 2) * y0)) / 2 = _
    rw [e2, e1, hα, hβ]; ring
  have e5 : e 5 = e 0 * x0 ^ 2 + 2 * (e 1 / 2) * x0 * y0 + e 2 * y0 ^ 2 - k := by
    show k * ((cs ^ 2 / p ^ 2 + sn ^ 2 / q ^ 2) * x0 ^ 2 + 2 * (cs * sn * (α - β)) * x0 * y0 + (sn ^ 2 / p ^ 2 + cs ^ 2 / q ^ 2) * y0 ^ 2 - 1) = _
    rw [e0, e1, e2, hα, hβ]; ring
  have hdisc : (e 1 / 2) ^ 2 - e 0 * e 2 = -(k ^ 2 * (α * β)) := by
    rw [e0, e1, e2]
    have : (k * (cs * sn * (α - β))) ^ 2 - k * (cs ^ 2 * α + sn ^ 2 * β) * (k * (sn ^ 2 * α + cs ^ 2 * β)) =
        -(k ^ 2 * (α * β)) * (cs ^ 2 + sn ^ 2) ^ 2 := by ring
    rw [this, hone]; ring
  have hd0 : (e 1 / 2) ^ 2 - e 0 * e 2 ≠ 0 := by
    rw [hdisc]
    exact neg_ne_zero.2 (by positivity)
  have hsum : e 0 + e 2 = k * (α + β) := by
    rw [e0, e2]
    have : k * (cs ^ 2 * α + sn ^ 2 * β) + k * (sn ^ 2 * α + cs ^ 2 * β) = k * (α + β) * (cs ^ 2 + sn ^ 2) := by ring
    rw [this, hone]; ring
  have hterm : Real.sqrt ((e 0 - e 2) ^ 2 + 4 * (e 1 / 2) ^ 2) = |k| * |α - β| := by
    rw [← abs_mul, ← Real.sqrt_sq_eq_abs, e0, e1, e2]
    congr 1
    have : (k * (cs ^ 2 * α + sn ^ 2 * β) - k * (sn ^ 2 * α + cs ^ 2 * β)) ^ 2 + 4 * (k * (cs * sn * (α - β))) ^ 2 =
        (k * (α - β)) ^ 2 * (cs ^ 2 + sn ^ 2) ^ 2 := by ring
    rw [this, hone]; ring
  have hnum : e 0 * (e 4 / 2) ^ 2 + e 2 * (e 3 / 2) ^ 2 + e 5 * (e 1 / 2) ^ 2 - 2 * (e 1 / 2) * (e 3 / 2) * (e 4 / 2) - e 0 * e 2 * e 5 =
      k ^ 3 * (α * β) := by
    rw [e3, e4, e5]
    have : ∀ a b c : ℝ, a * (-(b * x0 + c * y0)) ^ 2 + c * (-(a * x0 + b * y0)) ^ 2 + (a * x0 ^ 2 + 2 * b * x0 * y0 + c * y0 ^ 2 - k) * b ^ 2 -
        2 * b * (-(a * x0 + b * y0)) * (-(b * x0 + c * y0)) - a * c * (a * x0 ^ 2 + 2 * b * x0 * y0 + c * y0 ^ 2 - k) = -k * (b ^ 2 - a * c) := by
      intro a b c; ring
    rw [this, hdisc]; ring
  obtain ⟨ax1, ax2⟩ := axes p q hp hq
  have hmax : 0 ≤ max p q := le_max_of_le_left hp.le
  have hmin : 0 ≤ min p q := le_min hp.le hq.le
  refine ⟨?_, ?_, ?_, rfl⟩
  · show (e 2 * (e 3 / 2) - e 1 / 2 * (e 4 / 2)) / ((e 1 / 2) ^ 2 - e 0 * e 2) = x0
    rw [div_eq_iff hd0, e3, e4]; ring
  · show (e 0 * (e 4 / 2) - e 1 / 2 * (e 3 / 2)) / ((e 1 / 2) ^ 2 - e 0 * e 2) = y0
    rw [div_eq_iff hd0, e3, e4]; ring
  · have ha : P.a = sqrtNum (2 * (k ^ 3 * (α * β)) / (-(k ^ 2 * (α * β)) * (|k| * |α - β| - k * (α + β)))) := by
      rw [← hnum, ← hdisc, ← hterm, ← hsum]; rfl
    have hb : P.b = sqrtNum (2 * (k ^ 3 * (α * β)) / (-(k ^ 2 * (α * β)) * (-(|k| * |α - β|) - k * (α + β)))) := by
      rw [← hnum, ← hdisc, ← hterm, ← hsum]; rfl
    have hab : α * β ≠ 0 := by positivity
    rcases lt_or_gt_of_ne hk with hneg | hpos
    · right
      rw [abs_of_neg hneg] at ha hb
      refine ⟨hneg, ?_, ?_⟩
      · rw [ha]
        refine sqrtNum_sq hmin ?_
        rw [← ax2, show -k * |α - β| = k * -|α - β| by ring, axis_sq k _ _ _ hk hab]
        congr 1
        ring
      · rw [hb]
        refine sqrtNum_sq hmax ?_
        rw [← ax1, show -(-k * |α - β|) = k * |α - β| by ring, axis_sq k _ _ _ hk hab]
    · left
      rw [abs_of_pos hpos] at ha hb
      refine ⟨hpos, ?_, ?_⟩
      · rw [ha]
        refine sqrtNum_sq hmax ?_
        rw [← ax1, axis_sq k _ _ _ hk hab]
      · rw [hb]
        refine sqrtNum_sq hmin ?_
        rw [← ax2, show -(k * |α - β|) = k * -|α - β| by ring, axis_sq k _ _ _ hk hab]
        congr 1
        ring

/-! ### The predicted curve -/

private theorem on_form (x0 y0 p q th : ℝ) (hp : 0 < p) (hq : 0 < q) (x : ℝ × ℝ) :
    OnEllipse x0 y0 p q th x ↔ std x0 y0 p q th 0 * (x.1 - x0) ^ 2 + std x0 y0 p q th 1 * ((x.1 - x0) * (x.2 - y0)) +
      std x0 y0 p q th 2 * (x.2 - y0) ^ 2 = 1 := by
  unfold OnEllipse std
  simp only [Fin.isValue, Matrix.cons_val]
  generalize x.1 - x0 = u
  generalize x.2 - y0 = v
  have : ∀ a b : ℝ, a = b → (a = 1 ↔ b = 1) := by rintro a b rfl; rfl
  apply this
  field_simp
  ring

private theorem circle_param (u v : ℝ) (h : u ^ 2 + v ^ 2 = 1) : ∃ t, Real.cos t = u ∧ Real.sin t = v := by
  have h1 : -1 ≤ u := by nlinarith [sq_nonneg v]
  have h2 : u ≤ 1 := by nlinarith [sq_nonneg v]
  have h3 : Real.sin (Real.arccos u) = |v| := by
    rw [Real.sin_arccos, ← Real.sqrt_sq_eq_abs]
    congr 1
    linarith
  rcases le_total 0 v with hv | hv
  · exact ⟨Real.arccos u, Real.cos_arccos h1 h2, by rw [h3, abs_of_nonneg hv]⟩
  · exact ⟨-Real.arccos u, by rw [Real.cos_neg, Real.cos_arccos h1 h2], by rw [Real.sin_neg, h3, abs_of_nonpos hv, neg_neg]⟩

private theorem form_rotated (A B C W H c s ct st : ℝ) :
    A * (W * c * ct - H * s * st) ^ 2 + 2 * B * ((W * c * ct - H * s * st) * (W * s * ct + H * c * st)) + C * (W * s * ct + H * c * st) ^ 2 =
      ct ^ 2 * (W ^ 2 * (A * c ^ 2 + 2 * B * c * s + C * s ^ 2)) + st ^ 2 * (H ^ 2 * (A * s ^ 2 - 2 * B * c * s + C * c ^ 2)) +
        2 * W * H * ct * st * ((C - A) * c * s + B * (c ^ 2 - s ^ 2)) := by
  ring

private theorem curve (x0 y0 p q th : ℝ) (hp : 0 < p) (hq : 0 < q) (P : EllipseParams) (hx : P.xc = x0) (hy : P.yc = y0)
    (ha : 0 < P.a) (hb : 0 < P.b)
    (h1 : P.a ^ 2 * (std x0 y0 p q th 0 * Real.cos P.theta ^ 2 + std x0 y0 p q th 1 * Real.cos P.theta * Real.sin P.theta +
      std x0 y0 p q th 2 * Real.sin P.theta ^ 2) = 1)
    (h2 : P.b ^ 2 * (std x0 y0 p q th 0 * Real.sin P.theta ^ 2 - std x0 y0 p q th 1 * Real.cos P.theta * Real.sin P.theta +
      std x0 y0 p q th 2 * Real.cos P.theta ^ 2) = 1)
    (h3 : (std x0 y0 p q th 2 - std x0 y0 p q th 0) * Real.cos P.theta * Real.sin P.theta +
      std x0 y0 p q th 1 / 2 * (Real.cos P.theta ^ 2 - Real.sin P.theta ^ 2) = 0) (x : ℝ × ℝ) :
    OnEllipse x0 y0 p q th x ↔ ∃ t, predictXY P t = x := by
  rw [on_form x0 y0 p q th hp hq]
  generalize std x0 y0 p q th 0 = A at h1 h2 h3 ⊢
  generalize hB : std x0 y0 p q th 1 = B2 at h1 h2 h3 ⊢
  generalize std x0 y0 p q th 2 = C at h1 h2 h3 ⊢
  set c := Real.cos P.theta with hc
  set s := Real.sin P.theta with hs
  have hcs : c ^ 2 + s ^ 2 = 1 := Real.cos_sq_add_sin_sq P.theta
  have key : ∀ ct st : ℝ, A * (P.a * c * ct - P.b * s * st) ^ 2 + B2 * ((P.a * c * ct - P.b * s * st) * (P.a * s * ct + P.b * c * st)) +
      C * (P.a * s * ct + P.b * c * st) ^ 2 = ct ^ 2 + st ^ 2 := by
    intro ct st
    have := form_rotated A (B2 / 2) C P.a P.b c s ct st
    rw [show A * c ^ 2 + 2 * (B2 / 2) * c * s + C * s ^ 2 = A * c ^ 2 + B2 * c * s + C * s ^ 2 by ring,
      show A * s ^ 2 - 2 * (B2 / 2) * c * s + C * c ^ 2 = A * s ^ 2 - B2 * c * s + C * c ^ 2 by ring, h1, h2, h3] at this
    linarith
  constructor
  · intro h
    have e1 : x.1 - x0 = P.a * c * ((c * (x.1 - x0) + s * (x.2 - y0)) / P.a) - P.b * s * ((-s * (x.1 - x0) + c * (x.2 - y0)) / P.b) := by
      rw [show P.a * c * ((c * (x.1 - x0) + s * (x.2 - y0)) / P.a) = c * (c * (x.1 - x0) + s * (x.2 - y0)) by field_simp,
        show P.b * s * ((-s * (x.1 - x0) + c * (x.2 - y0)) / P.b) = s * (-s * (x.1 - x0) + c * (x.2 - y0)) by field_simp]
      linear_combination -(x.1 - x0) * hcs
    have e2 : x.2 - y0 = P.a * s * ((c * (x.1 - x0) + s * (x.2 - y0)) / P.a) + P.b * c * ((-s * (x.1 - x0) + c * (x.2 - y0)) / P.b) := by
      rw [show P.a * s * ((c * (x.1 - x0) + s * (x.2 - y0)) / P.a) = s * (c * (x.1 - x0) + s * (x.2 - y0)) by field_simp,
        show P.b * c * ((-s * (x.1 - x0) + c * (x.2 - y0)) / P.b) = c * (-s * (x.1 - x0) + c * (x.2 - y0)) by field_simp]
      linear_combination -(x.2 - y0) * hcs
    have hk := key ((c * (x.1 - x0) + s * (x.2 - y0)) / P.a) ((-s * (x.1 - x0) + c * (x.2 - y0)) / P.b)
    rw [← e1, ← e2, h] at hk
    obtain ⟨t, ht1, ht2⟩ := circle_param _ _ hk.symm
    refine ⟨t, Prod.ext ?_ ?_⟩
    · show P.xc + P.a * c * Real.cos t - P.b * s * Real.sin t = x.1
      rw [ht1, ht2, hx]; linarith
    · show P.yc + P.a * s * Real.cos t + P.b * c * Real.sin t = x.2
      rw [ht1, ht2, hy]; linarith
  · rintro ⟨t, rfl⟩
    have hk := key (Real.cos t) (Real.sin t)
    rw [Real.cos_sq_add_sin_sq] at hk
    rw [← hk]
    have e1 : (predictXY P t).1 - x0 = P.a * c * Real.cos t - P.b * s * Real.sin t := by
      show P.xc + P.a * c * Real.cos t - P.b * s * Real.sin t - x0 = _
      rw [hx]; ring
    have e2 : (predictXY P t).2 - y0 = P.a * s * Real.cos t + P.b * c * Real.sin t := by
      show P.yc + P.a * s * Real.cos t + P.b * c * Real.sin t - y0 = _
      rw [hy]; ring
    rw [e1, e2]

private theorem std_facts (x0 y0 p q th : ℝ) :
    std x0 y0 p q th 0 + std x0 y0 p q th 2 = 1 / p ^ 2 + 1 / q ^ 2 ∧
    std x0 y0 p q th 0 - std x0 y0 p q th 2 = (1 / p ^ 2 - 1 / q ^ 2) * Real.cos (2 * th) ∧
    std x0 y0 p q th 1 = (1 / p ^ 2 - 1 / q ^ 2) * Real.sin (2 * th) := by
  have hone := Real.cos_sq_add_sin_sq th
  refine ⟨?_, ?_, ?_⟩
  · show Real.cos th ^ 2 / p ^ 2 + Real.sin th ^ 2 / q ^ 2 + (Real.sin th ^ 2 / p ^ 2 + Real.cos th ^ 2 / q ^ 2) = _
    linear_combination (1 / p ^ 2 + 1 / q ^ 2) * hone
  · show Real.cos th ^ 2 / p ^ 2 + Real.sin th ^ 2 / q ^ 2 - (Real.sin th ^ 2 / p ^ 2 + Real.cos th ^ 2 / q ^ 2) = _
    rw [Real.cos_two_mul']
    ring
  · show 2 * (Real.cos th * Real.sin th * (1 / p ^ 2 - 1 / q ^ 2)) = _
    rw [Real.sin_two_mul]
    ring

/-- Values of the form along the axes, from the double angle. -/
private theorem half_angle (A B C c2 s2 c s : ℝ) (h1 : c ^ 2 + s ^ 2 = 1) (h2 : c2 = c ^ 2 - s ^ 2) (h3 : s2 = 2 * s * c) :
    A * c ^ 2 + B * c * s + C * s ^ 2 = ((A + C) + ((A - C) * c2 + B * s2)) / 2 ∧
    A * s ^ 2 - B * c * s + C * c ^ 2 = ((A + C) - ((A - C) * c2 + B * s2)) / 2 ∧
    (C - A) * c * s + B / 2 * (c ^ 2 - s ^ 2) = (B * c2 - (A - C) * s2) / 2 := by
  subst h2 h3
  refine ⟨?_, ?_, ?_⟩
  · linear_combination ((A + C) / 2) * h1
  · linear_combination ((A + C) / 2) * h1
  · ring

private theorem predict_std (x0 y0 p q th : ℝ) (hp : 0 < p) (hq : 0 < q) (k : ℝ) (hk : k ≠ 0) (hth : p = q ∨ Real.cos (2 * th) ≠ 0) :
    let e := k • std x0 y0 p q th
    let P := conicParams (e 0) (e 1) (e 2) (e 3) (e 4) (e 5)
    ∀ x, OnEllipse x0 y0 p q th x ↔ ∃ t, predictXY P t = x := by
  intro e P
  obtain ⟨hx, hy, hax, ht⟩ := params_std x0 y0 p q th hp hq k hk
  change P.xc = x0 at hx
  change P.yc = y0 at hy
  change (0 < k ∧ P.a = max p q ∧ P.b = min p q) ∨ (k < 0 ∧ P.a = min p q ∧ P.b = max p q) at hax
  change P.theta = conicAngle (e 0) (e 1 / 2) (e 2) at ht
  have hmax : 0 < max p q := lt_max_of_lt_left hp
  have hmin : 0 < min p q := lt_min hp hq
  have ha : 0 < P.a := by rcases hax with h | h <;> rw [h.2.1] <;> assumption
  have hb : 0 < P.b := by rcases hax with h | h <;> rw [h.2.2] <;> assumption
  obtain ⟨f1, f2, f3⟩ := std_facts x0 y0 p q th
  obtain ⟨ax1, ax2⟩ := axes p q hp hq
  obtain ⟨g1, g2, g3⟩ := half_angle (std x0 y0 p q th 0) (std x0 y0 p q th 1) (std x0 y0 p q th 2) (Real.cos (2 * P.theta))
    (Real.sin (2 * P.theta)) (Real.cos P.theta) (Real.sin P.theta) (Real.cos_sq_add_sin_sq _) (Real.cos_two_mul' _) (Real.sin_two_mul _)
  by_cases hpq : p = q
  · subst hpq
    rw [sub_self, zero_mul] at f2 f3
    have haq : P.a = p := by rcases hax with h | h <;> rw [h.2.1] <;> simp
    have hbq : P.b = p := by rcases hax with h | h <;> rw [h.2.2] <;> simp
    refine curve x0 y0 p p th hp hp P hx hy ha hb ?_ ?_ ?_
    · rw [g1, f1, f2, f3, haq]; field_simp; ring
    · rw [g2, f1, f2, f3, hbq]; field_simp; ring
    · rw [g3, f2, f3]; ring
  · have hc2 : Real.cos (2 * th) ≠ 0 := hth.resolve_left hpq
    have hαβ : 1 / p ^ 2 - 1 / q ^ 2 ≠ 0 := by
      intro h
      apply hpq
      have h1 : 1 / p ^ 2 = 1 / q ^ 2 := sub_eq_zero.1 h
      have h2 : p ^ 2 = q ^ 2 := by
        have := congrArg (fun z => 1 / z) h1
        simpa using this
      exact (pow_left_inj₀ hp.le hq.le two_ne_zero).1 h2
    have hne : e 0 ≠ e 2 := by
      intro h
      have h1 : k * (std x0 y0 p q th 0 - std x0 y0 p q th 2) = 0 := by
        have : k * std x0 y0 p q th 0 = k * std x0 y0 p q th 2 := h
        linarith
      rw [f2] at h1
      exact mul_ne_zero hk (mul_ne_zero hαβ hc2) h1
    obtain ⟨c2, s2⟩ := angle_trig (e 0) (e 1 / 2) (e 2) hne
    rw [← ht] at c2 s2
    set D := 1 / p ^ 2 - 1 / q ^ 2 with hD
    have hDpos : 0 < |D| := abs_pos.2 hαβ
    have hkpos : 0 < |k| := abs_pos.2 hk
    have hsq : (std x0 y0 p q th 0 - std x0 y0 p q th 2) ^ 2 + std x0 y0 p q th 1 ^ 2 = |D| ^ 2 := by
      rw [f2, f3, sq_abs]
      linear_combination D ^ 2 * Real.cos_sq_add_sin_sq (2 * th)
    have hroot : Real.sqrt ((e 0 - e 2) ^ 2 + 4 * (e 1 / 2) ^ 2) = |k| * |D| := by
      have : (e 0 - e 2) ^ 2 + 4 * (e 1 / 2) ^ 2 = (|k| * |D|) ^ 2 := by
        rw [mul_pow, ← hsq, sq_abs]
        show (k * std x0 y0 p q th 0 - k * std x0 y0 p q th 2) ^ 2 + 4 * (k * std x0 y0 p q th 1 / 2) ^ 2 = _
        ring
      rw [this, Real.sqrt_sq (by positivity)]
    have c2' : Real.cos (2 * P.theta) = -(k * (std x0 y0 p q th 0 - std x0 y0 p q th 2)) / (|k| * |D|) := by
      rw [c2, hroot]
      show -(k * std x0 y0 p q th 0 - k * std x0 y0 p q th 2) / _ = _
      ring
    have s2' : Real.sin (2 * P.theta) = -(k * std x0 y0 p q th 1) / (|k| * |D|) := by
      rw [s2, hroot]
      show -(2 * (k * std x0 y0 p q th 1 / 2)) / _ = _
      ring
    have hmix : (std x0 y0 p q th 0 - std x0 y0 p q th 2) * Real.cos (2 * P.theta) + std x0 y0 p q th 1 * Real.sin (2 * P.theta) =
        -(k / |k|) * |D| := by
      rw [c2', s2']
      have : (std x0 y0 p q th 0 - std x0 y0 p q th 2) * (-(k * (std x0 y0 p q th 0 - std x0 y0 p q th 2)) / (|k| * |D|)) +
          std x0 y0 p q th 1 * (-(k * std x0 y0 p q th 1) / (|k| * |D|)) =
          -(k / (|k| * |D|)) * ((std x0 y0 p q th 0 - std x0 y0 p q th 2) ^ 2 + std x0 y0 p q th 1 ^ 2) := by ring
      rw [this, hsq]
      field_simp
    have hα0 : 0 < 1 / p ^ 2 := by positivity
    have hβ0 : 0 < 1 / q ^ 2 := by positivity
    have hlt : |D| < 1 / p ^ 2 + 1 / q ^ 2 := by
      rw [hD, abs_lt]; constructor <;> linarith
    have n1 : 1 / p ^ 2 + 1 / q ^ 2 - |D| ≠ 0 := (sub_pos.2 hlt).ne'
    have n2 : 1 / p ^ 2 + 1 / q ^ 2 + |D| ≠ 0 := by positivity
    have big : max p q ^ 2 * ((1 / p ^ 2 + 1 / q ^ 2 - |D|) / 2) = 1 := by
      rw [← ax1, div_mul_div_comm, mul_comm, div_self (mul_ne_zero n1 two_ne_zero)]
    have small : min p q ^ 2 * ((1 / p ^ 2 + 1 / q ^ 2 + |D|) / 2) = 1 := by
      rw [← ax2, div_mul_div_comm, mul_comm, div_self (mul_ne_zero n2 two_ne_zero)]
    have hcross : std x0 y0 p q th 1 * Real.cos (2 * P.theta) - (std x0 y0 p q th 0 - std x0 y0 p q th 2) * Real.sin (2 * P.theta) = 0 := by
      rw [c2', s2']; ring
    refine curve x0 y0 p q th hp hq P hx hy ha hb ?_ ?_ ?_
    · rw [g1, hmix, f1]
      rcases hax with ⟨h0, h1, -⟩ | ⟨h0, h1, -⟩
      · rw [abs_of_pos h0, div_self hk, h1]; linear_combination big
      · rw [abs_of_neg h0, div_neg, div_self hk, h1]; linear_combination small
    · rw [g2, hmix, f1]
      rcases hax with ⟨h0, -, h1⟩ | ⟨h0, -, h1⟩
      · rw [abs_of_pos h0, div_self hk, h1]; linear_combination small
      · rw [abs_of_neg h0, div_neg, div_self hk, h1]; linear_combination big
    · rw [g3, hcross, zero_div]

/-! ### The least-squares problem -/

private def bil (u v : Fin 3 → ℝ) : ℝ := 2 * (u 0 * v 2) - u 1 * v 1 + 2 * (u 2 * v 0)

private theorem bil_self (u : Fin 3 → ℝ) : bil u u = ellipticity u := by
  unfold bil ellipticity; ring

private theorem bil_comm (u v : Fin 3 → ℝ) : bil u v = bil v u := by
  unfold bil; ring

private theorem bil_mul (u v : Fin 3 → ℝ) : u ⬝ᵥ (constraintC *ᵥ v) = bil u v := by
  unfold bil constraintC
  simp [dotProduct, mulVec, Fin.sum_univ_three]
  ring

private theorem bil_lin (u v w : Fin 3 → ℝ) (t : ℝ) : bil u (v - t • w) = bil u v - t * bil u w := by
  unfold bil
  simp only [Pi.sub_apply, Pi.smul_apply, smul_eq_mul]
  ring

private theorem reversed (u w : Fin 3 → ℝ) (hu : 0 < ellipticity u) (h : bil u w = 0) (hw : w ≠ 0) : ellipticity w < 0 := by
  unfold ellipticity at hu ⊢
  unfold bil at h
  by_contra hcon
  have hcon := not_lt.1 hcon
  have h02 : 0 < u 0 * u 2 := by nlinarith [sq_nonneg (u 1)]
  have e : u 1 * w 1 = 2 * (u 0 * w 2 + u 2 * w 0) := by linarith
  have e2 : u 1 ^ 2 * w 1 ^ 2 = 4 * (u 0 * w 2 + u 2 * w 0) ^ 2 := by
    rw [← mul_pow, e]; ring
  have h1 : 16 * (u 0 * u 2) * (w 0 * w 2) ≤ u 1 ^ 2 * w 1 ^ 2 := by
    rw [e2]; nlinarith [sq_nonneg (u 0 * w 2 - u 2 * w 0)]
  have h2 : 4 * (u 0 * u 2) * w 1 ^ 2 ≤ u 1 ^ 2 * w 1 ^ 2 := by
    nlinarith [mul_nonneg h02.le hcon]
  have hw1 : w 1 = 0 := by
    by_contra h0
    have : 0 < w 1 ^ 2 := by positivity
    nlinarith [mul_pos hu this]
  have e3 : u 0 * w 2 + u 2 * w 0 = 0 := by
    rw [hw1, mul_zero] at e; linarith
  have hwn : 0 ≤ w 0 * w 2 := by
    rw [hw1] at hcon; linarith
  have hz0 : u 2 ^ 2 * w 0 ^ 2 ≤ 0 := by
    have : u 2 ^ 2 * w 0 ^ 2 = -(u 0 * u 2) * (w 0 * w 2) := by
      have : u 0 * w 2 = -(u 2 * w 0) := by linarith
      linear_combination (u 2 * w 0) * this
    rw [this]; nlinarith
  have hz2 : u 0 ^ 2 * w 2 ^ 2 ≤ 0 := by
    have : u 0 ^ 2 * w 2 ^ 2 = -(u 0 * u 2) * (w 0 * w 2) := by
      have : u 0 * w 2 = -(u 2 * w 0) := by linarith
      linear_combination (u 0 * w 2) * this
    rw [this]; nlinarith
  have hu0 : u 0 ≠ 0 := by rintro h0; rw [h0, zero_mul] at h02; exact lt_irrefl _ h02
  have hu2 : u 2 ≠ 0 := by rintro h0; rw [h0, mul_zero] at h02; exact lt_irrefl _ h02
  have w0 : w 0 = 0 := by
    by_contra h0
    have : 0 < u 2 ^ 2 * w 0 ^ 2 := by positivity
    linarith
  have w2 : w 2 = 0 := by
    by_contra h0
    have : 0 < u 0 ^ 2 * w 2 ^ 2 := by positivity
    linarith
  apply hw
  ext i
  fin_cases i <;> assumption

section LeastSquares
variable {n : ℕ} (pts : Fin n → ℝ × ℝ)

private noncomputable def Sred : Matrix (Fin 3) (Fin 3) ℝ := scatter1 pts - scatter2 pts * (scatter3 pts)⁻¹ * (scatter2 pts)ᵀ

private def resid (w z : Fin 3 → ℝ) : Fin n → ℝ := designQuad pts *ᵥ w + designLin pts *ᵥ z

private theorem resid_apply (w z : Fin 3 → ℝ) (i : Fin n) :
    resid pts w z i = w 0 * (pts i).1 ^ 2 + w 1 * ((pts i).1 * (pts i).2) + w 2 * (pts i).2 ^ 2 + z 0 * (pts i).1 + z 1 * (pts i).2 + z 2 := by
  unfold resid designQuad designLin
  simp [mulVec, dotProduct, Fin.sum_univ_three]
  ring

private theorem quad_normal (w z : Fin 3 → ℝ) : (designQuad pts)ᵀ *ᵥ resid pts w z = scatter1 pts *ᵥ w + scatter2 pts *ᵥ z := by
  unfold resid scatter1 scatter2
  rw [mulVec_add, mulVec_mulVec, mulVec_mulVec]

private theorem lin_normal (w z : Fin 3 → ℝ) : (designLin pts)ᵀ *ᵥ resid pts w z = (scatter2 pts)ᵀ *ᵥ w + scatter3 pts *ᵥ z := by
  unfold resid scatter2 scatter3
  rw [mulVec_add, mulVec_mulVec, mulVec_mulVec, transpose_mul, transpose_transpose]

variable {pts} (hd : (scatter3 pts).det ≠ 0)
include hd

private theorem lin_zero (w : Fin 3 → ℝ) : (designLin pts)ᵀ *ᵥ resid pts w (linearPart pts w) = 0 := by
  rw [lin_normal]
  unfold linearPart
  rw [mulVec_mulVec, ← mul_assoc, mul_neg, mul_nonsing_inv _ (isUnit_iff_ne_zero.2 hd), neg_one_mul, neg_mulVec, add_neg_cancel]

private theorem quad_red (w : Fin 3 → ℝ) : (designQuad pts)ᵀ *ᵥ resid pts w (linearPart pts w) = Sred pts *ᵥ w := by
  rw [quad_normal]
  unfold linearPart Sred
  rw [sub_mulVec, mulVec_mulVec, neg_mul, mul_neg, neg_mulVec, ← mul_assoc, sub_eq_add_neg]

omit hd in
private theorem dot_resid (e : Fin n → ℝ) (w z : Fin 3 → ℝ) :
    e ⬝ᵥ resid pts w z = ((designQuad pts)ᵀ *ᵥ e) ⬝ᵥ w + ((designLin pts)ᵀ *ᵥ e) ⬝ᵥ z := by
  unfold resid
  rw [dotProduct_add, dotProduct_mulVec, dotProduct_mulVec, mulVec_transpose, mulVec_transpose]

private theorem dot_red (w v z : Fin 3 → ℝ) : resid pts w (linearPart pts w) ⬝ᵥ resid pts v z = (Sred pts *ᵥ w) ⬝ᵥ v := by
  rw [dot_resid, lin_zero hd, quad_red hd, zero_dotProduct, add_zero]

private theorem red_symm (w v : Fin 3 → ℝ) : (Sred pts *ᵥ w) ⬝ᵥ v = (Sred pts *ᵥ v) ⬝ᵥ w := by
  rw [← dot_red hd w v (linearPart pts v), ← dot_red hd v w (linearPart pts w), dotProduct_comm]

private theorem red_nonneg (w : Fin 3 → ℝ) : 0 ≤ (Sred pts *ᵥ w) ⬝ᵥ w := by
  rw [← dot_red hd w w (linearPart pts w)]
  exact Finset.sum_nonneg fun i _ => mul_self_nonneg _

private theorem red_least (w z : Fin 3 → ℝ) : (Sred pts *ᵥ w) ⬝ᵥ w ≤ resid pts w z ⬝ᵥ resid pts w z := by
  have h := Finset.sum_nonneg (fun (i : Fin n) (_ : i ∈ Finset.univ) =>
    mul_self_nonneg ((resid pts w z - resid pts w (linearPart pts w)) i))
  have h' : 0 ≤ (resid pts w z - resid pts w (linearPart pts w)) ⬝ᵥ (resid pts w z - resid pts w (linearPart pts w)) := h
  rw [sub_dotProduct, dotProduct_sub, dotProduct_sub, dot_red hd, dot_red hd,
    dotProduct_comm (resid pts w z) (resid pts w (linearPart pts w)), dot_red hd] at h'
  linarith

private theorem red_zero (w : Fin 3 → ℝ) (h : (Sred pts *ᵥ w) ⬝ᵥ w = 0) : resid pts w (linearPart pts w) = 0 := by
  rw [← dot_red hd w w (linearPart pts w)] at h
  exact dotProduct_self_eq_zero.1 h

omit hd in
private theorem C_det : constraintC.det = 4 := by
  unfold constraintC
  simp [det_fin_three]
  norm_num

omit hd in
private theorem C_red : constraintC * reducedScatter pts = Sred pts := by
  unfold reducedScatter Sred
  rw [← mul_assoc, mul_nonsing_inv _ (isUnit_iff_ne_zero.2 (by rw [C_det]; norm_num)), one_mul]

omit hd in
private theorem eig_red (v : Fin 3 → ℝ) (l : ℝ) (h : reducedScatter pts *ᵥ v = l • v) (u : Fin 3 → ℝ) :
    (Sred pts *ᵥ v) ⬝ᵥ u = l * bil v u := by
  rw [← C_red, ← mulVec_mulVec, h, mulVec_smul, smul_dotProduct, dotProduct_comm, bil_mul, bil_comm, smul_eq_mul]

/-- The accepted eigenvector minimises the reduced form. -/
private theorem red_min (u : Fin 3 → ℝ) (l : ℝ) (hu : 0 < ellipticity u) (h : reducedScatter pts *ᵥ u = l • u) (w : Fin 3 → ℝ)
    (hw : ellipticity w = ellipticity u) : (Sred pts *ᵥ u) ⬝ᵥ u ≤ (Sred pts *ᵥ w) ⬝ᵥ w := by
  have h1 := eig_red u l h u
  rw [bil_self] at h1
  have hl : 0 ≤ l := by
    have := red_nonneg hd u
    rw [h1] at this
    exact nonneg_of_mul_nonneg_left this hu
  set t := bil u w / ellipticity u with ht
  set r := w - t • u with hr
  have hur : bil u r = 0 := by
    rw [hr, bil_lin, bil_self, ht, div_mul_cancel₀ _ hu.ne', sub_self]
  have hwr : w = t • u + r := by rw [hr]; abel
  have hrr : ellipticity r ≤ 0 := by
    by_cases h0 : r = 0
    · rw [h0]; simp [ellipticity]
    · exact (reversed u r hu hur h0).le
  have hwt : ellipticity w = t ^ 2 * ellipticity u + ellipticity r := by
    have e1 : ellipticity w = t ^ 2 * ellipticity u + 2 * t * bil u r + ellipticity r := by
      rw [hwr]; unfold ellipticity bil; simp only [Pi.add_apply, Pi.smul_apply, smul_eq_mul]; ring
    rw [e1, hur]; ring
  have hform : (Sred pts *ᵥ w) ⬝ᵥ w = t ^ 2 * ((Sred pts *ᵥ u) ⬝ᵥ u) + (Sred pts *ᵥ r) ⬝ᵥ r := by
    have c1 : (Sred pts *ᵥ u) ⬝ᵥ r = 0 := by rw [eig_red u l h, hur, mul_zero]
    have c2 : (Sred pts *ᵥ r) ⬝ᵥ u = 0 := by rw [red_symm hd, c1]
    rw [hwr, mulVec_add, mulVec_smul, add_dotProduct, dotProduct_add, dotProduct_add, smul_dotProduct, smul_dotProduct, dotProduct_smul,
      dotProduct_smul, c1, c2]
    simp only [smul_eq_mul]
    ring
  have hrn := red_nonneg hd r
  rw [hform, h1]
  have : ellipticity u ≤ t ^ 2 * ellipticity u := by linarith
  nlinarith [mul_le_mul_of_nonneg_left this hl]

end LeastSquares

/-! ### Every real ellipse has axes -/

private theorem std_rest (x0 y0 p q th : ℝ) :
    std x0 y0 p q th 3 = -2 * (std x0 y0 p q th 0 * x0 + std x0 y0 p q th 1 / 2 * y0) ∧
    std x0 y0 p q th 4 = -2 * (std x0 y0 p q th 1 / 2 * x0 + std x0 y0 p q th 2 * y0) ∧
    std x0 y0 p q th 5 = std x0 y0 p q th 0 * x0 ^ 2 + std x0 y0 p q th 1 * x0 * y0 + std x0 y0 p q th 2 * y0 ^ 2 - 1 := by
  have h0 : std x0 y0 p q th 0 = Real.cos th ^ 2 / p ^ 2 + Real.sin th ^ 2 / q ^ 2 := rfl
  have h1 : std x0 y0 p q th 1 = 2 * (Real.cos th * Real.sin th * (1 / p ^ 2 - 1 / q ^ 2)) := rfl
  have h2 : std x0 y0 p q th 2 = Real.sin th ^ 2 / p ^ 2 + Real.cos th ^ 2 / q ^ 2 := rfl
  refine ⟨?_, ?_, ?_⟩
  · have : std x0 y0 p q th 3 = -2 * ((Real.cos th ^ 2 / p ^ 2 + Real.sin th ^ 2 / q ^ 2) * x0 +
        Real.cos th * Real.sin th * (1 / p ^ 2 - 1 / q ^ 2) * y0) := rfl
    rw [this, h0, h1]; ring
  · have : std x0 y0 p q th 4 = -2 * (Real.cos th * Real.sin th * (1 / p ^ 2 - 1 / q ^ 2) * x0 +
        (Real.sin th ^ 2 / p ^ 2 + Real.cos th ^ 2 / q ^ 2) * y0) := rfl
    rw [this, h1, h2]; ring
  · have : std x0 y0 p q th 5 = (Real.cos th ^ 2 / p ^ 2 + Real.sin th ^ 2 / q ^ 2) * x0 ^ 2 +
        2 * (Real.cos th * Real.sin th * (1 / p ^ 2 - 1 / q ^ 2)) * x0 * y0 + (Real.sin th ^ 2 / p ^ 2 + Real.cos th ^ 2 / q ^ 2) * y0 ^ 2 - 1 := rfl
    rw [this, h0, h1, h2]

private theorem diagonal (a b c : ℝ) (ha : 0 < a) (hd : 0 < a * c - b ^ 2) :
    ∃ p q th : ℝ, 0 < p ∧ 0 < q ∧ 1 / p ^ 2 + 1 / q ^ 2 = a + c ∧ (1 / p ^ 2 - 1 / q ^ 2) * Real.cos (2 * th) = a - c ∧
      (1 / p ^ 2 - 1 / q ^ 2) * Real.sin (2 * th) = 2 * b := by
  have hc : 0 < c := by
    by_contra h
    nlinarith [sq_nonneg b, not_lt.1 h]
  set T := Real.sqrt ((a - c) ^ 2 + 4 * b ^ 2) with hT
  have hTsq : T ^ 2 = (a - c) ^ 2 + 4 * b ^ 2 := Real.sq_sqrt (by positivity)
  have hT0 : 0 ≤ T := Real.sqrt_nonneg _
  have hTlt : T < a + c := by
    refine lt_of_pow_lt_pow_left₀ 2 (by positivity) ?_
    rw [hTsq]; nlinarith
  have hα : 0 < (a + c - T) / 2 := by linarith
  have hβ : 0 < (a + c + T) / 2 := by linarith
  have inv : ∀ z : ℝ, 0 < z → 1 / (1 / Real.sqrt z) ^ 2 = z := by
    intro z hz
    rw [div_pow, one_pow, one_div_one_div, Real.sq_sqrt hz.le]
  obtain ⟨ψ, h1, h2⟩ : ∃ ψ, -T * Real.cos ψ = a - c ∧ -T * Real.sin ψ = 2 * b := by
    by_cases h0 : T = 0
    · refine ⟨0, ?_, ?_⟩
      · rw [h0]; nlinarith [sq_nonneg b]
      · rw [h0]; nlinarith [sq_nonneg (a - c)]
    · obtain ⟨ψ, h1, h2⟩ := circle_param ((c - a) / T) (-(2 * b) / T) (by
        rw [div_pow, div_pow, ← add_div, hTsq, div_eq_one_iff_eq]
        · ring
        · rw [← hTsq]; exact pow_ne_zero 2 h0)
      refine ⟨ψ, ?_, ?_⟩
      · rw [h1]; field_simp; ring
      · rw [h2]; field_simp
  refine ⟨1 / Real.sqrt ((a + c - T) / 2), 1 / Real.sqrt ((a + c + T) / 2), ψ / 2, by positivity, by positivity, ?_, ?_, ?_⟩
  · rw [inv _ hα, inv _ hβ]; ring
  · rw [inv _ hα, inv _ hβ, show 2 * (ψ / 2) = ψ by ring, ← h1]; ring
  · rw [inv _ hα, inv _ hβ, show 2 * (ψ / 2) = ψ by ring, ← h2]; ring

/-- The centre of a conic. -/
private noncomputable def centre (k : Fin 6 → ℝ) : ℝ × ℝ :=
  ((k 1 * k 4 - 2 * k 2 * k 3) / (4 * (k 0 * k 2) - k 1 ^ 2), (k 1 * k 3 - 2 * k 0 * k 4) / (4 * (k 0 * k 2) - k 1 ^ 2))

private theorem centre_eqs (k : Fin 6 → ℝ) (hk : 0 < 4 * (k 0 * k 2) - k 1 ^ 2) :
    k 3 = -(2 * k 0 * (centre k).1 + k 1 * (centre k).2) ∧ k 4 = -(k 1 * (centre k).1 + 2 * k 2 * (centre k).2) := by
  unfold centre
  have h := hk.ne'
  constructor
  · have e : 2 * k 0 * ((k 1 * k 4 - 2 * k 2 * k 3) / (4 * (k 0 * k 2) - k 1 ^ 2)) + k 1 * ((k 1 * k 3 - 2 * k 0 * k 4) / (4 * (k 0 * k 2) - k 1 ^ 2)) =
        -k 3 * (4 * (k 0 * k 2) - k 1 ^ 2) / (4 * (k 0 * k 2) - k 1 ^ 2) := by ring
    rw [mul_div_cancel_right₀ _ h] at e
    show k 3 = -(_ + _)
    rw [e, neg_neg]
  · have e : k 1 * ((k 1 * k 4 - 2 * k 2 * k 3) / (4 * (k 0 * k 2) - k 1 ^ 2)) + 2 * k 2 * ((k 1 * k 3 - 2 * k 0 * k 4) / (4 * (k 0 * k 2) - k 1 ^ 2)) =
        -k 4 * (4 * (k 0 * k 2) - k 1 ^ 2) / (4 * (k 0 * k 2) - k 1 ^ 2) := by ring
    rw [mul_div_cancel_right₀ _ h] at e
    show k 4 = -(_ + _)
    rw [e, neg_neg]

private theorem at_centre (k : Fin 6 → ℝ) (hk : 0 < 4 * (k 0 * k 2) - k 1 ^ 2) (x : ℝ × ℝ) :
    4 * k 0 * conicAt k x = (2 * k 0 * (x.1 - (centre k).1) + k 1 * (x.2 - (centre k).2)) ^ 2 +
      (4 * (k 0 * k 2) - k 1 ^ 2) * (x.2 - (centre k).2) ^ 2 + 4 * k 0 * conicAt k (centre k) := by
  obtain ⟨h3, h4⟩ := centre_eqs k hk
  unfold conicAt
  rw [h3, h4]
  ring

private theorem real_ellipse (k : Fin 6 → ℝ) (hk : 0 < 4 * (k 0 * k 2) - k 1 ^ 2) (hx : k 0 * conicAt k (centre k) < 0) :
    ∃ x0 y0 p q th s : ℝ, 0 < p ∧ 0 < q ∧ s ≠ 0 ∧ k = s • std x0 y0 p q th := by
  obtain ⟨h3, h4⟩ := centre_eqs k hk
  set x0 := (centre k).1 with hx0
  set y0 := (centre k).2 with hy0
  set s := -conicAt k (centre k) with hs
  have hs0 : s ≠ 0 := by
    intro h
    rw [show conicAt k (centre k) = 0 by linarith, mul_zero] at hx
    exact lt_irrefl _ hx
  have ha : 0 < k 0 / s := by
    rw [div_eq_mul_inv]
    have : 0 < k 0 * s := by rw [hs]; linarith
    have h2 : k 0 * s⁻¹ = k 0 * s * (s⁻¹) ^ 2 := by field_simp
    rw [h2]; positivity
  have hd : 0 < k 0 / s * (k 2 / s) - (k 1 / 2 / s) ^ 2 := by
    have : k 0 / s * (k 2 / s) - (k 1 / 2 / s) ^ 2 = (4 * (k 0 * k 2) - k 1 ^ 2) / (4 * s ^ 2) := by field_simp; ring
    rw [this]; positivity
  obtain ⟨p, q, th, hp, hq, e1, e2, e3⟩ := diagonal _ _ _ ha hd
  obtain ⟨f1, f2, f3⟩ := std_facts x0 y0 p q th
  obtain ⟨r3, r4, r5⟩ := std_rest x0 y0 p q th
  have s0 : std x0 y0 p q th 0 = k 0 / s := by linarith
  have s2 : std x0 y0 p q th 2 = k 2 / s := by linarith
  have s1 : std x0 y0 p q th 1 = k 1 / s := by rw [f3, e3]; ring
  rw [s0, s1] at r3
  rw [s1, s2] at r4
  rw [s0, s1, s2] at r5
  have h5 : k 5 = k 0 * x0 ^ 2 + k 1 * x0 * y0 + k 2 * y0 ^ 2 - s := by
    rw [hs]
    unfold conicAt
    rw [h3, h4]
    ring
  refine ⟨x0, y0, p, q, th, s, hp, hq, hs0, ?_⟩
  ext i
  fin_cases i
  · show k 0 = s * std x0 y0 p q th 0
    rw [s0]; field_simp
  · show k 1 = s * std x0 y0 p q th 1
    rw [s1]; field_simp
  · show k 2 = s * std x0 y0 p q th 2
    rw [s2]; field_simp
  · show k 3 = s * std x0 y0 p q th 3
    rw [r3, h3]; field_simp
  · show k 4 = s * std x0 y0 p q th 4
    rw [r4, h4]; field_simp
  · show k 5 = s * std x0 y0 p q th 5
    rw [r5, h5]; field_simp

/-! ### Theorems -/

private theorem alg_resid {n : ℕ} (pts : Fin n → ℝ × ℝ) (k : Fin 6 → ℝ) :
    algError pts k = resid pts ![k 0, k 1, k 2] ![k 3, k 4, k 5] ⬝ᵥ resid pts ![k 0, k 1, k 2] ![k 3, k 4, k 5] := by
  unfold algError dotProduct
  refine Finset.sum_congr rfl fun i _ => ?_
  rw [resid_apply, sq]
  rfl

private theorem through_resid {n : ℕ} (pts : Fin n → ℝ × ℝ) (w z : Fin 3 → ℝ) :
    Through ![w 0, w 1, w 2, z 0, z 1, z 2] pts ↔ resid pts w z = 0 := by
  unfold Through
  rw [funext_iff]
  refine forall_congr' fun i => ?_
  rw [resid_apply]
  rfl

/-- What a successful call has done. -/
private theorem estimate_some {eig : Matrix (Fin 3) (Fin 3) ℝ → Matrix (Fin 3) (Fin 3) ℝ} {n : ℕ} {pts : Fin n → ℝ × ℝ} {P : EllipseParams}
    (h : ellipseEstimate eig pts = some P) :
    (scatter3 pts).det ≠ 0 ∧ ∃ j, 0 < ellipticity (fun i => eig (reducedScatter pts) i j) ∧
      P = conicParams (eig (reducedScatter pts) 0 j) (eig (reducedScatter pts) 1 j) (eig (reducedScatter pts) 2 j)
        (linearPart pts (fun i => eig (reducedScatter pts) i j) 0) (linearPart pts (fun i => eig (reducedScatter pts) i j) 1)
        (linearPart pts (fun i => eig (reducedScatter pts) i j) 2) := by
  unfold ellipseEstimate at h
  split at h
  · exact absurd h (by simp)
  · rename_i hd
    refine ⟨hd, ?_⟩
    simp only at h
    split at h
    · rename_i j hj
      refine ⟨j, ?_, (Option.some.inj h).symm⟩
      have : j ∈ (List.finRange 3).filter (fun j => decide (0 < ellipticity (fun i => eig (reducedScatter pts) i j))) := by
        rw [hj]; exact List.mem_singleton.2 rfl
      simpa using this
    · exact absurd h (by simp)

/-- Whatever the points, when the estimate succeeds the parameters are those of a real ellipse: its centre, its two semi-axes (in
one order or the other), and, unless it is tilted by exactly 45 degrees, `predict_xy` runs over exactly its points.  Among all conics
scaled to the same `4ac - b²` this ellipse has the least sum of squared algebraic distances from the points. -/
theorem C90_least (eig : Matrix (Fin 3) (Fin 3) ℝ → Matrix (Fin 3) (Fin 3) ℝ) {n : ℕ} (pts : Fin n → ℝ × ℝ) (P : EllipseParams)
    (heig : ∀ j, ∃ l : ℝ, reducedScatter pts *ᵥ (fun i => eig (reducedScatter pts) i j) = l • (fun i => eig (reducedScatter pts) i j))
    (h : ellipseEstimate eig pts = some P) :
    ∃ x0 y0 p q th, ∃ k : Fin 6 → ℝ, 0 < p ∧ 0 < q ∧ P.xc = x0 ∧ P.yc = y0 ∧ ((P.a = p ∧ P.b = q) ∨ (P.a = q ∧ P.b = p)) ∧
      (p = q ∨ Real.cos (2 * th) ≠ 0 → ∀ x, OnEllipse x0 y0 p q th x ↔ ∃ t, predictXY P t = x) ∧
      (∀ x, OnEllipse x0 y0 p q th x ↔ conicAt k x = 0) ∧ 0 < 4 * (k 0 * k 2) - k 1 ^ 2 ∧
      ∀ k' : Fin 6 → ℝ, 4 * (k' 0 * k' 2) - k' 1 ^ 2 = 4 * (k 0 * k 2) - k 1 ^ 2 → algError pts k ≤ algError pts k' := by
  obtain ⟨hd, j, hj, hP⟩ := estimate_some h
  obtain ⟨l, hl⟩ := heig j
  set v := fun i => eig (reducedScatter pts) i j with hv
  set w := linearPart pts v with hw
  set k : Fin 6 → ℝ := ![v 0, v 1, v 2, w 0, w 1, w 2] with hk
  have hell : 0 < 4 * (k 0 * k 2) - k 1 ^ 2 := hj
  have hres : ∀ i, resid pts v w i = conicAt k (pts i) := fun i => by rw [resid_apply]; rfl
  have hsum : ∑ i, conicAt k (pts i) = 0 := by
    have h1 := congrFun (lin_zero hd v) 2
    rw [← hw] at h1
    have h2 : ((designLin pts)ᵀ *ᵥ resid pts v w) 2 = ∑ i, 1 * resid pts v w i := rfl
    rw [h2] at h1
    rw [← show ((0 : Fin 3 → ℝ) 2) = 0 from rfl, ← h1]
    exact Finset.sum_congr rfl fun i _ => by rw [one_mul, hres]
  have hk0 : k 0 ≠ 0 := by
    intro h0
    rw [h0] at hell
    nlinarith [sq_nonneg (k 1)]
  have hcen : k 0 * conicAt k (centre k) < 0 := by
    by_contra hcon
    have hcon := not_lt.1 hcon
    have hs : ∑ i, ((2 * k 0 * ((pts i).1 - (centre k).1) + k 1 * ((pts i).2 - (centre k).2)) ^ 2 +
        (4 * (k 0 * k 2) - k 1 ^ 2) * ((pts i).2 - (centre k).2) ^ 2 + 4 * k 0 * conicAt k (centre k)) = 0 := by
      rw [← mul_zero (4 * k 0), ← hsum, Finset.mul_sum]
      exact Finset.sum_congr rfl fun i _ => (at_centre k hell (pts i)).symm
    have hz := (Finset.sum_eq_zero_iff_of_nonneg (fun i _ => by
      have := mul_nonneg hell.le (sq_nonneg ((pts i).2 - (centre k).2))
      have h2 := sq_nonneg (2 * k 0 * ((pts i).1 - (centre k).1) + k 1 * ((pts i).2 - (centre k).2))
      linarith)).1 hs
    have hpt : ∀ i, pts i = centre k := by
      intro i
      have h1 := hz i (Finset.mem_univ i)
      have h2 := mul_nonneg hell.le (sq_nonneg ((pts i).2 - (centre k).2))
      have h3 := sq_nonneg (2 * k 0 * ((pts i).1 - (centre k).1) + k 1 * ((pts i).2 - (centre k).2))
      have h4 : (4 * (k 0 * k 2) - k 1 ^ 2) * ((pts i).2 - (centre k).2) ^ 2 = 0 := by linarith
      have h5 : (pts i).2 - (centre k).2 = 0 := by
        rcases mul_eq_zero.1 h4 with h | h
        · exact absurd h hell.ne'
        · exact pow_eq_zero_iff two_ne_zero |>.1 h
      rw [h5] at h1 h3
      have h6 : (2 * k 0 * ((pts i).1 - (centre k).1) + k 1 * 0) ^ 2 = 0 := by linarith
      have h7 := pow_eq_zero_iff two_ne_zero |>.1 h6
      rw [mul_zero, add_zero] at h7
      have h8 : (pts i).1 - (centre k).1 = 0 := by
        rcases mul_eq_zero.1 h7 with h | h
        · exact absurd h (mul_ne_zero two_ne_zero hk0)
        · exact h
      exact Prod.ext (by linarith) (by linarith)
    apply hd
    refine exists_mulVec_eq_zero_iff.1 ⟨![1, 0, -(centre k).1], ?_, ?_⟩
    · intro h
      have := congrFun h 0
      simp at this
    · unfold scatter3
      rw [← mulVec_mulVec]
      have : designLin pts *ᵥ ![1, 0, -(centre k).1] = 0 := by
        ext i
        simp [designLin, mulVec, dotProduct, Fin.sum_univ_three, hpt i]
      rw [this, mulVec_zero]
  obtain ⟨x0, y0, p, q, th, s, hp, hq, hs, hks⟩ := real_ellipse k hell hcen
  have hPk : P = conicParams ((s • std x0 y0 p q th) 0) ((s • std x0 y0 p q th) 1) ((s • std x0 y0 p q th) 2) ((s • std x0 y0 p q th) 3)
      ((s • std x0 y0 p q th) 4) ((s • std x0 y0 p q th) 5) := by rw [← hks]; exact hP
  obtain ⟨q1, q2, q3, -⟩ := params_std x0 y0 p q th hp hq s hs
  refine ⟨x0, y0, p, q, th, k, hp, hq, by rw [hPk]; exact q1, by rw [hPk]; exact q2, ?_, ?_, ?_, hell, ?_⟩
  · rw [hPk]
    rcases le_total p q with hpq | hpq
    · rw [max_eq_right hpq, min_eq_left hpq] at q3
      rcases q3 with ⟨-, a, b⟩ | ⟨-, a, b⟩
      · exact Or.inr ⟨a, b⟩
      · exact Or.inl ⟨a, b⟩
    · rw [max_eq_left hpq, min_eq_right hpq] at q3
      rcases q3 with ⟨-, a, b⟩ | ⟨-, a, b⟩
      · exact Or.inl ⟨a, b⟩
      · exact Or.inr ⟨a, b⟩
  · rw [hPk]
    exact fun hth => predict_std x0 y0 p q th hp hq s hs hth
  · intro x
    rw [on_iff x0 y0 p q th hp hq, hks]
    have : conicAt (s • std x0 y0 p q th) x = s * conicAt (std x0 y0 p q th) x := by
      unfold conicAt
      simp only [Pi.smul_apply, smul_eq_mul]
      ring
    rw [this, mul_eq_zero, or_iff_right hs]
  · intro k' hk'
    have e1 : algError pts k = (Sred pts *ᵥ v) ⬝ᵥ v := by
      rw [← dot_red hd v v w]
      unfold algError dotProduct
      exact Finset.sum_congr rfl fun i _ => by rw [← hw, hres, sq]
    rw [e1, alg_resid pts k']
    exact (red_min hd v l hj hl ![k' 0, k' 1, k' 2] hk').trans (red_least hd _ _)

/-! ### Success -/

/-- The points determine a conic: all conics through them are multiples of one another. -/
private def Determine {n : ℕ} (pts : Fin n → ℝ × ℝ) : Prop :=
  ∀ k k' : Fin 6 → ℝ, Through k pts → Through k' pts → k ≠ 0 → ∃ s : ℝ, k' = s • k

private theorem eig_indep {V : Matrix (Fin 3) (Fin 3) ℝ} (hV : V.det ≠ 0) {i j : Fin 3} (hij : i ≠ j) (s : ℝ) :
    (fun a => V a j) ≠ s • (fun a => V a i) := by
  intro h
  apply hV
  refine exists_mulVec_eq_zero_iff.1 ⟨Pi.single j 1 - s • Pi.single i 1, ?_, ?_⟩
  · intro h0
    have := congrFun h0 j
    simp [Pi.single_apply, hij.symm] at this
  · rw [mulVec_sub, mulVec_smul, mulVec_single_one, mulVec_single_one]
    ext a
    have := congrFun h a
    simp only [Pi.smul_apply, smul_eq_mul] at this
    simp [this]

private theorem eig_nonzero {V : Matrix (Fin 3) (Fin 3) ℝ} (hV : V.det ≠ 0) (j : Fin 3) : (fun a => V a j) ≠ 0 := by
  obtain ⟨i, hij⟩ : ∃ i : Fin 3, i ≠ j := ⟨j + 1, by revert j; decide⟩
  have := eig_indep hV hij 0
  rwa [zero_smul] at this

private theorem form_zero_through {n : ℕ} {pts : Fin n → ℝ × ℝ} (hd : (scatter3 pts).det ≠ 0) (v : Fin 3 → ℝ)
    (h : (Sred pts *ᵥ v) ⬝ᵥ v = 0) :
    Through ![v 0, v 1, v 2, linearPart pts v 0, linearPart pts v 1, linearPart pts v 2] pts :=
  (through_resid pts v _).2 (red_zero hd v h)

private theorem at_most_one {n : ℕ} {pts : Fin n → ℝ × ℝ} (hd : (scatter3 pts).det ≠ 0) (hdet : Determine pts)
    {V : Matrix (Fin 3) (Fin 3) ℝ} (hV : Eigenbasis (reducedScatter pts) V) (i j : Fin 3)
    (hi : 0 < ellipticity (fun a => V a i)) (hj : 0 < ellipticity (fun a => V a j)) : i = j := by
  by_contra hij
  obtain ⟨li, hli⟩ := hV.2 i
  obtain ⟨lj, hlj⟩ := hV.2 j
  set u := fun a => V a i with hu
  set v := fun a => V a j with hv
  have hind : ∀ s : ℝ, v ≠ s • u := fun s => eig_indep hV.1 hij s
  have hsym : li * bil u v = lj * bil u v := by
    have h1 := eig_red u li hli v
    have h2 := eig_red v lj hlj u
    rw [red_symm hd, h2, bil_comm] at h1
    linarith
  by_cases hl : li = lj
  · subst hl
    set t := bil u v / ellipticity u with ht
    have hr0 : v - t • u ≠ 0 := fun h => hind t (sub_eq_zero.1 h)
    have hur : bil u (v - t • u) = 0 := by
      rw [bil_lin, bil_self, ht, div_mul_cancel₀ _ hi.ne', sub_self]
    have hneg := reversed u _ hi hur hr0
    have hrl : reducedScatter pts *ᵥ (v - t • u) = li • (v - t • u) := by
      rw [mulVec_sub, mulVec_smul, hli, hlj, smul_sub, smul_comm]
    have e1 := red_nonneg hd (v - t • u)
    rw [eig_red _ li hrl, bil_self] at e1
    have e2 := red_nonneg hd u
    rw [eig_red u li hli, bil_self] at e2
    have l1 : 0 ≤ li := nonneg_of_mul_nonneg_left e2 hi
    have l2 : li ≤ 0 := by
      by_contra h
      nlinarith [not_le.1 h]
    have l0 : li = 0 := le_antisymm l2 l1
    have t1 := form_zero_through hd u (by rw [eig_red u li hli, l0, zero_mul])
    have t2 := form_zero_through hd v (by rw [eig_red v li hlj, l0, zero_mul])
    obtain ⟨s, hs⟩ := hdet _ _ t1 t2 (by
      intro h0
      apply eig_nonzero hV.1 i
      ext a
      fin_cases a
      · exact congrFun h0 0
      · exact congrFun h0 1
      · exact congrFun h0 2)
    apply hind s
    ext a
    fin_cases a
    · exact congrFun hs 0
    · exact congrFun hs 1
    · exact congrFun hs 2
  · have hb : bil u v = 0 := by
      by_contra h
      exact hl (mul_right_cancel₀ h hsym)
    have hneg := reversed u v hi hb (eig_nonzero hV.1 j)
    linarith

private theorem filter_one (P : Fin 3 → Bool) (j : Fin 3) (hj : P j = true) (h : ∀ i, P i = true → i = j) :
    (List.finRange 3).filter P = [j] := by
  have e : ∀ i ∈ List.finRange 3, P i = decide (i = j) := by
    intro i _
    by_cases hij : i = j
    · rw [hij, hj]; simp
    · simp only [hij, decide_false]
      by_contra hc
      exact hij (h i (by simpa using hc))
  rw [List.filter_congr e]
  clear e h hj
  revert j
  decide

private theorem det_eig {n : ℕ} {pts : Fin n → ℝ × ℝ} {V : Matrix (Fin 3) (Fin 3) ℝ} (hV : V.det ≠ 0) (l : Fin 3 → ℝ)
    (hl : ∀ j, reducedScatter pts *ᵥ (fun a => V a j) = l j • (fun a => V a j)) : (Sred pts).det = 4 * (l 0 * l 1 * l 2) := by
  have h1 : reducedScatter pts * V = V * Matrix.diagonal l := by
    ext a j
    rw [mul_diagonal]
    have := congrFun (hl j) a
    rw [Pi.smul_apply, smul_eq_mul] at this
    rw [mul_comm, ← this]
    rfl
  have h2 := congrArg Matrix.det h1
  rw [det_mul, det_mul, det_diagonal, mul_comm, Fin.prod_univ_three] at h2
  have h3 := mul_left_cancel₀ hV h2
  rw [← C_red, det_mul, C_det, h3]

private theorem succeed {n : ℕ} {pts : Fin n → ℝ × ℝ} (hd : (scatter3 pts).det ≠ 0) (hdet : Determine pts)
    {eig : Matrix (Fin 3) (Fin 3) ℝ → Matrix (Fin 3) (Fin 3) ℝ} (hV : Eigenbasis (reducedScatter pts) (eig (reducedScatter pts)))
    (h : ∃ j, 0 < ellipticity (fun a => eig (reducedScatter pts) a j)) : ∃ P, ellipseEstimate eig pts = some P := by
  obtain ⟨j, hj⟩ := h
  have hf := filter_one (fun j => decide (0 < ellipticity (fun i => eig (reducedScatter pts) i j))) j (by simpa using hj)
    (fun i hi => at_most_one hd hdet hV i j (by simpa using hi) hj)
  unfold ellipseEstimate
  rw [if_neg hd]
  simp only [hf]
  exact ⟨_, rfl⟩

private theorem lines_ok {n : ℕ} {pts : Fin n → ℝ × ℝ} (h : ∀ z : Fin 3 → ℝ, Through ![0, 0, 0, z 0, z 1, z 2] pts → z = 0) :
    (scatter3 pts).det ≠ 0 := by
  intro hd
  obtain ⟨z, hz, hz0⟩ := exists_mulVec_eq_zero_iff.2 hd
  apply hz
  apply h
  have : resid pts 0 z = 0 := by
    have e : resid pts 0 z = designLin pts *ᵥ z := by
      unfold resid; rw [mulVec_zero, zero_add]
    have h2 : resid pts 0 z ⬝ᵥ resid pts 0 z = 0 := by
      rw [dot_resid, lin_normal, hz0, mulVec_zero, add_zero, zero_dotProduct, dotProduct_zero, add_zero]
    exact dotProduct_self_eq_zero.1 h2
  exact (through_resid pts 0 z).2 this

private theorem six_eq {k k' : Fin 6 → ℝ} (h : ∀ x, conicAt k x = conicAt k' x) : k = k' := by
  have h1 := h (0, 0)
  have h2 := h (1, 0)
  have h3 := h (-1, 0)
  have h4 := h (0, 1)
  have h5 := h (0, -1)
  have h6 := h (1, 1)
  simp only [conicAt] at h1 h2 h3 h4 h5 h6
  ext i
  fin_cases i
  · show k 0 = k' 0
    linarith
  · show k 1 = k' 1
    linarith
  · show k 2 = k' 2
    linarith
  · show k 3 = k' 3
    linarith
  · show k 4 = k' 4
    linarith
  · show k 5 = k' 5
    linarith

/-- The estimate succeeds for all points that lie on no conic. -/
theorem C90_succeeds (eig : Matrix (Fin 3) (Fin 3) ℝ → Matrix (Fin 3) (Fin 3) ℝ) {n : ℕ} (pts : Fin n → ℝ × ℝ) (hno : NoConic pts)
    (heig : Eigenbasis (reducedScatter pts) (eig (reducedScatter pts))) : ∃ P, ellipseEstimate eig pts = some P := by
  have hd : (scatter3 pts).det ≠ 0 := lines_ok fun z hz => by
    have := hno _ hz
    ext a
    fin_cases a
    · exact congrFun this 3
    · exact congrFun this 4
    · exact congrFun this 5
  have hdet : Determine pts := fun k _ hk _ h0 => absurd (hno k hk) h0
  have hpos : ∀ v : Fin 3 → ℝ, v ≠ 0 → 0 < (Sred pts *ᵥ v) ⬝ᵥ v := by
    intro v hv
    refine lt_of_le_of_ne (red_nonneg hd v) fun h => hv ?_
    have := hno _ (form_zero_through hd v h.symm)
    ext a
    fin_cases a
    · exact congrFun this 0
    · exact congrFun this 1
    · exact congrFun this 2
  refine succeed hd hdet heig ?_
  choose l hl using heig.2
  by_contra hcon
  have hcon : ∀ j, ellipticity (fun a => eig (reducedScatter pts) a j) ≤ 0 := fun j => not_lt.1 fun h => hcon ⟨j, h⟩
  have hlneg : ∀ j, l j < 0 := by
    intro j
    have h1 := hpos _ (eig_nonzero heig.1 j)
    rw [eig_red _ _ (hl j), bil_self] at h1
    by_contra h
    nlinarith [hcon j, not_lt.1 h]
  have hdetpos : 0 < (Sred pts).det := by
    have hPD : (Sred pts).PosDef := by
      refine Matrix.PosDef.of_dotProduct_mulVec_pos ?_ ?_
      · rw [IsHermitian, conjTranspose_eq_transpose_of_trivial]
        ext i j
        have := red_symm hd (Pi.single i 1) (Pi.single j 1)
        rw [mulVec_single_one, mulVec_single_one, dotProduct_single_one, dotProduct_single_one] at this
        exact this
      · intro v hv
        rw [star_trivial, dotProduct_comm]
        exact hpos v hv
    exact hPD.det_pos
  rw [det_eig heig.1 l hl] at hdetpos
  have := mul_pos_of_neg_of_neg (hlneg 0) (hlneg 1)
  nlinarith [mul_neg_of_pos_of_neg this (hlneg 2)]

/-! ### Five points determine the conic -/

private theorem circle_five (S : Finset (ℝ × ℝ)) (hS : 5 ≤ S.card) (a b c d e f : ℝ) (h1 : ∀ x ∈ S, x.1 ^ 2 + x.2 ^ 2 = 1)
    (h2 : ∀ x ∈ S, a * x.1 ^ 2 + b * (x.1 * x.2) + c * x.2 ^ 2 + d * x.1 + e * x.2 + f = 0) :
    a = c ∧ b = 0 ∧ d = 0 ∧ e = 0 ∧ f = -a := by
  set A4 : ℂ := ((a - c) - b * Complex.I) / 4 with hA4
  set A3 : ℂ := (d - e * Complex.I) / 2 with hA3
  set A2 : ℂ := (a + c) / 2 + f with hA2
  set A1 : ℂ := (d + e * Complex.I) / 2 with hA1
  set A0 : ℂ := ((a - c) + b * Complex.I) / 4 with hA0
  set P : Polynomial ℂ := Polynomial.C A4 * Polynomial.X ^ 4 + Polynomial.C A3 * Polynomial.X ^ 3 + Polynomial.C A2 * Polynomial.X ^ 2 +
    Polynomial.C A1 * Polynomial.X + Polynomial.C A0 with hP
  let φ : ℝ × ℝ → ℂ := fun x => (x.1 : ℂ) + x.2 * Complex.I
  have hφ : Function.Injective φ := by
    intro x y h
    have hre := congrArg Complex.re h
    have him := congrArg Complex.im h
    simp [φ] at hre him
    exact Prod.ext hre him
  have hroots : ∀ z ∈ S.image φ, P.eval z = 0 := by
    intro z hz
    obtain ⟨x, hx, rfl⟩ := Finset.mem_image.1 hz
    have hI : Complex.I ^ 2 = -1 := Complex.I_sq
    have hc : (x.1 : ℂ) ^ 2 + (x.2 : ℂ) ^ 2 = 1 := by exact_mod_cast h1 x hx
    have hg : (a : ℂ) * x.1 ^ 2 + b * (x.1 * x.2) + c * x.2 ^ 2 + d * x.1 + e * x.2 + f = 0 := by exact_mod_cast h2 x hx
    set z : ℂ := (x.1 : ℂ) + x.2 * Complex.I with hz
    set w : ℂ := (x.1 : ℂ) - x.2 * Complex.I with hw
    have hzw : z * w = 1 := by
      rw [hz, hw]
      linear_combination hc - (x.2 : ℂ) ^ 2 * hI
    have e1 : P.eval z = z ^ 2 * (A4 * z ^ 2 + A3 * z + A2 + A1 * w + A0 * w ^ 2) := by
      rw [hP]
      simp only [Polynomial.eval_add, Polynomial.eval_mul, Polynomial.eval_C, Polynomial.eval_pow, Polynomial.eval_X]
      linear_combination (-A1 * z - A0 * (z * w + 1)) * hzw
    have e2 : A4 * z ^ 2 + A3 * z + A2 + A1 * w + A0 * w ^ 2 = 0 := by
      rw [← hg, hA4, hA3, hA2, hA1, hA0, hz, hw]
      linear_combination (((a : ℂ) - c) / 2 * x.2 ^ 2 - b * x.1 * x.2 - e * x.2) * hI - ((a : ℂ) + c) / 2 * hc
    show P.eval z = 0
    rw [e1, e2, mul_zero]
  have hdeg : P.natDegree ≤ 4 := by
    rw [hP]; compute_degree
  have hP0 : P = 0 := Polynomial.eq_zero_of_natDegree_lt_card_of_eval_eq_zero' P (S.image φ) hroots (by
    rw [Finset.card_image_of_injective _ hφ]
    omega)
  have c4 : A4 = 0 := by
    have := congrArg (fun Q => Polynomial.coeff Q 4) hP0
    simpa [hP, Polynomial.coeff_X, Polynomial.coeff_C, Polynomial.coeff_X_pow] using this
  have c3 : A3 = 0 := by
    have := congrArg (fun Q => Polynomial.coeff Q 3) hP0
    simpa [hP, Polynomial.coeff_X, Polynomial.coeff_C, Polynomial.coeff_X_pow] using this
  have c2 : A2 = 0 := by
    have := congrArg (fun Q => Polynomial.coeff Q 2) hP0
    simpa [hP, Polynomial.coeff_X, Polynomial.coeff_C, Polynomial.coeff_X_pow] using this
  have r4 : ((a : ℂ) - c) - b * Complex.I = 0 := by
    rw [hA4] at c4
    linear_combination 4 * c4
  have r3 : (d : ℂ) - e * Complex.I = 0 := by
    rw [hA3] at c3
    linear_combination 2 * c3
  have r2 : (a + c) / 2 + f = 0 := by
    rw [hA2] at c2
    exact_mod_cast c2
  have k1 := congrArg Complex.re r4
  have k2 := congrArg Complex.im r4
  have k3 := congrArg Complex.re r3
  have k4 := congrArg Complex.im r3
  simp at k1 k2 k3 k4
  refine ⟨by linarith, k2, k3, k4, by linarith⟩

private theorem five_determine {n : ℕ} {pts : Fin n → ℝ × ℝ} {x0 y0 p q th : ℝ} (hp : 0 < p) (hq : 0 < q)
    (hon : ∀ i, OnEllipse x0 y0 p q th (pts i)) (h5 : 5 ≤ (Finset.univ.image pts).card) (k : Fin 6 → ℝ) (hk : Through k pts) :
    ∃ s : ℝ, k = s • std x0 y0 p q th := by
  set cs := Real.cos th with hcs
  set sn := Real.sin th with hsn
  have hone : cs ^ 2 + sn ^ 2 = 1 := Real.cos_sq_add_sin_sq th
  let ψ : ℝ × ℝ → ℝ × ℝ := fun x => ((cs * (x.1 - x0) + sn * (x.2 - y0)) / p, (-sn * (x.1 - x0) + cs * (x.2 - y0)) / q)
  have inv1 : ∀ x, x.1 = x0 + p * cs * (ψ x).1 - q * sn * (ψ x).2 := by
    intro x
    show x.1 = x0 + p * cs * ((cs * (x.1 - x0) + sn * (x.2 - y0)) / p) - q * sn * ((-sn * (x.1 - x0) + cs * (x.2 - y0)) / q)
    rw [show p * cs * ((cs * (x.1 - x0) + sn * (x.2 - y0)) / p) = cs * (cs * (x.1 - x0) + sn * (x.2 - y0)) by field_simp,
      show q * sn * ((-sn * (x.1 - x0) + cs * (x.2 - y0)) / q) = sn * (-sn * (x.1 - x0) + cs * (x.2 - y0)) by field_simp]
    linear_combination -(x.1 - x0) * hone
  have inv2 : ∀ x, x.2 = y0 + p * sn * (ψ x).1 + q * cs * (ψ x).2 := by
    intro x
    show x.2 = y0 + p * sn * ((cs * (x.1 - x0) + sn * (x.2 - y0)) / p) + q * cs * ((-sn * (x.1 - x0) + cs * (x.2 - y0)) / q)
    rw [show p * sn * ((cs * (x.1 - x0) + sn * (x.2 - y0)) / p) = sn * (cs * (x.1 - x0) + sn * (x.2 - y0)) by field_simp,
      show q * cs * ((-sn * (x.1 - x0) + cs * (x.2 - y0)) / q) = cs * (-sn * (x.1 - x0) + cs * (x.2 - y0)) by field_simp]
    linear_combination -(x.2 - y0) * hone
  have hψ : Function.Injective ψ := by
    intro x y h
    refine Prod.ext ?_ ?_
    · rw [inv1 x, inv1 y, h]
    · rw [inv2 x, inv2 y, h]
  obtain ⟨a, b, c, d, e, f, hg⟩ : ∃ a b c d e f : ℝ, ∀ x, conicAt k x =
      a * (ψ x).1 ^ 2 + b * ((ψ x).1 * (ψ x).2) + c * (ψ x).2 ^ 2 + d * (ψ x).1 + e * (ψ x).2 + f := by
    refine ⟨k 0 * (p * cs) ^ 2 + k 1 * (p * cs) * (p * sn) + k 2 * (p * sn) ^ 2,
      2 * k 0 * (p * cs) * (-(q * sn)) + k 1 * ((p * cs) * (q * cs) + (p * sn) * (-(q * sn))) + 2 * k 2 * (p * sn) * (q * cs),
      k 0 * (-(q * sn)) ^ 2 + k 1 * (-(q * sn)) * (q * cs) + k 2 * (q * cs) ^ 2,
      2 * k 0 * x0 * (p * cs) + k 1 * (x0 * (p * sn) + y0 * (p * cs)) + 2 * k 2 * y0 * (p * sn) + k 3 * (p * cs) + k 4 * (p * sn),
      2 * k 0 * x0 * (-(q * sn)) + k 1 * (x0 * (q * cs) + y0 * (-(q * sn))) + 2 * k 2 * y0 * (q * cs) + k 3 * (-(q * sn)) + k 4 * (q * cs),
      conicAt k (x0, y0), ?_⟩
    intro x
    have e1 := inv1 x
    have e2 := inv2 x
    generalize (ψ x).1 = X at *
    generalize (ψ x).2 = Y at *
    unfold conicAt
    rw [e1, e2]
    ring
  obtain ⟨hac, hb, hd, he, hf⟩ := circle_five ((Finset.univ.image pts).image ψ) (by rw [Finset.card_image_of_injective _ hψ]; exact h5) a b c d e f
    (by
      intro x hx
      obtain ⟨y, hy, rfl⟩ := Finset.mem_image.1 hx
      obtain ⟨i, -, rfl⟩ := Finset.mem_image.1 hy
      exact hon i)
    (by
      intro x hx
      obtain ⟨y, hy, rfl⟩ := Finset.mem_image.1 hx
      obtain ⟨i, -, rfl⟩ := Finset.mem_image.1 hy
      rw [← hg]
      exact hk i)
  refine ⟨a, six_eq fun x => ?_⟩
  have e1 : conicAt (a • std x0 y0 p q th) x = a * conicAt (std x0 y0 p q th) x := by
    unfold conicAt
    simp only [Pi.smul_apply, smul_eq_mul]
    ring
  have e2 : conicAt (std x0 y0 p q th) x = (ψ x).1 ^ 2 + (ψ x).2 ^ 2 - 1 := by
    show _ = ((cs * (x.1 - x0) + sn * (x.2 - y0)) / p) ^ 2 + ((-sn * (x.1 - x0) + cs * (x.2 - y0)) / q) ^ 2 - 1
    unfold conicAt std
    simp only [Fin.isValue, Matrix.cons_val]
    field_simp
    ring
  rw [hg, e1, e2, hb, hd, he, hf, ← hac]
  ring

private theorem std_ell (x0 y0 p q th : ℝ) (hp : 0 < p) (hq : 0 < q) :
    4 * (std x0 y0 p q th 0 * std x0 y0 p q th 2) - std x0 y0 p q th 1 ^ 2 = 4 / (p ^ 2 * q ^ 2) := by
  obtain ⟨f1, f2, f3⟩ := std_facts x0 y0 p q th
  have e : 4 * (std x0 y0 p q th 0 * std x0 y0 p q th 2) - std x0 y0 p q th 1 ^ 2 =
      (std x0 y0 p q th 0 + std x0 y0 p q th 2) ^ 2 - (std x0 y0 p q th 0 - std x0 y0 p q th 2) ^ 2 - std x0 y0 p q th 1 ^ 2 := by ring
  rw [e, f1, f2, f3]
  have e2 : (1 / p ^ 2 + 1 / q ^ 2) ^ 2 - ((1 / p ^ 2 - 1 / q ^ 2) * Real.cos (2 * th)) ^ 2 - ((1 / p ^ 2 - 1 / q ^ 2) * Real.sin (2 * th)) ^ 2 =
      (1 / p ^ 2 + 1 / q ^ 2) ^ 2 - (1 / p ^ 2 - 1 / q ^ 2) ^ 2 * (Real.cos (2 * th) ^ 2 + Real.sin (2 * th) ^ 2) := by ring
  rw [e2, Real.cos_sq_add_sin_sq]
  field_simp
  ring

private theorem exact_aux (eig : Matrix (Fin 3) (Fin 3) ℝ → Matrix (Fin 3) (Fin 3) ℝ) {n : ℕ} (pts : Fin n → ℝ × ℝ) (x0 y0 p q th : ℝ)
    (hp : 0 < p) (hq : 0 < q) (hon : ∀ i, OnEllipse x0 y0 p q th (pts i)) (h5 : 5 ≤ (Finset.univ.image pts).card)
    (heig : Eigenbasis (reducedScatter pts) (eig (reducedScatter pts))) :
    ∃ (P : EllipseParams) (s : ℝ), s ≠ 0 ∧ ellipseEstimate eig pts = some P ∧
      P = conicParams ((s • std x0 y0 p q th) 0) ((s • std x0 y0 p q th) 1) ((s • std x0 y0 p q th) 2) ((s • std x0 y0 p q th) 3)
      ((s • std x0 y0 p q th) 4) ((s • std x0 y0 p q th) 5) := by
  have hstd : Through (std x0 y0 p q th) pts := fun i => (on_iff x0 y0 p q th hp hq _).1 (hon i)
  have hall := fun k hk => five_determine hp hq hon h5 k hk
  have hell := std_ell x0 y0 p q th hp hq
  have hellpos : 0 < 4 * (std x0 y0 p q th 0 * std x0 y0 p q th 2) - std x0 y0 p q th 1 ^ 2 := by rw [hell]; positivity
  have hdet : Determine pts := by
    intro k k' hk hk' h0
    obtain ⟨s, hs⟩ := hall k hk
    obtain ⟨t, ht⟩ := hall k' hk'
    have hs0 : s ≠ 0 := by
      rintro rfl
      exact h0 (by rw [hs, zero_smul])
    exact ⟨t / s, by rw [ht, hs, smul_smul, div_mul_cancel₀ _ hs0]⟩
  have hd : (scatter3 pts).det ≠ 0 := lines_ok fun z hz => by
    obtain ⟨s, hs⟩ := hall _ hz
    have a0 : (0 : ℝ) = s * std x0 y0 p q th 0 := congrFun hs 0
    have a2 : (0 : ℝ) = s * std x0 y0 p q th 2 := congrFun hs 2
    have s0 : s = 0 := by
      by_contra h
      have b0 := (mul_eq_zero.1 a0.symm).resolve_left h
      rw [b0] at hellpos
      nlinarith [sq_nonneg (std x0 y0 p q th 1)]
    rw [s0, zero_smul] at hs
    ext a
    fin_cases a
    · exact congrFun hs 3
    · exact congrFun hs 4
    · exact congrFun hs 5
  have hconic : ∀ v : Fin 3 → ℝ, v ≠ 0 → (Sred pts *ᵥ v) ⬝ᵥ v = 0 → ∃ s : ℝ, s ≠ 0 ∧
      ![v 0, v 1, v 2, linearPart pts v 0, linearPart pts v 1, linearPart pts v 2] = s • std x0 y0 p q th := by
    intro v hv h0
    obtain ⟨s, hs⟩ := hall _ (form_zero_through hd v h0)
    refine ⟨s, ?_, hs⟩
    rintro rfl
    rw [zero_smul] at hs
    apply hv
    ext a
    fin_cases a
    · exact congrFun hs 0
    · exact congrFun hs 1
    · exact congrFun hs 2
  -- the ellipse itself has no residual
  set v0 : Fin 3 → ℝ := ![std x0 y0 p q th 0, std x0 y0 p q th 1, std x0 y0 p q th 2] with hv0
  have hres0 : resid pts v0 ![std x0 y0 p q th 3, std x0 y0 p q th 4, std x0 y0 p q th 5] = 0 := by
    ext i
    rw [resid_apply]
    exact hstd i
  have hform0 : (Sred pts *ᵥ v0) ⬝ᵥ v0 = 0 := by
    refine le_antisymm ?_ (red_nonneg hd v0)
    have := red_least hd v0 ![std x0 y0 p q th 3, std x0 y0 p q th 4, std x0 y0 p q th 5]
    rwa [hres0, zero_dotProduct] at this
  have hv0ne : v0 ≠ 0 := by
    intro h
    have b0 : std x0 y0 p q th 0 = 0 := congrFun h 0
    rw [b0] at hellpos
    nlinarith [sq_nonneg (std x0 y0 p q th 1)]
  choose l hl using heig.2
  have hlz : ∃ j, l j = 0 := by
    by_contra hcon
    have hne : (Sred pts).det ≠ 0 := by
      rw [det_eig heig.1 l hl]
      have : ∀ j, l j ≠ 0 := fun j h => hcon ⟨j, h⟩
      exact mul_ne_zero (by norm_num) (mul_ne_zero (mul_ne_zero (this 0) (this 1)) (this 2))
    apply hne
    refine exists_mulVec_eq_zero_iff.1 ⟨v0, hv0ne, ?_⟩
    rw [← quad_red hd v0, red_zero hd v0 hform0, mulVec_zero]
  obtain ⟨j, hj⟩ := hlz
  have hjform : (Sred pts *ᵥ (fun a => eig (reducedScatter pts) a j)) ⬝ᵥ (fun a => eig (reducedScatter pts) a j) = 0 := by
    rw [eig_red _ _ (hl j), hj, zero_mul]
  obtain ⟨s, hs0, hs⟩ := hconic _ (eig_nonzero heig.1 j) hjform
  have hjell : 0 < ellipticity (fun a => eig (reducedScatter pts) a j) := by
    have a0 : eig (reducedScatter pts) 0 j = s * std x0 y0 p q th 0 := congrFun hs 0
    have a1 : eig (reducedScatter pts) 1 j = s * std x0 y0 p q th 1 := congrFun hs 1
    have a2 : eig (reducedScatter pts) 2 j = s * std x0 y0 p q th 2 := congrFun hs 2
    show 0 < 4 * (eig (reducedScatter pts) 0 j * eig (reducedScatter pts) 2 j) - eig (reducedScatter pts) 1 j ^ 2
    rw [a0, a1, a2]
    have : 4 * (s * std x0 y0 p q th 0 * (s * std x0 y0 p q th 2)) - (s * std x0 y0 p q th 1) ^ 2 =
        s ^ 2 * (4 * (std x0 y0 p q th 0 * std x0 y0 p q th 2) - std x0 y0 p q th 1 ^ 2) := by ring
    rw [this]
    positivity
  obtain ⟨P, hP⟩ := succeed hd hdet heig ⟨j, hjell⟩
  obtain ⟨-, i, hi, hPi⟩ := estimate_some hP
  have hij := at_most_one hd hdet heig i j hi hjell
  subst hij
  refine ⟨P, s, hs0, hP, ?_⟩
  rw [← hs]
  exact hPi

/-- Five or more different points of an ellipse: the estimate finds its centre and semi-axes and, unless it is tilted by exactly 45
degrees, `predict_xy` runs over exactly its points. Missing: a tilt of exactly 45 degrees (`C90_tilt_violated`). -/
theorem C90_exact_partial (eig : Matrix (Fin 3) (Fin 3) ℝ → Matrix (Fin 3) (Fin 3) ℝ) {n : ℕ} (pts : Fin n → ℝ × ℝ) (x0 y0 p q th : ℝ)
    (hp : 0 < p) (hq : 0 < q) (hon : ∀ i, OnEllipse x0 y0 p q th (pts i)) (h5 : 5 ≤ (Finset.univ.image pts).card)
    (heig : Eigenbasis (reducedScatter pts) (eig (reducedScatter pts))) :
    ∃ P, ellipseEstimate eig pts = some P ∧ P.xc = x0 ∧ P.yc = y0 ∧ ((P.a = p ∧ P.b = q) ∨ (P.a = q ∧ P.b = p)) ∧
      (p = q ∨ Real.cos (2 * th) ≠ 0 → ∀ x, OnEllipse x0 y0 p q th x ↔ ∃ t, predictXY P t = x) := by
  obtain ⟨P, s, hs, hP, hPk⟩ := exact_aux eig pts x0 y0 p q th hp hq hon h5 heig
  obtain ⟨q1, q2, q3, -⟩ := params_std x0 y0 p q th hp hq s hs
  refine ⟨P, hP, by rw [hPk]; exact q1, by rw [hPk]; exact q2, ?_, ?_⟩
  · rw [hPk]
    rcases le_total p q with hpq | hpq
    · rw [max_eq_right hpq, min_eq_left hpq] at q3
      rcases q3 with ⟨-, a, b⟩ | ⟨-, a, b⟩
      · exact Or.inr ⟨a, b⟩
      · exact Or.inl ⟨a, b⟩
    · rw [max_eq_left hpq, min_eq_right hpq] at q3
      rcases q3 with ⟨-, a, b⟩ | ⟨-, a, b⟩
      · exact Or.inl ⟨a, b⟩
      · exact Or.inr ⟨a, b⟩
  · rw [hPk]
    exact fun hth => predict_std x0 y0 p q th hp hq s hs hth

/-- For an ellipse with unequal axes tilted by exactly 45 degrees (either way) the angle comes out wrong: the end of the first axis is
not on the ellipse. -/
theorem C90_tilt_violated (eig : Matrix (Fin 3) (Fin 3) ℝ → Matrix (Fin 3) (Fin 3) ℝ) {n : ℕ} (pts : Fin n → ℝ × ℝ) (x0 y0 p q th : ℝ)
    (hp : 0 < p) (hq : 0 < q) (hon : ∀ i, OnEllipse x0 y0 p q th (pts i)) (h5 : 5 ≤ (Finset.univ.image pts).card)
    (heig : Eigenbasis (reducedScatter pts) (eig (reducedScatter pts))) (hpq : p ≠ q) (hth : Real.cos (2 * th) = 0) :
    ∃ P, ellipseEstimate eig pts = some P ∧ ¬ OnEllipse x0 y0 p q th (predictXY P 0) := by
  obtain ⟨P, s, hs, hP, hPk⟩ := exact_aux eig pts x0 y0 p q th hp hq hon h5 heig
  obtain ⟨q1, q2, q3, q4⟩ := params_std x0 y0 p q th hp hq s hs
  rw [← hPk] at q1 q2 q3 q4
  refine ⟨P, hP, ?_⟩
  obtain ⟨f1, f2, f3⟩ := std_facts x0 y0 p q th
  rw [hth, mul_zero] at f2
  obtain ⟨ax1, ax2⟩ := axes p q hp hq
  set D := 1 / p ^ 2 - 1 / q ^ 2 with hD
  have hD0 : D ≠ 0 := by
    intro h
    apply hpq
    have h1 : 1 / p ^ 2 = 1 / q ^ 2 := sub_eq_zero.1 h
    have h2 : p ^ 2 = q ^ 2 := by
      have := congrArg (fun z => 1 / z) h1
      simpa using this
    exact (pow_left_inj₀ hp.le hq.le two_ne_zero).1 h2
  have hsin : Real.sin (2 * th) ^ 2 = 1 := by
    have := Real.cos_sq_add_sin_sq (2 * th)
    rw [hth] at this
    linarith
  have hB : |std x0 y0 p q th 1| = |D| := by
    have h1 : |Real.sin (2 * th)| = 1 := (sq_eq_sq₀ (abs_nonneg _) zero_le_one).1 (by rw [sq_abs, hsin, one_pow])
    rw [f3, abs_mul, h1, mul_one]
  have hB0 : std x0 y0 p q th 1 ≠ 0 := by
    rw [← abs_ne_zero, hB, abs_ne_zero]; exact hD0
  have he : (s • std x0 y0 p q th) 0 = (s • std x0 y0 p q th) 2 := by
    show s * _ = s * _
    rw [show std x0 y0 p q th 0 = std x0 y0 p q th 2 by linarith]
  have hb : (s • std x0 y0 p q th) 1 / 2 = s * std x0 y0 p q th 1 / 2 := rfl
  have hb0 : s * std x0 y0 p q th 1 / 2 ≠ 0 := div_ne_zero (mul_ne_zero hs hB0) two_ne_zero
  have htrig : Real.cos (2 * P.theta) = 0 ∧ std x0 y0 p q th 1 * Real.sin (2 * P.theta) = s / |s| * |D| := by
    rw [q4, he, hb]
    unfold conicAngle
    rw [if_pos rfl, if_neg hb0]
    by_cases hpos : 0 < s * std x0 y0 p q th 1 / 2
    · rw [if_pos hpos, show 2 * (0.5 * (Real.pi / 2)) = Real.pi / 2 by ring, Real.cos_pi_div_two, Real.sin_pi_div_two, mul_one, ← hB]
      refine ⟨rfl, ?_⟩
      have : 0 < s * std x0 y0 p q th 1 := by linarith
      rcases lt_or_gt_of_ne hs with h | h
      · rw [abs_of_neg h, abs_of_neg (by by_contra hc; nlinarith [not_lt.1 hc])]
        field_simp
      · rw [abs_of_pos h, abs_of_pos (by by_contra hc; nlinarith [not_lt.1 hc])]
        field_simp
    · rw [if_neg hpos, show 2 * (0.5 * -(Real.pi / 2)) = -(Real.pi / 2) by ring, Real.cos_neg, Real.sin_neg, Real.cos_pi_div_two,
        Real.sin_pi_div_two, ← hB]
      refine ⟨rfl, ?_⟩
      have h0 : s * std x0 y0 p q th 1 < 0 := by
        rcases lt_or_gt_of_ne hb0 with h | h
        · linarith
        · exact absurd h hpos
      rcases lt_or_gt_of_ne hs with h | h
      · rw [abs_of_neg h, abs_of_pos (by by_contra hc; nlinarith [not_lt.1 hc])]
        field_simp
      · rw [abs_of_pos h, abs_of_neg (by by_contra hc; nlinarith [not_lt.1 hc])]
        field_simp
  obtain ⟨g1, -, -⟩ := half_angle (std x0 y0 p q th 0) (std x0 y0 p q th 1) (std x0 y0 p q th 2) (Real.cos (2 * P.theta))
    (Real.sin (2 * P.theta)) (Real.cos P.theta) (Real.sin P.theta) (Real.cos_sq_add_sin_sq _) (Real.cos_two_mul' _) (Real.sin_two_mul _)
  rw [htrig.1, mul_zero, zero_add, htrig.2, f1] at g1
  rw [on_form x0 y0 p q th hp hq]
  have e1 : (predictXY P 0).1 - x0 = P.a * Real.cos P.theta := by
    unfold predictXY; rw [q1]; simp
  have e2 : (predictXY P 0).2 - y0 = P.a * Real.sin P.theta := by
    unfold predictXY; rw [q2]; simp
  rw [e1, e2]
  have e3 : std x0 y0 p q th 0 * (P.a * Real.cos P.theta) ^ 2 + std x0 y0 p q th 1 * (P.a * Real.cos P.theta * (P.a * Real.sin P.theta)) +
      std x0 y0 p q th 2 * (P.a * Real.sin P.theta) ^ 2 =
      P.a ^ 2 * ((1 / p ^ 2 + 1 / q ^ 2 + s / |s| * |D|) / 2) := by rw [← g1]; ring
  rw [e3]
  have hα0 : 0 < 1 / p ^ 2 := by positivity
  have hβ0 : 0 < 1 / q ^ 2 := by positivity
  have hDpos : 0 < |D| := abs_pos.2 hD0
  have hlt : |D| < 1 / p ^ 2 + 1 / q ^ 2 := by
    rw [hD, abs_lt]; constructor <;> linarith
  intro hcon
  rcases q3 with ⟨h0, ha, -⟩ | ⟨h0, ha, -⟩
  · rw [ha, ← ax1, abs_of_pos h0, div_self hs, one_mul, div_mul_div_comm, div_eq_one_iff_eq (by
      exact mul_ne_zero (sub_pos.2 hlt).ne' two_ne_zero)] at hcon
    linarith
  · rw [ha, ← ax2, abs_of_neg h0, div_neg, div_self hs, div_mul_div_comm, div_eq_one_iff_eq (by positivity)] at hcon
    linarith

/-- Width from a contour which is an ellipse (the first contour around the origin): with the semi-axes `p` and `q`, the root of the mean
of their squares; the 1/e radius itself when the contour is a circle. -/
theorem C90_width (eig : Matrix (Fin 3) (Fin 3) ℝ → Matrix (Fin 3) (Fin 3) ℝ) {n : ℕ} (pts : Fin n → ℝ × ℝ) (x0 y0 p q th : ℝ)
    (hp : 0 < p) (hq : 0 < q) (hon : ∀ i, OnEllipse x0 y0 p q th (pts i)) (h5 : 5 ≤ (Finset.univ.image pts).card)
    (heig : Eigenbasis (reducedScatter pts) (eig (reducedScatter pts))) (before after : List (Bool × Σ n : ℕ, Fin n → ℝ × ℝ))
    (hbefore : ∀ c ∈ before, c.1 = false) (ey ex : ℝ) :
    ∃ err, contourWidth eig (before ++ (true, ⟨n, pts⟩) :: after) ey ex = .ok [(some (Real.sqrt ((p ^ 2 + q ^ 2) / 2)), err)] ∧
      (p = q → Real.sqrt ((p ^ 2 + q ^ 2) / 2) = p) := by
  obtain ⟨P, hP, -, -, hab, -⟩ := C90_exact_partial eig pts x0 y0 p q th hp hq hon h5 heig
  have hfind : (before ++ (true, ⟨n, pts⟩) :: after).find? (fun c => c.1) = some (true, ⟨n, pts⟩) := by
    rw [List.find?_append, List.find?_eq_none.2 (fun c hc => by rw [hbefore c hc]; simp), Option.none_or, List.find?_cons_of_pos rfl]
  unfold contourWidth
  rw [hfind]
  have hfit : fit2DEllipse eig pts = some (P.b / Real.sqrt 2, P.a / Real.sqrt 2) := by
    unfold fit2DEllipse; rw [hP]; rfl
  simp only [Option.bind_some, hfit, Option.map_some]
  have hscale : (widthOf (⟨P.b / Real.sqrt 2, P.a / Real.sqrt 2, ey, ex⟩ : AxisWidths)).1 = Real.sqrt ((p ^ 2 + q ^ 2) / 2) := by
    show Real.sqrt ((P.b / Real.sqrt 2) ^ 2 + (P.a / Real.sqrt 2) ^ 2) = _
    rw [div_pow, div_pow, Real.sq_sqrt (by norm_num), ← add_div]
    rcases hab with ⟨h1, h2⟩ | ⟨h1, h2⟩
    · rw [h1, h2, add_comm]
    · rw [h1, h2]
  refine ⟨(widthOf (⟨P.b / Real.sqrt 2, P.a / Real.sqrt 2, ey, ex⟩ : AxisWidths)).2, ?_, ?_⟩
  · rw [← hscale]; rfl
  · rintro rfl
    rw [show (p ^ 2 + p ^ 2) / 2 = p ^ 2 by ring, Real.sqrt_sq hp.le]

/-- Without a contour around the origin the width is NaN. -/
theorem C90_none (eig : Matrix (Fin 3) (Fin 3) ℝ → Matrix (Fin 3) (Fin 3) ℝ) (paths : List (Bool × Σ n : ℕ, Fin n → ℝ × ℝ))
    (h : ∀ c ∈ paths, c.1 = false) (ey ex : ℝ) : contourWidth eig paths ey ex = .ok [(none, none)] := by
  unfold contourWidth
  rw [List.find?_eq_none.2 (fun c hc => by rw [h c hc]; simp)]
  rfl

/-! ### The hypotheses can be met -/

/-- Twelve points with whole coordinates on the circle of radius 5. -/
def twelve : Fin 12 → ℝ × ℝ :=
  ![(5, 0), (-5, 0), (0, 5), (0, -5), (3, 4), (3, -4), (-3, 4), (-3, -4), (4, 3), (4, -3), (-4, 3), (-4, -3)]

theorem twelve_on (i : Fin 12) : OnEllipse 0 0 5 5 0 (twelve i) := by
  fin_cases i <;> simp [OnEllipse, twelve] <;> norm_num

theorem twelve_card : 5 ≤ (Finset.univ.image twelve).card := by
  have hinj : Set.InjOn twelve ((Finset.univ.filter fun i : Fin 12 => i.val < 5 : Finset (Fin 12)) : Set (Fin 12)) := by
    intro i hi j hj h
    simp only [Finset.coe_filter, Finset.mem_univ, true_and, Set.mem_setOf_eq] at hi hj
    fin_cases i <;> fin_cases j <;> first | rfl | (exfalso; revert hi hj; decide) | (exfalso; simp [twelve] at h; try norm_num at h)
  calc 5 = (Finset.univ.filter fun i : Fin 12 => i.val < 5).card := by decide
    _ = ((Finset.univ.filter fun i : Fin 12 => i.val < 5).image twelve).card := (Finset.card_image_of_injOn hinj).symm
    _ ≤ _ := Finset.card_le_card (Finset.image_subset_image (Finset.filter_subset _ _))

private theorem twelve_s1 : scatter1 twelve = !![2598, 0, 1152; 0, 1152, 0; 1152, 0, 2598] := by
  ext i j
  fin_cases i <;> fin_cases j <;>
    simp [scatter1, designQuad, Matrix.mul_apply, Fin.sum_univ_succ, twelve] <;> norm_num

private theorem twelve_s2 : scatter2 twelve = !![0, 0, 150; 0, 0, 0; 0, 0, 150] := by
  ext i j
  fin_cases i <;> fin_cases j <;>
    simp [scatter2, designQuad, designLin, Matrix.mul_apply, Fin.sum_univ_succ, twelve] <;> norm_num

private theorem twelve_s3 : scatter3 twelve = !![150, 0, 0; 0, 150, 0; 0, 0, 12] := by
  ext i j
  fin_cases i <;> fin_cases j <;>
    simp [scatter3, designLin, Matrix.mul_apply, Fin.sum_univ_succ, twelve] <;> norm_num

private theorem twelve_red : reducedScatter twelve = !![-361.5, 0, 361.5; 0, -1152, 0; 361.5, 0, -361.5] := by
  have h3 : (scatter3 twelve)⁻¹ = !![1 / 150, 0, 0; 0, 1 / 150, 0; 0, 0, 1 / 12] := by
    refine Matrix.inv_eq_right_inv ?_
    rw [twelve_s3]
    ext i j
    fin_cases i <;> fin_cases j <;> simp [Matrix.mul_apply, Fin.sum_univ_three]
  have hc : constraintC⁻¹ = !![0, 0, 1 / 2; 0, -1, 0; 1 / 2, 0, 0] := by
    refine Matrix.inv_eq_right_inv ?_
    unfold constraintC
    ext i j
    fin_cases i <;> fin_cases j <;> simp [Matrix.mul_apply, Fin.sum_univ_three]
  have ht : (!![0, 0, 150; 0, 0, 0; 0, 0, 150] : Matrix (Fin 3) (Fin 3) ℝ)ᵀ = !![0, 0, 0; 0, 0, 0; 150, 0, 150] := by
    ext i j
    fin_cases i <;> fin_cases j <;> rfl
  unfold reducedScatter
  rw [h3, hc, twelve_s1, twelve_s2, ht]
  ext i j
  fin_cases i <;> fin_cases j <;> simp [Matrix.mul_apply, Fin.sum_univ_three] <;> norm_num

/-- Eigenvectors of the twelve points; for the rest of the matrices any value. -/
def eigTwelve : Matrix (Fin 3) (Fin 3) ℝ → Matrix (Fin 3) (Fin 3) ℝ := fun _ => !![1, 1, 0; 0, 0, 1; 1, -1, 0]

theorem twelve_eig : Eigenbasis (reducedScatter twelve) (eigTwelve (reducedScatter twelve)) := by
  rw [twelve_red]
  constructor
  · simp [eigTwelve, det_fin_three]
  · intro j
    refine ⟨![0, -723, -1152] j, ?_⟩
    ext i
    fin_cases j <;> fin_cases i <;> simp [eigTwelve, mulVec, dotProduct, Fin.sum_univ_three] <;> norm_num

example : ∃ P, ellipseEstimate eigTwelve twelve = some P ∧ P.xc = 0 ∧ P.yc = 0 ∧ P.a = 5 ∧ P.b = 5 := by
  obtain ⟨P, h, hx, hy, hab, -⟩ :=
    C90_exact_partial eigTwelve twelve 0 0 5 5 0 (by norm_num) (by norm_num) twelve_on twelve_card twelve_eig
  exact ⟨P, h, hx, hy, by rcases hab with h | h <;> exact h.1, by rcases hab with h | h <;> exact h.2⟩

example : ∃ err, contourWidth eigTwelve [(false, ⟨2, ![(7, 7), (8, 8)]⟩), (true, ⟨12, twelve⟩)] 0 0 = .ok [(some 5, err)] := by
  obtain ⟨err, h, h2⟩ := C90_width eigTwelve twelve 0 0 5 5 0 (by norm_num) (by norm_num) twelve_on twelve_card twelve_eig
    [(false, ⟨2, ![(7, 7), (8, 8)]⟩)] [] (by simp) 0 0
  rw [h2 rfl] at h
  exact ⟨err, h⟩

/-- Twelve points of `x² - xy + y² = 7`, an ellipse tilted by 45 degrees. -/
private def tilted : Fin 12 → ℝ × ℝ :=
  ![(3, 1), (-3, -1), (3, 2), (-3, -2), (1, 3), (-1, -3), (2, 3), (-2, -3), (1, -2), (-1, 2), (2, -1), (-2, 1)]

private theorem tilted_on (i : Fin 12) : OnEllipse 0 0 (Real.sqrt 14) (Real.sqrt (14 / 3)) (Real.pi / 4) (tilted i) := by
  unfold OnEllipse
  rw [Real.cos_pi_div_four, Real.sin_pi_div_four, div_pow, div_pow, Real.sq_sqrt (by norm_num), Real.sq_sqrt (by norm_num)]
  have h2 : Real.sqrt 2 ^ 2 = 2 := Real.sq_sqrt (by norm_num)
  have e : ∀ x : ℝ × ℝ, (Real.sqrt 2 / 2 * (x.1 - 0) + Real.sqrt 2 / 2 * (x.2 - 0)) ^ 2 / 14 +
      (-(Real.sqrt 2 / 2) * (x.1 - 0) + Real.sqrt 2 / 2 * (x.2 - 0)) ^ 2 / (14 / 3) = (x.1 ^ 2 - x.1 * x.2 + x.2 ^ 2) / 7 := by
    intro x
    linear_combination ((x.1 + x.2) ^ 2 / 56 + 3 * (x.2 - x.1) ^ 2 / 56) * h2
  rw [e]
  fin_cases i <;> simp [tilted] <;> norm_num

private theorem tilted_card : 5 ≤ (Finset.univ.image tilted).card := by
  have hinj : Set.InjOn tilted ((Finset.univ.filter fun i : Fin 12 => i.val < 5 : Finset (Fin 12)) : Set (Fin 12)) := by
    intro i hi j hj h
    simp only [Finset.coe_filter, Finset.mem_univ, true_and, Set.mem_setOf_eq] at hi hj
    fin_cases i <;> fin_cases j <;> first | rfl | (exfalso; revert hi hj; decide) | (exfalso; simp [tilted] at h; try norm_num at h)
  calc 5 = (Finset.univ.filter fun i : Fin 12 => i.val < 5).card := by decide
    _ = ((Finset.univ.filter fun i : Fin 12 => i.val < 5).image tilted).card := (Finset.card_image_of_injOn hinj).symm
    _ ≤ _ := Finset.card_le_card (Finset.image_subset_image (Finset.filter_subset _ _))

private theorem tilted_s1 : scatter1 tilted = !![392, 196, 196; 196, 196, 196; 196, 196, 392] := by
  ext i j
  fin_cases i <;> fin_cases j <;>
    simp [scatter1, designQuad, Matrix.mul_apply, Fin.sum_univ_succ, tilted] <;> norm_num

private theorem tilted_s2 : scatter2 tilted = !![0, 0, 56; 0, 0, 28; 0, 0, 56] := by
  ext i j
  fin_cases i <;> fin_cases j <;>
    simp [scatter2, designQuad, designLin, Matrix.mul_apply, Fin.sum_univ_succ, tilted] <;> norm_num

private theorem tilted_s3 : scatter3 tilted = !![56, 28, 0; 28, 56, 0; 0, 0, 12] := by
  ext i j
  fin_cases i <;> fin_cases j <;>
    simp [scatter3, designLin, Matrix.mul_apply, Fin.sum_univ_succ, tilted] <;> norm_num

private theorem tilted_red : reducedScatter tilted =
    !![-98 / 3, 98 / 3, 196 / 3; -196 / 3, -392 / 3, -196 / 3; 196 / 3, 98 / 3, -98 / 3] := by
  have h3 : (scatter3 tilted)⁻¹ = !![1 / 42, -1 / 84, 0; -1 / 84, 1 / 42, 0; 0, 0, 1 / 12] := by
    refine Matrix.inv_eq_right_inv ?_
    rw [tilted_s3]
    ext i j
    fin_cases i <;> fin_cases j <;> simp [Matrix.mul_apply, Fin.sum_univ_three] <;> norm_num
  have hc : constraintC⁻¹ = !![0, 0, 1 / 2; 0, -1, 0; 1 / 2, 0, 0] := by
    refine Matrix.inv_eq_right_inv ?_
    unfold constraintC
    ext i j
    fin_cases i <;> fin_cases j <;> simp [Matrix.mul_apply, Fin.sum_univ_three]
  have ht : (!![0, 0, 56; 0, 0, 28; 0, 0, 56] : Matrix (Fin 3) (Fin 3) ℝ)ᵀ = !![0, 0, 0; 0, 0, 0; 56, 28, 56] := by
    ext i j
    fin_cases i <;> fin_cases j <;> rfl
  unfold reducedScatter
  rw [h3, hc, tilted_s1, tilted_s2, ht]
  ext i j
  fin_cases i <;> fin_cases j <;> simp [Matrix.mul_apply, Fin.sum_univ_three] <;> norm_num

private def eigTilted : Matrix (Fin 3) (Fin 3) ℝ → Matrix (Fin 3) (Fin 3) ℝ := fun _ => !![1, 1, 1; -1, 0, -4; 1, -1, 1]

private theorem tilted_eig : Eigenbasis (reducedScatter tilted) (eigTilted (reducedScatter tilted)) := by
  rw [tilted_red]
  constructor
  · simp [eigTilted, det_fin_three]
    norm_num
  · intro j
    refine ⟨![0, -98, -98] j, ?_⟩
    ext i
    fin_cases j <;> fin_cases i <;> simp [eigTilted, mulVec, dotProduct, Fin.sum_univ_three] <;> norm_num

example : ∃ P, ellipseEstimate eigTilted tilted = some P ∧
    ¬ OnEllipse 0 0 (Real.sqrt 14) (Real.sqrt (14 / 3)) (Real.pi / 4) (predictXY P 0) :=
  C90_tilt_violated eigTilted tilted 0 0 _ _ _ (by positivity) (by positivity) tilted_on tilted_card tilted_eig
    (by
      intro h
      have : Real.sqrt 14 ^ 2 = Real.sqrt (14 / 3) ^ 2 := by rw [h]
      rw [Real.sq_sqrt (by norm_num), Real.sq_sqrt (by norm_num)] at this
      norm_num at this)
    (by rw [show 2 * (Real.pi / 4) = Real.pi / 2 by ring, Real.cos_pi_div_two])

/-- The neighbours of the origin: on no conic. -/
private def ring8 : Fin 8 → ℝ × ℝ := ![(1, 0), (-1, 0), (0, 1), (0, -1), (1, 1), (1, -1), (-1, 1), (-1, -1)]

private theorem ring8_no : NoConic ring8 := by
  intro k hk
  have h0 := hk 0
  have h1 := hk 1
  have h2 := hk 2
  have h3 := hk 3
  have h4 := hk 4
  have h5 := hk 5
  simp [conicAt, ring8] at h0 h1 h2 h3 h4 h5
  ext i
  fin_cases i
  · show k 0 = 0
    linarith
  · show k 1 = 0
    linarith
  · show k 2 = 0
    linarith
  · show k 3 = 0
    linarith
  · show k 4 = 0
    linarith
  · show k 5 = 0
    linarith

private theorem ring8_red : reducedScatter ring8 = !![-1 / 4, 0, 3 / 4; 0, -4, 0; 3 / 4, 0, -1 / 4] := by
  have s1 : scatter1 ring8 = !![6, 0, 4; 0, 4, 0; 4, 0, 6] := by
    ext i j
    fin_cases i <;> fin_cases j <;> simp [scatter1, designQuad, Matrix.mul_apply, Fin.sum_univ_succ, ring8] <;> norm_num
  have s2 : scatter2 ring8 = !![0, 0, 6; 0, 0, 0; 0, 0, 6] := by
    ext i j
    fin_cases i <;> fin_cases j <;> simp [scatter2, designQuad, designLin, Matrix.mul_apply, Fin.sum_univ_succ, ring8] <;> norm_num
  have s3 : scatter3 ring8 = !![6, 0, 0; 0, 6, 0; 0, 0, 8] := by
    ext i j
    fin_cases i <;> fin_cases j <;> simp [scatter3, designLin, Matrix.mul_apply, Fin.sum_univ_succ, ring8] <;> norm_num
  have h3 : (scatter3 ring8)⁻¹ = !![1 / 6, 0, 0; 0, 1 / 6, 0; 0, 0, 1 / 8] := by
    refine Matrix.inv_eq_right_inv ?_
    rw [s3]
    ext i j
    fin_cases i <;> fin_cases j <;> simp [Matrix.mul_apply, Fin.sum_univ_three]
  have hc : constraintC⁻¹ = !![0, 0, 1 / 2; 0, -1, 0; 1 / 2, 0, 0] := by
    refine Matrix.inv_eq_right_inv ?_
    unfold constraintC
    ext i j
    fin_cases i <;> fin_cases j <;> simp [Matrix.mul_apply, Fin.sum_univ_three]
  have ht : (!![0, 0, 6; 0, 0, 0; 0, 0, 6] : Matrix (Fin 3) (Fin 3) ℝ)ᵀ = !![0, 0, 0; 0, 0, 0; 6, 0, 6] := by
    ext i j
    fin_cases i <;> fin_cases j <;> rfl
  unfold reducedScatter
  rw [h3, hc, s1, s2, ht]
  ext i j
  fin_cases i <;> fin_cases j <;> simp [Matrix.mul_apply, Fin.sum_univ_three] <;> norm_num

private theorem ring8_eig : Eigenbasis (reducedScatter ring8) (eigTwelve (reducedScatter ring8)) := by
  rw [ring8_red]
  constructor
  · simp [eigTwelve, det_fin_three]
  · intro j
    refine ⟨![1 / 2, -1, -4] j, ?_⟩
    ext i
    fin_cases j <;> fin_cases i <;> simp [eigTwelve, mulVec, dotProduct, Fin.sum_univ_three] <;> norm_num

example : ∃ P, ellipseEstimate eigTwelve ring8 = some P :=
  C90_succeeds eigTwelve ring8 ring8_no ring8_eig

example : ∃ P x0 y0 p q th, ∃ k : Fin 6 → ℝ, ellipseEstimate eigTwelve ring8 = some P ∧ P.xc = x0 ∧ P.yc = y0 ∧ 0 < p ∧ 0 < q ∧
    (∀ x, OnEllipse x0 y0 p q th x ↔ conicAt k x = 0) := by
  obtain ⟨P, hP⟩ := C90_succeeds eigTwelve ring8 ring8_no ring8_eig
  obtain ⟨x0, y0, p, q, th, k, hp, hq, h1, h2, -, -, h3, -⟩ := C90_least eigTwelve ring8 P ring8_eig.2 hP
  exact ⟨P, x0, y0, p, q, th, k, hP, h1, h2, hp, hq, h3⟩

end TS
