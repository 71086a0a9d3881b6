import Verif.Model.PcaFit
import Mathlib.LinearAlgebra.Matrix.NonsingularInverse
import Mathlib.LinearAlgebra.Matrix.Notation
import Mathlib.Analysis.SpecialFunctions.Trigonometric.Arctan
import Mathlib.Analysis.Real.Sqrt

/-! Model of `EllipseModel` in turbustat/statistics/stats_utils.py (lines 164-406) and of `fit_2D_ellipse` in
turbustat/statistics/pca/width_estimate.py. -/

namespace TS
open Matrix

/-- Parameters in the order of `EllipseModel.params`. -/
structure EllipseParams where
  xc : ℝ
  yc : ℝ
  a : ℝ
  b : ℝ
  theta : ℝ

/-- stats_utils.py:249-253 quadratic part of the design matrix. -/
def designQuad {n : ℕ} (pts : Fin n → ℝ × ℝ) : Matrix (Fin n) (Fin 3) ℝ :=
  Matrix.of fun i => ![(pts i).1 ^ 2, (pts i).1 * (pts i).2, (pts i).2 ^ 2]

/-- stats_utils.py:254-255 linear part of the design matrix. -/
def designLin {n : ℕ} (pts : Fin n → ℝ × ℝ) : Matrix (Fin n) (Fin 3) ℝ :=
  Matrix.of fun i => ![(pts i).1, (pts i).2, 1]

/-- stats_utils.py:262-263 the constraint matrix. -/
def constraintC : Matrix (Fin 3) (Fin 3) ℝ := !![0, 0, 2; 0, -1, 0; 2, 0, 0]

/-- stats_utils.py:258 scatter matrix. -/
def scatter1 {n : ℕ} (pts : Fin n → ℝ × ℝ) : Matrix (Fin 3) (Fin 3) ℝ := (designQuad pts)ᵀ * designQuad pts
/-- stats_utils.py:259 scatter matrix. -/
def scatter2 {n : ℕ} (pts : Fin n → ℝ × ℝ) : Matrix (Fin 3) (Fin 3) ℝ := (designQuad pts)ᵀ * designLin pts
/-- stats_utils.py:260 scatter matrix. -/
def scatter3 {n : ℕ} (pts : Fin n → ℝ × ℝ) : Matrix (Fin 3) (Fin 3) ℝ := (designLin pts)ᵀ * designLin pts

/-- stats_utils.py:265-268 the reduced scatter matrix. -/
noncomputable def reducedScatter {n : ℕ} (pts : Fin n → ℝ × ℝ) : Matrix (Fin 3) (Fin 3) ℝ :=
  constraintC⁻¹ * (scatter1 pts - scatter2 pts * (scatter3 pts)⁻¹ * (scatter2 pts)ᵀ)

/-- stats_utils.py:276-278 `4ac - b²` of a column. -/
def ellipticity (v : Fin 3 → ℝ) : ℝ := 4 * (v 0 * v 2) - v 1 ^ 2

/-- `np.sqrt` followed by `np.nan_to_num`. -/
noncomputable def sqrtNum (x : ℝ) : ℝ := if x < 0 then 0 else Real.sqrt x

/-- stats_utils.py:308-314 the angle, after `np.nan_to_num`.  For `a = c` numpy divides by zero: `0 / 0` is NaN and becomes 0,
`2b / 0` is an infinity of the sign of `b`. -/
noncomputable def conicAngle (a b c : ℝ) : ℝ :=
  if a = c then
    if b = 0 then 0 else 0.5 * (if 0 < b then Real.pi / 2 else -(Real.pi / 2))
  else
    let phi := 0.5 * Real.arctan (2 * b / (a - c))
    if c < a then phi + 0.5 * Real.pi else phi

/-- stats_utils.py:289-314 from the coefficients of `a x² + b x y + c y² + d x + f y + g` to the parameters. -/
noncomputable def conicParams (a b c d f g : ℝ) : EllipseParams :=
  let b := b / 2
  let d := d / 2
  let f := f / 2
  let x0 := (c * d - b * f) / (b ^ 2 - a * c)
  let y0 := (a * f - b * d) / (b ^ 2 - a * c)
  let num := a * f ^ 2 + c * d ^ 2 + g * b ^ 2 - 2 * b * d * f - a * c * g
  let term := Real.sqrt ((a - c) ^ 2 + 4 * b ^ 2)
  let den1 := (b ^ 2 - a * c) * (term - (a + c))
  let den2 := (b ^ 2 - a * c) * (-term - (a + c))
  ⟨x0, y0, sqrtNum (2 * num / den1), sqrtNum (2 * num / den2), conicAngle a b c⟩

/-- stats_utils.py:285-287 `a2` for the selected column. -/
noncomputable def linearPart {n : ℕ} (pts : Fin n → ℝ × ℝ) (v : Fin 3 → ℝ) : Fin 3 → ℝ :=
  (-(scatter3 pts)⁻¹ * (scatter2 pts)ᵀ) *ᵥ v

/-- stats_utils.py:249-316 `estimate`; `none` when it returns False.  `eig` stands for the eigenvectors of `np.linalg.eig` (as
columns); a singular `S3` raises LinAlgError, which is caught (`C1` is never singular). -/
noncomputable def ellipseEstimate (eig : Matrix (Fin 3) (Fin 3) ℝ → Matrix (Fin 3) (Fin 3) ℝ) {n : ℕ} (pts : Fin n → ℝ × ℝ) :
    Option EllipseParams :=
  if (scatter3 pts).det = 0 then none
  else
    let vecs := eig (reducedScatter pts)
    match (List.finRange 3).filter (fun j => decide (0 < ellipticity (fun i => vecs i j))) with
    | [j] =>
      let v := fun i => vecs i j
      let w := linearPart pts v
      some (conicParams (v 0) (v 1) (v 2) (w 0) (w 1) (w 2))
    | _ => none

/-- stats_utils.py:378-406 `predict_xy` at one angle. -/
noncomputable def predictXY (p : EllipseParams) (t : ℝ) : ℝ × ℝ :=
  (p.xc + p.a * Real.cos p.theta * Real.cos t - p.b * Real.sin p.theta * Real.sin t,
    p.yc + p.a * Real.sin p.theta * Real.cos t + p.b * Real.cos p.theta * Real.sin t)

/-- width_estimate.py:380-398 `fit_2D_ellipse` without the bootstrap errors: (ywidth, xwidth).  Without parameters
`estimate_stderrs` raises ValueError and the widths are NaN. -/
noncomputable def fit2DEllipse (eig : Matrix (Fin 3) (Fin 3) ℝ → Matrix (Fin 3) (Fin 3) ℝ) {n : ℕ} (pts : Fin n → ℝ × ℝ) :
    Option (ℝ × ℝ) :=
  (ellipseEstimate eig pts).map fun p => (p.b / Real.sqrt 2, p.a / Real.sqrt 2)

/-- width_estimate.py:161-189, 265-270 the `contour` method for one image without beam correction: scale and error.  `paths` are the
contours at the 1/e level in the order of matplotlib, each with whether it contains the origin; `ey`, `ex` are the errors of the
bootstrap. -/
noncomputable def contourWidth (eig : Matrix (Fin 3) (Fin 3) ℝ → Matrix (Fin 3) (Fin 3) ℝ) (paths : List (Bool × Σ n : ℕ, Fin n → ℝ × ℝ))
    (ey ex : ℝ) : Py (List (Option ℝ × Option ℝ)) :=
  finishWidths false none none
    [(paths.find? (fun p => p.1)).bind fun p => (fit2DEllipse eig p.2.2).map fun w => ⟨w.1, w.2, ey, ex⟩]

end TS
