import Verif.Model.Wcs
import Mathlib.Tactic.Linarith
import Mathlib.Tactic.Ring
import Mathlib.Tactic.FieldSimp
import Mathlib.Tactic.NormNum
import Mathlib.Tactic.Positivity
import Mathlib.Tactic.LinearCombination

/-!
C102.  The size of a pixel on the sky and the width of a channel are those of the header; grids whose sky pixels are not square
are refused.
-/

namespace TS

namespace Spec

/-- A step of one pixel along pixel axis `k` moves by this vector (degrees) on the sky, whose longitude and latitude are the world
axes `i` and `j`.  Its length: -/
noncomputable def skyStep (cd : ℕ → ℕ → ℝ) (i j k : ℕ) : ℝ := Real.sqrt (cd i k ^ 2 + cd j k ^ 2)

/-- Area of a pixel on the sky. -/
def skyArea (cd : ℕ → ℕ → ℝ) (i j : ℕ) : ℝ := |cd i i * cd j j - cd i j * cd j i|

/-- The sky axes are world axes `i` (longitude) and `j` (latitude). -/
def SkyAxes (axes : List AxKind) (i j : ℕ) : Prop :=
  axes[i]? = some .lon ∧ axes[j]? = some .lat ∧ (∀ k : ℕ, axes[k]? = some .lon → k = i) ∧ ∀ k : ℕ, axes[k]? = some .lat → k = j

/-- No other axis is coupled to the sky axes. -/
def Uncoupled (cd : ℕ → ℕ → ℝ) (n i j : ℕ) : Prop :=
  ∀ k < n, k ≠ i → k ≠ j → cd i k = 0 ∧ cd j k = 0 ∧ cd k i = 0 ∧ cd k j = 0

/-- The pixels are squares of side `s` on the sky: steps along the two axes have length `s` and are perpendicular. -/
def SquareSky (cd : ℕ → ℕ → ℝ) (i j : ℕ) (s : ℝ) : Prop :=
  0 < s ∧ skyStep cd i j i = s ∧ skyStep cd i j j = s ∧ cd i i * cd i j + cd j i * cd j j = 0

/-- The pixels are rectangles with sides `s` (first) and `t` (second). -/
def RectSky (cd : ℕ → ℕ → ℝ) (i j : ℕ) (s t : ℝ) : Prop :=
  0 < s ∧ 0 < t ∧ skyStep cd i j i = s ∧ skyStep cd i j j = t ∧ cd i i * cd i j + cd j i * cd j j = 0

end Spec

/-! ### Which grids are accepted -/

private theorem idx_unique {axes : List AxKind} {a : AxKind} {i : ℕ} (h : axes[i]? = some a)
    (hu : ∀ k : ℕ, axes[k]? = some a → k = i) : axes.idxOf a = i ∧ i < axes.length := by
  have hi : i < axes.length := by
    by_contra hc
    rw [List.getElem?_eq_none (by omega)] at h; exact absurd h (by simp)
  have hm : a ∈ axes := List.mem_of_getElem? h
  have hl : axes.idxOf a < axes.length := List.idxOf_lt_length_of_mem hm
  refine ⟨hu _ ?_, hi⟩
  rw [List.getElem?_eq_getElem hl, List.getElem_idxOf]

private theorem celestial_eq {w : Wcs} {i j : ℕ} (hs : Spec.SkyAxes w.axes i j) :
    (Spec.Uncoupled w.cd w.axes.length i j → celestial w = .ok (i, j)) ∧
    (¬ Spec.Uncoupled w.cd w.axes.length i j → celestial w = .error .wcsError) := by
  obtain ⟨h1, h2, h3, h4⟩ := hs
  obtain ⟨e1, l1⟩ := idx_unique h1 h3
  obtain ⟨e2, l2⟩ := idx_unique h2 h4
  constructor <;> intro hu
  · simp only [celestial, e1, e2, l1, l2, and_self, if_true]
    exact if_pos hu
  · simp only [celestial, e1, e2, l1, l2, and_self, if_true]
    exact if_neg hu

private theorem wcsOf_eq {w : Wcs} {i j : ℕ} (hs : Spec.SkyAxes w.axes i j) (hu : Spec.Uncoupled w.cd w.axes.length i j) :
    wcsOf (some w) = (cdOrthogonal (w.cd i i) (w.cd i j) (w.cd j i) (w.cd j j) (1 / 100000)).bind fun o =>
      if !o || w.table then .error .valueError else .ok w := by
  simp only [wcsOf, projDistorted, (celestial_eq hs).1 hu]
  cases hc : cdOrthogonal (w.cd i i) (w.cd i j) (w.cd j i) (w.cd j j) (1 / 100000) <;>
    simp only [bind, Except.bind, hc, pure, Except.pure]

/-- The core: rows nearly orthonormal (relative to the area) means columns nearly of unit length. -/
private theorem columns_near {a b c d A t : ℝ} (hA : A = |a * d - b * c|) (h0 : 0 < A) (ht : 0 < t)
    (h1 : |(a * a + b * b) / A - 1| < t) (h2 : |(a * c + b * d) / A| < t) (h3 : |(c * c + d * d) / A - 1| < t) :
    |(a ^ 2 + c ^ 2) / A - 1| ≤ 3 * t ∧ |(b ^ 2 + d ^ 2) / A - 1| ≤ 3 * t := by
  have hne := h0.ne'
  set G1 := (a * a + b * b) / A with hG1
  set G2 := (a * c + b * d) / A with hG2
  set G3 := (c * c + d * d) / A with hG3
  set C1 := (a ^ 2 + c ^ 2) / A with hC1
  set C3 := (b ^ 2 + d ^ 2) / A with hC3
  set C2 := (a * b + c * d) / A with hC2
  have hAA : A ^ 2 = (a * d - b * c) ^ 2 := by rw [hA, sq_abs]
  have hdG : G1 * G3 - G2 ^ 2 = 1 := by
    rw [hG1, hG2, hG3]; field_simp; rw [hAA]; ring
  have hdC : C1 * C3 - C2 ^ 2 = 1 := by
    rw [hC1, hC2, hC3]; field_simp; rw [hAA]; ring
  have htr : C1 + C3 = G1 + G3 := by rw [hC1, hC3, hG1, hG3]; field_simp; ring
  rw [abs_lt] at h1 h2 h3
  have hd2 : (C1 - C3) ^ 2 ≤ 8 * t ^ 2 := by
    have e : (C1 - C3) ^ 2 = (G1 - G3) ^ 2 + 4 * G2 ^ 2 - 4 * C2 ^ 2 := by
      have : (C1 - C3) ^ 2 = (C1 + C3) ^ 2 - 4 * (C1 * C3) := by ring
      rw [this, htr]
      have e1 : C1 * C3 = 1 + C2 ^ 2 := by linarith
      have e2 : (G1 + G3) ^ 2 = (G1 - G3) ^ 2 + 4 * (G1 * G3) := by ring
      have e3 : G1 * G3 = 1 + G2 ^ 2 := by linarith
      rw [e1, e2, e3]; ring
    have k1 : (G1 - G3) ^ 2 ≤ (2 * t) ^ 2 := by
      apply sq_le_sq'
      · linarith
      · linarith
    have k2 : G2 ^ 2 ≤ t ^ 2 := by
      apply sq_le_sq'
      · linarith
      · linarith
    nlinarith [sq_nonneg C2]
  have hd : |C1 - C3| ≤ 3 * t := by
    apply abs_le_of_sq_le_sq _ (by positivity)
    nlinarith [sq_nonneg t]
  have hsum2 : 2 ≤ C1 + C3 := by
    rw [htr]
    have hg : 0 ≤ G1 + G3 := by
      rw [hG1, hG3]
      have := h0.le
      have p1 : 0 ≤ (a * a + b * b) / A := div_nonneg (by nlinarith [sq_nonneg a, sq_nonneg b]) this
      have p2 : 0 ≤ (c * c + d * d) / A := div_nonneg (by nlinarith [sq_nonneg c, sq_nonneg d]) this
      linarith
    nlinarith [sq_nonneg (G1 - G3), sq_nonneg G2]
  have hsum : C1 + C3 < 2 + 2 * t := by rw [htr]; linarith
  rw [abs_le] at hd
  constructor <;> rw [abs_le] <;> constructor <;> linarith

/-- A header is only used when the sky axes are not coupled to others, there is no distortion table, and the two sides of a pixel
are equal up to a relative error of 3e-5 (in their squares, relative to the area); in particular the pixels have an area. -/
theorem C102_square {w : Wcs} {i j : ℕ} (hs : Spec.SkyAxes w.axes i j) (w' : Wcs) (h : wcsOf (some w) = .ok w') :
    w' = w ∧ Spec.Uncoupled w.cd w.axes.length i j ∧ w.table = false ∧ 0 < Spec.skyArea w.cd i j ∧
    |Spec.skyStep w.cd i j i ^ 2 / Spec.skyArea w.cd i j - 1| ≤ 3 / 100000 ∧
    |Spec.skyStep w.cd i j j ^ 2 / Spec.skyArea w.cd i j - 1| ≤ 3 / 100000 := by
  by_cases hu : Spec.Uncoupled w.cd w.axes.length i j
  swap
  · simp [wcsOf, projDistorted, (celestial_eq hs).2 hu, bind, Except.bind] at h
  rw [wcsOf_eq hs hu] at h
  unfold cdOrthogonal at h
  by_cases hA : |w.cd i i * w.cd j j - w.cd i j * w.cd j i| = 0
  · simp [hA, Except.bind] at h
  have hpos : 0 < |w.cd i i * w.cd j j - w.cd i j * w.cd j i| := lt_of_le_of_ne (abs_nonneg _) (Ne.symm hA)
  simp only [hA, if_false, Except.bind] at h
  split at h
  · exact absurd h (by simp)
  · rename_i hc
    simp only [Bool.or_eq_true, Bool.not_eq_true', decide_eq_false_iff_not, not_or, not_not, Bool.not_eq_true] at hc
    obtain ⟨hm, htab⟩ := hc
    rw [max_lt_iff, max_lt_iff] at hm
    obtain ⟨⟨m1, m2⟩, m3⟩ := hm
    have hk := columns_near rfl hpos (by norm_num) m1 m2 m3
    refine ⟨(Except.ok.inj h).symm, hu, htab, hpos, ?_, ?_⟩
    · unfold Spec.skyStep Spec.skyArea
      rw [Real.sq_sqrt (by positivity)]
      refine hk.1.trans (by norm_num)
    · unfold Spec.skyStep Spec.skyArea
      rw [Real.sq_sqrt (by positivity)]
      refine hk.2.trans (by norm_num)

/-- Square pixels of any size and orientation (also mirrored) are accepted. -/
theorem C102_accepts {w : Wcs} {i j : ℕ} (hs : Spec.SkyAxes w.axes i j) (hu : Spec.Uncoupled w.cd w.axes.length i j)
    (ht : w.table = false) (s : ℝ) (hq : Spec.SquareSky w.cd i j s) : wcsOf (some w) = .ok w := by
  obtain ⟨h0, ha, hb, hp⟩ := hq
  unfold Spec.skyStep at ha hb
  have ha2 : w.cd i i ^ 2 + w.cd j i ^ 2 = s ^ 2 := by rw [← ha, Real.sq_sqrt (by positivity)]
  have hb2 : w.cd i j ^ 2 + w.cd j j ^ 2 = s ^ 2 := by rw [← hb, Real.sq_sqrt (by positivity)]
  rw [wcsOf_eq hs hu]
  generalize w.cd i i = a at *
  generalize w.cd i j = b at *
  generalize w.cd j i = c at *
  generalize w.cd j j = d at *
  have hdet : (a * d - b * c) ^ 2 = (s ^ 2) ^ 2 := by
    have : (a * d - b * c) ^ 2 = (a ^ 2 + c ^ 2) * (b ^ 2 + d ^ 2) - (a * b + c * d) ^ 2 := by ring
    rw [this, ha2, hb2, hp]; ring
  have hA : |a * d - b * c| = s ^ 2 := by
    rw [← Real.sqrt_sq_eq_abs, hdet, Real.sqrt_sq (by positivity)]
  have hs2 : s ^ 2 ≠ 0 := by positivity
  -- rows are orthogonal and of length s as well
  have hdd : a * d - b * c = s ^ 2 ∨ a * d - b * c = -(s ^ 2) := sq_eq_sq_iff_eq_or_eq_neg.1 hdet
  have hrow : d = a ∧ c = -b ∨ d = -a ∧ c = b := by
    rcases hdd with h | h
    · left
      have : (a - d) ^ 2 + (b + c) ^ 2 = 0 := by nlinarith
      constructor <;> nlinarith [sq_nonneg (a - d), sq_nonneg (b + c)]
    · right
      have : (a + d) ^ 2 + (b - c) ^ 2 = 0 := by nlinarith
      constructor <;> nlinarith [sq_nonneg (a + d), sq_nonneg (b - c)]
  have hr1 : a * a + b * b = s ^ 2 := by rcases hrow with ⟨h1, h2⟩ | ⟨h1, h2⟩ <;> rw [h2] at ha2 <;> nlinarith
  have hr2 : a * c + b * d = 0 := by rcases hrow with ⟨h1, h2⟩ | ⟨h1, h2⟩ <;> rw [h1, h2] <;> ring
  have hr3 : c * c + d * d = s ^ 2 := by nlinarith
  unfold cdOrthogonal
  simp only [hA, hs2, if_false, hr1, hr2, hr3, Except.bind, div_self, sub_self, abs_zero, zero_div, max_self, ht, ne_eq,
    not_false_eq_true, Bool.or_false]
  rw [if_neg (by simp)]

/-- Rectangles, in any orientation, are refused when one side exceeds the other by 2e-5 or more. -/
theorem C102_refuses {w : Wcs} {i j : ℕ} (hs : Spec.SkyAxes w.axes i j) (s t : ℝ) (hq : Spec.RectSky w.cd i j s t)
    (hd : t * (1 + 2 / 100000) ≤ s ∨ s * (1 + 2 / 100000) ≤ t) : ∃ e, wcsOf (some w) = .error e := by
  by_cases hu : Spec.Uncoupled w.cd w.axes.length i j
  swap
  · exact ⟨.wcsError, by simp [wcsOf, projDistorted, (celestial_eq hs).2 hu, bind, Except.bind]⟩
  obtain ⟨h0, h0', ha, hb, hp⟩ := hq
  unfold Spec.skyStep at ha hb
  have ha2 : w.cd i i ^ 2 + w.cd j i ^ 2 = s ^ 2 := by rw [← ha, Real.sq_sqrt (by positivity)]
  have hb2 : w.cd i j ^ 2 + w.cd j j ^ 2 = t ^ 2 := by rw [← hb, Real.sq_sqrt (by positivity)]
  rw [wcsOf_eq hs hu]
  generalize w.cd i i = a at *
  generalize w.cd i j = b at *
  generalize w.cd j i = c at *
  generalize w.cd j j = d at *
  have hdet : (a * d - b * c) ^ 2 = (s * t) ^ 2 := by
    have : (a * d - b * c) ^ 2 = (a ^ 2 + c ^ 2) * (b ^ 2 + d ^ 2) - (a * b + c * d) ^ 2 := by ring
    rw [this, ha2, hb2, hp]; ring
  have hst : 0 < s * t := mul_pos h0 h0'
  have hA : |a * d - b * c| = s * t := by
    rw [← Real.sqrt_sq_eq_abs, hdet, Real.sqrt_sq hst.le]
  refine ⟨.valueError, ?_⟩
  unfold cdOrthogonal
  simp only [hA, hst.ne', if_false, Except.bind]
  rw [if_pos]
  simp only [Bool.or_eq_true, Bool.not_eq_true', decide_eq_false_iff_not]
  left
  intro hm
  rw [max_lt_iff, max_lt_iff, abs_lt, abs_lt, abs_lt] at hm
  obtain ⟨⟨⟨l1, u1⟩, l2, u2⟩, l3, u3⟩ := hm
  -- the quadratic form of the rows' Gram matrix at a column, divided by the column's length
  have key : ∀ x y r q : ℝ, 0 < r → 0 < q → x ^ 2 + y ^ 2 = r ^ 2 → q * (1 + 2 / 100000) ≤ r →
      (a * a + b * b) * x ^ 2 + 2 * (a * c + b * d) * (x * y) + (c * c + d * d) * y ^ 2 = r ^ 2 * r ^ 2 → s * t = r * q → False := by
    intro x y r q hr hq' hxy hle hform hrq
    have hrq0 : 0 < r * q := mul_pos hr hq'
    rw [hrq] at l1 u1 l2 u2 l3 u3
    rw [sub_lt_iff_lt_add, div_lt_iff₀ hrq0] at u1 u3
    rw [div_lt_iff₀ hrq0] at u2
    rw [lt_div_iff₀ hrq0] at l2
    have hxy1 : 2 * (a * c + b * d) * (x * y) ≤ (1 / 100000) * (r * q) * (x ^ 2 + y ^ 2) := by
      have e1 : 0 ≤ (x + y) ^ 2 := sq_nonneg _
      have e2 : 0 ≤ (x - y) ^ 2 := sq_nonneg _
      have k1 : 0 ≤ (1 / 100000 * (r * q) - (a * c + b * d)) * (x + y) ^ 2 := mul_nonneg (by linarith) e1
      have k2 : 0 ≤ (1 / 100000 * (r * q) + (a * c + b * d)) * (x - y) ^ 2 := mul_nonneg (by linarith) e2
      nlinarith
    have hx2 : (a * a + b * b) * x ^ 2 ≤ (1 / 100000 + 1) * (r * q) * x ^ 2 := mul_le_mul_of_nonneg_right u1.le (sq_nonneg x)
    have hy2 : (c * c + d * d) * y ^ 2 ≤ (1 / 100000 + 1) * (r * q) * y ^ 2 := mul_le_mul_of_nonneg_right u3.le (sq_nonneg y)
    -- strictness: one of the two squares is positive
    have hstrict : r ^ 2 * r ^ 2 < (1 + 2 / 100000) * (r * q) * r ^ 2 := by
      rw [← hform]
      have hpos : 0 < x ^ 2 ∨ 0 < y ^ 2 := by
        by_contra hcon
        rw [not_or, not_lt, not_lt] at hcon
        have : 0 < r ^ 2 := by positivity
        nlinarith [sq_nonneg x, sq_nonneg y]
      have hlt : (a * a + b * b) * x ^ 2 + (c * c + d * d) * y ^ 2 <
          (1 / 100000 + 1) * (r * q) * x ^ 2 + (1 / 100000 + 1) * (r * q) * y ^ 2 := by
        rcases hpos with hx | hy
        · have := mul_lt_mul_of_pos_right u1 hx
          linarith
        · have := mul_lt_mul_of_pos_right u3 hy
          linarith
      calc _ < (1 / 100000 + 1) * (r * q) * x ^ 2 + (1 / 100000) * (r * q) * (x ^ 2 + y ^ 2) +
            (1 / 100000 + 1) * (r * q) * y ^ 2 := by linarith
        _ = (1 + 2 / 100000) * (r * q) * (x ^ 2 + y ^ 2) := by ring
        _ = _ := by rw [hxy]
    have hr2 : 0 < r ^ 2 := by positivity
    have h1 : r ^ 2 < (1 + 2 / 100000) * (r * q) := lt_of_mul_lt_mul_right hstrict hr2.le
    have h2 : r * (q * (1 + 2 / 100000)) ≤ r * r := mul_le_mul_of_nonneg_left hle hr.le
    have h3 : r * (q * (1 + 2 / 100000)) = (1 + 2 / 100000) * (r * q) := by ring
    have h4 : r * r = r ^ 2 := by ring
    linarith
  rcases hd with h | h
  · refine key a c s t h0 h0' ha2 h ?_ rfl
    have : (a * a + b * b) * a ^ 2 + 2 * (a * c + b * d) * (a * c) + (c * c + d * d) * c ^ 2 =
        (a ^ 2 + c ^ 2) ^ 2 + (a * b + c * d) ^ 2 := by ring
    rw [this, ha2, hp]; ring
  · refine key b d t s h0' h0 hb2 h ?_ (mul_comm _ _)
    have : (a * a + b * b) * b ^ 2 + 2 * (a * c + b * d) * (b * d) + (c * c + d * d) * d ^ 2 =
        (b ^ 2 + d ^ 2) ^ 2 + (a * b + c * d) ^ 2 := by ring
    rw [this, hb2, hp]; ring

/-! ### The size of a pixel -/

private theorem sum_range_two {f : ℕ → ℝ} (n : ℕ) (hz : ∀ k : ℕ, 2 ≤ k → k < n → f k = 0) (h2 : 2 ≤ n) :
    ((List.range n).map f).sum = f 0 + f 1 := by
  obtain ⟨m, rfl⟩ := Nat.exists_eq_add_of_le h2
  clear h2
  induction m with
  | zero => simp [List.range_succ]
  | succ m ih =>
    rw [← Nat.add_assoc, List.range_succ, List.map_append, List.sum_append, ih (fun k h1 h2 => hz k h1 (by omega))]
    simp [hz (2 + m) (by omega) (by omega)]

/-- With the sky on the first two axes, the size of a pixel is the length on the sky of a step along the first axis, in degrees;
the second side differs by at most one part in 10^4 (in the square). Missing: headers whose first or second axis is not on the sky
(`C102_spectral_first_violated`, `C102_spectral_second_violated`). -/
theorem C102_size_partial {w : Wcs} {i j : ℕ} (hs : Spec.SkyAxes w.axes i j) (hij : i = 0 ∧ j = 1 ∨ i = 1 ∧ j = 0) (w' : Wcs)
    (h : wcsOf (some w) = .ok w') :
    ∃ k : AxKind, angSizeW (some w) = .ok (Spec.skyStep w.cd i j 0, k) ∧ k.sky = true ∧ 0 < Spec.skyStep w.cd i j 0 ∧
      |Spec.skyStep w.cd i j 1 ^ 2 - Spec.skyStep w.cd i j 0 ^ 2| ≤ 1 / 10000 * Spec.skyStep w.cd i j 0 ^ 2 := by
  obtain ⟨he, hu, _, hA, c1, c2⟩ := C102_square hs w' h
  have hlen : 2 ≤ w.axes.length := by
    have l1 := (idx_unique hs.1 hs.2.2.1).2
    have l2 := (idx_unique hs.2.1 hs.2.2.2).2
    omega
  have hb : |Spec.skyStep w.cd i j 0 ^ 2 / Spec.skyArea w.cd i j - 1| ≤ 3 / 100000 ∧
      |Spec.skyStep w.cd i j 1 ^ 2 / Spec.skyArea w.cd i j - 1| ≤ 3 / 100000 := by
    rcases hij with ⟨rfl, rfl⟩ | ⟨rfl, rfl⟩
    · exact ⟨c1, c2⟩
    · exact ⟨c2, c1⟩
  obtain ⟨b0, b1⟩ := hb
  rw [abs_le, neg_le_sub_iff_le_add, sub_le_iff_le_add] at b0 b1
  obtain ⟨b0l, b0u⟩ := b0
  obtain ⟨b1l, b1u⟩ := b1
  rw [div_le_iff₀ hA] at b0u b1u
  have b0l' : (1 - 3 / 100000) * Spec.skyArea w.cd i j ≤ Spec.skyStep w.cd i j 0 ^ 2 := by
    rw [← le_div_iff₀ hA]; linarith
  have b1l' : (1 - 3 / 100000) * Spec.skyArea w.cd i j ≤ Spec.skyStep w.cd i j 1 ^ 2 := by
    rw [← le_div_iff₀ hA]; linarith
  have hpos2 : 0 < Spec.skyStep w.cd i j 0 ^ 2 := lt_of_lt_of_le (by nlinarith) b0l'
  have hnn : 0 ≤ Spec.skyStep w.cd i j 0 := Real.sqrt_nonneg _
  have hpos : 0 < Spec.skyStep w.cd i j 0 := by
    rcases lt_or_eq_of_le hnn with h' | h'
    · exact h'
    · rw [← h'] at hpos2; norm_num at hpos2
  have hscale : pixelScale w 0 = Spec.skyStep w.cd i j 0 := by
    unfold pixelScale Spec.skyStep
    rw [sum_range_two (f := fun i : ℕ => w.cd i 0 ^ 2) _ _ hlen]
    · rcases hij with ⟨rfl, rfl⟩ | ⟨rfl, rfl⟩
      · rfl
      · rw [add_comm]
    · intro k hk hkn
      rcases hij with ⟨rfl, rfl⟩ | ⟨rfl, rfl⟩
      · have := hu k hkn (by omega) (by omega)
        simp [this.2.2.1]
      · have := hu k hkn (by omega) (by omega)
        simp [this.2.2.2]
  have hk1 : ∃ k : AxKind, w.axes[1]? = some k ∧ k.sky = true := by
    rcases hij with ⟨rfl, rfl⟩ | ⟨rfl, rfl⟩
    · exact ⟨_, hs.2.1, rfl⟩
    · exact ⟨_, hs.1, rfl⟩
  obtain ⟨k, hk, hsky⟩ := hk1
  refine ⟨k, ?_, hsky, hpos, ?_⟩
  · rw [he] at h
    simp only [angSizeW, h, bind, Except.bind, hk, pure, Except.pure, hscale, abs_of_pos hpos]
  · rw [abs_le]
    constructor <;> nlinarith

/-- Square pixels: the size is the side of the square, however the grid is rotated or mirrored. -/
theorem C102_rotation {w : Wcs} {i j : ℕ} (hs : Spec.SkyAxes w.axes i j) (hij : i = 0 ∧ j = 1 ∨ i = 1 ∧ j = 0)
    (hu : Spec.Uncoupled w.cd w.axes.length i j) (ht : w.table = false) (s : ℝ) (hq : Spec.SquareSky w.cd i j s) :
    ∃ k : AxKind, angSizeW (some w) = .ok (s, k) ∧ k.sky = true := by
  have ha := C102_accepts hs hu ht s hq
  obtain ⟨k, h1, h2, _, _⟩ := C102_size_partial hs hij w ha
  refine ⟨k, ?_, h2⟩
  rw [h1]
  rcases hij with ⟨rfl, rfl⟩ | ⟨rfl, rfl⟩
  · rw [hq.2.1]
  · rw [hq.2.2.1]

/-! ### Conversions -/

/-- With the sky on the first two axes: an angle is the number of pixels whose steps add up to it, and a length is the number of
pixels whose steps, seen from the distance, add up to it (small angles); and back. Missing: the same headers, and pixels that are not
square, where they are not checked (`C102_pixels_unchecked_violated`). -/
theorem C102_conversions_partial {w : Wcs} {i j : ℕ} (hs : Spec.SkyAxes w.axes i j) (hij : i = 0 ∧ j = 1 ∨ i = 1 ∧ j = 0)
    (w' : Wcs) (h : wcsOf (some w) = .ok w') (v : ℝ) :
    (∀ (deg : ℝ) (dist : Option (ℝ × ℝ)), 0 < deg →
      (∃ p, toPixelW (some w) dist ⟨v, .angle deg⟩ = .ok p ∧ p * Spec.skyStep w.cd i j 0 = v * deg) ∧
      (∃ x, fromPixelW (some w) dist v (.angle deg) = .ok ⟨x, .angle deg⟩ ∧ v * Spec.skyStep w.cd i j 0 = x * deg)) ∧
    (∀ pc d dpc : ℝ, 0 < pc → 0 < d → 0 < dpc →
      (∃ p, toPixelW (some w) (some (d, dpc)) ⟨v, .length pc⟩ = .ok p ∧
        p * (Spec.skyStep w.cd i j 0 * (Real.pi / 180) * (d * dpc)) = v * pc) ∧
      (∃ x, fromPixelW (some w) (some (d, dpc)) v (.length pc) = .ok ⟨x, .length pc⟩ ∧
        v * (Spec.skyStep w.cd i j 0 * (Real.pi / 180) * (d * dpc)) = x * pc)) := by
  obtain ⟨k, h1, hk, hpos, _⟩ := C102_size_partial hs hij w' h
  have hpi := Real.pi_pos
  constructor
  · intro deg dist hdeg
    constructor
    · refine ⟨v * deg / Spec.skyStep w.cd i j 0, ?_, ?_⟩
      · simp only [toPixelW, angularEquiv, h1, bind, Except.bind, pure, Except.pure, toPixel, angFactor]
      · field_simp
    · refine ⟨v * Spec.skyStep w.cd i j 0 / deg, ?_, ?_⟩
      · simp only [fromPixelW, angularEquiv, h1, bind, Except.bind, pure, Except.pure, fromPixel, angFactor]
      · field_simp
  · intro pc d dpc hpc hd hdpc
    constructor
    · refine ⟨v * pc / dpc / (Spec.skyStep w.cd i j 0 * 1 * (Real.pi / 180) * d), ?_, ?_⟩
      · simp only [toPixelW, physicalEquiv, h1, bind, Except.bind, pure, Except.pure, toPixel, physFactor, hk, if_true]
      · field_simp
    · refine ⟨v * (Spec.skyStep w.cd i j 0 * 1 * (Real.pi / 180) * d) * dpc / pc, ?_, ?_⟩
      · simp only [fromPixelW, physicalEquiv, h1, bind, Except.bind, pure, Except.pure, fromPixel, physFactor, hk, if_true]
      · field_simp

/-- A refused header makes every conversion from or to an angle or (with a distance) a length raise. -/
theorem C102_refused_conversions (h : Option Wcs) (e : PyErr) (he : wcsOf h = .error e) (dist : Option (ℝ × ℝ)) (v deg pc : ℝ) :
    toPixelW h dist ⟨v, .angle deg⟩ = .error e ∧ fromPixelW h dist v (.angle deg) = .error e ∧
    (∀ d, dist = some d → toPixelW h dist ⟨v, .length pc⟩ = .error e ∧ fromPixelW h dist v (.length pc) = .error e) := by
  have ha : angSizeW h = .error e := by simp only [angSizeW, he, bind, Except.bind]
  refine ⟨by simp only [toPixelW, angularEquiv, ha, bind, Except.bind], by simp only [fromPixelW, angularEquiv, ha, bind, Except.bind], ?_⟩
  rintro d rfl
  exact ⟨by simp only [toPixelW, physicalEquiv, ha, bind, Except.bind], by simp only [fromPixelW, physicalEquiv, ha, bind, Except.bind]⟩

/-- Lengths need a distance. -/
theorem C102_no_distance (h : Option Wcs) (v pc : ℝ) :
    toPixelW h none ⟨v, .length pc⟩ = .error .attributeError ∧ fromPixelW h none v (.length pc) = .error .attributeError := ⟨rfl, rfl⟩

/-! ### Channels -/

/-- The channel width is the entry of the spectral axis, wherever that axis is. -/
theorem C102_channel {w : Wcs} {k : ℕ} (hk : w.axes[k]? = some .spec) (hk1 : ∀ l : ℕ, w.axes[l]? = some .spec → l = k) (w' : Wcs)
    (h : wcsOf (some w) = .ok w') (he : w' = w) : spectralSizeW (some w) = .ok |w.cd k k| ∧ 0 ≤ |w.cd k k| := by
  subst he
  have hm : AxKind.spec ∈ w'.axes := List.mem_of_getElem? hk
  refine ⟨?_, abs_nonneg _⟩
  simp only [spectralSizeW, hasSpectral, h, bind, Except.bind, hm, if_true, pure, Except.pure, (idx_unique hk hk1).1]

/-- Without a spectral axis there is no channel width. -/
theorem C102_no_channel {w : Wcs} (hk : AxKind.spec ∉ w.axes) (h : wcsOf (some w) = .ok w) :
    spectralSizeW (some w) = .error .valueError ∧ hasSpectral (some w) false = .ok false := by
  constructor
  · simp only [spectralSizeW, hasSpectral, h, bind, Except.bind, hk, if_false, if_true]
  · simp only [hasSpectral, h, bind, Except.bind, hk, if_false, pure, Except.pure]; rfl

/-! ### Where the code does not have the property -/

/-- A cube whose first axis is the spectral one: the "size of a pixel" is the width of a channel (in m/s, say) taken as degrees,
so an angle becomes a wrong number of pixels without an error. -/
theorem C102_spectral_first_violated (w : Wcs) (hx : w.axes = [.spec, .lon, .lat]) (hu : Spec.Uncoupled w.cd 3 1 2)
    (ht : w.table = false) (s : ℝ) (hq : Spec.SquareSky w.cd 1 2 s) (deg v : ℝ) (dist : Option (ℝ × ℝ)) :
    toPixelW (some w) dist ⟨v, .angle deg⟩ = .ok (v * deg / |w.cd 0 0|) ∧
    (|w.cd 0 0| ≠ s → v * deg ≠ 0 → w.cd 0 0 ≠ 0 → ∀ p, toPixelW (some w) dist ⟨v, .angle deg⟩ = .ok p →
      p * Spec.skyStep w.cd 1 2 1 ≠ v * deg) := by
  have hs : Spec.SkyAxes w.axes 1 2 := by
    rw [hx]
    refine ⟨rfl, rfl, ?_, ?_⟩ <;> intro k hk <;> match k with
      | 0 => simp at hk
      | 1 => first | rfl | simp at hk
      | 2 => first | rfl | simp at hk
      | k + 3 => simp at hk
  have hu' : Spec.Uncoupled w.cd w.axes.length 1 2 := by rw [hx]; exact hu
  have hw := C102_accepts hs hu' ht s hq
  have hz := hu 0 (by norm_num) (by norm_num) (by norm_num)
  have hsc : pixelScale w 0 = |w.cd 0 0| := by
    unfold pixelScale
    rw [hx]
    simp [List.range_succ, hz.1, hz.2.1, Real.sqrt_sq_eq_abs]
  have ha : angSizeW (some w) = .ok (|w.cd 0 0|, .lon) := by
    simp only [angSizeW, hw, bind, Except.bind, hx, pure, Except.pure, hsc, abs_abs]; rfl
  have hp : toPixelW (some w) dist ⟨v, .angle deg⟩ = .ok (v * deg / |w.cd 0 0|) := by
    simp only [toPixelW, angularEquiv, ha, bind, Except.bind, pure, Except.pure, toPixel, angFactor]
  refine ⟨hp, ?_⟩
  intro hne hv h0 p hpe hcon
  rw [hp] at hpe
  obtain rfl := Except.ok.inj hpe
  rw [hq.2.1, div_mul_eq_mul_div, div_eq_iff (abs_ne_zero.2 h0)] at hcon
  exact hne (mul_left_cancel₀ hv hcon).symm

/-- A cube whose second axis is the spectral one: angles are converted, but lengths raise although the distance is known, because
the size of a pixel is given the unit of the second axis. -/
theorem C102_spectral_second_violated (w : Wcs) (hx : w.axes = [.lon, .spec, .lat]) (hu : Spec.Uncoupled w.cd 3 0 2)
    (ht : w.table = false) (s : ℝ) (hq : Spec.SquareSky w.cd 0 2 s) (deg v pc : ℝ) (d : ℝ × ℝ) :
    toPixelW (some w) (some d) ⟨v, .angle deg⟩ = .ok (v * deg / s) ∧
    toPixelW (some w) (some d) ⟨v, .length pc⟩ = .error .unitConversionError := by
  have hs : Spec.SkyAxes w.axes 0 2 := by
    rw [hx]
    refine ⟨rfl, rfl, ?_, ?_⟩ <;> intro k hk <;> match k with
      | 0 => first | rfl | simp at hk
      | 1 => simp at hk
      | 2 => first | rfl | simp at hk
      | k + 3 => simp at hk
  have hu' : Spec.Uncoupled w.cd w.axes.length 0 2 := by rw [hx]; exact hu
  have hw := C102_accepts hs hu' ht s hq
  have hz := hu 1 (by norm_num) (by norm_num) (by norm_num)
  have hsc : pixelScale w 0 = s := by
    have := hq.2.1
    unfold Spec.skyStep at this
    unfold pixelScale
    rw [hx, ← this]
    simp [List.range_succ, hz.2.2.1]
  have ha : angSizeW (some w) = .ok (s, .spec) := by
    simp only [angSizeW, hw, bind, Except.bind, hx, pure, Except.pure, hsc, abs_of_pos hq.1]; rfl
  constructor
  · simp only [toPixelW, angularEquiv, ha, bind, Except.bind, pure, Except.pure, toPixel, angFactor]
  · simp only [toPixelW, physicalEquiv, ha, bind, Except.bind, AxKind.sky]; rfl

/-- Scales given in pixels never look at the header: a grid that is refused for every other unit is used without an error. -/
theorem C102_pixels_unchecked_violated (h : Option Wcs) (dist : Option (ℝ × ℝ)) (v : ℝ) :
    toPixelW h dist ⟨v, .pix⟩ = .ok v ∧ fromPixelW h dist v .pix = .ok ⟨v, .pix⟩ := ⟨rfl, rfl⟩

/-! ### Examples -/

/-- A grid of 0.6 × 0.8-rotated square pixels of half a degree, with channels of 3 m/s on the third axis. -/
private noncomputable def exCd : ℕ → ℕ → ℝ := fun i k =>
  match i, k with
  | 0, 0 => -(3 / 10)
  | 0, 1 => 4 / 10
  | 1, 0 => 4 / 10
  | 1, 1 => 3 / 10
  | 2, 2 => -3
  | _, _ => 0

private theorem exSky : Spec.SkyAxes [.lon, .lat, .spec] 0 1 := by
  refine ⟨rfl, rfl, ?_, ?_⟩ <;> intro k hk <;> match k with
    | 0 => first | rfl | simp at hk
    | 1 => first | rfl | simp at hk
    | 2 => simp at hk
    | k + 3 => simp at hk

private theorem exUncoupled : Spec.Uncoupled exCd 3 0 1 := by
  intro k hk h0 h1
  match k with
  | 0 => exact absurd rfl h0
  | 1 => exact absurd rfl h1
  | 2 => exact ⟨rfl, rfl, rfl, rfl⟩

private theorem exSquare : Spec.SquareSky exCd 0 1 (1 / 2) := by
  refine ⟨by norm_num, ?_, ?_, ?_⟩
  · show Real.sqrt ((-(3 / 10)) ^ 2 + (4 / 10) ^ 2) = 1 / 2
    rw [show ((-(3 / 10) : ℝ)) ^ 2 + (4 / 10) ^ 2 = (1 / 2) ^ 2 by norm_num, Real.sqrt_sq (by norm_num)]
  · show Real.sqrt ((4 / 10) ^ 2 + (3 / 10) ^ 2) = 1 / 2
    rw [show ((4 / 10 : ℝ)) ^ 2 + (3 / 10) ^ 2 = (1 / 2) ^ 2 by norm_num, Real.sqrt_sq (by norm_num)]
  · show -(3 / 10) * (4 / 10) + 4 / 10 * (3 / 10) = (0 : ℝ)
    norm_num

/-- A rotated grid meets the hypotheses: its pixels are half a degree, so 2 degrees are 4 pixels, and its channels 3 m/s. -/
example : (∃ k : AxKind, angSizeW (some ⟨[.lon, .lat, .spec], exCd, false⟩) = .ok (1 / 2, k) ∧ k.sky = true) ∧
    (∃ p, toPixelW (some ⟨[.lon, .lat, .spec], exCd, false⟩) none ⟨2, .angle 1⟩ = .ok p ∧ p * (1 / 2) = 2 * 1) ∧
    spectralSizeW (some ⟨[.lon, .lat, .spec], exCd, false⟩) = .ok 3 := by
  have hacc : wcsOf (some ⟨[.lon, .lat, .spec], exCd, false⟩) = .ok ⟨[.lon, .lat, .spec], exCd, false⟩ :=
    C102_accepts (w := ⟨[.lon, .lat, .spec], exCd, false⟩) exSky exUncoupled rfl (1 / 2) exSquare
  refine ⟨C102_rotation (w := ⟨[.lon, .lat, .spec], exCd, false⟩) exSky (Or.inl ⟨rfl, rfl⟩) exUncoupled rfl (1 / 2) exSquare, ?_, ?_⟩
  · have := ((C102_conversions_partial (w := ⟨[.lon, .lat, .spec], exCd, false⟩) exSky (Or.inl ⟨rfl, rfl⟩) _ hacc 2).1 1 none
      one_pos).1
    obtain ⟨p, h1, h2⟩ := this
    have hstep : Spec.skyStep exCd 0 1 0 = 1 / 2 := exSquare.2.1
    exact ⟨p, h1, by rw [← hstep]; exact h2⟩
  · have := (C102_channel (w := ⟨[.lon, .lat, .spec], exCd, false⟩) (k := 2) rfl (by
      intro l hl
      match l with
      | 0 => simp at hl
      | 1 => simp at hl
      | 2 => rfl
      | l + 3 => simp at hl) _ hacc rfl).1
    rw [this]
    show (.ok |(-3 : ℝ)| : Py ℝ) = .ok 3
    norm_num

/-- Pixels twice as wide as high are refused. -/
example : ∃ e, wcsOf (some ⟨[.lon, .lat], fun i k => if i = k then (if i = 0 then 2 else 1) else 0, false⟩) = .error e := by
  refine C102_refuses (w := ⟨[.lon, .lat], fun i k => if i = k then (if i = 0 then 2 else 1) else 0, false⟩) (i := 0) (j := 1)
    ⟨rfl, rfl, ?_, ?_⟩ 2 1 ⟨by norm_num, by norm_num, ?_, ?_, by norm_num⟩ (Or.inl (by norm_num))
  · intro k hk
    match k with
    | 0 => rfl
    | 1 => simp at hk
    | k + 2 => simp at hk
  · intro k hk
    match k with
    | 0 => simp at hk
    | 1 => rfl
    | k + 2 => simp at hk
  · simp [Spec.skyStep]
  · simp [Spec.skyStep]

/-- Cubes with the spectral axis first or second meet the hypotheses of the violations: 1 degree pixels, channels of 1000 m/s. -/
example : (let cd : ℕ → ℕ → ℝ := fun i k => if i = k then (if i = 0 then 1000 else 1) else 0;
      Spec.Uncoupled cd 3 1 2 ∧ Spec.SquareSky cd 1 2 1 ∧ |cd 0 0| ≠ 1) ∧
    (let cd : ℕ → ℕ → ℝ := fun i k => if i = k then (if i = 1 then 1000 else 1) else 0;
      Spec.Uncoupled cd 3 0 2 ∧ Spec.SquareSky cd 0 2 1) := by
  refine ⟨⟨?_, ⟨by norm_num, by simp [Spec.skyStep], by simp [Spec.skyStep], by norm_num⟩, by norm_num⟩,
    ⟨?_, ⟨by norm_num, by simp [Spec.skyStep], by simp [Spec.skyStep], by norm_num⟩⟩⟩
  · intro k hk h1 h2
    have : k = 0 := by omega
    subst this
    norm_num
  · intro k hk h1 h2
    have : k = 1 := by omega
    subst this
    norm_num

end TS
