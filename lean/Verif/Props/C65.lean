import Verif.Props.C46

/-! C65 — the bispectrum of closed triangles does not depend on the position of the map. -/

namespace TS
open Finset

open Spec

namespace Spec

/-- The three wave vectors close modulo the frequencies of an n×m transform. -/
def Closed (n m : ℕ) (t : Triangle) : Prop :=
  (n : ℤ) ∣ t.k1.1 + t.k2.1 - t.k3.1 ∧ (m : ℤ) ∣ t.k1.2 + t.k2.2 - t.k3.2

end Spec

private theorem pyInt_add_diff (x y : ℝ) : |pyInt (x + y) - (pyInt x + pyInt y)| ≤ 1 := by
  have key : ∀ z : ℝ, (0 ≤ z → (pyInt z : ℝ) ≤ z ∧ z < pyInt z + 1) ∧ (z < 0 → z ≤ pyInt z ∧ (pyInt z : ℝ) < z + 1) := by
    intro z
    constructor
    · intro h; unfold pyInt; rw [if_pos h]; exact ⟨Int.floor_le z, Int.lt_floor_add_one z⟩
    · intro h; unfold pyInt; rw [if_neg (not_le.2 h)]; exact ⟨Int.le_ceil z, Int.ceil_lt_add_one z⟩
  have h1 := key x
  have h2 := key y
  have h3 := key (x + y)
  have : (pyInt (x + y) : ℝ) - (pyInt x + pyInt y) < 2 ∧ -2 < (pyInt (x + y) : ℝ) - (pyInt x + pyInt y) := by
    rcases le_or_gt 0 x with hx | hx <;> rcases le_or_gt 0 y with hy | hy <;> rcases le_or_gt 0 (x + y) with hz | hz
    all_goals
      first
      | (have a := h1.1 hx) | (have a := h1.2 hx)
      first
      | (have b := h2.1 hy) | (have b := h2.2 hy)
      first
      | (have c := h3.1 hz) | (have c := h3.2 hz)
      constructor <;> linarith [a.1, a.2, b.1, b.2, c.1, c.2]
  have e1 : pyInt (x + y) - (pyInt x + pyInt y) < 2 := by
    have := this.1
    exact_mod_cast this
  have e2 : -2 < pyInt (x + y) - (pyInt x + pyInt y) := by
    have := this.2
    exact_mod_cast this
  rw [abs_le]; omega

/-- The third wave vector misses the sum of the first two by at most one pixel per axis, for all
magnitudes and angles. -/
theorem C65_nearly_closed (k1 k2 : ℕ) (phi : ℝ × ℝ) :
    let t := triangle k1 k2 phi
    |t.k3.1 - (t.k1.1 + t.k2.1)| ≤ 1 ∧ |t.k3.2 - (t.k1.2 + t.k2.2)| ≤ 1 :=
  ⟨pyInt_add_diff _ _, pyInt_add_diff _ _⟩

private theorem ft_shift (n m : ℕ) (hn : 0 < n) (hm : 0 < m) (f : ℕ → ℕ → ℝ) (s t : ℤ) (k : ℤ × ℤ) :
    ft n m (fun i j => f (((i : ℤ) - s) % n).toNat (((j : ℤ) - t) % m).toNat) k =
      om n (s * k.1) * (om m (t * k.2) * ft n m f k) := by
  unfold ft
  have h0 := dft2_roll0 (m := m) hn s (fun i j => (f i (rollIx m t j) : ℂ)) k.1 k.2
  have h1 := dft2_roll1 (n := n) hm t (fun i j => (f i j : ℂ)) k.1 k.2
  rw [← h1, ← h0]; rfl

/-- Moving the map multiplies each sample by a phase given by how far its triangle is from closing. -/
theorem C65_phase (img : Arr2 ℝ) (hn : 0 < img.n) (hm : 0 < img.m) (s t : ℤ) (tri : Triangle) :
    triple img.n img.m (shift2 s t img).get tri =
      om img.n (s * (tri.k1.1 + tri.k2.1 - tri.k3.1)) * om img.m (t * (tri.k1.2 + tri.k2.2 - tri.k3.2)) *
        triple img.n img.m img.get tri := by
  unfold triple shift2
  simp only
  rw [ft_shift _ _ hn hm, ft_shift _ _ hn hm, ft_shift _ _ hn hm]
  simp only [map_mul, conj_om]
  have e1 : om img.n (s * (tri.k1.1 + tri.k2.1 - tri.k3.1)) =
      om img.n (s * tri.k1.1) * om img.n (s * tri.k2.1) * om img.n (-(s * tri.k3.1)) := by
    rw [← om_add, ← om_add]; congr 1; ring
  have e2 : om img.m (t * (tri.k1.2 + tri.k2.2 - tri.k3.2)) =
      om img.m (t * tri.k1.2) * om img.m (t * tri.k2.2) * om img.m (-(t * tri.k3.2)) := by
    rw [← om_add, ← om_add]; congr 1; ring
  rw [e1, e2]
  ring

private theorem triple_shift_closed (img : Arr2 ℝ) (hn : 0 < img.n) (hm : 0 < img.m) (s t : ℤ) (tri : Triangle)
    (h : Closed img.n img.m tri) :
    triple img.n img.m (shift2 s t img).get tri = triple img.n img.m img.get tri := by
  rw [C65_phase img hn hm]
  have e1 : om img.n (s * (tri.k1.1 + tri.k2.1 - tri.k3.1)) = 1 := by
    rw [om_eq_one_iff hn]; exact Dvd.dvd.mul_left h.1 s
  have e2 : om img.m (t * (tri.k1.2 + tri.k2.2 - tri.k3.2)) = 1 := by
    rw [om_eq_one_iff hm]; exact Dvd.dvd.mul_left h.2 t
  rw [e1, e2]; ring

private theorem bispecImage_shift (img : Arr2 ℝ) (hn : 0 < img.n) (hm : 0 < img.m) (s t : ℤ) (ms : Bool) :
    bispecImage (shift2 s t img) ms = (shift2 s t ⟨img.n, img.m, bispecImage img ms⟩).get := by
  cases ms
  · rfl
  have hsum : ∑ i ∈ range img.n, ∑ j ∈ range img.m, (shift2 s t img).get i j =
      ∑ i ∈ range img.n, ∑ j ∈ range img.m, img.get i j := by
    have e : ∀ i, ∑ j ∈ range img.m, (shift2 s t img).get i j =
        ∑ j ∈ range img.m, img.get (((i : ℤ) - s) % img.n).toNat j :=
      fun i => sum_rollIx hm t (fun j => img.get (((i : ℤ) - s) % img.n).toNat j)
    simp only [e]
    exact sum_rollIx hn s (fun i => ∑ j ∈ range img.m, img.get i j)
  funext i j
  have e : bispecImage (shift2 s t img) true i j = (shift2 s t img).get i j -
      (∑ i ∈ range img.n, ∑ j ∈ range img.m, (shift2 s t img).get i j) / ((img.n * img.m : ℕ) : ℝ) := rfl
  rw [e, hsum]
  rfl

/-- When all the drawn triangles of a bin close, the bispectrum and bicoherence of that bin do not change
under any circular shift of the map.  Missing from the full property: draws whose triangle misses by a
pixel (`C65_translation_violated`). -/
theorem C65_translation_partial (img : Arr2 ℝ) (hsq : img.n = img.m) (ms : Bool)
    (draws : ℕ → ℕ → List (ℝ × ℝ)) (s t : ℤ) :
    ∃ o o', computeBispectrum img ms draws = .ok o ∧ computeBispectrum (shift2 s t img) ms draws = .ok o' ∧
      ∀ k1 < img.n / 2, ∀ k2 < img.m / 2, (∀ phi ∈ draws k1 k2, Closed img.n img.m (triangle k1 k2 phi)) →
        o'.bispectrum.get k1 k2 = o.bispectrum.get k1 k2 ∧
        o'.bicoherence.get k1 k2 = o.bicoherence.get k1 k2 := by
  obtain ⟨o, h, _, _, _, _, hv⟩ := C46_square img hsq ms draws
  obtain ⟨o', h', _, _, _, _, hv'⟩ := C46_square (shift2 s t img) hsq ms draws
  refine ⟨o, o', h, h', ?_⟩
  intro k1 h1 k2 h2 hcl
  obtain ⟨a, b⟩ := hv k1 h1 k2 h2
  obtain ⟨a', b'⟩ := hv' k1 h1 k2 h2
  have hn : 0 < img.n := by omega
  have hm : 0 < img.m := by omega
  have hs : (draws k1 k2).map (fun phi => triple (shift2 s t img).n (shift2 s t img).m
      (bispecImage (shift2 s t img) ms) (triangle k1 k2 phi)) =
      (draws k1 k2).map (fun phi => triple img.n img.m (bispecImage img ms) (triangle k1 k2 phi)) := by
    apply List.map_congr_left
    intro phi hphi
    rw [bispecImage_shift img hn hm]
    exact triple_shift_closed ⟨img.n, img.m, bispecImage img ms⟩ hn hm s t _ (hcl phi hphi)
  rw [hs] at a' b'
  exact ⟨by rw [a', a], by rw [b', b]⟩

/-- Draws along the axes close. -/
example (k1 k2 n m : ℕ) : Closed n m (triangle k1 k2 (0, 0)) := by
  have hp : ∀ a : ℕ, pyInt (a : ℝ) = a := fun a => by
    unfold pyInt; rw [if_pos (by positivity)]; exact Int.floor_natCast a
  have h0 : pyInt 0 = 0 := by simp [pyInt]
  have h3 : pyInt ((k1 : ℝ) + k2) = (k1 : ℤ) + k2 := by
    have := hp (k1 + k2); push_cast at this; exact this
  simp [Closed, triangle, hp, h0, h3]

private theorem tri_a : triangle 1 1 (0, 0) = ⟨(1, 0), (1, 0), (2, 0)⟩ := by
  have h0 : pyInt 0 = 0 := by simp [pyInt]
  have h1 : pyInt 1 = 1 := by simp [pyInt]
  have h2 : pyInt (1 + 1) = 2 := by
    unfold pyInt; rw [if_pos (by norm_num)]; exact Int.floor_eq_iff.2 (by norm_num)
  simp [triangle, h0, h1, h2]

private theorem tri_b : triangle 1 1 (Real.pi / 3, Real.pi / 3) = ⟨(0, 0), (0, 0), (1, 1)⟩ := by
  have hs : (0 : ℝ) ≤ Real.sqrt 3 := Real.sqrt_nonneg 3
  have hs2 : Real.sqrt 3 < 2 := by rw [Real.sqrt_lt' (by norm_num)]; norm_num
  have hs1 : 1 ≤ Real.sqrt 3 := by rw [Real.le_sqrt' (by norm_num)]; norm_num
  have h0 : pyInt (1 / 2) = 0 := by
    unfold pyInt; rw [if_pos (by norm_num)]; exact Int.floor_eq_iff.2 (by norm_num)
  have h0' : pyInt (Real.sqrt 3 / 2) = 0 := by
    unfold pyInt; rw [if_pos (by positivity)]
    exact Int.floor_eq_iff.2 ⟨by push_cast; positivity, by push_cast; linarith⟩
  have h1 : pyInt (1 / 2 + 1 / 2) = 1 := by norm_num [pyInt]
  have h1' : pyInt (Real.sqrt 3 / 2 + Real.sqrt 3 / 2) = 1 := by
    unfold pyInt; rw [if_pos (by positivity)]
    exact Int.floor_eq_iff.2 ⟨by push_cast; linarith, by push_cast; linarith⟩
  simp only [triangle, Real.cos_pi_div_three, Real.sin_pi_div_three, Nat.cast_one, one_mul, h0, h0', h1, h1']

/-- An image with one bright pixel. -/
def pointImage : Arr2 ℝ := ⟨4, 4, fun i j => if i = 0 ∧ j = 0 then 1 else 0⟩

private theorem ft_point (k : ℤ × ℤ) : ft 4 4 pointImage.get k = 1 := by
  simp [ft, dft2, pointImage, sum_range_succ, om_zero]

private theorem om_four : om 4 (-1) = Complex.I := by
  unfold om
  have : -(2 * (Real.pi : ℂ) * Complex.I * ((-1 : ℤ) : ℂ) / ((4 : ℕ) : ℂ)) = (Real.pi / 2 : ℂ) * Complex.I := by
    push_cast; ring
  rw [this, Complex.exp_mul_I, ← Complex.ofReal_ofNat, ← Complex.ofReal_div]
  rw [← Complex.ofReal_cos, ← Complex.ofReal_sin]
  simp

/-- The bicoherence of one bright pixel is 1; moving that pixel by one row changes it to √2/2, because a
drawn triangle does not close after truncation. -/
theorem C65_translation_violated : ∃ (img : Arr2 ℝ) (draws : ℕ → ℕ → List (ℝ × ℝ)) (o o' : BispecOut),
    computeBispectrum img false draws = .ok o ∧ computeBispectrum (shift2 1 0 img) false draws = .ok o' ∧
    o.bicoherence.get 1 1 = some 1 ∧ o'.bicoherence.get 1 1 = some (Real.sqrt 2 / 2) := by
  let draws : ℕ → ℕ → List (ℝ × ℝ) := fun _ _ => [(0, 0), (Real.pi / 3, Real.pi / 3)]
  obtain ⟨o, h, _, _, _, _, hv⟩ := C46_square pointImage rfl false draws
  obtain ⟨o', h', _, _, _, _, hv'⟩ := C46_square (shift2 1 0 pointImage) rfl false draws
  refine ⟨pointImage, draws, o, o', h, h', ?_, ?_⟩
  · rw [(hv 1 (by decide) 1 (by decide)).2]
    have e : ∀ t, triple pointImage.n pointImage.m (bispecImage pointImage false) t = 1 := by
      intro t
      have : bispecImage pointImage false = pointImage.get := rfl
      rw [this]
      simp only [triple]
      rw [show pointImage.n = 4 from rfl, show pointImage.m = 4 from rfl, ft_point, ft_point, ft_point]
      simp
    simp only [draws, List.map_cons, List.map_nil, e]
    norm_num
  · rw [(hv' 1 (by decide) 1 (by decide)).2]
    have e : ∀ t, triple (shift2 1 0 pointImage).n (shift2 1 0 pointImage).m (bispecImage (shift2 1 0 pointImage) false) t =
        om 4 (t.k1.1 + t.k2.1 - t.k3.1) := by
      intro t
      have : bispecImage (shift2 1 0 pointImage) false = (shift2 1 0 pointImage).get := rfl
      rw [this]
      have := C65_phase pointImage (by decide) (by decide) 1 0 t
      rw [show (shift2 1 0 pointImage).n = pointImage.n from rfl, show (shift2 1 0 pointImage).m = pointImage.m from rfl, this]
      simp only [triple]
      rw [show pointImage.n = 4 from rfl, show pointImage.m = 4 from rfl, ft_point, ft_point, ft_point]
      simp [om_zero]
    simp only [draws, List.map_cons, List.map_nil, e, tri_a, tri_b]
    have e1 : om 4 (1 + 1 - 2) = 1 := by norm_num [om_zero]
    have e2 : om 4 (0 + 0 - 1) = Complex.I := by rw [← om_four]; norm_num
    rw [e1, e2]
    have hn : ‖(1 : ℂ) + Complex.I‖ = Real.sqrt 2 := by
      rw [Complex.norm_def]
      congr 1
      simp [Complex.normSq_apply]
      norm_num
    simp only [List.sum_cons, List.sum_nil, norm_one, Complex.norm_I, add_zero, hn]
    norm_num

end TS
