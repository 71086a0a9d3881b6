import Verif.Props.C124Pspec
import Verif.Props.C45

/-! C124: a periodic map shown over several periods. The MVC spectrum. -/

namespace TS
open Finset

namespace Spec

/-- A map with the values `f` and the missing pixels `B`. -/
def maskedMap (n m : ℕ) (B : ℕ → ℕ → Bool) (f : ℕ → ℕ → ℝ) : Arr2 (Option ℝ) := ⟨n, m, fun i j => if B i j then none else some (f i j)⟩

end Spec

private theorem amp_power (n m : ℕ) (f : ℕ → ℕ → ℝ) (k l : ℤ) : Spec.power2 ⟨n, m, f⟩ k l = Spec.amp n m f k l ^ 2 := rfl

private theorem amp_nonneg (n m : ℕ) (f : ℕ → ℕ → ℝ) (k l : ℤ) : 0 ≤ Spec.amp n m f k l := norm_nonneg _

private theorem mean_tile {p q n m : ℕ} (hp : 0 < p) (hq : 0 < q) (f : ℕ → ℕ → ℝ) :
    Spec.mapMean (p * n) (q * m) (fun i j => f (i % n) (j % m)) = Spec.mapMean n m f := by
  have hr : ((p * q : ℕ) : ℝ) ≠ 0 := by exact_mod_cast (Nat.mul_pos hp hq).ne'
  unfold Spec.mapMean
  rw [sum_tile2 p n q m f, nsmul_eq_mul, ← mul_div_mul_left (∑ i ∈ range n, ∑ j ∈ range m, f i j) ((n : ℝ) * m) hr]
  congr 1
  push_cast
  ring

private theorem masked_init (n m : ℕ) (B : ℕ → ℕ → Bool) (V I L : ℕ → ℕ → ℝ) :
    mvcMaps (Spec.maskedMap n m B V) (Spec.maskedMap n m B I) (Spec.maskedMap n m B L) =
      .ok ⟨Spec.fullMap n m fun i j => if B i j then 0 else V i j, Spec.fullMap n m fun i j => if B i j then 0 else I i j,
        Spec.fullMap n m fun i j => if B i j then 0 else L i j⟩ := by
  have e : ∀ f : ℕ → ℕ → ℝ, (⟨n, m, fun i j => if ((Spec.maskedMap n m B V).get i j).isNone && ((Spec.maskedMap n m B I).get i j).isNone &&
      ((Spec.maskedMap n m B L).get i j).isNone then some 0 else (Spec.maskedMap n m B f).get i j⟩ : Arr2 (Option ℝ)) =
      Spec.fullMap n m fun i j => if B i j then 0 else f i j := by
    intro f
    unfold Spec.fullMap
    congr 1
    funext i j
    cases h : B i j <;> simp [Spec.maskedMap, h]
  unfold mvcMaps
  rw [if_neg (by simp [Spec.maskedMap])]
  show Except.ok (⟨⟨n, m, _⟩, ⟨n, m, _⟩, ⟨n, m, _⟩⟩ : MvcState) = _
  rw [e V, e I, e L]

/-- **MVC.** The spectrum of repeated maps of centroid, integrated intensity and line width, with pixels missing in all three: at the frequencies of the maps the
value is that of one period times the square of the number of periods, at all other frequencies it is zero. -/
theorem C124_mvc {p q : ℕ} (hp : 0 < p) (hq : 0 < q) {n m : ℕ} (hn : 0 < n) (hm : 0 < m) (B : ℕ → ℕ → Bool) (V I L : ℕ → ℕ → ℝ) :
    ∃ s s' ps ps', mvcMaps (Spec.maskedMap n m B V) (Spec.maskedMap n m B I) (Spec.maskedMap n m B L) = .ok s ∧
      mvcMaps (Spec.tiled p q (Spec.maskedMap n m B V)) (Spec.tiled p q (Spec.maskedMap n m B I)) (Spec.tiled p q (Spec.maskedMap n m B L)) = .ok s' ∧
      mvcPspec s none = .ok ps ∧ mvcPspec s' none = .ok ps' ∧ ps'.n = p * n ∧ ps'.m = q * m ∧
      ∀ i' < p * n, ∀ j' < q * m,
        (∀ i < n, ∀ j < m, Spec.SameFreq n i (p * n) i' → Spec.SameFreq m j (q * m) j' →
          ∃ v : ℝ, ps.get i j = some v ∧ ps'.get i' j' = some (((p * q : ℕ) : ℝ) ^ 2 * v)) ∧
        ((∀ i < n, ∀ j < m, ¬(Spec.SameFreq n i (p * n) i' ∧ Spec.SameFreq m j (q * m) j')) → ps'.get i' j' = some 0) := by
  have e' := masked_init (p * n) (q * m) (fun i j => B (i % n) (j % m)) (fun i j => V (i % n) (j % m)) (fun i j => I (i % n) (j % m)) fun i j => L (i % n) (j % m)
  generalize hV : (fun i j => if B i j then 0 else V i j) = V₀
  generalize hI : (fun i j => if B i j then 0 else I i j) = I₀
  generalize hL : (fun i j => if B i j then 0 else L i j) = L₀
  have tV : (fun i j => if B (i % n) (j % m) then 0 else V (i % n) (j % m)) = fun i j => V₀ (i % n) (j % m) := by rw [← hV]
  have tI : (fun i j => if B (i % n) (j % m) then 0 else I (i % n) (j % m)) = fun i j => I₀ (i % n) (j % m) := by rw [← hI]
  have tL : (fun i j => if B (i % n) (j % m) then 0 else L (i % n) (j % m)) = fun i j => L₀ (i % n) (j % m) := by rw [← hL]
  rw [tV, tI, tL] at e'
  have e := masked_init n m B V I L
  rw [hV, hI, hL] at e
  obtain ⟨ps, h1, -, -, h4⟩ := C45_spectrum_partial n m hn hm V₀ I₀ L₀
  obtain ⟨ps', h1', h2', h3', h4'⟩ := C45_spectrum_partial (p * n) (q * m) (Nat.mul_pos hp hn) (Nat.mul_pos hq hm) (fun i j => V₀ (i % n) (j % m))
    (fun i j => I₀ (i % n) (j % m)) fun i j => L₀ (i % n) (j % m)
  refine ⟨_, _, ps, ps', e, e', h1, h1', h2', h3', fun i' hi' j' hj' => ?_⟩
  rw [h4' i' hi' j' hj', mean_tile hp hq fun i j => L₀ i j ^ 2 + V₀ i j ^ 2]
  have a := fun f : ℕ → ℕ → ℝ => tile_index hp hq (d := ⟨n, m, f⟩) (d' := ⟨p * n, q * m, fun i j => f (i % n) (j % m)⟩) hn hm rfl rfl
    (fun _ _ _ _ => rfl) hi' hj'
  simp only [amp_power] at a
  refine ⟨fun i hi j hj fi fj => ⟨_, h4 i hi j hj, ?_⟩, fun hno => ?_⟩
  · have b : ∀ f : ℕ → ℕ → ℝ, Spec.amp (p * n) (q * m) (fun i j => f (i % n) (j % m)) ((i' : ℤ) - (p * n / 2 : ℕ)) ((j' : ℤ) - (q * m / 2 : ℕ)) =
        ((p * q : ℕ) : ℝ) * Spec.amp n m f ((i : ℤ) - (n / 2 : ℕ)) ((j : ℤ) - (m / 2 : ℕ)) := by
      intro f
      have h := (a f).1 i hi j hj fi fj
      rw [← mul_pow] at h
      exact (sq_eq_sq₀ (amp_nonneg _ _ _ _ _) (mul_nonneg (Nat.cast_nonneg _) (amp_nonneg _ _ _ _ _))).1 h
    beta_reduce
    rw [b fun i j => V₀ i j * I₀ i j, b I₀]
    congr 1
    ring
  · have b : ∀ f : ℕ → ℕ → ℝ, Spec.amp (p * n) (q * m) (fun i j => f (i % n) (j % m)) ((i' : ℤ) - (p * n / 2 : ℕ)) ((j' : ℤ) - (q * m / 2 : ℕ)) = 0 :=
      fun f => pow_eq_zero_iff two_ne_zero |>.1 ((a f).2 hno)
    beta_reduce
    rw [b fun i j => V₀ i j * I₀ i j, b I₀]
    congr 1
    ring

/-- A map of two rows and three columns with one missing pixel, shown twice and three times. -/
example : (0 : ℕ) < 2 ∧ (0 : ℕ) < 3 ∧ (Spec.maskedMap 2 3 (fun i j => i == 0 && j == 1) fun i j => (i + j : ℝ)).get 0 1 = none ∧
    (Spec.maskedMap 2 3 (fun i j => i == 0 && j == 1) fun i j => (i + j : ℝ)).get 1 1 = some 2 := by
  refine ⟨by norm_num, by norm_num, by simp [Spec.maskedMap], ?_⟩
  simp [Spec.maskedMap]
  norm_num

end TS
