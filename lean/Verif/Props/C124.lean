import Verif.Props.C122Wave
import Verif.Lemmas.DvInterp
import Verif.Lemmas.Scf

/-! C124: a periodic map or cube shown over several periods gives the results of one period. -/

namespace TS
open Finset

namespace Spec

/-- The map repeated `p` times along the rows and `q` times along the columns. -/
def tiled {α : Type} (p q : ℕ) (a : Arr2 α) : Arr2 α := ⟨p * a.n, q * a.m, fun i j => a.get (i % a.n) (j % a.m)⟩

/-- The cube repeated on the sky. -/
def tiledCube {α : Type} (p q : ℕ) (c : Arr3 α) : Arr3 α := ⟨c.n, p * c.m, q * c.p, fun v i j => c.get v (i % c.m) (j % c.p)⟩

end Spec

/-! ### Sums over the periods -/

theorem sum_tile {M : Type} [AddCommMonoid M] (p n : ℕ) (f : ℕ → M) : ∑ i ∈ range (p * n), f (i % n) = p • ∑ i ∈ range n, f i := by
  induction p with
  | zero => simp
  | succ p ih =>
    rw [Nat.succ_mul, sum_range_add, ih, succ_nsmul]
    congr 1
    refine sum_congr rfl fun i hi => ?_
    rw [Nat.mul_add_mod', Nat.mod_eq_of_lt (mem_range.1 hi)]

theorem sum_tile2 {M : Type} [AddCommMonoid M] (p n q m : ℕ) (f : ℕ → ℕ → M) :
    ∑ i ∈ range (p * n), ∑ j ∈ range (q * m), f (i % n) (j % m) = (p * q) • ∑ i ∈ range n, ∑ j ∈ range m, f i j := by
  rw [sum_tile p n fun i => ∑ j ∈ range (q * m), f i (j % m), mul_nsmul']
  congr 1
  rw [← sum_nsmul]
  exact sum_congr rfl fun i _ => sum_tile q m _

theorem roll_tile {p n : ℕ} (s : ℤ) {i : ℕ} (hi : i < p * n) : rollIx (p * n) s i % n = rollIx n s (i % n) := by
  have hn : 0 < n := Nat.pos_of_ne_zero fun h => by simp [h] at hi
  have hpn : 0 < p * n := by omega
  have e1 := rollIx_cast hpn s i
  have e2 := rollIx_cast hn s (i % n)
  have e : ((rollIx (p * n) s i % n : ℕ) : ℤ) = ((rollIx n s (i % n) : ℕ) : ℤ) := by
    rw [Int.natCast_mod, e1, e2, Int.emod_emod_of_dvd _ (by push_cast; exact dvd_mul_left _ _), Int.natCast_mod, Int.sub_emod ((i : ℤ) % n), Int.emod_emod,
      ← Int.sub_emod]
  exact_mod_cast e

/-! ### SCF -/

theorem reduce_tile {p q : ℕ} (hp : 0 < p) (hq : 0 < q) {v v' : Arr2 (Option ℝ)} (hn : v'.n = p * v.n) (hm : v'.m = q * v.m)
    (h : ∀ i < v'.n, ∀ j < v'.m, v'.get i j = v.get (i % v.n) (j % v.m)) : scfReduce v' = scfReduce v := by
  have e : ∀ {M : Type} [AddCommMonoid M] (f : Option ℝ → M), ∑ i ∈ range v'.n, ∑ j ∈ range v'.m, f (v'.get i j) =
      (p * q) • ∑ i ∈ range v.n, ∑ j ∈ range v.m, f (v.get i j) := by
    intro M _ f
    rw [← sum_tile2 p v.n q v.m fun i j => f (v.get i j), ← hn, ← hm]
    exact sum_congr rfl fun i hi => sum_congr rfl fun j hj => by rw [h i (mem_range.1 hi) j (mem_range.1 hj)]
  have e1 : v'.nansum = (p * q) • v.nansum := e fun x => x.getD 0
  have e2 : v'.nFinite = (p * q) • v.nFinite := e fun x => if x.isSome then 1 else 0
  have hpq : 0 < p * q := Nat.mul_pos hp hq
  unfold scfReduce
  rw [e1, e2]
  simp only [nsmul_eq_mul, smul_eq_mul]
  by_cases h0 : v.nFinite = 0
  · simp [h0]
  · rw [if_neg (mul_ne_zero hpq.ne' h0), if_neg h0]
    have hr : ((p * q : ℕ) : ℝ) ≠ 0 := by exact_mod_cast hpq.ne'
    rw [show ((p * q * v.nFinite : ℕ) : ℝ) = ((p * q : ℕ) : ℝ) * v.nFinite by push_cast; ring, mul_div_mul_left _ _ hr]

/-! ### PCA -/

/-- **PCA.** Without mean subtraction the covariance matrix is the one of a single period; so are the eigenvalues and all that is made of them. -/
theorem C124_pca {p q : ℕ} (hp : 0 < p) (hq : 0 < q) (eps : ℝ) (c : Arr3 (Option ℝ)) :
    varCovCube eps false (Spec.tiledCube p q c) = varCovCube eps false c := by
  have hpq : 0 < p * q := Nat.mul_pos hp hq
  have hr : ((p * q : ℕ) : ℝ) ≠ 0 := by exact_mod_cast hpq.ne'
  have gen : ∀ {M : Type} [AddCommMonoid M] (a b : ℕ) (f : Option ℝ → Option ℝ → M),
      ∑ k ∈ range (p * c.m * (q * c.p)), f (chanVec (Spec.tiledCube p q c) a k) (chanVec (Spec.tiledCube p q c) b k) =
        (p * q) • ∑ k ∈ range (c.m * c.p), f (chanVec c a k) (chanVec c b k) := by
    intro M _ a b f
    refine (sum_flat (p * c.m) (q * c.p) fun i j => f (c.get a (i % c.m) (j % c.p)) (c.get b (i % c.m) (j % c.p))).trans ?_
    rw [sum_tile2 p c.m q c.p fun i j => f (c.get a i j) (c.get b i j)]
    congr 1
    exact (sum_flat c.m c.p fun i j => f (c.get a i j) (c.get b i j)).symm
  have entry : ∀ (a b : ℕ) (f g : Option ℝ → Option ℝ),
      vcEntry false (p * c.m * (q * c.p)) (fun k => f (chanVec (Spec.tiledCube p q c) a k)) (fun k => g (chanVec (Spec.tiledCube p q c) b k)) =
        vcEntry false (c.m * c.p) (fun k => f (chanVec c a k)) (fun k => g (chanVec c b k)) := by
    intro a b f g
    unfold vcEntry
    have s1 : vecNansum (p * c.m * (q * c.p)) (fun k => mulO (f (chanVec (Spec.tiledCube p q c) a k)) (g (chanVec (Spec.tiledCube p q c) b k))) =
        (p * q) • vecNansum (c.m * c.p) (fun k => mulO (f (chanVec c a k)) (g (chanVec c b k))) := gen a b fun x y => (mulO (f x) (g y)).getD 0
    have s2 : vecCount (p * c.m * (q * c.p)) (fun k => mulO (f (chanVec (Spec.tiledCube p q c) a k)) (g (chanVec (Spec.tiledCube p q c) b k))) =
        (p * q) • vecCount (c.m * c.p) (fun k => mulO (f (chanVec c a k)) (g (chanVec c b k))) := gen a b fun x y => if (mulO (f x) (g y)).isSome then 1 else 0
    dsimp only
    rw [s1, s2]
    simp only [nsmul_eq_mul, smul_eq_mul, Bool.false_eq_true, if_false, sub_zero, divO, Option.bind_eq_bind, Option.bind_some]
    rw [show ((p * q * vecCount (c.m * c.p) (fun k => mulO (f (chanVec c a k)) (g (chanVec c b k))) : ℕ) : ℝ) =
      ((p * q : ℕ) : ℝ) * vecCount (c.m * c.p) (fun k => mulO (f (chanVec c a k)) (g (chanVec c b k))) by push_cast; ring, mul_div_mul_left _ _ hr]
    exact if_congr ⟨fun h => (mul_eq_zero.1 h).resolve_left hr, fun h => by rw [h, mul_zero]⟩ rfl rfl
  have low : ∀ i j, vcLower eps false (Spec.tiledCube p q c) i j = vcLower eps false c i j := by
    intro i j
    have h1 := entry i j (fun x => some (x.getD eps)) id
    have h2 := entry i i (fun x => some (x.getD eps)) fun x => some (x.getD eps)
    show (if j < i then vcEntry false (p * c.m * (q * c.p)) (fun k => some ((chanVec (Spec.tiledCube p q c) i k).getD eps))
        (fun k => id (chanVec (Spec.tiledCube p q c) j k)) else if j = i then mulO (some 0.5) (vcEntry false (p * c.m * (q * c.p))
          (fun k => some ((chanVec (Spec.tiledCube p q c) i k).getD eps)) (fun k => some ((chanVec (Spec.tiledCube p q c) i k).getD eps))) else some 0) = _
    rw [h1, h2]
    rfl
  unfold varCovCube
  simp only [low]
  rfl

/-- VIOLATION: with mean subtraction the sum is divided by one less than the number of pixels. The values 1 and 3 have the variance 2; two periods of
them have the variance 4/3. -/
theorem C124_pca_mean_violated (eps : ℝ) : ∃ cube : Arr3 (Option ℝ), (varCovCube eps true cube).get 0 0 = 2 ∧
    (varCovCube eps true (Spec.tiledCube 2 1 cube)).get 0 0 = 4 / 3 := by
  refine ⟨⟨1, 1, 2, fun _ _ j => if j = 0 then some 1 else some 3⟩, ?_, ?_⟩
  · norm_num [varCovCube, vcLower, vcEntry, vcCenter, vcFill, vecCount, vecNansum, chanVec, mulO, addO, divO, subO, sum_range_succ]
  · norm_num [varCovCube, vcLower, vcEntry, vcCenter, vcFill, vecCount, vecNansum, chanVec, mulO, addO, divO, subO, Spec.tiledCube, sum_range_succ]

/-! ### Cyclic convolutions -/

private theorem wrap_value (k : Kern) {a : Arr2 ℝ} (hn : 2 * k.r + 1 ≤ a.n) (hm : 2 * k.r + 1 ≤ a.m) (i j : ℕ) :
    (applyK (k.wrapCoef a.n a.m) a).get i j =
      ∑ x ∈ Icc (-(k.r : ℤ)) k.r, ∑ y ∈ Icc (-(k.r : ℤ)) k.r, k.val x y * a.get (rollIx a.n x i) (rollIx a.m y j) := by
  show ∑ u ∈ range a.n, ∑ v ∈ range a.m, k.wrapCoef a.n a.m i j u v * a.get u v = _
  unfold Kern.wrapCoef
  rw [max_eq_left hn, max_eq_left hm]
  simp only [sum_mul]
  have sw : ∀ u ∈ range a.n, (∑ v ∈ range a.m, ∑ x ∈ Icc (-(k.r : ℤ)) k.r, ∑ y ∈ Icc (-(k.r : ℤ)) k.r,
      (if (a.n : ℤ) ∣ (i : ℤ) - u - x ∧ (a.m : ℤ) ∣ (j : ℤ) - v - y then k.val x y else 0) * a.get u v) =
      ∑ x ∈ Icc (-(k.r : ℤ)) k.r, ∑ y ∈ Icc (-(k.r : ℤ)) k.r, ∑ v ∈ range a.m,
        (if (a.n : ℤ) ∣ (i : ℤ) - u - x ∧ (a.m : ℤ) ∣ (j : ℤ) - v - y then k.val x y else 0) * a.get u v := by
    intro u _
    rw [sum_comm]
    exact sum_congr rfl fun x _ => sum_comm
  rw [sum_congr rfl sw, sum_comm]
  refine sum_congr rfl fun x _ => ?_
  rw [sum_comm]
  refine sum_congr rfl fun y _ => ?_
  have ix : ∀ {n : ℕ} (_ : 0 < n) (s : ℤ) (i u : ℕ), u < n → ((n : ℤ) ∣ (i : ℤ) - u - s ↔ u = rollIx n s i) := by
    intro n _ s i u hu
    rw [eq_comm, rollIx_iff hu, sub_sub]
  have e : ∀ u ∈ range a.n, ∀ v ∈ range a.m, (if (a.n : ℤ) ∣ (i : ℤ) - u - x ∧ (a.m : ℤ) ∣ (j : ℤ) - v - y then k.val x y else 0) * a.get u v =
      if u = rollIx a.n x i then (if v = rollIx a.m y j then k.val x y * a.get u v else 0) else 0 := by
    intro u hu v hv
    rw [if_congr (and_congr (ix (by omega) x i u (mem_range.1 hu)) (ix (by omega) y j v (mem_range.1 hv))) rfl rfl]
    by_cases h1 : u = rollIx a.n x i <;> by_cases h2 : v = rollIx a.m y j <;> simp [h1, h2]
  rw [sum_congr rfl fun u hu => sum_congr rfl fun v hv => e u hu v hv]
  have e2 : ∀ u ∈ range a.n, (∑ v ∈ range a.m, if u = rollIx a.n x i then (if v = rollIx a.m y j then k.val x y * a.get u v else 0) else 0) =
      if u = rollIx a.n x i then (k.val x y * a.get u (rollIx a.m y j)) else 0 := by
    intro u _
    by_cases h1 : u = rollIx a.n x i
    · simp only [if_pos h1]
      rw [sum_ite_eq', if_pos (mem_range.2 (rollIx_lt (by omega) y j))]
    · simp only [if_neg h1, sum_const_zero]
  rw [sum_congr rfl e2, sum_ite_eq', if_pos (mem_range.2 (rollIx_lt (by omega) x i))]

theorem wrap_tiled (k : Kern) {p q : ℕ} (hp : 0 < p) (hq : 0 < q) {a A : Arr2 ℝ} (hn : 2 * k.r + 1 ≤ a.n) (hm : 2 * k.r + 1 ≤ a.m)
    (hA : A.n = p * a.n) (hB : A.m = q * a.m) (h : ∀ i < A.n, ∀ j < A.m, A.get i j = a.get (i % a.n) (j % a.m)) {i j : ℕ} (hi : i < A.n) (hj : j < A.m) :
    (applyK (k.coef .wrap A.n A.m) A).get i j = (applyK (k.coef .wrap a.n a.m) a).get (i % a.n) (j % a.m) := by
  show (applyK (k.wrapCoef A.n A.m) A).get i j = (applyK (k.wrapCoef a.n a.m) a).get (i % a.n) (j % a.m)
  rw [wrap_value k (by rw [hA]; exact hn.trans (Nat.le_mul_of_pos_left _ hp)) (by rw [hB]; exact hm.trans (Nat.le_mul_of_pos_left _ hq)),
    wrap_value k hn hm]
  refine sum_congr rfl fun x _ => sum_congr rfl fun y _ => ?_
  rw [h _ (rollIx_lt (by omega) x i) _ (rollIx_lt (by omega) y j), hA, hB, roll_tile x (hA ▸ hi), roll_tile y (hB ▸ hj)]

/-! ### Wavelets -/

private theorem mean_tiled {p q : ℕ} (hp : 0 < p) (hq : 0 < q) {a A : Arr2 ℝ} (hA : A.n = p * a.n) (hB : A.m = q * a.m)
    (h : ∀ i < A.n, ∀ j < A.m, A.get i j = a.get (i % a.n) (j % a.m)) :
    meanO (A.ravel.filter fun v => decide (0 < v)) = meanO (a.ravel.filter fun v => decide (0 < v)) := by
  have hpq : 0 < p * q := Nat.mul_pos hp hq
  have hr : ((p * q : ℕ) : ℝ) ≠ 0 := by exact_mod_cast hpq.ne'
  have tot : ∀ {M : Type} [AddCommMonoid M] (b : Arr2 ℝ) (f : ℝ → M), (b.ravel.map f).sum = ∑ i ∈ range b.n, ∑ j ∈ range b.m, f (b.get i j) := by
    intro M _ b f
    have e : ((b.ravel : Multiset ℝ).map f).sum = (((range b.n ×ˢ range b.m).val.map fun p => b.get p.1 p.2).map f).sum := by rw [ravel_eq]
    rw [Multiset.map_coe, Multiset.sum_coe, Multiset.map_map] at e
    rw [e, ← sum_product' (range b.n) (range b.m) fun i j => f (b.get i j)]
    rfl
  have til : ∀ {M : Type} [AddCommMonoid M] (f : ℝ → M), (A.ravel.map f).sum = (p * q) • (a.ravel.map f).sum := by
    intro M _ f
    rw [tot, tot, ← sum_tile2 p a.n q a.m fun i j => f (a.get i j), ← hA, ← hB]
    exact sum_congr rfl fun i hi => sum_congr rfl fun j hj => by rw [h i (mem_range.1 hi) j (mem_range.1 hj)]
  have fsum : ∀ x : List ℝ, (x.filter fun v => decide (0 < v)).sum = (x.map fun v => if 0 < v then v else 0).sum := by
    intro x
    induction x with
    | nil => rfl
    | cons v x ih => by_cases h : 0 < v <;> simp [h, ih]
  have flen : ∀ x : List ℝ, (x.filter fun v => decide (0 < v)).length = (x.map fun v => if 0 < v then 1 else 0).sum := by
    intro x
    induction x with
    | nil => rfl
    | cons v x ih =>
      by_cases h : 0 < v
      · simp [h, ih, add_comm]
      · simp [h, ih]
  have e1 : (A.ravel.filter fun v => decide (0 < v)).sum = (p * q) • (a.ravel.filter fun v => decide (0 < v)).sum := by
    rw [fsum, fsum, til]
  have e2 : (A.ravel.filter fun v => decide (0 < v)).length = (p * q) • (a.ravel.filter fun v => decide (0 < v)).length := by
    rw [flen, flen, til]
  generalize (A.ravel.filter fun v => decide (0 < v)) = X at e1 e2
  generalize (a.ravel.filter fun v => decide (0 < v)) = x at e1 e2
  unfold meanO
  rw [e1, e2]
  have hnil : X = [] ↔ x = [] := by
    rw [← List.length_eq_zero_iff, ← List.length_eq_zero_iff, e2, smul_eq_mul]
    exact ⟨fun h => (Nat.mul_eq_zero.1 h).resolve_left hpq.ne', fun h => by rw [h, Nat.mul_zero]⟩
  refine if_congr hnil rfl ?_
  rw [nsmul_eq_mul, smul_eq_mul, show ((p * q * x.length : ℕ) : ℝ) = ((p * q : ℕ) : ℝ) * x.length by push_cast; ring, mul_div_mul_left _ _ hr]

/-- **Wavelets.** With the boundary 'wrap' the values at all scales whose kernel fits in a period are those of a single period. -/
theorem C124_wavelet {p q : ℕ} (hp : 0 < p) (hq : 0 < q) (scaleNorm : Bool) (scales : List ℝ) (a : Arr2 (Option ℝ))
    (hfit : ∀ an ∈ scales, 2 * kernRadius an + 1 ≤ min a.n a.m) :
    (computeTransform .wrap scaleNorm scales (Spec.tiled p q a)).map Prod.fst = (computeTransform .wrap scaleNorm scales a).map Prod.fst := by
  unfold computeTransform
  rw [List.map_map, List.map_map]
  refine List.map_congr_left fun an han => ?_
  have hf := hfit an han
  show meanO _ = meanO _
  refine mean_tiled hp hq (a := waveletMap ((rickerKern an).coef .wrap a.n a.m) scaleNorm an a) rfl rfl ?_
  intro i hi j hj
  show (applyK ((rickerKern an).coef .wrap (p * a.n) (q * a.m)) (waveletData (Spec.tiled p q a))).get i j * _ =
    (applyK ((rickerKern an).coef .wrap a.n a.m) (waveletData a)).get (i % a.n) (j % a.m) * _
  congr 1
  exact wrap_tiled (rickerKern an) hp hq (a := waveletData a) (A := waveletData (Spec.tiled p q a)) (hf.trans' (by rfl) |>.trans (min_le_left _ _))
    (hf.trans' (by rfl) |>.trans (min_le_right _ _)) rfl rfl (fun i _ j _ => rfl) hi hj

/-! ### Delta-variance -/

private theorem tail_value (val arg nind : ℝ) (ha : 0 ≤ arg) (hn : 0 ≤ nind) :
    (if nind = 0 then (if arg = 0 then none else some (val, ErrVal.inf))
      else if Real.sqrt arg / nind ≤ 0 then none else some (val, ErrVal.fin (Real.sqrt arg / nind))).map Prod.fst =
    if arg = 0 then none else some val := by
  by_cases h0 : nind = 0
  · rw [if_pos h0]
    split_ifs <;> rfl
  · rw [if_neg h0]
    have hp : 0 < nind := lt_of_le_of_ne hn (Ne.symm h0)
    by_cases h1 : arg = 0
    · rw [if_pos (by rw [h1, Real.sqrt_zero, zero_div]), if_pos h1]
      rfl
    · rw [if_neg (not_le.2 (div_pos (Real.sqrt_pos.2 (lt_of_le_of_ne ha (Ne.symm h1))) hp)), if_neg h1]
      rfl

private theorem same_value (val arg : ℝ) {n1 n2 : ℝ} (h1 : 0 ≤ n1) (h2 : 0 ≤ n2) :
    (if val ≤ 0 ∨ arg < 0 then none else if n1 = 0 then (if arg = 0 then none else some (val, ErrVal.inf))
      else if Real.sqrt arg / n1 ≤ 0 then none else some (val, ErrVal.fin (Real.sqrt arg / n1))).map Prod.fst =
    (if val ≤ 0 ∨ arg < 0 then none else if n2 = 0 then (if arg = 0 then none else some (val, ErrVal.inf))
      else if Real.sqrt arg / n2 ≤ 0 then none else some (val, ErrVal.fin (Real.sqrt arg / n2))).map Prod.fst := by
  by_cases h : val ≤ 0 ∨ arg < 0
  · rw [if_pos h, if_pos h]
  · have ha := not_lt.1 (not_or.1 h).2
    rw [if_neg h, if_neg h, tail_value val arg n1 ha h1, tail_value val arg n2 ha h2]

private theorem divO_scale {K : ℝ} (hK : K ≠ 0) (a b : ℝ) : divO (some (K * a)) (some (K * b)) = divO (some a) (some b) := by
  simp only [divO, Option.bind_eq_bind, Option.bind_some]
  rw [mul_div_mul_left _ _ hK]
  exact if_congr ⟨fun h => (mul_eq_zero.1 h).resolve_left hK, fun h => by rw [h, mul_zero]⟩ rfl rfl

theorem delvar_tiled {p q : ℕ} (hp : 0 < p) (hq : 0 < q) {arr wt arr' wt' : Arr2 (Option ℝ)} (lag : ℝ) (hw : wt.n = arr.n) (hw2 : wt.m = arr.m)
    (hw' : wt'.n = arr'.n) (hw2' : wt'.m = arr'.m) (hn : arr'.n = p * arr.n) (hm : arr'.m = q * arr.m)
    (h : ∀ i < arr'.n, ∀ j < arr'.m, arr'.get i j = arr.get (i % arr.n) (j % arr.m) ∧ wt'.get i j = wt.get (i % arr.n) (j % arr.m)) :
    (delvar arr' wt' lag).map Prod.fst = (delvar arr wt lag).map Prod.fst := by
  have hpq : 0 < p * q := Nat.mul_pos hp hq
  set K : ℝ := ((p * q : ℕ) : ℝ) with hK
  have hr : K ≠ 0 := by rw [hK]; exact_mod_cast hpq.ne'
  have e : ∀ {M : Type} [AddCommMonoid M] (f : Option ℝ → Option ℝ → M), ∑ i ∈ range arr'.n, ∑ j ∈ range arr'.m, f (arr'.get i j) (wt'.get i j) =
      (p * q) • ∑ i ∈ range arr.n, ∑ j ∈ range arr.m, f (arr.get i j) (wt.get i j) := by
    intro M _ f
    rw [← sum_tile2 p arr.n q arr.m fun i j => f (arr.get i j) (wt.get i j), ← hn, ← hm]
    exact sum_congr rfl fun i hi => sum_congr rfl fun j hj => by rw [(h i (mem_range.1 hi) j (mem_range.1 hj)).1, (h i (mem_range.1 hi) j (mem_range.1 hj)).2]
  have s1 : arr'.nansum = K * arr.nansum := (e fun x _ => x.getD 0).trans (nsmul_eq_mul _ _)
  have s2 : (arr'.nFinite : ℝ) = K * arr.nFinite := by
    have := e fun x _ => if x.isSome then 1 else 0
    have h' : arr'.nFinite = p * q * arr.nFinite := this
    rw [h', hK]
    push_cast
    ring
  have s3 : wt'.nansum = K * wt.nansum := by
    unfold Arr2.nansum
    rw [hw, hw2, hw', hw2']
    exact (e fun _ y => y.getD 0).trans (nsmul_eq_mul _ _)
  have s4 : ∀ (μ : Option ℝ) (k : ℕ), (⟨arr'.n, arr'.m, fun i j => mulO ((subO (arr'.get i j) μ).map (· ^ k)) (wt'.get i j)⟩ : Arr2 (Option ℝ)).nansum =
      K * (⟨arr.n, arr.m, fun i j => mulO ((subO (arr.get i j) μ).map (· ^ k)) (wt.get i j)⟩ : Arr2 (Option ℝ)).nansum := fun μ k =>
    (e fun x y => (mulO ((subO x μ).map (· ^ k)) y).getD 0).trans (nsmul_eq_mul _ _)
  have hz : wt'.nansum = 0 ↔ wt.nansum = 0 := by
    rw [s3]
    exact ⟨fun h => (mul_eq_zero.1 h).resolve_left hr, fun h => by rw [h, mul_zero]⟩
  unfold delvar
  dsimp only
  rw [s1, s2, divO_scale hr]
  simp only [s4]
  by_cases h0 : wt.nansum = 0
  · rw [if_pos (hz.2 h0), if_pos h0]
  · rw [if_neg fun h => h0 (hz.1 h), if_neg h0]
    simp only [s3, mul_div_mul_left _ _ hr]
    exact same_value _ _ (Real.sqrt_nonneg _) (Real.sqrt_nonneg _)

theorem max_tiled {p q : ℕ} (hp : 0 < p) (hq : 0 < q) (w : Arr2 ℝ) : npMax (Spec.tiled p q w).ravel = npMax w.ravel := by
  have hsub : ∀ x, x ∈ (Spec.tiled p q w).ravel ↔ x ∈ w.ravel := by
    intro x
    rw [mem_ravel, mem_ravel]
    constructor
    · rintro ⟨i, hi, j, hj, e⟩
      have hi' : i < p * w.n := hi
      have hj' : j < q * w.m := hj
      have hn : 0 < w.n := Nat.pos_of_ne_zero fun h => by simp [h] at hi'
      have hm : 0 < w.m := Nat.pos_of_ne_zero fun h => by simp [h] at hj'
      exact ⟨i % w.n, Nat.mod_lt _ hn, j % w.m, Nat.mod_lt _ hm, e⟩
    · rintro ⟨i, hi, j, hj, e⟩
      refine ⟨i, lt_of_lt_of_le hi (Nat.le_mul_of_pos_left _ hp), j, lt_of_lt_of_le hj (Nat.le_mul_of_pos_left _ hq), ?_⟩
      show w.get (i % w.n) (j % w.m) = x
      rw [Nat.mod_eq_of_lt hi, Nat.mod_eq_of_lt hj, e]
  generalize (Spec.tiled p q w).ravel = X at hsub
  generalize w.ravel = x at hsub
  cases hX : npMax X with
  | error e =>
    cases X with
    | nil =>
      cases x with
      | nil => exact hX.symm
      | cons v x => exact absurd ((hsub v).2 List.mem_cons_self) List.not_mem_nil
    | cons v X => exact absurd hX (by simp [npMax])
  | ok z =>
    cases hx : npMax x with
    | error e =>
      cases x with
      | nil => exact absurd ((hsub z).1 (npMax_spec hX).1) List.not_mem_nil
      | cons v x => exact absurd hx (by simp [npMax])
    | ok z' =>
      congr 1
      exact le_antisymm ((npMax_spec hx).2 _ ((hsub z).1 (npMax_spec hX).1)) ((npMax_spec hX).2 _ ((hsub z').2 (npMax_spec hx).1))

private theorem lag_tiled {p q : ℕ} (hp : 0 < p) (hq : 0 < q) (junkI : ℕ → ℕ → Option ℝ) (junkW : ℕ → ℕ → ℝ) (frac : ℝ) (preserve : Bool) (ratio lag : ℝ)
    {a : Arr2 (Option ℝ)} {w : Arr2 ℝ} (hn : w.n = a.n) (hm : w.m = a.m) (h1 : 2 * (coreKernel lag).r + 1 ≤ a.n) (h2 : 2 * (coreKernel lag).r + 1 ≤ a.m) :
    (deltaVarLag junkI junkW .wrap frac preserve ratio lag (Spec.tiled p q a) (Spec.tiled p q w)).map (Option.map Prod.fst) =
      (deltaVarLag junkI junkW .wrap frac preserve ratio lag a w).map (Option.map Prod.fst) := by
  unfold deltaVarLag deltaVarAt
  rw [max_tiled hp hq]
  simp only [dvPad, bind, Except.bind, pure, Except.pure]
  cases npMax w.ravel with
  | error e => rfl
  | ok wm =>
    simp only [Except.map]
    congr 1
    set pi : Arr2 (Option ℝ) := ⟨a.n, a.m, fun i j => mulO (a.get i j) (some (w.get i j))⟩ with hpi
    set pi' : Arr2 (Option ℝ) := ⟨(Spec.tiled p q a).n, (Spec.tiled p q a).m, fun i j => mulO ((Spec.tiled p q a).get i j)
      (some ((Spec.tiled p q w).get i j))⟩ with hpi'
    have hg : ∀ i j, pi'.get i j = pi.get (i % a.n) (j % a.m) := by
      intro i j
      show mulO (a.get (i % a.n) (j % a.m)) (some (w.get (i % w.n) (j % w.m))) = _
      rw [hn, hm]
    refine delvar_tiled hp hq lag rfl rfl rfl rfl rfl rfl ?_
    intro i hi j hj
    have conv : ∀ k : Kern, k.r = (coreKernel lag).r →
        (applyK (k.coef .wrap (p * a.n) (q * a.m)) (pi'.map (fun v => v.getD 0))).get i j =
          (applyK (k.coef .wrap a.n a.m) (pi.map (fun v => v.getD 0))).get (i % a.n) (j % a.m) ∧
        (applyK (k.coef .wrap (p * a.n) (q * a.m)) (Spec.tiled p q w)).get i j = (applyK (k.coef .wrap a.n a.m) w).get (i % a.n) (j % a.m) := by
      intro k hk
      constructor
      · refine wrap_tiled k hp hq (a := pi.map (fun v => v.getD 0)) (A := pi'.map (fun v => v.getD 0)) (by rw [hk]; exact h1) (by rw [hk]; exact h2)
          rfl rfl (fun i _ j _ => ?_) hi hj
        show (pi'.get i j).getD 0 = (pi.get (i % a.n) (j % a.m)).getD 0
        rw [hg]
      · have := wrap_tiled k hp hq (a := w) (A := Spec.tiled p q w) (by rw [hk, hn]; exact h1) (by rw [hk, hm]; exact h2) rfl rfl (fun i _ j _ => rfl)
          (i := i) (j := j) (by show i < p * w.n; rw [hn]; exact hi) (by show j < q * w.m; rw [hm]; exact hj)
        rw [hn, hm] at this
        rw [← this]
        show _ = (applyK (k.coef .wrap (p * w.n) (q * w.m)) (Spec.tiled p q w)).get i j
        rw [hn, hm]
    obtain ⟨c1, c2⟩ := conv (coreKernel lag).normalised rfl
    obtain ⟨c3, c4⟩ := conv (annulusKernel lag ratio).normalised rfl
    constructor
    · show (if preserve ∧ (pi'.get i j).isNone then none
        else subO (divO (some ((applyK ((coreKernel lag).normalised.coef .wrap (p * a.n) (q * a.m)) (pi'.map (fun v => v.getD 0))).get i j))
          (dvMask (frac * wm) ((applyK ((coreKernel lag).normalised.coef .wrap (p * a.n) (q * a.m)) (Spec.tiled p q w)).get i j)))
          (divO (some ((applyK ((annulusKernel lag ratio).normalised.coef .wrap (p * a.n) (q * a.m)) (pi'.map (fun v => v.getD 0))).get i j))
          (dvMask (frac * wm) ((applyK ((annulusKernel lag ratio).normalised.coef .wrap (p * a.n) (q * a.m)) (Spec.tiled p q w)).get i j)))) = _
      rw [c1, c2, c3, c4, hg]
      rfl
    · show mulO (dvMask (frac * wm) ((applyK ((coreKernel lag).normalised.coef .wrap (p * a.n) (q * a.m)) (Spec.tiled p q w)).get i j))
        (dvMask (frac * wm) ((applyK ((annulusKernel lag ratio).normalised.coef .wrap (p * a.n) (q * a.m)) (Spec.tiled p q w)).get i j)) = _
      rw [c2, c4]
      rfl

theorem mapM_same {α β γ : Type} (f g : α → Py β) (k : β → γ) (l : List α) (h : ∀ x ∈ l, (f x).map k = (g x).map k) :
    (l.mapM f).map (List.map k) = (l.mapM g).map (List.map k) := by
  induction l with
  | nil => rw [List.mapM_nil, List.mapM_nil]
  | cons x l ih =>
    have e := h x List.mem_cons_self
    have ih' := ih fun y hy => h y (List.mem_cons_of_mem _ hy)
    rw [List.mapM_cons, List.mapM_cons]
    cases hx : f x <;> cases hy : g x <;> simp only [hx, hy, Except.map, reduceCtorEq, Except.error.injEq, Except.ok.injEq] at e
    · rw [e]
      rfl
    · cases hxs : l.mapM f <;> cases hys : l.mapM g <;> simp only [hxs, hys, Except.map, reduceCtorEq, Except.error.injEq, Except.ok.injEq] at ih'
      · rw [ih']
        rfl
      · simp only [bind, Except.bind, pure, Except.pure, Except.map, List.map_cons, e, ih']

theorem fit_core {lag : ℝ} {n : ℕ} (h : 2 * kernRadius (lag / (2 * Real.sqrt 2)) + 1 ≤ n) : 2 * (coreKernel lag).r + 1 ≤ n := by
  have hrad : (coreKernel lag).r = kernRadius (lag / (2 * Real.sqrt 2)) := by simp only [coreKernel]
  rw [hrad]
  exact h

/-- **Delta-variance.** With the default boundary 'wrap' the values at all lags whose kernel fits in a period are those of a single period, for all
weights (repeated with the map). The errors shrink with the number of pixels. -/
theorem C124_delta_variance {p q : ℕ} (hp : 0 < p) (hq : 0 < q) (junkI : ℕ → ℕ → Option ℝ) (junkW : ℕ → ℕ → ℝ) (frac : ℝ) (preserve : Bool) (ratio : ℝ)
    (lags : List ℝ) {a : Arr2 (Option ℝ)} {w : Arr2 ℝ} (hn : w.n = a.n) (hm : w.m = a.m)
    (hfit : ∀ lag ∈ lags, 2 * kernRadius (lag / (2 * Real.sqrt 2)) + 1 ≤ min a.n a.m) :
    (computeDeltavar junkI junkW .wrap frac preserve ratio lags (Spec.tiled p q a) (Spec.tiled p q w)).map (List.map (Option.map Prod.fst)) =
      (computeDeltavar junkI junkW .wrap frac preserve ratio lags a w).map (List.map (Option.map Prod.fst)) := by
  unfold computeDeltavar
  refine mapM_same _ _ _ lags fun lag hl => ?_
  have h := fit_core (hfit lag hl)
  exact lag_tiled hp hq junkI junkW frac preserve ratio lag hn hm (h.trans (min_le_left _ _)) (h.trans (min_le_right _ _))

/-- A map of 9 by 10 pixels is wide enough at a lag of 3 pixels and at a wavelet scale of one pixel. -/
example (v : ℕ → ℕ → Option ℝ) (w : ℕ → ℕ → ℝ) (junkI : ℕ → ℕ → Option ℝ) (junkW : ℕ → ℕ → ℝ) :
    (computeDeltavar junkI junkW .wrap 0.01 true 1.5 [3] (Spec.tiled 2 3 ⟨9, 10, v⟩) (Spec.tiled 2 3 ⟨9, 10, w⟩)).map (List.map (Option.map Prod.fst)) =
      (computeDeltavar junkI junkW .wrap 0.01 true 1.5 [3] ⟨9, 10, v⟩ ⟨9, 10, w⟩).map (List.map (Option.map Prod.fst)) ∧
    (computeTransform .wrap true [1] (Spec.tiled 2 3 ⟨9, 10, v⟩)).map Prod.fst = (computeTransform .wrap true [1] ⟨9, 10, v⟩).map Prod.fst := by
  constructor
  · refine C124_delta_variance (by norm_num) (by norm_num) junkI junkW 0.01 true 1.5 [3] rfl rfl fun lag h => ?_
    rw [List.mem_singleton.1 h, kernRadius_three]
    norm_num
  · refine C124_wavelet (by norm_num) (by norm_num) true [1] _ fun an h => ?_
    rw [List.mem_singleton.1 h, kernRadius_one]
    norm_num

end TS
