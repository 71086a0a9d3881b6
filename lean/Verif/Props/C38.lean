import Mathlib.Analysis.SpecialFunctions.Gaussian.GaussianIntegral
import Verif.Model.DeltaVariance
import Verif.Props.C23
import Mathlib.Algebra.Order.Chebyshev
import Mathlib.Tactic.Positivity
import Mathlib.Tactic.FieldSimp

/-! C38 — invariances of the delta-variance. -/

namespace TS
open Finset

namespace Spec

/-- Every missing pixel has weight zero (true of the default weights). -/
def MissingUnweighted (img : Arr2 (Option ℝ)) (w : Arr2 ℝ) : Prop :=
  w.n = img.n ∧ w.m = img.m ∧ ∀ i < img.n, ∀ j < img.m, img.get i j = none → w.get i j = 0

/-- The map with `a` added to every pixel. -/
noncomputable def shifted (a : ℝ) (img : Arr2 (Option ℝ)) : Arr2 (Option ℝ) := img.map (Option.map (· + a))

/-- The map multiplied by `c`. -/
noncomputable def scaled (c : ℝ) (img : Arr2 (Option ℝ)) : Arr2 (Option ℝ) := img.map (Option.map (c * ·))

/-- The pixels where both smoothed weight maps exceed the cut-off. -/
noncomputable def supported (n m : ℕ) (cut : ℝ) (gc ga : ℕ × ℕ → ℝ) : Finset (ℕ × ℕ) :=
  (range n ×ˢ range m).filter (fun q => cut < gc q ∧ cut < ga q)

/-- Weighted central moment of `D` over the pixels `S` (about the plain mean). -/
noncomputable def wMoment (S : Finset (ℕ × ℕ)) (D W : ℕ × ℕ → ℝ) (p : ℕ) : ℝ :=
  (∑ q ∈ S, W q * (D q - (∑ r ∈ S, D r) / S.card) ^ p) / ∑ q ∈ S, W q

/-- A map smoothed with a kernel. -/
noncomputable def smooth (k : ℕ → ℕ → ℕ → ℕ → ℝ) (n m : ℕ) (f : ℕ → ℕ → ℝ) (q : ℕ × ℕ) : ℝ :=
  ∑ u ∈ range n, ∑ v ∈ range m, k q.1 q.2 u v * f u v

/-- An error multiplied by `c`. -/
noncomputable def scaleErr (c : ℝ) : ErrVal → ErrVal
  | .fin e => .fin (c * e)
  | .inf => .inf

end Spec

theorem applyK_congr (coef : ℕ → ℕ → ℕ → ℕ → ℝ) {a b : Arr2 ℝ} (hn : a.n = b.n) (hm : a.m = b.m)
    (h : ∀ i < a.n, ∀ j < a.m, a.get i j = b.get i j) (i j : ℕ) :
    (applyK coef a).get i j = (applyK coef b).get i j := by
  unfold applyK
  simp only
  rw [← hn, ← hm]
  apply sum_congr rfl; intro u hu
  apply sum_congr rfl; intro v hv
  rw [h u (mem_range.1 hu) v (mem_range.1 hv)]

theorem applyK_lin (coef : ℕ → ℕ → ℕ → ℕ → ℝ) (a b : Arr2 ℝ) (c d : ℝ) (n m i j : ℕ)
    (ha : a.n = n ∧ a.m = m) (hb : b.n = n ∧ b.m = m) :
    (applyK coef ⟨n, m, fun u v => c * a.get u v + d * b.get u v⟩).get i j =
      c * (applyK coef a).get i j + d * (applyK coef b).get i j := by
  unfold applyK
  simp only
  rw [ha.1, ha.2, hb.1, hb.2, mul_sum, mul_sum, ← sum_add_distrib]
  apply sum_congr rfl; intro u _
  rw [mul_sum, mul_sum, ← sum_add_distrib]
  apply sum_congr rfl; intro v _
  ring

/-- Two padded pairs (image, weights) whose filtered maps are compared. -/
def DvPadRel (img img' : Arr2 (Option ℝ)) (w : Arr2 ℝ) (c a : ℝ) : Prop :=
  img'.n = img.n ∧ img'.m = img.m ∧ w.n = img.n ∧ w.m = img.m ∧
  ∀ i < img.n, ∀ j < img.m, ((img'.get i j).isNone = (img.get i j).isNone) ∧
    (img'.get i j).getD 0 = c * (img.get i j).getD 0 + a * w.get i j

private theorem filter_rel (core ann : ℕ → ℕ → ℕ → ℕ → ℝ) (cut : ℝ) (preserve : Bool)
    {img img' : Arr2 (Option ℝ)} {w : Arr2 ℝ} {c a : ℝ} (h : DvPadRel img img' w c a) (i j : ℕ)
    (hi : i < img.n) (hj : j < img.m) :
    (dvFilter core ann cut preserve img' w).1.get i j =
      ((dvFilter core ann cut preserve img w).1.get i j).map (c * ·) ∧
    (dvFilter core ann cut preserve img' w).2.get i j = (dvFilter core ann cut preserve img w).2.get i j := by
  obtain ⟨hn, hm, hwn, hwm, hv⟩ := h
  have key : ∀ coef : ℕ → ℕ → ℕ → ℕ → ℝ, (applyK coef (img'.map (fun v => v.getD 0))).get i j =
      c * (applyK coef (img.map (fun v => v.getD 0))).get i j + a * (applyK coef w).get i j := by
    intro coef
    rw [← applyK_lin coef (img.map (fun v => v.getD 0)) w c a img.n img.m i j ⟨rfl, rfl⟩ ⟨hwn, hwm⟩]
    apply applyK_congr
    · exact hn
    · exact hm
    · intro u hu v hv'
      exact (hv u (by rw [← hn]; exact hu) v (by rw [← hm]; exact hv')).2
  refine ⟨?_, rfl⟩
  unfold dvFilter
  simp only [(hv i hi j hj).1]
  split_ifs with hp
  · rfl
  · rw [key core, key ann]
    unfold dvMask
    by_cases h1 : (applyK core w).get i j ≤ cut
    · rw [if_pos h1]; simp [divO, subO]
    · by_cases h2 : (applyK ann w).get i j ≤ cut
      · rw [if_pos h2]; simp [divO, subO]
      · rw [if_neg h1, if_neg h2]
        by_cases z1 : (applyK core w).get i j = 0
        · simp [divO, subO, z1]
        · by_cases z2 : (applyK ann w).get i j = 0
          · simp [divO, subO, z2]
          · simp only [divO, subO, bind, Option.bind, z1, z2, if_false, pure, Option.map]
            congr 1
            field_simp
            ring

private theorem nansum_congr {a b : Arr2 (Option ℝ)} (hn : a.n = b.n) (hm : a.m = b.m) (c : ℝ)
    (h : ∀ i < a.n, ∀ j < a.m, (b.get i j).getD 0 = c * (a.get i j).getD 0) : b.nansum = c * a.nansum := by
  unfold Arr2.nansum
  rw [← hn, ← hm, mul_sum]
  apply sum_congr rfl; intro i hi
  rw [mul_sum]
  apply sum_congr rfl; intro j hj
  exact h i (mem_range.1 hi) j (mem_range.1 hj)

private theorem nFinite_congr {a b : Arr2 (Option ℝ)} (hn : a.n = b.n) (hm : a.m = b.m)
    (h : ∀ i < a.n, ∀ j < a.m, (b.get i j).isSome = (a.get i j).isSome) : b.nFinite = a.nFinite := by
  unfold Arr2.nFinite
  rw [← hn, ← hm]
  apply sum_congr rfl; intro i hi
  apply sum_congr rfl; intro j hj
  rw [h i (mem_range.1 hi) j (mem_range.1 hj)]

theorem dv_delvar_scale {arr arr' wt wt' : Arr2 (Option ℝ)} (lag c : ℝ) (hc : c ≠ 0)
    (hn : arr'.n = arr.n) (hm : arr'.m = arr.m) (hwn : wt.n = arr.n) (hwm : wt.m = arr.m)
    (hwn' : wt'.n = arr.n) (hwm' : wt'.m = arr.m)
    (ha : ∀ i < arr.n, ∀ j < arr.m, arr'.get i j = (arr.get i j).map (c * ·))
    (hw : ∀ i < arr.n, ∀ j < arr.m, wt'.get i j = wt.get i j) :
    delvar arr' wt' lag = (delvar arr wt lag).map (fun r => (c ^ 2 * r.1, Spec.scaleErr (c ^ 2) r.2)) := by
  have hsum : arr'.nansum = c * arr.nansum := by
    apply nansum_congr hn.symm hm.symm
    intro i hi j hj
    rw [ha i hi j hj]
    cases arr.get i j <;> simp
  have hcnt : arr'.nFinite = arr.nFinite := by
    apply nFinite_congr hn.symm hm.symm
    intro i hi j hj
    rw [ha i hi j hj]
    cases arr.get i j <;> simp
  have hW : wt'.nansum = wt.nansum := by
    have := nansum_congr (a := wt) (b := wt') (by rw [hwn, hwn']) (by rw [hwm, hwm']) 1 (by
      intro i hi j hj
      rw [hw i (by rw [← hwn]; exact hi) j (by rw [← hwm]; exact hj), one_mul])
    rwa [one_mul] at this
  have hmean : divO (some arr'.nansum) (some arr'.nFinite) =
      (divO (some arr.nansum) (some arr.nFinite)).map (c * ·) := by
    rw [hsum, hcnt]
    unfold divO
    simp only [bind, Option.bind]
    split_ifs
    · rfl
    · simp [mul_div_assoc]
  have hcent : ∀ i < arr.n, ∀ j < arr.m,
      subO (arr'.get i j) (divO (some arr'.nansum) (some arr'.nFinite)) =
      (subO (arr.get i j) (divO (some arr.nansum) (some arr.nFinite))).map (c * ·) := by
    intro i hi j hj
    rw [ha i hi j hj, hmean]
    cases arr.get i j <;> cases divO (some arr.nansum) (some (arr.nFinite : ℝ)) <;> simp [subO, mul_sub]
  have hmom : ∀ p : ℕ, (⟨arr'.n, arr'.m, fun i j => mulO ((subO (arr'.get i j)
        (divO (some arr'.nansum) (some arr'.nFinite))).map (· ^ p)) (wt'.get i j)⟩ : Arr2 (Option ℝ)).nansum =
      c ^ p * (⟨arr.n, arr.m, fun i j => mulO ((subO (arr.get i j)
        (divO (some arr.nansum) (some arr.nFinite))).map (· ^ p)) (wt.get i j)⟩ : Arr2 (Option ℝ)).nansum := by
    intro p
    refine nansum_congr ?_ ?_ _ ?_
    · exact hn.symm
    · exact hm.symm
    intro i hi j hj
    simp only at hi hj ⊢
    rw [hcent i hi j hj, hw i hi j hj]
    cases subO (arr.get i j) (divO (some arr.nansum) (some (arr.nFinite : ℝ))) <;>
      cases wt.get i j <;> simp [mulO, mul_pow, mul_assoc]
  have hfin : (⟨arr'.n, arr'.m, fun i j => subO (arr'.get i j)
        (divO (some arr'.nansum) (some arr'.nFinite))⟩ : Arr2 (Option ℝ)).nFinite =
      (⟨arr.n, arr.m, fun i j => subO (arr.get i j)
        (divO (some arr.nansum) (some arr.nFinite))⟩ : Arr2 (Option ℝ)).nFinite := by
    refine nFinite_congr ?_ ?_ ?_
    · exact hn.symm
    · exact hm.symm
    intro i hi j hj
    simp only at hi hj ⊢
    rw [hcent i hi j hj]
    simp
  have c2 : 0 < c ^ 2 := by positivity
  unfold delvar
  simp only [hmom, hW, hfin]
  set S2 := (⟨arr.n, arr.m, fun i j => mulO ((subO (arr.get i j)
        (divO (some arr.nansum) (some arr.nFinite))).map (· ^ 2)) (wt.get i j)⟩ : Arr2 (Option ℝ)).nansum
  set S4 := (⟨arr.n, arr.m, fun i j => mulO ((subO (arr.get i j)
        (divO (some arr.nansum) (some arr.nFinite))).map (· ^ 4)) (wt.get i j)⟩ : Arr2 (Option ℝ)).nansum
  set W := wt.nansum
  set N := Real.sqrt ((((⟨arr.n, arr.m, fun i j => subO (arr.get i j)
        (divO (some arr.nansum) (some arr.nFinite))⟩ : Arr2 (Option ℝ)).nFinite / kernArea lag : ℕ)) : ℝ)
  by_cases h0 : W = 0
  · simp [h0]
  rw [if_neg h0, if_neg h0]
  have e1 : c ^ 2 * S2 / W = c ^ 2 * (S2 / W) := by ring
  have e2 : c ^ 4 * S4 / W - (c ^ 2 * (S2 / W)) ^ 2 = (c ^ 2) ^ 2 * (S4 / W - (S2 / W) ^ 2) := by ring
  rw [e1, e2]
  have c4 : 0 < (c ^ 2) ^ 2 := by positivity
  have i1 : (c ^ 2 * (S2 / W) ≤ 0 ∨ (c ^ 2) ^ 2 * (S4 / W - (S2 / W) ^ 2) < 0) ↔
      (S2 / W ≤ 0 ∨ S4 / W - (S2 / W) ^ 2 < 0) := by
    constructor
    · rintro (h | h)
      · left; by_contra hh; exact absurd h (not_le.2 (mul_pos c2 (not_le.1 hh)))
      · right; by_contra hh; exact absurd h (not_lt.2 (mul_nonneg c4.le (not_lt.1 hh)))
    · rintro (h | h)
      · left; exact mul_nonpos_of_nonneg_of_nonpos c2.le h
      · right; exact mul_neg_of_pos_of_neg c4 h
  have i2 : Real.sqrt ((c ^ 2) ^ 2 * (S4 / W - (S2 / W) ^ 2)) / N =
      c ^ 2 * (Real.sqrt (S4 / W - (S2 / W) ^ 2) / N) := by
    rw [Real.sqrt_mul c4.le, Real.sqrt_sq c2.le]; ring
  simp only [i1, i2]
  by_cases h1 : S2 / W ≤ 0 ∨ S4 / W - (S2 / W) ^ 2 < 0
  · rw [if_pos h1, if_pos h1]; rfl
  rw [if_neg h1, if_neg h1]
  by_cases h2 : N = 0
  · rw [if_pos h2, if_pos h2]
    by_cases h3 : S4 / W - (S2 / W) ^ 2 = 0
    · rw [if_pos h3, if_pos (by rw [h3, mul_zero])]; rfl
    · rw [if_neg h3, if_neg (mul_ne_zero c4.ne' h3)]; rfl
  rw [if_neg h2, if_neg h2]
  by_cases h3 : Real.sqrt (S4 / W - (S2 / W) ^ 2) / N ≤ 0
  · rw [if_pos h3, if_pos (mul_nonpos_of_nonneg_of_nonpos c2.le h3)]; rfl
  · rw [if_neg h3, if_neg (not_le.2 (mul_pos c2 (not_le.1 h3)))]; rfl

private theorem pad_value {α : Type*} (junk : ℕ → ℕ → α) (v : α) (a : Arr2 α) (p : ℕ) (hp : 0 < p) (i j : ℕ)
    (hi : i < a.n + 2 * p) (hj : j < a.m + 2 * p) :
    (npPad2 junk (padWith v) a p).get i j =
      if p ≤ i ∧ i < a.n + p ∧ p ≤ j ∧ j < a.m + p then a.get (i - p) (j - p) else v := by
  obtain ⟨hn, hm, hin, hout⟩ := C23_pad_image junk v a p hp
  split_ifs with h
  · have := hin (i - p) (by omega) (j - p) (by omega)
    rwa [show i - p + p = i by omega, show j - p + p = j by omega] at this
  · exact hout i (by rw [hn]; exact hi) j (by rw [hm]; exact hj) (by omega)

theorem dv_pad_rel (junkI junkI' : ℕ → ℕ → Option ℝ) (junkW : ℕ → ℕ → ℝ) (b : DvBoundary) (lag : ℝ)
    (hlag : 1 ≤ lag) (img img' : Arr2 (Option ℝ)) (w : Arr2 ℝ) (c a : ℝ)
    (hn : img'.n = img.n) (hm : img'.m = img.m) (hw : w.n = img.n ∧ w.m = img.m)
    (h : ∀ i < img.n, ∀ j < img.m, ((img'.get i j).isNone = (img.get i j).isNone) ∧
      (mulO (img'.get i j) (some (w.get i j))).getD 0 =
        c * (mulO (img.get i j) (some (w.get i j))).getD 0 + a * w.get i j) :
    (b = .other ∧ dvPad junkI junkW b lag img w = .error .valueError ∧
      dvPad junkI' junkW b lag img' w = .error .valueError) ∨
    ∃ pi pi' pw, dvPad junkI junkW b lag img w = .ok (pi, pw) ∧
      dvPad junkI' junkW b lag img' w = .ok (pi', pw) ∧ DvPadRel pi pi' pw c a := by
  cases b with
  | wrap =>
    right
    refine ⟨_, _, _, rfl, rfl, hn, hm, hw.1, hw.2, ?_⟩
    intro i hi j hj
    refine ⟨?_, (h i hi j hj).2⟩
    have := (h i hi j hj).1
    simp only
    cases h1 : img'.get i j <;> cases h2 : img.get i j <;> simp [h1, h2, mulO] at this ⊢
  | fill =>
    right
    have hp : 0 < (pyInt lag).toNat := by
      have : (1 : ℤ) ≤ pyInt lag := by
        unfold pyInt
        rw [if_pos (by linarith)]
        exact Int.le_floor.2 (by exact_mod_cast hlag)
      omega
    set p := (pyInt lag).toNat
    refine ⟨_, _, _, rfl, rfl, ?_, ?_, ?_, ?_, ?_⟩
    · show img'.n + 2 * p = img.n + 2 * p; rw [hn]
    · show img'.m + 2 * p = img.m + 2 * p; rw [hm]
    · show w.n + 2 * p = img.n + 2 * p; rw [hw.1]
    · show w.m + 2 * p = img.m + 2 * p; rw [hw.2]
    · intro i hi j hj
      have hi' : i < img.n + 2 * p := hi
      have hj' : j < img.m + 2 * p := hj
      simp only
      rw [pad_value junkI' _ img' p hp i j (by rw [hn]; exact hi') (by rw [hm]; exact hj'),
        pad_value junkI _ img p hp i j hi' hj',
        pad_value junkW _ w p hp i j (by rw [hw.1]; exact hi') (by rw [hw.2]; exact hj'), hn, hm, hw.1, hw.2]
      split_ifs with hin
      · have := h (i - p) (by omega) (j - p) (by omega)
        refine ⟨?_, this.2⟩
        have := this.1
        cases h1 : img'.get (i - p) (j - p) <;> cases h2 : img.get (i - p) (j - p) <;>
          simp [h1, h2, mulO] at this ⊢
      · simp [mulO]
  | other => left; exact ⟨rfl, rfl, rfl⟩

private theorem deltaVar_rel (junkI junkI' : ℕ → ℕ → Option ℝ) (junkW : ℕ → ℕ → ℝ)
    (core ann : ℕ → ℕ → ℕ → ℕ → ℝ) (b : DvBoundary) (frac : ℝ) (preserve : Bool) (lag : ℝ)
    (hlag : 1 ≤ lag) (img img' : Arr2 (Option ℝ)) (w : Arr2 ℝ) (c a : ℝ) (hc : c ≠ 0)
    (hn : img'.n = img.n) (hm : img'.m = img.m) (hw : w.n = img.n ∧ w.m = img.m)
    (h : ∀ i < img.n, ∀ j < img.m, ((img'.get i j).isNone = (img.get i j).isNone) ∧
      (mulO (img'.get i j) (some (w.get i j))).getD 0 =
        c * (mulO (img.get i j) (some (w.get i j))).getD 0 + a * w.get i j) :
    deltaVarAt junkI' junkW core ann b frac preserve lag img' w =
      (deltaVarAt junkI junkW core ann b frac preserve lag img w).map
        (Option.map (fun r => (c ^ 2 * r.1, Spec.scaleErr (c ^ 2) r.2))) := by
  unfold deltaVarAt
  rcases dv_pad_rel junkI junkI' junkW b lag hlag img img' w c a hn hm hw h with ⟨_, h1, h2⟩ |
    ⟨pi, pi', pw, h1, h2, hr⟩
  · rw [h1, h2]; rfl
  · rw [h1, h2]
    simp only [bind, Except.bind]
    cases hx : npMax w.ravel with
    | error e => rfl
    | ok mx =>
      simp only [pure, Except.pure, Except.map]
      congr 1
      have hf := filter_rel core ann (frac * mx) preserve hr
      exact dv_delvar_scale lag c hc hr.1 hr.2.1 rfl rfl hr.1 hr.2.1
        (fun i hi j hj => (hf i j hi hj).1) (fun i hi j hj => (hf i j hi hj).2)

/-- Adding a constant to the map changes nothing, for every kernel pair, weight map, boundary and lag, as
long as the missing pixels have weight zero. -/
theorem C38_offset (junkI junkI' : ℕ → ℕ → Option ℝ) (junkW : ℕ → ℕ → ℝ)
    (core ann : ℕ → ℕ → ℕ → ℕ → ℝ) (b : DvBoundary) (frac : ℝ) (preserve : Bool) (lag : ℝ)
    (hlag : 1 ≤ lag) (img : Arr2 (Option ℝ)) (w : Arr2 ℝ) (hw : Spec.MissingUnweighted img w) (a : ℝ) :
    deltaVarAt junkI' junkW core ann b frac preserve lag (Spec.shifted a img) w =
      deltaVarAt junkI junkW core ann b frac preserve lag img w := by
  rw [deltaVar_rel junkI junkI' junkW core ann b frac preserve lag hlag img (Spec.shifted a img) w 1 a
    one_ne_zero rfl rfl ⟨hw.1, hw.2.1⟩ ?_]
  · cases deltaVarAt junkI junkW core ann b frac preserve lag img w with
    | error e => rfl
    | ok r =>
      cases r with
      | none => rfl
      | some r =>
        obtain ⟨v, e⟩ := r
        cases e <;> simp [Except.map, Spec.scaleErr]
  · intro i hi j hj
    cases h : img.get i j with
    | none => simp [Spec.shifted, Arr2.map, h, mulO, hw.2.2 i hi j hj h]
    | some x => simp [Spec.shifted, Arr2.map, h, mulO]; ring

/-- Multiplying the map by `c ≠ 0` multiplies values and errors by `c²`. -/
theorem C38_scale (junkI junkI' : ℕ → ℕ → Option ℝ) (junkW : ℕ → ℕ → ℝ)
    (core ann : ℕ → ℕ → ℕ → ℕ → ℝ) (b : DvBoundary) (frac : ℝ) (preserve : Bool) (lag : ℝ)
    (hlag : 1 ≤ lag) (img : Arr2 (Option ℝ)) (w : Arr2 ℝ) (hw : w.n = img.n ∧ w.m = img.m) (c : ℝ)
    (hc : c ≠ 0) :
    deltaVarAt junkI' junkW core ann b frac preserve lag (Spec.scaled c img) w =
      (deltaVarAt junkI junkW core ann b frac preserve lag img w).map
        (Option.map (fun r => (c ^ 2 * r.1, Spec.scaleErr (c ^ 2) r.2))) := by
  apply deltaVar_rel junkI junkI' junkW core ann b frac preserve lag hlag img (Spec.scaled c img) w c 0 hc
    rfl rfl hw
  intro i hi j hj
  cases h : img.get i j with
  | none => simp [Spec.scaled, Arr2.map, h, mulO]
  | some x => simp [Spec.scaled, Arr2.map, h, mulO]; ring

/-- What is reported is positive. -/
theorem C38_positive (arr wt : Arr2 (Option ℝ)) (lag v : ℝ) (e : ErrVal)
    (h : delvar arr wt lag = some (v, e)) : 0 < v ∧ ∀ x, e = .fin x → 0 < x := by
  unfold delvar at h
  simp only at h
  split_ifs at h with h0 h1 h2 h3 h4
  · cases h
    exact ⟨not_le.1 (fun hh => h1 (Or.inl hh)), fun x hx => by cases hx⟩
  · cases h
    exact ⟨not_le.1 (fun hh => h1 (Or.inl hh)), fun x hx => by cases hx; exact not_le.1 h4⟩

/-- The error is never lost to a negative square root: with positive weights wherever the filtered map is
defined (and the same pixels in both), the fourth moment is at least the square of the second. -/
theorem C38_error_defined (arr wt : Arr2 (Option ℝ)) (hn : wt.n = arr.n) (hm : wt.m = arr.m)
    (hs : ∀ i < arr.n, ∀ j < arr.m, ((wt.get i j).isSome = (arr.get i j).isSome) ∧
      ∀ x, wt.get i j = some x → 0 < x) (mean : ℝ) (hW : 0 < wt.nansum) :
    let mom := fun p : ℕ => (⟨arr.n, arr.m, fun i j =>
      mulO ((subO (arr.get i j) (some mean)).map (· ^ p)) (wt.get i j)⟩ : Arr2 (Option ℝ)).nansum
    0 ≤ mom 2 / wt.nansum ∧ (mom 2 / wt.nansum) ^ 2 ≤ mom 4 / wt.nansum := by
  intro mom
  set W := wt.nansum with hWdef
  let x : ℕ → ℕ → ℝ := fun i j => ((subO (arr.get i j) (some mean)).map (· ^ 2)).getD 0
  let u : ℕ → ℕ → ℝ := fun i j => (wt.get i j).getD 0
  have u0 : ∀ i < arr.n, ∀ j < arr.m, 0 ≤ u i j := by
    intro i hi j hj
    simp only [u]
    cases h : wt.get i j with
    | none => simp
    | some y => simpa using ((hs i hi j hj).2 y h).le
  have hm2 : mom 2 = ∑ i ∈ range arr.n, ∑ j ∈ range arr.m, x i j * u i j := by
    simp only [mom, Arr2.nansum]
    apply sum_congr rfl; intro i _
    apply sum_congr rfl; intro j _
    simp only [x, u]
    cases arr.get i j <;> cases wt.get i j <;> simp [subO, mulO]
  have hm4 : mom 4 = ∑ i ∈ range arr.n, ∑ j ∈ range arr.m, x i j ^ 2 * u i j := by
    simp only [mom, Arr2.nansum]
    apply sum_congr rfl; intro i _
    apply sum_congr rfl; intro j _
    simp only [x, u]
    cases arr.get i j <;> cases wt.get i j <;> simp [subO, mulO]
    left; ring
  have hWs : W = ∑ i ∈ range arr.n, ∑ j ∈ range arr.m, u i j := by
    rw [hWdef]; unfold Arr2.nansum; rw [hn, hm]
  have x0 : ∀ i j, 0 ≤ x i j := by
    intro i j
    simp only [x]
    cases subO (arr.get i j) (some mean) with
    | none => simp
    | some y => simpa using sq_nonneg y
  constructor
  · rw [hm2]
    exact div_nonneg (sum_nonneg (fun i hi => sum_nonneg (fun j hj =>
      mul_nonneg (x0 i j) (u0 i (mem_range.1 hi) j (mem_range.1 hj))))) hW.le
  · rw [div_pow, div_le_div_iff₀ (by positivity) hW]
    have cs : mom 2 ^ 2 ≤ W * mom 4 := by
      rw [hm2, hm4, hWs, ← sum_product', ← sum_product', ← sum_product']
      have := sum_mul_sq_le_sq_mul_sq (range arr.n ×ˢ range arr.m) (fun q : ℕ × ℕ => Real.sqrt (u q.1 q.2))
        (fun q : ℕ × ℕ => x q.1 q.2 * Real.sqrt (u q.1 q.2))
      have e1 : ∀ q ∈ range arr.n ×ˢ range arr.m,
          Real.sqrt (u q.1 q.2) * (x q.1 q.2 * Real.sqrt (u q.1 q.2)) = x q.1 q.2 * u q.1 q.2 := by
        intro q hq
        rw [mem_product] at hq
        have := Real.mul_self_sqrt (u0 q.1 (mem_range.1 hq.1) q.2 (mem_range.1 hq.2))
        calc _ = x q.1 q.2 * (Real.sqrt (u q.1 q.2) * Real.sqrt (u q.1 q.2)) := by ring
          _ = _ := by rw [this]
      have e2 : ∀ q ∈ range arr.n ×ˢ range arr.m, Real.sqrt (u q.1 q.2) ^ 2 = u q.1 q.2 := by
        intro q hq
        rw [mem_product] at hq
        exact Real.sq_sqrt (u0 q.1 (mem_range.1 hq.1) q.2 (mem_range.1 hq.2))
      have e3 : ∀ q ∈ range arr.n ×ˢ range arr.m,
          (x q.1 q.2 * Real.sqrt (u q.1 q.2)) ^ 2 = x q.1 q.2 ^ 2 * u q.1 q.2 := by
        intro q hq
        rw [mul_pow, e2 q hq]
      rw [sum_congr rfl e1, sum_congr rfl e2, sum_congr rfl e3] at this
      exact this
    nlinarith [mul_le_mul_of_nonneg_right cs hW.le]

/-- A map whose valid pixels all have the same value has no delta-variance at any lag (NaN). -/
theorem C38_constant (junkI : ℕ → ℕ → Option ℝ) (junkW : ℕ → ℕ → ℝ)
    (core ann : ℕ → ℕ → ℕ → ℕ → ℝ) (b : DvBoundary) (hb : b ≠ .other) (frac : ℝ) (preserve : Bool)
    (lag : ℝ) (hlag : 1 ≤ lag) (img : Arr2 (Option ℝ)) (w : Arr2 ℝ) (hw : Spec.MissingUnweighted img w)
    (hne : w.ravel ≠ []) (k : ℝ) (hk : ∀ i < img.n, ∀ j < img.m, img.get i j = none ∨ img.get i j = some k) :
    deltaVarAt junkI junkW core ann b frac preserve lag img w = .ok none := by
  rw [← C38_offset junkI junkI junkW core ann b frac preserve lag hlag img w hw (-k)]
  have hz : ∀ i < img.n, ∀ j < img.m, ((Spec.shifted (-k) img).get i j).getD 0 = 0 := by
    intro i hi j hj
    rcases hk i hi j hj with h | h <;> simp [Spec.shifted, Arr2.map, h]
  rcases dv_pad_rel junkI junkI junkW b lag hlag (Spec.shifted (-k) img) (Spec.shifted (-k) img) w 0 0 rfl rfl
    ⟨hw.1, hw.2.1⟩ (by
      intro i hi j hj
      refine ⟨rfl, ?_⟩
      have := hz i hi j hj
      cases h : (Spec.shifted (-k) img).get i j with
      | none => simp [mulO]
      | some x => rw [h] at this; simp at this; simp [mulO, this]) with ⟨h, _⟩ | ⟨pi, pi', pw, h1, h2, hr⟩
  · exact absurd h hb
  obtain rfl : pi' = pi := by
    rw [h1] at h2
    injection h2 with h2
    exact (Prod.mk.inj h2).1.symm
  have hmx : ∃ mx, npMax w.ravel = .ok mx := by
    unfold npMax
    cases hl : w.ravel with
    | nil => exact absurd hl hne
    | cons x xs => exact ⟨_, rfl⟩
  obtain ⟨mx, hmx⟩ := hmx
  unfold deltaVarAt
  rw [h1, hmx]
  simp only [bind, Except.bind, pure, Except.pure]
  congr 1
  have hf : ∀ i < pi'.n, ∀ j < pi'.m,
      ((dvFilter core ann (frac * mx) preserve pi' pw).1.get i j).getD 0 = 0 := by
    intro i hi j hj
    have := (filter_rel core ann (frac * mx) preserve hr i j hi hj).1
    cases hx : (dvFilter core ann (frac * mx) preserve pi' pw).1.get i j with
    | none => rfl
    | some x => rw [hx] at this; simp at this; simp [this]
  have hsum : (dvFilter core ann (frac * mx) preserve pi' pw).1.nansum = 0 := by
    unfold Arr2.nansum
    apply sum_eq_zero; intro i hi
    apply sum_eq_zero; intro j hj
    exact hf i (mem_range.1 hi) j (mem_range.1 hj)
  unfold delvar
  simp only
  split_ifs with h0 ha hb hc hd
  · rfl
  · rfl
  · rfl
  all_goals
    exfalso
    apply ha
    left
    rw [hsum]
    apply le_of_eq
    apply div_eq_zero_iff.2
    left
    unfold Arr2.nansum
    apply sum_eq_zero; intro i hi
    apply sum_eq_zero; intro j hj
    have := hf i (mem_range.1 hi) j (mem_range.1 hj)
    simp only
    cases hx : (dvFilter core ann (frac * mx) preserve pi' pw).1.get i j with
    | none => simp [subO, mulO]
    | some x =>
      rw [hx] at this
      simp at this
      subst this
      cases (dvFilter core ann (frac * mx) preserve pi' pw).2.get i j <;>
        simp [subO, mulO, divO] <;> split_ifs <;> simp

theorem dv_nansum_supp (a : Arr2 (Option ℝ)) (S : Finset (ℕ × ℕ)) (g : ℕ × ℕ → ℝ)
    (hS : S ⊆ range a.n ×ˢ range a.m)
    (h : ∀ q ∈ range a.n ×ˢ range a.m, (a.get q.1 q.2).getD 0 = if q ∈ S then g q else 0) :
    a.nansum = ∑ q ∈ S, g q := by
  unfold Arr2.nansum
  rw [← sum_product' (range a.n) (range a.m) (fun i j => (a.get i j).getD 0), sum_congr rfl h, ← sum_filter,
    filter_mem_eq_inter, inter_eq_right.2 hS]

private theorem nFinite_supp (a : Arr2 (Option ℝ)) (S : Finset (ℕ × ℕ)) (hS : S ⊆ range a.n ×ˢ range a.m)
    (h : ∀ q ∈ range a.n ×ˢ range a.m, (a.get q.1 q.2).isSome = true ↔ q ∈ S) : a.nFinite = S.card := by
  unfold Arr2.nFinite
  rw [← sum_product' (range a.n) (range a.m) (fun i j => if (a.get i j).isSome then 1 else 0),
    sum_congr rfl (fun q hq => show (if (a.get q.1 q.2).isSome = true then 1 else 0) = if q ∈ S then 1 else 0 by
      simp only [h q hq]), ← sum_filter, filter_mem_eq_inter, inter_eq_right.2 hS, card_eq_sum_ones]

theorem dv_delvar_supp (arr wt : Arr2 (Option ℝ)) (hn : wt.n = arr.n) (hm : wt.m = arr.m) (lag : ℝ)
    (S T : Finset (ℕ × ℕ)) (hST : S ⊆ T) (hT : T ⊆ range arr.n ×ˢ range arr.m) (D W : ℕ × ℕ → ℝ)
    (ga' : ∀ q ∈ range arr.n ×ˢ range arr.m, arr.get q.1 q.2 = if q ∈ S then some (D q) else none)
    (gw : ∀ q ∈ range arr.n ×ˢ range arr.m, wt.get q.1 q.2 = if q ∈ T then some (W q) else none)
    (v : ℝ) (e : ErrVal) (h : delvar arr wt lag = some (v, e)) :
    let mom := fun p : ℕ => (∑ q ∈ S, W q * (D q - (∑ r ∈ S, D r) / S.card) ^ p) / ∑ q ∈ T, W q
    0 < v ∧ v = mom 2 ∧
    ∀ x, e = .fin x → x = Real.sqrt (mom 4 - v ^ 2) / Real.sqrt ((S.card / kernArea lag : ℕ) : ℝ) := by
  intro mom
  have hsub : S ⊆ range arr.n ×ˢ range arr.m := hST.trans hT
  have hpos := (C38_positive arr wt lag v e h).1
  have hW : wt.nansum = ∑ q ∈ T, W q := by
    apply dv_nansum_supp wt T W (by rw [hn, hm]; exact hT)
    intro q hq; rw [gw q (by rw [hn, hm] at hq; exact hq)]; split_ifs <;> rfl
  have hA : arr.nansum = ∑ q ∈ S, D q := by
    apply dv_nansum_supp arr S D hsub
    intro q hq; rw [ga' q hq]; split_ifs <;> rfl
  have hF : arr.nFinite = S.card := by
    apply nFinite_supp arr S hsub
    intro q hq; rw [ga' q hq]; split_ifs with hs <;> simp [hs]
  unfold delvar at h
  simp only [hW, hA, hF] at h
  by_cases hc : S.card = 0
  · exfalso
    have hS0 : S = ∅ := card_eq_zero.1 hc
    have hz : ∀ p : ℕ, (⟨arr.n, arr.m, fun i j => mulO (Option.map (· ^ p) (subO (arr.get i j)
        (divO (some (∑ q ∈ S, D q)) (some (S.card : ℝ))))) (wt.get i j)⟩ : Arr2 (Option ℝ)).nansum = 0 := by
      intro p
      rw [hc]
      unfold Arr2.nansum
      apply sum_eq_zero; intro i _
      apply sum_eq_zero; intro j _
      cases arr.get i j <;> simp [divO, subO, mulO]
    simp only [hz] at h
    simp at h
  have hcR : (S.card : ℝ) ≠ 0 := by exact_mod_cast hc
  set mean := (∑ q ∈ S, D q) / (S.card : ℝ) with hmean
  have hm' : divO (some (∑ q ∈ S, D q)) (some (S.card : ℝ)) = some mean := by simp [divO, hcR, hmean]
  rw [hm'] at h
  have hmom : ∀ p : ℕ, (⟨arr.n, arr.m, fun i j => mulO (Option.map (· ^ p) (subO (arr.get i j) (some mean)))
      (wt.get i j)⟩ : Arr2 (Option ℝ)).nansum = ∑ q ∈ S, W q * (D q - mean) ^ p := by
    intro p
    refine dv_nansum_supp ⟨arr.n, arr.m, _⟩ S (fun q => W q * (D q - mean) ^ p) hsub ?_
    intro q hq
    simp only
    rw [ga' q hq, gw q hq]
    split_ifs with h1 h2
    · simp [mulO, subO, mul_comm]
    · exact absurd (hST h1) h2
    · simp [mulO, subO]
    · simp [mulO, subO]
  have hcf : (⟨arr.n, arr.m, fun i j => subO (arr.get i j) (some mean)⟩ : Arr2 (Option ℝ)).nFinite = S.card := by
    refine nFinite_supp ⟨arr.n, arr.m, _⟩ S hsub ?_
    intro q hq
    simp only
    rw [ga' q hq]; split_ifs with hs <;> simp [hs, subO]
  simp only [hmom, hcf] at h
  split_ifs at h with h0 h1 h2 h3 h4
  · cases h
    exact ⟨hpos, rfl, fun x hx => by cases hx⟩
  · cases h
    exact ⟨hpos, rfl, fun x hx => by cases hx; rfl⟩

private theorem filter_supp (core ann : ℕ → ℕ → ℕ → ℕ → ℝ) (cut : ℝ) (hcut : 0 ≤ cut) (preserve : Bool)
    (pi : Arr2 (Option ℝ)) (pw : Arr2 ℝ) (q : ℕ × ℕ) (hq : q ∈ range pi.n ×ˢ range pi.m) :
    let f := fun u v => (pi.get u v).getD 0
    let gc := Spec.smooth core pw.n pw.m pw.get
    let ga := Spec.smooth ann pw.n pw.m pw.get
    let S := Spec.supported pi.n pi.m cut gc ga
    ((dvFilter core ann cut preserve pi pw).1.get q.1 q.2 =
      if q ∈ S.filter (fun q => preserve = true → (pi.get q.1 q.2).isSome = true) then
        some (Spec.smooth core pi.n pi.m f q / gc q - Spec.smooth ann pi.n pi.m f q / ga q) else none) ∧
    ((dvFilter core ann cut preserve pi pw).2.get q.1 q.2 = if q ∈ S then some (gc q * ga q) else none) := by
  intro f gc ga S
  have hmem : q ∈ S ↔ cut < gc q ∧ cut < ga q := by
    simp only [S, Spec.supported, mem_filter, hq, true_and]
  have e1 : (dvFilter core ann cut preserve pi pw).1.get q.1 q.2 =
      if preserve ∧ (pi.get q.1 q.2).isNone then none
      else subO (divO (some (Spec.smooth core pi.n pi.m f q)) (dvMask cut (gc q)))
        (divO (some (Spec.smooth ann pi.n pi.m f q)) (dvMask cut (ga q))) := rfl
  have e2 : (dvFilter core ann cut preserve pi pw).2.get q.1 q.2 =
      mulO (dvMask cut (gc q)) (dvMask cut (ga q)) := rfl
  rw [e1, e2]
  simp only [mem_filter, hmem]
  unfold dvMask
  by_cases h1 : gc q ≤ cut
  · have hno : ¬ (cut < gc q ∧ cut < ga q) := fun hh => absurd hh.1 (not_lt.2 h1)
    rw [if_pos h1]
    simp [divO, subO, mulO, hno]
  · by_cases h2 : ga q ≤ cut
    · have hno : ¬ (cut < gc q ∧ cut < ga q) := fun hh => absurd hh.2 (not_lt.2 h2)
      rw [if_neg h1, if_pos h2]
      simp [divO, subO, mulO, hno]
    · have p1 : gc q ≠ 0 := by intro h0; rw [h0] at h1; exact h1 hcut
      have p2 : ga q ≠ 0 := by intro h0; rw [h0] at h2; exact h2 hcut
      have hyes : cut < gc q ∧ cut < ga q := ⟨not_le.1 h1, not_le.1 h2⟩
      rw [if_neg h1, if_neg h2, if_pos hyes]
      cases preserve <;> cases pi.get q.1 q.2 <;> simp [hyes, divO, subO, mulO, p1, p2]

/-- The value: the weighted mean square of the difference between the map smoothed with the core and with
the annulus (each divided by the smoothed weights), taken where both smoothed weights exceed the cut-off,
with the product of the smoothed weights as weight.  The error is the standard error for the number of
independent pixels.  Missing: `preserve_nan=True`, see `C38_preserve_violated`. -/
theorem C38_value_partial (junkI : ℕ → ℕ → Option ℝ) (junkW : ℕ → ℕ → ℝ)
    (core ann : ℕ → ℕ → ℕ → ℕ → ℝ) (b : DvBoundary) (frac wmax : ℝ) (lag : ℝ)
    (img : Arr2 (Option ℝ)) (w : Arr2 ℝ) (pi : Arr2 (Option ℝ)) (pw : Arr2 ℝ)
    (hpad : dvPad junkI junkW b lag img w = .ok (pi, pw)) (hmax : npMax w.ravel = .ok wmax)
    (hcut : 0 ≤ frac * wmax) (v : ℝ) (e : ErrVal)
    (h : deltaVarAt junkI junkW core ann b frac false lag img w = .ok (some (v, e))) :
    let f := fun u v => (pi.get u v).getD 0
    let gc := Spec.smooth core pw.n pw.m pw.get
    let ga := Spec.smooth ann pw.n pw.m pw.get
    let S := Spec.supported pi.n pi.m (frac * wmax) gc ga
    let D := fun q => Spec.smooth core pi.n pi.m f q / gc q - Spec.smooth ann pi.n pi.m f q / ga q
    let W := fun q => gc q * ga q
    v = Spec.wMoment S D W 2 ∧
    ∀ x, e = .fin x → x = Real.sqrt (Spec.wMoment S D W 4 - v ^ 2) / Real.sqrt ((S.card / kernArea lag : ℕ) : ℝ) := by
  intro f gc ga S D W
  unfold deltaVarAt at h
  simp only [hpad, hmax, bind, Except.bind, pure, Except.pure, Except.ok.injEq] at h
  refine (dv_delvar_supp (dvFilter core ann (frac * wmax) false pi pw).1 (dvFilter core ann (frac * wmax) false pi pw).2
    ?_ ?_ lag S S (Subset.refl _) (filter_subset _ _) D W ?_ ?_ v e h).2
  · rfl
  · rfl
  · intro q hq
    have := (filter_supp core ann (frac * wmax) hcut false pi pw q hq).1
    rw [this]; simp only [Bool.false_eq_true, false_imp_iff, filter_true]; rfl
  · intro q hq
    exact (filter_supp core ann (frac * wmax) hcut false pi pw q hq).2

/-- With `preserve_nan=True` the value is not that of the remaining pixels: the weights of the pixels set
back to missing stay in the denominator, so every such pixel with weight lowers the delta-variance. -/
theorem C38_preserve_violated (junkI : ℕ → ℕ → Option ℝ) (junkW : ℕ → ℕ → ℝ)
    (core ann : ℕ → ℕ → ℕ → ℕ → ℝ) (b : DvBoundary) (frac wmax : ℝ) (lag : ℝ)
    (img : Arr2 (Option ℝ)) (w : Arr2 ℝ) (pi : Arr2 (Option ℝ)) (pw : Arr2 ℝ)
    (hpad : dvPad junkI junkW b lag img w = .ok (pi, pw)) (hmax : npMax w.ravel = .ok wmax)
    (hcut : 0 ≤ frac * wmax) (v : ℝ) (e : ErrVal)
    (h : deltaVarAt junkI junkW core ann b frac true lag img w = .ok (some (v, e))) :
    let f := fun u v => (pi.get u v).getD 0
    let gc := Spec.smooth core pw.n pw.m pw.get
    let ga := Spec.smooth ann pw.n pw.m pw.get
    let S := Spec.supported pi.n pi.m (frac * wmax) gc ga
    let S' := S.filter (fun q => (pi.get q.1 q.2).isSome = true)
    let D := fun q => Spec.smooth core pi.n pi.m f q / gc q - Spec.smooth ann pi.n pi.m f q / ga q
    let W := fun q => gc q * ga q
    (∃ q ∈ S, (pi.get q.1 q.2).isNone = true) → v < Spec.wMoment S' D W 2 := by
  rintro f gc ga S S' D W ⟨q₀, hq₀, hnone⟩
  unfold deltaVarAt at h
  simp only [hpad, hmax, bind, Except.bind, pure, Except.pure, Except.ok.injEq] at h
  obtain ⟨hv, hval, -⟩ := dv_delvar_supp (dvFilter core ann (frac * wmax) true pi pw).1
    (dvFilter core ann (frac * wmax) true pi pw).2 (by rfl) (by rfl) lag S' S (filter_subset _ _) (filter_subset _ _) D W
    (by
      intro q hq
      have := (filter_supp core ann (frac * wmax) hcut true pi pw q hq).1
      rw [this]; simp only [true_imp_iff]; rfl)
    (fun q hq => (filter_supp core ann (frac * wmax) hcut true pi pw q hq).2) v e h
  have hWpos : ∀ q ∈ S, 0 < W q := by
    intro q hq
    simp only [S, Spec.supported, mem_filter] at hq
    exact mul_pos (hcut.trans_lt hq.2.1) (hcut.trans_lt hq.2.2)
  have hlt : ∑ q ∈ S', W q < ∑ q ∈ S, W q := by
    apply sum_lt_sum_of_subset (filter_subset _ _) hq₀ _ (hWpos q₀ hq₀) (fun q hq _ => (hWpos q hq).le)
    simp only [S', mem_filter, not_and]
    intro _ hs
    cases hx : pi.get q₀.1 q₀.2 <;> simp [hx] at hnone hs
  have hne : S'.Nonempty := by
    by_contra hcon
    rw [not_nonempty_iff_eq_empty] at hcon
    rw [hval, hcon] at hv
    simp at hv
  have hpos' : 0 < ∑ q ∈ S', W q := sum_pos (fun q hq => hWpos q (filter_subset _ _ hq)) hne
  have hnum : 0 < ∑ q ∈ S', W q * (D q - (∑ r ∈ S', D r) / S'.card) ^ 2 := by
    rw [hval] at hv
    by_contra hcon
    exact absurd hv (not_lt.2 (div_nonpos_of_nonpos_of_nonneg (not_lt.1 hcon) (hpos'.trans hlt).le))
  rw [hval]
  exact div_lt_div_of_pos_left hnum hpos' hlt

private theorem half_area (lag r : ℝ) (hlag : 0 < lag) (hr : 0 < r)
    (hhalf : Real.exp (-r ^ 2 / (2 * (lag / (2 * Real.sqrt 2)) ^ 2)) = 1 / 2) :
    0.5 * Real.pi * Real.log 2 * lag ^ 2 = 2 * (Real.pi * r ^ 2) := by
  have h2 : Real.sqrt 2 ^ 2 = 2 := Real.sq_sqrt (by norm_num)
  have hl := congrArg Real.log hhalf
  rw [Real.log_exp, one_div, Real.log_inv] at hl
  have e : 2 * (lag / (2 * Real.sqrt 2)) ^ 2 = lag ^ 2 / 4 := by
    rw [div_pow, mul_pow, h2]; ring
  rw [e] at hl
  have : Real.log 2 * lag ^ 2 = 4 * r ^ 2 := by
    have hne : lag ^ 2 ≠ 0 := by positivity
    have hl' : Real.log 2 = r ^ 2 / (lag ^ 2 / 4) := by
      rw [neg_div] at hl; linarith
    rw [hl']; field_simp
  linear_combination (0.5 * Real.pi) * this

/-- The error at a lag uses the number of finite pixels divided (rounding down) by twice the area within
which the core kernel, a Gaussian of standard deviation `lag/(2√2)`, exceeds half its peak. -/
theorem C38_independent (lag r : ℝ) (hlag : 0 < lag) (hr : 0 < r)
    (hhalf : Real.exp (-r ^ 2 / (2 * (lag / (2 * Real.sqrt 2)) ^ 2)) = 1 / 2) :
    kernArea lag = ⌈2 * (Real.pi * r ^ 2)⌉₊ := by
  unfold kernArea
  rw [half_area lag r hlag hr hhalf]

open MeasureTheory in
private theorem gauss_line (t : ℝ) (ht : 0 < t) :
    ∫ x : ℝ, Real.exp (-x ^ 2 / (2 * t ^ 2)) = Real.sqrt (2 * Real.pi) * t := by
  have h := integral_gaussian (1 / (2 * t ^ 2))
  have e : ∀ x : ℝ, -x ^ 2 / (2 * t ^ 2) = -(1 / (2 * t ^ 2)) * x ^ 2 := fun x => by ring
  simp only [e]
  rw [h, show Real.pi / (1 / (2 * t ^ 2)) = 2 * Real.pi * t ^ 2 by field_simp,
    Real.sqrt_mul (by positivity), Real.sqrt_sq ht.le]

open MeasureTheory in
private theorem gauss_int (t : ℝ) (ht : 0 < t) : Integrable (fun x : ℝ => Real.exp (-x ^ 2 / (2 * t ^ 2))) := by
  have h := integrable_exp_neg_mul_sq (b := 1 / (2 * t ^ 2)) (by positivity)
  have e : ∀ x : ℝ, -x ^ 2 / (2 * t ^ 2) = -(1 / (2 * t ^ 2)) * x ^ 2 := fun x => by ring
  simpa only [e] using h

open MeasureTheory in
/-- The annulus is a proper smoothing kernel for every outer-to-inner ratio above 1: nowhere negative and
of total weight 1 over the plane, like the core. -/
theorem C38_annulus (s ratio : ℝ) (hs : 0 < s) (hr : 1 < ratio) :
    (∀ x y, 0 ≤ annulusEval x y (annulusAmp s ratio) s ratio) ∧
    ∫ x : ℝ, ∫ y : ℝ, annulusEval x y (annulusAmp s ratio) s ratio = 1 := by
  have hR : 0 < ratio := by linarith
  have hamp : 0 < annulusAmp s ratio := by
    unfold annulusAmp
    have : 0 < ratio ^ 2 - 1 := by nlinarith
    have := Real.pi_pos
    positivity
  constructor
  · intro x y
    unfold annulusEval
    apply mul_nonneg hamp.le
    rw [sub_nonneg]
    apply Real.exp_le_exp.2
    rw [neg_div, neg_div, neg_le_neg_iff]
    apply div_le_div_of_nonneg_left (by positivity) (by positivity)
    have : s ^ 2 ≤ (ratio * s) ^ 2 := by
      rw [mul_pow]
      have : 1 ≤ ratio ^ 2 := by nlinarith
      nlinarith [sq_nonneg s]
    linarith
  · have hsplit : ∀ t x y : ℝ, Real.exp (-(x ^ 2 + y ^ 2) / (2 * t ^ 2)) =
        Real.exp (-x ^ 2 / (2 * t ^ 2)) * Real.exp (-y ^ 2 / (2 * t ^ 2)) := by
      intro t x y
      rw [← Real.exp_add]; congr 1; ring
    have hin : ∀ x : ℝ, ∫ y : ℝ, annulusEval x y (annulusAmp s ratio) s ratio =
        annulusAmp s ratio * (Real.exp (-x ^ 2 / (2 * (ratio * s) ^ 2)) * (Real.sqrt (2 * Real.pi) * (ratio * s)) -
          Real.exp (-x ^ 2 / (2 * s ^ 2)) * (Real.sqrt (2 * Real.pi) * s)) := by
      intro x
      unfold annulusEval
      simp only [hsplit]
      rw [integral_const_mul, integral_sub ((gauss_int _ (by positivity)).const_mul _) ((gauss_int _ hs).const_mul _),
        integral_const_mul, integral_const_mul, gauss_line _ (by positivity), gauss_line _ hs]
    simp only [hin]
    rw [integral_const_mul, integral_sub ((gauss_int _ (by positivity)).mul_const _) ((gauss_int _ hs).mul_const _),
      integral_mul_const, integral_mul_const, gauss_line _ (by positivity), gauss_line _ hs]
    have h2 : Real.sqrt (2 * Real.pi) ^ 2 = 2 * Real.pi := Real.sq_sqrt (by positivity)
    have hne : ratio ^ 2 - 1 ≠ 0 := by nlinarith
    unfold annulusAmp
    have hpi := Real.pi_pos.ne'
    rw [show Real.sqrt (2 * Real.pi) * (ratio * s) * (Real.sqrt (2 * Real.pi) * (ratio * s)) -
        Real.sqrt (2 * Real.pi) * s * (Real.sqrt (2 * Real.pi) * s) =
        Real.sqrt (2 * Real.pi) ^ 2 * s ^ 2 * (ratio ^ 2 - 1) by ring, h2]
    field_simp

/-- Non-vacuity: a map with a missing pixel and the default weights. -/
example : Spec.MissingUnweighted ⟨2, 2, fun i j => if i = 0 ∧ j = 0 then none else some 1⟩
    ⟨2, 2, fun i j => if i = 0 ∧ j = 0 then 0 else 1⟩ := by
  refine ⟨rfl, rfl, ?_⟩
  intro i _ j _ h
  simp only at h ⊢
  split_ifs at h ⊢
  rfl

private theorem delvar_example (arr wt : Arr2 (Option ℝ)) (h1 : arr.n = 1) (h2 : arr.m = 3) (h3 : wt.n = 1)
    (h4 : wt.m = 3) (a0 : arr.get 0 0 = some 0) (a1 : arr.get 0 1 = some 2) (a2 : arr.get 0 2 = none)
    (w0 : wt.get 0 0 = some 1) (w1 : wt.get 0 1 = some 1) (w2 : wt.get 0 2 = some 1) :
    ∃ r, delvar arr wt 1 = some r := by
  unfold delvar
  simp only [Arr2.nansum, Arr2.nFinite, h1, h2, h3, h4, sum_range_succ, range_zero, sum_empty, a0, a1, a2, w0, w1, w2]
  norm_num [mulO, subO, divO]
  split_ifs with k1 k2
  · exact ⟨_, _, rfl⟩
  · exfalso
    revert k2
    rw [imp_false, not_le]
    have : 0 < √((2 / kernArea 1 : ℕ) : ℝ) := lt_of_le_of_ne (Real.sqrt_nonneg _) (Ne.symm (by simpa using k1))
    positivity
  · exact ⟨_, _, rfl⟩

/-- Non-vacuity of `C38_value_partial` and `C38_preserve_violated`: a map `[0, 2, missing]` whose missing pixel is
reached by the core kernel has a value with `preserve_nan=True`. -/
example : ∃ (core ann : ℕ → ℕ → ℕ → ℕ → ℝ) (img : Arr2 (Option ℝ)) (w : Arr2 ℝ) (v : ℝ) (e : ErrVal),
    npMax w.ravel = .ok 1 ∧
    deltaVarAt (fun _ _ => none) (fun _ _ => 0) core ann .wrap 0 true 1 img w = .ok (some (v, e)) ∧
    img.get 0 2 = none ∧
    (0, 2) ∈ Spec.supported 1 3 0 (Spec.smooth core 1 3 w.get) (Spec.smooth ann 1 3 w.get) := by
  let core : ℕ → ℕ → ℕ → ℕ → ℝ := fun _ j _ v => if v = min j 1 then 1 else 0
  let ann : ℕ → ℕ → ℕ → ℕ → ℝ := fun _ _ _ v => if v = 0 then 1 else 0
  let img : Arr2 (Option ℝ) := ⟨1, 3, fun _ j => if j = 2 then none else some (2 * j)⟩
  let w : Arr2 ℝ := ⟨1, 3, fun _ j => if j = 2 then 0 else 1⟩
  have hmax : npMax w.ravel = .ok 1 := by
    simp [w, Arr2.ravel, npMax, List.range_succ]
  have hex : ∃ r, deltaVarAt (fun _ _ => none) (fun _ _ => 0) core ann .wrap 0 true 1 img w = .ok (some r) := by
    unfold deltaVarAt
    simp only [hmax, dvPad, bind, Except.bind, pure, Except.pure, Except.ok.injEq]
    apply delvar_example
    · rfl
    · rfl
    · rfl
    · rfl
    all_goals norm_num [dvFilter, applyK, Arr2.map, core, ann, img, w, sum_range_succ, dvMask, mulO, subO, divO]
    all_goals (intro hh; cases hh)
  obtain ⟨⟨v, e⟩, h⟩ := hex
  refine ⟨core, ann, img, w, v, e, hmax, h, rfl, ?_⟩
  simp [Spec.supported, Spec.smooth, core, ann, w, sum_range_succ]

end TS
