import Verif.Model.Cramer
import Verif.Lemmas.NegType
import Mathlib.Tactic.NormNum
import Mathlib.Tactic.FieldSimp
import Mathlib.Data.Finset.Sum

/-! C29 — laws of the Cramer statistic. -/

namespace TS
open Finset

namespace Spec

/-- The matrix `a` holds a sample of `m` points with `d` coordinates. -/
def Sample (a : Arr2 (Option ℝ)) (m d : ℕ) (X : ℕ → ℕ → ℝ) : Prop :=
  0 < m ∧ 0 < d ∧ a.n = m ∧ a.m = d ∧ ∀ i < m, ∀ k < d, a.get i k = some (X i k)

/-- The square root of the Euclidean distance. -/
noncomputable def phi (d : ℕ) (u v : ℕ → ℝ) : ℝ := Real.sqrt (Real.sqrt (∑ k ∈ range d, (u k - v k) ^ 2))

/-- The two-sample Cramer statistic of Baringhaus & Franz with that kernel. -/
noncomputable def cramer (d m : ℕ) (X : ℕ → ℕ → ℝ) (n : ℕ) (Y : ℕ → ℕ → ℝ) : ℝ :=
  ((m : ℝ) * n / (m + n)) *
    ((∑ i ∈ range m, ∑ j ∈ range n, phi d (X i) (Y j)) / (m * n)
      - (∑ i ∈ range m, ∑ j ∈ range m, phi d (X i) (X j)) / (2 * m ^ 2)
      - (∑ i ∈ range n, ∑ j ∈ range n, phi d (Y i) (Y j)) / (2 * n ^ 2))

open Classical in
/-- The number of points of the sample at `p`. -/
noncomputable def pointsAt (d m : ℕ) (X : ℕ → ℕ → ℝ) (p : ℕ → ℝ) : ℕ :=
  #{i ∈ range m | ∀ k ∈ range d, X i k = p k}

end Spec

theorem phi_comm (d : ℕ) (u v : ℕ → ℝ) : Spec.phi d u v = Spec.phi d v u := by
  unfold Spec.phi
  congr 2
  exact sum_congr rfl (fun _ _ => by ring)

theorem cramer_comm (d m : ℕ) (X : ℕ → ℕ → ℝ) (n : ℕ) (Y : ℕ → ℕ → ℝ) :
    Spec.cramer d m X n Y = Spec.cramer d n Y m X := by
  unfold Spec.cramer
  have : ∑ i ∈ range m, ∑ j ∈ range n, Spec.phi d (X i) (Y j) =
      ∑ i ∈ range n, ∑ j ∈ range m, Spec.phi d (Y i) (X j) := by
    rw [sum_comm]
    exact sum_congr rfl (fun _ _ => sum_congr rfl (fun _ _ => phi_comm _ _ _))
  rw [this, mul_comm (m : ℝ) n, add_comm (m : ℝ) n]
  ring

private theorem rootDist_eq {a b : Arr2 (Option ℝ)} {m n d : ℕ} {X Y : ℕ → ℕ → ℝ}
    (ha : Spec.Sample a m d X) (hb : Spec.Sample b n d Y) {i j : ℕ} (hi : i < m) (hj : j < n) :
    rootDist a b i j = Spec.phi d (X i) (Y j) := by
  unfold rootDist Spec.phi
  rw [ha.2.2.2.1]
  congr 2
  refine sum_congr rfl (fun k hk => ?_)
  rw [ha.2.2.2.2 i hi k (mem_range.1 hk), hb.2.2.2.2 j hj k (mem_range.1 hk)]
  rfl

private theorem terms_eq {a b : Arr2 (Option ℝ)} {m n d : ℕ} {X Y : ℕ → ℕ → ℝ}
    (ha : Spec.Sample a m d X) (hb : Spec.Sample b n d Y) (hmn : n ≤ m) :
    cramerTerms a b = Spec.cramer d m X n Y := by
  unfold cramerTerms Spec.cramer
  simp only [ha.2.2.1, hb.2.2.1]
  have h1 : ∑ i ∈ range m, ∑ j ∈ range n, rootDist a b i j =
      ∑ i ∈ range m, ∑ j ∈ range n, Spec.phi d (X i) (Y j) :=
    sum_congr rfl (fun i hi => sum_congr rfl (fun j hj =>
      rootDist_eq ha hb (mem_range.1 hi) (mem_range.1 hj)))
  have h2 : ∑ i ∈ range m, ∑ j ∈ range m, rootDist a a i j =
      ∑ i ∈ range m, ∑ j ∈ range m, Spec.phi d (X i) (X j) :=
    sum_congr rfl (fun i hi => sum_congr rfl (fun j hj =>
      rootDist_eq ha ha (mem_range.1 hi) (mem_range.1 hj)))
  have h3 : (∑ i ∈ range m, if i < n then ∑ j ∈ range n, rootDist b b i j else 0) =
      ∑ i ∈ range n, ∑ j ∈ range n, Spec.phi d (Y i) (Y j) := by
    rw [← sum_filter]
    have : (range m).filter (fun i => i < n) = range n := by
      ext i; simp only [mem_filter, mem_range]; omega
    rw [this]
    exact sum_congr rfl (fun i hi => sum_congr rfl (fun j hj =>
      rootDist_eq hb hb (mem_range.1 hi) (mem_range.1 hj)))
  rw [h1, h2, h3]
  ring

private theorem valid_of_sample {a : Arr2 (Option ℝ)} {m d : ℕ} {X : ℕ → ℕ → ℝ}
    (h : Spec.Sample a m d X) : SkValid a := by
  obtain ⟨hm, hd, rfl, rfl, hg⟩ := h
  refine ⟨hm, hd, fun i hi j hj => ?_⟩
  rw [hg i hi j hj]; simp

/-- On two samples of points the reported value is the Cramer statistic, whichever of them is the
larger one. -/
theorem C29_value {a b : Arr2 (Option ℝ)} {m n d : ℕ} {X Y : ℕ → ℕ → ℝ}
    (ha : Spec.Sample a m d X) (hb : Spec.Sample b n d Y) :
    cramerStatistic a b = .ok (Spec.cramer d m X n Y) := by
  unfold cramerStatistic
  simp only
  by_cases h : b.n ≤ a.n
  · rw [if_pos h, if_pos h, if_pos ⟨valid_of_sample ha, valid_of_sample hb, by rw [ha.2.2.2.1, hb.2.2.2.1]⟩,
      terms_eq ha hb (by rw [← ha.2.2.1, ← hb.2.2.1]; exact h)]
  · rw [if_neg h, if_neg h, if_pos ⟨valid_of_sample hb, valid_of_sample ha, by rw [ha.2.2.2.1, hb.2.2.2.1]⟩,
      terms_eq hb ha (by rw [← ha.2.2.1, ← hb.2.2.1]; omega), cramer_comm]

/-- Symmetric in the two datasets (also when one of them is rejected). -/
theorem C29_symmetric (a b : Arr2 (Option ℝ)) : cramerStatistic a b = cramerStatistic b a := by
  have key : ∀ c : Arr2 (Option ℝ), SkValid c → Spec.Sample c c.n c.m (fun i k => (c.get i k).getD 0) := by
    intro c hc
    refine ⟨hc.1, hc.2.1, rfl, rfl, fun i hi k hk => ?_⟩
    cases h : c.get i k with
    | none => exact absurd h (hc.2.2 i hi k hk)
    | some v => simp [h]
  by_cases h : SkValid a ∧ SkValid b ∧ a.m = b.m
  · have ha := key a h.1
    have hb := key b h.2.1
    rw [← h.2.2] at hb
    rw [C29_value ha hb, C29_value hb ha, cramer_comm]
  · have h2 : ∀ c d : Arr2 (Option ℝ), ¬ (SkValid c ∧ SkValid d ∧ c.m = d.m) →
        cramerStatistic c d = .error .valueError := by
      intro c d hcd
      unfold cramerStatistic
      simp only
      rw [if_neg]
      rintro ⟨h1, h2, h3⟩
      split_ifs at h1 h2 h3
      · exact hcd ⟨h1, h2, h3⟩
      · exact hcd ⟨h2, h1, h3.symm⟩
    rw [h2 a b h, h2 b a (fun h' => h ⟨h'.2.1, h'.1, h'.2.2.symm⟩)]

/-- NaN, empty matrices and different numbers of columns are rejected; everything else has a value. -/
theorem C29_rejects (a b : Arr2 (Option ℝ)) :
    (∃ v, cramerStatistic a b = .ok v) ↔ SkValid a ∧ SkValid b ∧ a.m = b.m := by
  unfold cramerStatistic
  simp only
  by_cases h : b.n ≤ a.n
  · rw [if_pos h, if_pos h]
    split_ifs with h2
    · exact ⟨fun _ => h2, fun _ => ⟨_, rfl⟩⟩
    · exact ⟨fun ⟨v, hv⟩ => by simp at hv, fun h3 => absurd h3 h2⟩
  · rw [if_neg h, if_neg h]
    split_ifs with h2
    · exact ⟨fun _ => ⟨h2.2.1, h2.1, h2.2.2.symm⟩, fun _ => ⟨_, rfl⟩⟩
    · exact ⟨fun ⟨v, hv⟩ => by simp at hv, fun h3 => absurd ⟨h3.2.1, h3.1, h3.2.2.symm⟩ h2⟩

/-- Zero between a sample and itself. -/
theorem C29_self {a : Arr2 (Option ℝ)} {m d : ℕ} {X : ℕ → ℕ → ℝ} (ha : Spec.Sample a m d X) :
    cramerStatistic a a = .ok 0 := by
  rw [C29_value ha ha]
  congr 1
  unfold Spec.cramer
  have : (m : ℝ) ≠ 0 := by have := ha.1; positivity
  field_simp
  ring

/-- Invariant under reordering the rows of either sample. -/
theorem C29_reorder {a b a' b' : Arr2 (Option ℝ)} {m n d : ℕ} {X Y : ℕ → ℕ → ℝ} (s t : ℕ → ℕ)
    (hs : Set.BijOn s (range m) (range m)) (ht : Set.BijOn t (range n) (range n))
    (ha : Spec.Sample a m d X) (hb : Spec.Sample b n d Y)
    (ha' : Spec.Sample a' m d (fun i => X (s i))) (hb' : Spec.Sample b' n d (fun i => Y (t i))) :
    cramerStatistic a' b' = cramerStatistic a b := by
  rw [C29_value ha hb, C29_value ha' hb']
  have re : ∀ {q : ℕ} {u : ℕ → ℕ} (_ : Set.BijOn u (range q) (range q)) (f : ℕ → ℝ),
      ∑ i ∈ range q, f (u i) = ∑ i ∈ range q, f i := by
    intro q u hu f
    exact sum_nbij u (fun i hi => hu.mapsTo hi) hu.injOn hu.surjOn (fun _ _ => rfl)
  unfold Spec.cramer
  congr 2
  have e1 : ∑ i ∈ range m, ∑ j ∈ range n, Spec.phi d (X (s i)) (Y (t j)) =
      ∑ i ∈ range m, ∑ j ∈ range n, Spec.phi d (X i) (Y j) := by
    rw [re hs (fun i => ∑ j ∈ range n, Spec.phi d (X i) (Y (t j)))]
    exact sum_congr rfl (fun i _ => re ht (fun j => Spec.phi d (X i) (Y j)))
  have e2 : ∑ i ∈ range m, ∑ j ∈ range m, Spec.phi d (X (s i)) (X (s j)) =
      ∑ i ∈ range m, ∑ j ∈ range m, Spec.phi d (X i) (X j) := by
    rw [re hs (fun i => ∑ j ∈ range m, Spec.phi d (X i) (X (s j)))]
    exact sum_congr rfl (fun i _ => re hs (fun j => Spec.phi d (X i) (X j)))
  have e3 : ∑ i ∈ range n, ∑ j ∈ range n, Spec.phi d (Y (t i)) (Y (t j)) =
      ∑ i ∈ range n, ∑ j ∈ range n, Spec.phi d (Y i) (Y j) := by
    rw [re ht (fun i => ∑ j ∈ range n, Spec.phi d (Y i) (Y (t j)))]
    exact sum_congr rfl (fun i _ => re ht (fun j => Spec.phi d (Y i) (Y j)))
  rw [e1, e2, e3]

/-- Invariant under a common translation of all points. -/
theorem C29_translate {a b a' b' : Arr2 (Option ℝ)} {m n d : ℕ} {X Y : ℕ → ℕ → ℝ} (c : ℕ → ℝ)
    (ha : Spec.Sample a m d X) (hb : Spec.Sample b n d Y)
    (ha' : Spec.Sample a' m d (fun i k => X i k + c k)) (hb' : Spec.Sample b' n d (fun i k => Y i k + c k)) :
    cramerStatistic a' b' = cramerStatistic a b := by
  rw [C29_value ha hb, C29_value ha' hb']
  have : ∀ u v : ℕ → ℝ, Spec.phi d (fun k => u k + c k) (fun k => v k + c k) = Spec.phi d u v := by
    intro u v
    unfold Spec.phi
    congr 2
    exact sum_congr rfl (fun _ _ => by ring)
  unfold Spec.cramer
  simp only [this]

private theorem phi_root (d : ℕ) (u v : ℕ → ℝ) :
    Spec.phi d u v = (sqDist (range d) u v) ^ (1 / 4 : ℝ) := by
  unfold Spec.phi sqDist
  rw [Real.sqrt_eq_rpow, Real.sqrt_eq_rpow, ← Real.rpow_mul (sum_nonneg (fun _ _ => sq_nonneg _))]
  norm_num

private noncomputable def wt (m n : ℕ) : ℕ ⊕ ℕ → ℝ := Sum.elim (fun _ => 1 / (m : ℝ)) (fun _ => -(1 / (n : ℝ)))

private theorem wt_sum {m n : ℕ} (hm : 0 < m) (hn : 0 < n) :
    ∑ i ∈ (range m).disjSum (range n), wt m n i = 0 := by
  rw [sum_disjSum]
  unfold wt
  simp only [Sum.elim_inl, Sum.elim_inr, sum_const, card_range, nsmul_eq_mul]
  have h1 : (m : ℝ) ≠ 0 := by positivity
  have h2 : (n : ℝ) ≠ 0 := by positivity
  field_simp
  norm_num

private theorem cramer_root {m n d : ℕ} (hm : 0 < m) (hn : 0 < n) (X Y : ℕ → ℕ → ℝ) :
    Spec.cramer d m X n Y = -((m : ℝ) * n / (m + n) / 2) *
      rootForm ((range m).disjSum (range n)) (range d) (wt m n) (Sum.elim X Y) := by
  unfold rootForm wt
  simp only [sum_disjSum, Sum.elim_inl, Sum.elim_inr, ← phi_root, ← mul_sum, sum_add_distrib]
  have e : ∑ i ∈ range n, ∑ j ∈ range m, Spec.phi d (Y i) (X j) =
      ∑ i ∈ range m, ∑ j ∈ range n, Spec.phi d (X i) (Y j) := by
    rw [sum_comm]
    exact sum_congr rfl (fun _ _ => sum_congr rfl (fun _ _ => phi_comm _ _ _))
  rw [e]
  unfold Spec.cramer
  have h1 : (m : ℝ) ≠ 0 := by positivity
  have h2 : (n : ℝ) ≠ 0 := by positivity
  have h3 : (m : ℝ) + n ≠ 0 := by positivity
  field_simp
  ring

/-- Never negative. -/
theorem C29_nonneg {a b : Arr2 (Option ℝ)} {m n d : ℕ} {X Y : ℕ → ℕ → ℝ}
    (ha : Spec.Sample a m d X) (hb : Spec.Sample b n d Y) :
    ∃ v, cramerStatistic a b = .ok v ∧ 0 ≤ v := by
  refine ⟨_, C29_value ha hb, ?_⟩
  rw [cramer_root ha.1 hb.1]
  have := rootForm_nonpos _ (range d) _ (Sum.elim X Y) (wt_sum ha.1 hb.1)
  have h2 : (0 : ℝ) ≤ (m : ℝ) * n / (m + n) / 2 := by positivity
  nlinarith

/-- Zero exactly when the two samples have the same distribution: every point takes the same fraction
of both. -/
theorem C29_zero_iff {a b : Arr2 (Option ℝ)} {m n d : ℕ} {X Y : ℕ → ℕ → ℝ}
    (ha : Spec.Sample a m d X) (hb : Spec.Sample b n d Y) :
    cramerStatistic a b = .ok 0 ↔
      ∀ p, (Spec.pointsAt d m X p : ℝ) / m = (Spec.pointsAt d n Y p : ℝ) / n := by
  classical
  rw [C29_value ha hb, cramer_root ha.1 hb.1]
  have hm : (0 : ℝ) < m := by have := ha.1; positivity
  have hn : (0 : ℝ) < n := by have := hb.1; positivity
  have hc : -((m : ℝ) * n / (m + n) / 2) ≠ 0 := by
    apply neg_ne_zero.2; positivity
  have mass : ∀ p : ℕ → ℝ, ∑ i ∈ (range m).disjSum (range n) with
      (∀ k ∈ range d, Sum.elim X Y i k = p k), wt m n i =
      (Spec.pointsAt d m X p : ℝ) / m - (Spec.pointsAt d n Y p : ℝ) / n := by
    intro p
    have aux : ∀ (s : Finset ℕ) (P : ℕ → Prop) [DecidablePred P] (c : ℝ),
        (∑ x ∈ s, if P x then c else 0) = #{x ∈ s | P x} * c := by
      intro s P _ c
      rw [← sum_filter, sum_const, nsmul_eq_mul]
    have e1 := aux (range m) (fun i => ∀ k ∈ range d, X i k = p k) (1 / m)
    have e2 := aux (range n) (fun i => ∀ k ∈ range d, Y i k = p k) (-(1 / n))
    rw [sum_filter, sum_disjSum]
    refine Eq.trans (b := (∑ x ∈ range m, if (∀ k ∈ range d, X x k = p k) then 1 / (m : ℝ) else 0) +
      ∑ x ∈ range n, if (∀ k ∈ range d, Y x k = p k) then -(1 / (n : ℝ)) else 0) (by congr!) ?_
    rw [e1, e2]
    unfold Spec.pointsAt
    have c1 : ∀ (q : ℕ) (Z : ℕ → ℕ → ℝ), #{i ∈ range q | ∀ k ∈ range d, Z i k = p k} =
      @Finset.card ℕ (@Finset.filter ℕ (fun i => ∀ k ∈ range d, Z i k = p k) (fun _ => Classical.propDecidable _)
        (range q)) := by intro q Z; congr!
    rw [c1, c1]
    ring
  constructor
  · intro h p
    have h0 : rootForm ((range m).disjSum (range n)) (range d) (wt m n) (Sum.elim X Y) = 0 := by
      injection h with h
      exact (mul_eq_zero.1 h).resolve_left hc
    have := rootForm_mass _ _ _ _ (wt_sum ha.1 hb.1) h0 p
    rw [mass p] at this
    linarith
  · intro h
    have h0 : rootForm ((range m).disjSum (range n)) (range d) (wt m n) (Sum.elim X Y) = 0 := by
      unfold rootForm
      refine sum_eq_zero (fun i _ => ?_)
      have hgroup : ∑ j ∈ (range m).disjSum (range n), wt m n i * wt m n j *
          sqDist (range d) (Sum.elim X Y i) (Sum.elim X Y j) ^ (1 / 4 : ℝ) =
          wt m n i * ∑ q ∈ ((range m).disjSum (range n)).image
            (fun j k => if k ∈ range d then Sum.elim X Y j k else 0),
            sqDist (range d) (Sum.elim X Y i) q ^ (1 / 4 : ℝ) *
              ∑ j ∈ (range m).disjSum (range n) with (∀ k ∈ range d, Sum.elim X Y j k = q k), wt m n j := by
        rw [mul_sum, ← sum_fiberwise_of_maps_to (s := (range m).disjSum (range n))
          (t := ((range m).disjSum (range n)).image (fun j k => if k ∈ range d then Sum.elim X Y j k else 0))
          (g := fun j k => if k ∈ range d then Sum.elim X Y j k else 0)
          (fun j hj => mem_image_of_mem _ hj)]
        refine sum_congr rfl (fun q hq => ?_)
        rw [mul_sum, mul_sum]
        have hset : ((range m).disjSum (range n)).filter
              (fun j => (fun k => if k ∈ range d then Sum.elim X Y j k else 0) = q) =
            ((range m).disjSum (range n)).filter (fun j => ∀ k ∈ range d, Sum.elim X Y j k = q k) := by
          obtain ⟨j0, _, rfl⟩ := mem_image.1 hq
          refine filter_congr (fun j _ => ?_)
          constructor
          · intro e k hk
            have := congrFun e k
            simpa [hk] using this
          · intro e; funext k
            by_cases hk : k ∈ range d
            · have := e k hk
              simpa [hk] using this
            · simp [hk]
        rw [hset]
        refine sum_congr rfl (fun j hj => ?_)
        have hj2 := (mem_filter.1 hj).2
        have : sqDist (range d) (Sum.elim X Y i) (Sum.elim X Y j) = sqDist (range d) (Sum.elim X Y i) q := by
          unfold sqDist
          exact sum_congr rfl (fun k hk => by rw [hj2 k hk])
        rw [this]; ring
      rw [hgroup]
      have : ∀ q ∈ ((range m).disjSum (range n)).image
            (fun j k => if k ∈ range d then Sum.elim X Y j k else 0),
          sqDist (range d) (Sum.elim X Y i) q ^ (1 / 4 : ℝ) *
            ∑ j ∈ (range m).disjSum (range n) with (∀ k ∈ range d, Sum.elim X Y j k = q k), wt m n j = 0 := by
        intro q _
        rw [mass q, h q, sub_self, mul_zero]
      rw [sum_eq_zero this, mul_zero]
    rw [h0, mul_zero]

/-- The random reduction to a common number of columns keeps, in every row, entries of that row taken
from different columns, and leaves the dataset with fewer columns alone. -/
theorem C29_subsample (c : Choice) (a b : Arr2 (Option ℝ)) :
    let d := matchSamples c a b
    d.1.m = min a.m b.m ∧ d.2.m = min a.m b.m ∧ d.1.n = a.n ∧ d.2.n = b.n ∧
    (∀ i, ∃ s : ℕ → ℕ, Set.InjOn s (range (min a.m b.m)) ∧
      (∀ k < min a.m b.m, s k < a.m ∧ d.1.get i k = a.get i (s k))) ∧
    (∀ i, ∃ s : ℕ → ℕ, Set.InjOn s (range (min a.m b.m)) ∧
      (∀ k < min a.m b.m, s k < b.m ∧ d.2.get i k = b.get i (s k))) ∧
    (a.m ≤ b.m → d.1 = a) ∧ (b.m ≤ a.m → d.2 = b) := by
  have idc : ∀ q : ℕ, Set.InjOn (fun k : ℕ => k) (range q : Finset ℕ) := fun q x _ y _ h => h
  have pk : ∀ n k i, k ≤ n → Set.InjOn (c.pick n k i) (range k : Finset ℕ) := by
    intro n k i hk x hx y hy h
    exact c.inj n k i hk x (by simpa using hx) y (by simpa using hy) h
  simp only
  unfold matchSamples
  by_cases h : a.m = b.m
  · have hmin : min a.m b.m = a.m := by omega
    rw [if_neg (by simpa using h), hmin]
    refine ⟨rfl, h.symm, rfl, rfl, fun i => ⟨fun k => k, idc _, fun k hk => ⟨hk, rfl⟩⟩,
      fun i => ⟨fun k => k, idc _, fun k hk => ⟨h ▸ hk, rfl⟩⟩, fun _ => rfl, fun _ => rfl⟩
  · rw [if_pos h]
    by_cases h2 : a.m < b.m
    · have hmin : min a.m b.m = a.m := by omega
      rw [if_pos h2, hmin]
      refine ⟨rfl, rfl, rfl, rfl, fun i => ⟨fun k => k, idc _, fun k hk => ⟨hk, rfl⟩⟩,
        fun i => ⟨c.pick b.m a.m i, pk _ _ _ h2.le, fun k hk => ⟨c.lt _ _ _ h2.le k hk, rfl⟩⟩,
        fun _ => rfl, fun h3 => by omega⟩
    · have hmin : min a.m b.m = b.m := by omega
      rw [if_neg h2, hmin]
      refine ⟨rfl, rfl, rfl, rfl,
        fun i => ⟨c.pick a.m b.m i, pk _ _ _ (by omega), fun k hk => ⟨c.lt _ _ _ (by omega) k hk, rfl⟩⟩,
        fun i => ⟨fun k => k, idc _, fun k hk => ⟨hk, rfl⟩⟩,
        fun h3 => by omega, fun _ => rfl⟩

/-- With the seed fixed, the whole distance is symmetric in the two cubes whenever both can be
formatted. -/
theorem C29_distance_symmetric (c : Choice) (cube1 cube2 : Arr3 (Option ℝ)) (noise1 noise2 : Option ℝ)
    (normalize : Bool) (v : ℝ) :
    cramerDistance c cube1 cube2 noise1 noise2 normalize = .ok v ↔
      cramerDistance c cube2 cube1 noise2 noise1 normalize = .ok v := by
  have swap : ∀ a b : Arr2 (Option ℝ), matchSamples c b a = ((matchSamples c a b).2, (matchSamples c a b).1) := by
    intro a b
    unfold matchSamples
    by_cases h : a.m = b.m
    · rw [if_neg (not_not.2 h.symm), if_neg (not_not.2 h)]
    · rw [if_pos h, if_pos (Ne.symm h)]
      by_cases h2 : a.m < b.m
      · rw [if_pos h2, if_neg (by omega)]
      · rw [if_neg h2, if_pos (by omega)]
  unfold cramerDistance
  cases h1 : formatData cube1 "intensity" (some 1000) (fun _ => 0) noise1 0.2 normalize <;>
    cases h2 : formatData cube2 "intensity" (some 1000) (fun _ => 0) noise2 0.2 normalize
  · simp [bind, Except.bind]
  · simp [bind, Except.bind]
  · simp [bind, Except.bind]
  · simp only [bind, Except.bind]
    rw [swap, C29_symmetric]

/-- A cube is at distance zero from itself, whenever it can be formatted to finite values. -/
theorem C29_distance_self (c : Choice) (cube : Arr3 (Option ℝ)) (noise : Option ℝ) (normalize : Bool)
    (v : ℝ) (h : cramerDistance c cube cube noise noise normalize = .ok v) : v = 0 := by
  unfold cramerDistance at h
  cases h1 : formatData cube "intensity" (some 1000) (fun _ => 0) noise 0.2 normalize with
  | error e => rw [h1] at h; simp [bind, Except.bind] at h
  | ok d =>
    rw [h1] at h
    simp only [bind, Except.bind, matchSamples, ne_eq, not_true_eq_false, if_false] at h
    have hv := (C29_rejects d d).1 ⟨v, h⟩
    have hs : Spec.Sample d d.n d.m (fun i k => (d.get i k).getD 0) := by
      refine ⟨hv.1.1, hv.1.2.1, rfl, rfl, fun i hi k hk => ?_⟩
      cases h : d.get i k with
      | none => exact absurd h (hv.1.2.2 i hi k hk)
      | some v => simp [h]
    rw [C29_self hs] at h
    injection h with h
    exact h.symm

/-- The hypotheses are met: two points at distance 1 against one of them twice; the value is positive. -/
example : ∃ a b : Arr2 (Option ℝ), ∃ X Y : ℕ → ℕ → ℝ, Spec.Sample a 2 1 X ∧ Spec.Sample b 1 1 Y ∧
    cramerStatistic a b ≠ .ok 0 := by
  refine ⟨⟨2, 1, fun i _ => some (i : ℝ)⟩, ⟨1, 1, fun _ _ => some 0⟩, fun i _ => i, fun _ _ => 0,
    ⟨by norm_num, by norm_num, rfl, rfl, fun _ _ _ _ => rfl⟩,
    ⟨by norm_num, by norm_num, rfl, rfl, fun _ _ _ _ => rfl⟩, ?_⟩
  rw [Ne, C29_zero_iff (m := 2) (n := 1) (d := 1) (X := fun i _ => i) (Y := fun _ _ => 0)
    ⟨by norm_num, by norm_num, rfl, rfl, fun _ _ _ _ => rfl⟩
    ⟨by norm_num, by norm_num, rfl, rfl, fun _ _ _ _ => rfl⟩]
  intro h
  have := h (fun _ => 1)
  unfold Spec.pointsAt at this
  have h1 : ((range 2).filter (fun i : ℕ => ∀ k ∈ range 1, ((i : ℕ) : ℝ) = 1)) = {1} := by
    ext i; simp only [mem_filter, mem_range, mem_singleton]
    constructor
    · rintro ⟨_, h⟩
      have := h 0 (by norm_num)
      exact_mod_cast this
    · rintro rfl; simp
  have h2 : ((range 1).filter (fun _ : ℕ => ∀ k ∈ range 1, (0 : ℝ) = 1)) = ∅ := by
    ext i; simp
  simp only [h2, card_empty] at this
  rw [h1] at this
  norm_num at this

end TS
