import Verif.Model.CramerMetric
import Verif.Props.C29
import Verif.Props.C30

/-! C107 — the Cramer distance of two cubes: what it depends on. -/

namespace TS
open Finset

namespace Spec

/-- `b` has the channels of `a` in another order (`b`'s channel `i` is `a`'s channel `σ i`), each with the same pixel values, at any
place of a map with as many pixels. -/
def Shuffled (σ : ℕ → ℕ) (a b : Arr3 (Option ℝ)) : Prop :=
  b.n = a.n ∧ b.m * b.p = a.m * a.p ∧ Set.BijOn σ (range a.n) (range a.n) ∧
    ∀ v < a.n, ∀ t, pixelsWith b v t = pixelsWith a (σ v) t

/-- The number of values used per channel: a fifth of the pixels. -/
noncomputable def fifth (a : Arr3 (Option ℝ)) : ℕ := (npRound (0.2 * a.m * a.p)).toNat

open Classical in
/-- How many pixels of a channel are at least `t` and above the noise limit. -/
noncomputable def brightPixels (a : Arr3 (Option ℝ)) (noise : Option ℝ) (v : ℕ) (t : ℝ) : ℕ :=
  #{q ∈ range a.m ×ˢ range a.p | ∃ x, a.get v q.1 q.2 = some x ∧ t ≤ x ∧ Above noise x}

/-- `a` and `b` differ only at pixels that are fainter than `t v` (or missing) in both. -/
def SameAbove (t : ℕ → ℝ) (a b : Arr3 (Option ℝ)) : Prop :=
  b.n = a.n ∧ b.m = a.m ∧ b.p = a.p ∧ ∀ v < a.n, ∀ i < a.m, ∀ j < a.p, a.get v i j = b.get v i j ∨
    ((∀ x, a.get v i j = some x → x < t v) ∧ ∀ x, b.get v i j = some x → x < t v)

/-- All values of a cube multiplied by a number. -/
noncomputable def scaledCube (s : ℝ) (a : Arr3 (Option ℝ)) : Arr3 (Option ℝ) := a.map (fun v => v.map (fun t => s * t))

end Spec

open Spec

/-! ### Matrices with rows in another order -/

private def RowPerm (σ : ℕ → ℕ) (a b : Arr2 (Option ℝ)) : Prop :=
  b.n = a.n ∧ b.m = a.m ∧ Set.BijOn σ (range a.n) (range a.n) ∧ ∀ i < a.n, ∀ j < a.m, b.get i j = a.get (σ i) j

private def RelPy (σ : ℕ → ℕ) : Py (Arr2 (Option ℝ)) → Py (Arr2 (Option ℝ)) → Prop
  | .ok a, .ok b => RowPerm σ a b
  | .error e, .error e' => e = e'
  | _, _ => False

private theorem bij_lt {σ : ℕ → ℕ} {n : ℕ} (h : Set.BijOn σ (range n) (range n)) {i : ℕ} (hi : i < n) : σ i < n := by
  have := h.mapsTo (x := i) (by simpa using hi)
  simpa using this

private theorem bij_sur {σ : ℕ → ℕ} {n : ℕ} (h : Set.BijOn σ (range n) (range n)) {i : ℕ} (hi : i < n) : ∃ k < n, σ k = i := by
  obtain ⟨k, hk, rfl⟩ := h.surjOn (a := i) (by simpa using hi)
  exact ⟨k, by simpa using hk, rfl⟩

private theorem sum_bij' {σ : ℕ → ℕ} {n : ℕ} (h : Set.BijOn σ (range n) (range n)) (f : ℕ → ℝ) :
    ∑ i ∈ range n, f (σ i) = ∑ i ∈ range n, f i :=
  sum_nbij σ (fun i hi => mem_range.2 (bij_lt h (mem_range.1 hi))) h.injOn h.surjOn (fun _ _ => rfl)

private theorem rp_valid {σ : ℕ → ℕ} {a b : Arr2 (Option ℝ)} (h : RowPerm σ a b) : SkValid b ↔ SkValid a := by
  obtain ⟨h1, h2, h3, h4⟩ := h
  unfold SkValid
  rw [h1, h2]
  refine and_congr_right fun _ => and_congr_right fun _ => ⟨fun h i hi j hj => ?_, fun h i hi j hj => ?_⟩
  · obtain ⟨k, hk, rfl⟩ := bij_sur h3 hi
    rw [← h4 k hk j hj]; exact h k hk j hj
  · rw [h4 i hi j hj]; exact h _ (bij_lt h3 hi) j hj

private theorem sample_of_valid {c : Arr2 (Option ℝ)} (hc : SkValid c) : Sample c c.n c.m (fun i k => (c.get i k).getD 0) := by
  refine ⟨hc.1, hc.2.1, rfl, rfl, fun i hi k hk => ?_⟩
  cases h : c.get i k with
  | none => exact absurd h (hc.2.2 i hi k hk)
  | some v => simp [h]

private theorem rp_sample {σ : ℕ → ℕ} {a b : Arr2 (Option ℝ)} (h : RowPerm σ a b) (hv : SkValid a) :
    Sample b a.n a.m (fun i k => (a.get (σ i) k).getD 0) := by
  obtain ⟨h1, h2, h3, h4⟩ := h
  refine ⟨hv.1, hv.2.1, h1, h2, fun i hi k hk => ?_⟩
  rw [h4 i hi k hk]
  cases h : a.get (σ i) k with
  | none => exact absurd h (hv.2.2 _ (bij_lt h3 hi) k hk)
  | some v => simp [h]

private theorem stat_error {a b : Arr2 (Option ℝ)} (h : ¬ (SkValid a ∧ SkValid b ∧ a.m = b.m)) :
    cramerStatistic a b = .error .valueError := by
  unfold cramerStatistic
  simp only
  by_cases h1 : b.n ≤ a.n
  · rw [if_pos h1, if_pos h1]
    exact if_neg h
  · rw [if_neg h1, if_neg h1]
    exact if_neg fun h2 => h ⟨h2.2.1, h2.1, h2.2.2.symm⟩

private theorem stat_perm {σ τ : ℕ → ℕ} {a b a' b' : Arr2 (Option ℝ)} (ha : RowPerm σ a a') (hb : RowPerm τ b b') :
    cramerStatistic a' b' = cramerStatistic a b := by
  by_cases h : SkValid a ∧ SkValid b ∧ a.m = b.m
  · have hbm : Sample b b.n a.m (fun i k => (b.get i k).getD 0) := h.2.2 ▸ sample_of_valid h.2.1
    have hbm' : Sample b' b.n a.m (fun i k => (b.get (τ i) k).getD 0) := h.2.2 ▸ rp_sample hb h.2.1
    exact C29_reorder σ τ ha.2.2.1 hb.2.2.1 (sample_of_valid h.1) hbm (rp_sample ha h.1) hbm'
  · rw [stat_error h, stat_error]
    rw [rp_valid ha, rp_valid hb, ha.2.1, hb.2.1]
    exact h

/-- With the same number of columns, or with rows in the same order, the reduction to common columns keeps the relation. -/
private theorem match_perm {σ τ : ℕ → ℕ} (c : Choice) {a b a' b' : Arr2 (Option ℝ)} (ha : RowPerm σ a a') (hb : RowPerm τ b b')
    (h : a.m = b.m ∨ ((∀ i, σ i = i) ∧ ∀ i, τ i = i)) :
    RowPerm σ (matchSamples c a b).1 (matchSamples c a' b').1 ∧ RowPerm τ (matchSamples c a b).2 (matchSamples c a' b').2 := by
  by_cases he : a.m = b.m
  · unfold matchSamples
    rw [ha.2.1, hb.2.1, if_neg (not_not.2 he), if_neg (not_not.2 he)]
    exact ⟨ha, hb⟩
  · obtain ⟨hσ, hτ⟩ := h.resolve_left he
    unfold matchSamples
    rw [ha.2.1, hb.2.1, if_pos he, if_pos he]
    have sub : ∀ {ρ : ℕ → ℕ} {x y : Arr2 (Option ℝ)} (k : ℕ), (∀ i, ρ i = i) → RowPerm ρ x y → k ≤ x.m →
        RowPerm ρ (subsample c x k) (subsample c y k) := by
      intro ρ x y k hρ hr hk
      refine ⟨hr.1, rfl, hr.2.2.1, fun i hi s hs => ?_⟩
      show y.get i (c.pick y.m k i s) = x.get (ρ i) (c.pick x.m k (ρ i) s)
      rw [hr.2.1, hr.2.2.2 i hi _ (c.lt _ _ _ hk s hs), hρ]
    by_cases h2 : a.m < b.m
    · rw [if_pos h2, if_pos h2]
      exact ⟨ha, sub _ hτ hb h2.le⟩
    · rw [if_neg h2, if_neg h2]
      exact ⟨sub _ hσ ha (not_lt.1 h2), hb⟩

private theorem norm_perm {σ : ℕ → ℕ} {a b : Arr2 (Option ℝ)} (h : RowPerm σ a b) :
    RelPy σ (normalizeMatrix a) (normalizeMatrix b) := by
  have hs : specNorm (b.map (fun v => v.getD 0)) = specNorm (a.map (fun v => v.getD 0)) := by
    unfold specNorm
    have : ∀ v : ℕ → ℝ, (∑ i ∈ range (b.map (fun v => v.getD 0)).n, (∑ j ∈ range (b.map (fun v => v.getD 0)).m,
        (b.map (fun v => v.getD 0)).get i j * v j) ^ 2) = ∑ i ∈ range (a.map (fun v => v.getD 0)).n,
          (∑ j ∈ range (a.map (fun v => v.getD 0)).m, (a.map (fun v => v.getD 0)).get i j * v j) ^ 2 := by
      intro v
      simp only [Arr2.map]
      rw [h.1, h.2.1, ← sum_bij' h.2.2.1 (fun i => (∑ j ∈ range a.m, (a.get i j).getD 0 * v j) ^ 2)]
      refine sum_congr rfl (fun i hi => ?_)
      congr 1
      exact sum_congr rfl (fun j hj => by rw [h.2.2.2 i (mem_range.1 hi) j (mem_range.1 hj)])
    simp only [this]
    simp only [Arr2.map, h.2.1]
  unfold normalizeMatrix
  rw [h.1, h.2.1]
  by_cases h0 : a.n = 0 ∨ a.m = 0
  · rw [if_pos h0, if_pos h0]; rfl
  · rw [if_neg h0, if_neg h0]
    have hiff : (∃ i < a.n, ∃ j < a.m, b.get i j = none) ↔ ∃ i < a.n, ∃ j < a.m, a.get i j = none := by
      constructor
      · rintro ⟨i, hi, j, hj, e⟩
        exact ⟨σ i, bij_lt h.2.2.1 hi, j, hj, by rw [← h.2.2.2 i hi j hj]; exact e⟩
      · rintro ⟨i, hi, j, hj, e⟩
        obtain ⟨k, hk, rfl⟩ := bij_sur h.2.2.1 hi
        exact ⟨k, hk, j, hj, by rw [h.2.2.2 k hk j hj]; exact e⟩
    by_cases h1 : ∃ i < a.n, ∃ j < a.m, a.get i j = none
    · rw [if_pos h1, if_pos (hiff.2 h1)]; rfl
    · rw [if_neg h1, if_neg (fun h => h1 (hiff.1 h)), hs]
      refine ⟨h.1, h.2.1, h.2.2.1, fun i hi j hj => ?_⟩
      show divO (b.get i j) _ = divO (a.get (σ i) j) _
      rw [h.2.2.2 i hi j hj]

/-! ### From cubes to matrices -/

private theorem intensity_rel {σ : ℕ → ℕ} {a b : Arr3 (Option ℝ)} {noise noise' : Option ℝ} (hn : b.n = a.n)
    (hpix : b.m * b.p = a.m * a.p) (hσ : Set.BijOn σ (range a.n) (range a.n)) (hmax : nanmax b.flat = nanmax a.flat)
    (hrow : ∀ v < a.n, padOrCut (sortDesc (keptValues b noise' v)) (fifth a) =
      padOrCut (sortDesc (keptValues a noise (σ v))) (fifth a)) :
    RelPy σ (intensityData a 0.2 noise true) (intensityData b 0.2 noise' true) := by
  have hl : npRound (0.2 * b.m * b.p) = npRound (0.2 * a.m * a.p) := by
    rw [mul_assoc, mul_assoc, ← Nat.cast_mul, ← Nat.cast_mul, hpix]
  unfold intensityData
  simp only [hl, hmax, if_true, true_and]
  rw [show b.n * b.m * b.p = a.n * a.m * a.p by rw [mul_assoc, mul_assoc, hn, hpix]]
  by_cases h0 : npRound (0.2 * a.m * a.p) < 0
  · rw [if_pos h0, if_pos h0]; rfl
  rw [if_neg h0, if_neg h0]
  by_cases h1 : a.n * a.m * a.p = 0
  · rw [if_pos h1, if_pos h1]; rfl
  rw [if_neg h1, if_neg h1]
  by_cases h2 : nanmax a.flat = some 0
  · rw [if_pos h2, if_pos h2]
    exact ⟨rfl, rfl, by simp, fun i hi => absurd hi (Nat.not_lt_zero i)⟩
  · rw [if_neg h2, if_neg h2]
    refine ⟨hn, rfl, hσ, fun i hi j _ => ?_⟩
    have := hrow i hi
    unfold fifth at this
    show divO (some ((padOrCut (sortDesc (keptValues b noise' i)) _).getD j 0)) _ = _
    rw [this]

private theorem format_rel {σ : ℕ → ℕ} {a b : Arr3 (Option ℝ)} {noise noise' : Option ℝ} (norm : Bool) (hn : b.n = a.n)
    (hpix : b.m * b.p = a.m * a.p) (hσ : Set.BijOn σ (range a.n) (range a.n)) (hmax : nanmax b.flat = nanmax a.flat)
    (hrow : ∀ v < a.n, padOrCut (sortDesc (keptValues b noise' v)) (fifth a) =
      padOrCut (sortDesc (keptValues a noise (σ v))) (fifth a)) :
    RelPy σ (formatData a "intensity" (some 1000) (fun _ => 0) noise 0.2 norm)
      (formatData b "intensity" (some 1000) (fun _ => 0) noise' 0.2 norm) := by
  have h := intensity_rel hn hpix hσ hmax hrow
  have hne : ("intensity" : String) ≠ "spectra" := by decide
  unfold formatData
  simp only [if_neg hne, if_true]
  cases h1 : intensityData a 0.2 noise true with
  | error e =>
    cases h2 : intensityData b 0.2 noise' true with
    | error e' => rw [h1, h2] at h; exact h
    | ok d' => rw [h1, h2] at h; exact h.elim
  | ok d =>
    cases h2 : intensityData b 0.2 noise' true with
    | error e' => rw [h1, h2] at h; exact h.elim
    | ok d' =>
      rw [h1, h2] at h
      cases norm
      · exact h
      · exact norm_perm h

/-- The number of columns of a formatted cube. -/
private theorem format_cols {a : Arr3 (Option ℝ)} {noise : Option ℝ} {norm : Bool} {d : Arr2 (Option ℝ)}
    (h : formatData a "intensity" (some 1000) (fun _ => 0) noise 0.2 norm = .ok d) : d.m = fifth a := by
  have hne : ("intensity" : String) ≠ "spectra" := by decide
  unfold formatData at h
  simp only [if_neg hne, if_true] at h
  cases h1 : intensityData a 0.2 noise true with
  | error e => rw [h1] at h; cases h
  | ok x =>
    rw [h1] at h
    have hx : x.m = fifth a := by
      unfold intensityData at h1
      simp only at h1
      split_ifs at h1
      all_goals first | cases h1; rfl | skip
    cases norm
    · cases h; exact hx
    · change normalizeMatrix x = .ok d at h
      unfold normalizeMatrix at h
      split_ifs at h
      cases h
      exact hx

private theorem distance_rel {σ τ : ℕ → ℕ} (c : Choice) {a b a' b' : Arr3 (Option ℝ)} {n1 n2 n1' n2' : Option ℝ} {norm : Bool}
    (ha : RelPy σ (formatData a "intensity" (some 1000) (fun _ => 0) n1 0.2 norm)
      (formatData a' "intensity" (some 1000) (fun _ => 0) n1' 0.2 norm))
    (hb : RelPy τ (formatData b "intensity" (some 1000) (fun _ => 0) n2 0.2 norm)
      (formatData b' "intensity" (some 1000) (fun _ => 0) n2' 0.2 norm))
    (h : fifth a = fifth b ∨ ((∀ i, σ i = i) ∧ ∀ i, τ i = i)) :
    cramerDistance c a' b' n1' n2' norm = cramerDistance c a b n1 n2 norm := by
  unfold cramerDistance
  cases h1 : formatData a "intensity" (some 1000) (fun _ => 0) n1 0.2 norm with
  | error e =>
    cases h1' : formatData a' "intensity" (some 1000) (fun _ => 0) n1' 0.2 norm with
    | error e' => rw [h1, h1'] at ha; cases ha; rfl
    | ok d' => rw [h1, h1'] at ha; exact ha.elim
  | ok d =>
    cases h1' : formatData a' "intensity" (some 1000) (fun _ => 0) n1' 0.2 norm with
    | error e' => rw [h1, h1'] at ha; exact ha.elim
    | ok d' =>
      rw [h1, h1'] at ha
      cases h2 : formatData b "intensity" (some 1000) (fun _ => 0) n2 0.2 norm with
      | error e =>
        cases h2' : formatData b' "intensity" (some 1000) (fun _ => 0) n2' 0.2 norm with
        | error e' => rw [h2, h2'] at hb; cases hb; rfl
        | ok g' => rw [h2, h2'] at hb; exact hb.elim
      | ok g =>
        cases h2' : formatData b' "intensity" (some 1000) (fun _ => 0) n2' 0.2 norm with
        | error e' => rw [h2, h2'] at hb; exact hb.elim
        | ok g' =>
          rw [h2, h2'] at hb
          have hm := match_perm c ha hb (h.imp_left fun h => by rw [format_cols h1, format_cols h2, h])
          exact stat_perm hm.1 hm.2

private theorem sort_eq {l l' : List ℝ} (h : l.Perm l') : sortDesc l = sortDesc l' := by
  apply List.Perm.eq_of_pairwise (le := fun a b => b ≤ a)
  · intro a b _ _ h1 h2; exact le_antisymm h2 h1
  · exact sortDesc_pairwise _
  · exact sortDesc_pairwise _
  · exact (sortDesc_perm _).trans (h.trans (sortDesc_perm _).symm)

private theorem maxO_ext {l l' : List ℝ} (h : ∀ x, x ∈ l ↔ x ∈ l') : maxO l = maxO l' := by
  cases h1 : maxO l with
  | none =>
    have : l = [] := by
      by_contra hne
      obtain ⟨m, hm⟩ := exists_maxO hne
      rw [h1] at hm; cases hm
    have h2 : l' = [] := by
      apply List.eq_nil_iff_forall_not_mem.2
      intro x hx
      have := (h x).2 hx
      subst l; simp at this
    rw [h2]; rfl
  | some m =>
    symm
    rw [maxO_eq_some] at h1 ⊢
    exact ⟨(h m).1 h1.1, fun t ht => h1.2 t ((h t).2 ht)⟩

private theorem mem_vals {a : Arr3 (Option ℝ)} {x : ℝ} : x ∈ validVals a.flat ↔ ∃ v < a.n, 0 < pixelsWith a v x := by
  rw [mem_validVals, mem_flat]
  refine exists_congr fun v => and_congr_right fun _ => ?_
  unfold pixelsWith
  rw [card_pos]
  constructor
  · rintro ⟨i, hi, j, hj, e⟩
    exact ⟨(i, j), by simp [hi, hj, e]⟩
  · rintro ⟨q, hq⟩
    simp only [mem_filter, mem_product, mem_range] at hq
    exact ⟨q.1, hq.1.1, q.2, hq.1.2, hq.2⟩

private theorem shuffled_rel {σ : ℕ → ℕ} {a b : Arr3 (Option ℝ)} (noise : Option ℝ) (norm : Bool) (h : Shuffled σ a b) :
    RelPy σ (formatData a "intensity" (some 1000) (fun _ => 0) noise 0.2 norm)
      (formatData b "intensity" (some 1000) (fun _ => 0) noise 0.2 norm) := by
  classical
  refine format_rel norm h.1 h.2.1 h.2.2.1 ?_ ?_
  · unfold nanmax
    apply maxO_ext
    intro x
    rw [mem_vals, mem_vals, h.1]
    constructor
    · rintro ⟨v, hv, hp⟩
      exact ⟨σ v, bij_lt h.2.2.1 hv, by rw [← h.2.2.2 v hv]; exact hp⟩
    · rintro ⟨v, hv, hp⟩
      obtain ⟨k, hk, rfl⟩ := bij_sur h.2.2.1 hv
      exact ⟨k, hk, by rw [h.2.2.2 k hk]; exact hp⟩
  · intro v hv
    congr 1
    apply sort_eq
    rw [List.perm_iff_count]
    intro t
    rw [count_kept, count_kept, h.2.2.2 v hv]

/-- Moving pixels about within each channel, in either cube and separately in every channel, changes nothing, whatever the sizes of
the two cubes. -/
theorem C107_pixels (c : Choice) (a b a' b' : Arr3 (Option ℝ)) (noise1 noise2 : Option ℝ) (normalize : Bool)
    (ha : Shuffled id a a') (hb : Shuffled id b b') :
    cramerDistance c a' b' noise1 noise2 normalize = cramerDistance c a b noise1 noise2 normalize :=
  distance_rel c (shuffled_rel noise1 normalize ha) (shuffled_rel noise2 normalize hb) (Or.inr ⟨fun _ => rfl, fun _ => rfl⟩)

/-- The order of the channels has no effect for maps of the same number of pixels (or the same fifth of it).  Missing for the full
property: maps of different sizes, where each channel of the larger one is sampled at random by its place in the cube
(`C107_channel_order_violated`). -/
theorem C107_channel_order_partial (c : Choice) (σ τ : ℕ → ℕ) (a b a' b' : Arr3 (Option ℝ)) (noise1 noise2 : Option ℝ)
    (normalize : Bool) (ha : Shuffled σ a a') (hb : Shuffled τ b b') (hs : fifth a = fifth b) :
    cramerDistance c a' b' noise1 noise2 normalize = cramerDistance c a b noise1 noise2 normalize :=
  distance_rel c (shuffled_rel noise1 normalize ha) (shuffled_rel noise2 normalize hb) (Or.inl hs)

private theorem rel_refl (σ : ℕ → ℕ) (hσ : ∀ i, σ i = i) (x : Py (Arr2 (Option ℝ))) : RelPy σ x x := by
  cases x with
  | error e => rfl
  | ok a =>
    have : σ = id := funext hσ
    subst this
    exact ⟨rfl, rfl, Set.bijOn_id _, fun _ _ _ _ => rfl⟩

private theorem scaled_format (s : ℝ) (hs : 0 < s) (a : Arr3 (Option ℝ)) (M : ℝ) (hM : CubeMax a M) (hM0 : M ≠ 0)
    (noise : Option ℝ) (norm : Bool) :
    formatData (scaledCube s a) "intensity" (some 1000) (fun _ => 0) (noise.map (fun t => s * t)) 0.2 norm =
      formatData a "intensity" (some 1000) (fun _ => 0) noise 0.2 norm := by
  have hne : ("intensity" : String) ≠ "spectra" := by decide
  unfold formatData
  simp only [if_neg hne, if_true]
  rw [scaledCube, C30_scale_free a M 0.2 s noise hM hM0 hs]

/-- Each cube may be given in its own brightness unit, its noise limit with it: with `normalize=True` and with `normalize=False`. -/
theorem C107_brightness (c : Choice) (s r : ℝ) (hs : 0 < s) (hr : 0 < r) (a b : Arr3 (Option ℝ)) (M N : ℝ) (hM : CubeMax a M)
    (hM0 : M ≠ 0) (hN : CubeMax b N) (hN0 : N ≠ 0) (noise1 noise2 : Option ℝ) (normalize : Bool) :
    cramerDistance c (scaledCube s a) (scaledCube r b) (noise1.map (fun t => s * t)) (noise2.map (fun t => r * t)) normalize =
      cramerDistance c a b noise1 noise2 normalize := by
  unfold cramerDistance
  rw [scaled_format s hs a M hM hM0, scaled_format r hr b N hN hN0]

/-- `normalize=False` is documented to leave the ranges of the intensities as they are.  It does not: a cube is at distance zero from
itself in any other brightness unit. -/
theorem C107_normalize_violated (c : Choice) (s : ℝ) (hs : 0 < s) (a : Arr3 (Option ℝ)) (M : ℝ) (hM : CubeMax a M) (hM0 : M ≠ 0)
    (hf : 0 < fifth a) : cramerDistance c a (scaledCube s a) none none false = .ok 0 := by
  have e := scaled_format s hs a M hM hM0 none false
  have hlen : 0 ≤ npRound (0.2 * a.m * a.p) := by
    unfold fifth at hf; omega
  obtain ⟨out, ho, hn, hm, hrow⟩ := C30_rows_partial a M 0.2 none hM hM0 hlen
  have hne : ("intensity" : String) ≠ "spectra" := by decide
  have hfmt : formatData a "intensity" (some 1000) (fun _ => 0) none 0.2 false = .ok out := by
    unfold formatData
    simp only [if_neg hne, if_true, ho]
    rfl
  have hv : SkValid out := by
    obtain ⟨v, hv, _⟩ := hM.1
    refine ⟨by omega, by unfold fifth at hf; omega, fun i hi j hj => ?_⟩
    obtain ⟨row, _, hg⟩ := hrow i hi
    rw [hg j hj]; simp
  unfold cramerDistance
  rw [Option.map_none] at e
  rw [e, hfmt]
  simp only [bind, Except.bind, matchSamples, ne_eq, not_true_eq_false, if_false]
  exact C29_self (sample_of_valid hv)

/-! ### Faint pixels -/

private theorem range_filter_len (n : ℕ) (P : ℕ → Bool) :
    ((List.range n).filter P).length = ∑ j ∈ range n, if P j then 1 else 0 := by
  induction n with
  | zero => simp
  | succ n ih =>
    rw [List.range_succ, List.filter_append, List.length_append, ih, sum_range_succ]
    by_cases h : P n <;> simp [h]

private theorem countP_channel (a : Arr3 (Option ℝ)) (v : ℕ) (P : Option ℝ → Bool) :
    (a.channel v).countP P = #{q ∈ range a.m ×ˢ range a.p | P (a.get v q.1 q.2) = true} := by
  unfold Arr3.channel
  rw [List.countP_flatMap, card_filter, sum_product]
  have : ∀ (n : ℕ) (f : ℕ → ℕ), ((List.range n).map f).sum = ∑ i ∈ range n, f i := by
    intro n f
    induction n with
    | zero => simp
    | succ n ih => rw [List.range_succ, List.map_append, List.sum_append, ih, sum_range_succ]; simp
  rw [this]
  refine sum_congr rfl (fun i _ => ?_)
  simp only [Function.comp]
  rw [List.countP_map, List.countP_eq_length_filter, range_filter_len]
  rfl

private theorem countP_valid (l : List (Option ℝ)) (Q : ℝ → Bool) :
    (validVals l).countP Q = l.countP (fun o => o.any Q) := by
  induction l with
  | nil => rfl
  | cons x l ih =>
    unfold validVals at *
    cases x with
    | none => rw [List.filterMap_cons_none rfl, ih, List.countP_cons]; simp
    | some t => rw [List.filterMap_cons_some (by rfl : id (some t) = some t), List.countP_cons, List.countP_cons, ih]; simp

open Classical in
private theorem bright_length (a : Arr3 (Option ℝ)) (noise : Option ℝ) (v : ℕ) (t : ℝ) :
    ((keptValues a noise v).filter (fun x => decide (t ≤ x))).length = brightPixels a noise v t := by
  unfold keptValues
  rw [← List.countP_eq_length_filter, List.countP_filter, countP_valid, countP_channel]
  unfold brightPixels
  congr 1
  apply filter_congr
  intro q _
  cases h : a.get v q.1 q.2 with
  | none => simp
  | some x =>
    cases noise with
    | none => simp [Above]
    | some l => simp [Above]

private theorem sort_split (t : ℝ) (l : List ℝ) :
    sortDesc l = sortDesc (l.filter (fun x => decide (t ≤ x))) ++ sortDesc (l.filter (fun x => !decide (t ≤ x))) := by
  apply List.Perm.eq_of_pairwise (le := fun a b => b ≤ a)
  · intro a b _ _ h1 h2; exact le_antisymm h2 h1
  · exact sortDesc_pairwise _
  · rw [List.pairwise_append]
    refine ⟨sortDesc_pairwise _, sortDesc_pairwise _, fun x hx y hy => ?_⟩
    have h1 := (sortDesc_perm _).mem_iff.1 hx
    have h2 := (sortDesc_perm _).mem_iff.1 hy
    simp only [List.mem_filter, decide_eq_true_eq, Bool.not_eq_true', decide_eq_false_iff_not, not_le] at h1 h2
    exact h2.2.le.trans h1.2
  · refine (sortDesc_perm _).trans ?_
    refine (List.filter_append_perm (fun x => decide (t ≤ x)) l).symm.trans ?_
    exact ((sortDesc_perm _).append (sortDesc_perm _)).symm

private theorem pad_split (t : ℝ) (l : List ℝ) (len : ℕ) (h : len ≤ (l.filter (fun x => decide (t ≤ x))).length) :
    padOrCut (sortDesc l) len = (sortDesc (l.filter (fun x => decide (t ≤ x)))).take len := by
  have hl : (sortDesc (l.filter (fun x => decide (t ≤ x)))).length = (l.filter (fun x => decide (t ≤ x))).length :=
    (sortDesc_perm _).length_eq
  rw [sort_split t l]
  unfold padOrCut
  rw [if_neg (by rw [List.length_append]; omega), List.take_append_of_le_length (by omega)]

private theorem faint_rel {t : ℕ → ℝ} {a b : Arr3 (Option ℝ)} (noise : Option ℝ) (norm : Bool) (h : SameAbove t a b)
    (hf : 0 < fifth a) (hb : ∀ v < a.n, fifth a ≤ brightPixels a noise v (t v)) :
    RelPy id (formatData a "intensity" (some 1000) (fun _ => 0) noise 0.2 norm)
      (formatData b "intensity" (some 1000) (fun _ => 0) noise 0.2 norm) := by
  classical
  obtain ⟨h1, h2, h3, h4⟩ := h
  have hbright : ∀ v < a.n, ∃ i < a.m, ∃ j < a.p, ∃ x, a.get v i j = some x ∧ t v ≤ x := by
    intro v hv
    have := (hf.trans_le (hb v hv))
    unfold brightPixels at this
    obtain ⟨q, hq⟩ := card_pos.1 this
    simp only [mem_filter, mem_product, mem_range] at hq
    obtain ⟨hq1, x, hx, htx, _⟩ := hq
    exact ⟨q.1, hq1.1, q.2, hq1.2, x, hx, htx⟩
  refine format_rel norm h1 (by rw [h2, h3]) (Set.bijOn_id _) ?_ ?_
  · unfold nanmax
    by_cases hz : a.n = 0
    · have e1 : a.flat = [] := by unfold Arr3.flat; rw [hz]; rfl
      have e2 : b.flat = [] := by unfold Arr3.flat; rw [h1, hz]; rfl
      rw [e1, e2]
    · obtain ⟨i, hi, j, hj, x, hx, _⟩ := hbright 0 (Nat.pos_of_ne_zero hz)
      obtain ⟨M, hM⟩ := exists_maxO (v := validVals a.flat) (by
        apply List.ne_nil_of_mem (a := x)
        rw [mem_validVals, mem_flat]
        exact ⟨0, Nat.pos_of_ne_zero hz, i, hi, j, hj, hx⟩)
      rw [hM]
      rw [maxO_eq_some] at hM ⊢
      obtain ⟨hmem, hle⟩ := hM
      have hle' : ∀ v < a.n, ∀ i < a.m, ∀ j < a.p, ∀ y, a.get v i j = some y → y ≤ M := by
        intro v hv i hi j hj y hy
        exact hle y (mem_validVals.2 (mem_flat.2 ⟨v, hv, i, hi, j, hj, hy⟩))
      constructor
      · obtain ⟨v, hv, i, hi, j, hj, e⟩ := mem_flat.1 (mem_validVals.1 hmem)
        obtain ⟨i', hi', j', hj', x', hx', htx'⟩ := hbright v hv
        have hMt : t v ≤ M := htx'.trans (hle' v hv i' hi' j' hj' x' hx')
        refine mem_validVals.2 (mem_flat.2 ⟨v, by omega, i, by omega, j, by omega, ?_⟩)
        rcases h4 v hv i hi j hj with h | h
        · rw [← h]; exact e
        · exact absurd (h.1 M e) (not_lt.2 hMt)
      · intro y hy
        obtain ⟨v, hv, i, hi, j, hj, e⟩ := mem_flat.1 (mem_validVals.1 hy)
        rw [h1] at hv; rw [h2] at hi; rw [h3] at hj
        rcases h4 v hv i hi j hj with h | h
        · exact hle' v hv i hi j hj y (by rw [h]; exact e)
        · obtain ⟨i', hi', j', hj', x', hx', htx'⟩ := hbright v hv
          exact (h.2 y e).le.trans (htx'.trans (hle' v hv i' hi' j' hj' x' hx'))
  · intro v hv
    have hperm : ((keptValues b noise v).filter (fun x => decide (t v ≤ x))).Perm
        ((keptValues a noise v).filter (fun x => decide (t v ≤ x))) := by
      rw [List.perm_iff_count]
      intro y
      by_cases hy : t v ≤ y
      · rw [List.count_filter (by simpa using hy), List.count_filter (by simpa using hy), count_kept, count_kept]
        have : pixelsWith b v y = pixelsWith a v y := by
          unfold pixelsWith
          rw [h2, h3]
          congr 1
          apply filter_congr
          intro q hq
          simp only [mem_product, mem_range] at hq
          rcases h4 v hv q.1 hq.1 q.2 hq.2 with h | h
          · rw [h]
          · constructor
            · intro e; exact absurd (h.2 y e) (not_lt.2 hy)
            · intro e; exact absurd (h.1 y e) (not_lt.2 hy)
        rw [this]
      · rw [List.count_eq_zero.2 (by simp [hy]), List.count_eq_zero.2 (by simp [hy])]
    have hla := hb v hv
    rw [← bright_length] at hla
    show padOrCut (sortDesc (keptValues b noise v)) _ = padOrCut (sortDesc (keptValues a noise v)) _
    rw [pad_split (t v) _ _ hla, pad_split (t v) _ _ (by rw [hperm.length_eq]; exact hla), sort_eq hperm]

/-- Only the brightest fifth of each channel counts: pixels fainter than a level that a fifth of the pixels reach may have any other
value below that level, or none. -/
theorem C107_faint (c : Choice) (t : ℕ → ℝ) (a a' b : Arr3 (Option ℝ)) (noise1 noise2 : Option ℝ) (normalize : Bool)
    (h : SameAbove t a a') (hf : 0 < fifth a) (hb : ∀ v < a.n, fifth a ≤ brightPixels a noise1 v (t v)) :
    cramerDistance c a' b noise1 noise2 normalize = cramerDistance c a b noise1 noise2 normalize ∧
      (∀ w, cramerDistance c b a' noise2 noise1 normalize = .ok w ↔ cramerDistance c b a noise2 noise1 normalize = .ok w) := by
  have e : cramerDistance c a' b noise1 noise2 normalize = cramerDistance c a b noise1 noise2 normalize :=
    distance_rel c (faint_rel noise1 normalize h hf hb) (rel_refl id (fun _ => rfl) _) (Or.inr ⟨fun _ => rfl, fun _ => rfl⟩)
  refine ⟨e, fun w => ?_⟩
  rw [C29_distance_symmetric, e, ← C29_distance_symmetric]

/-! ### Pictures -/

private theorem mem_ravel2 {a : Arr2 (Option ℝ)} {x : ℝ} : some x ∈ a.ravel ↔ ∃ i < a.n, ∃ j < a.m, a.get i j = some x := by
  unfold Arr2.ravel
  simp only [List.mem_flatMap, List.mem_range, List.mem_map]

/-- With or without pictures the distance is the same; the pictures show the two matrices under their labels, channels along x, with
common colour limits that hold every value of both and are reached. -/
theorem C107_pictures (c : Choice) (a b : Arr3 (Option ℝ)) (noise1 noise2 : Option ℝ) (normalize : Bool) (label1 label2 : String)
    (v : ℝ) (hv : cramerDistance c a b noise1 noise2 normalize = .ok v) :
    (∃ r, cramerMetric c a b noise1 noise2 normalize false label1 label2 = .ok r ∧ r.distance = v ∧ r.panels = []) ∧
    ∃ r lo hi p1 p2, cramerMetric c a b noise1 noise2 normalize true label1 label2 = .ok r ∧ r.distance = v ∧
      r.panels = [p1, p2] ∧ p1.title = label1 ∧ p2.title = label2 ∧
      cramerStatistic r.matrix1 r.matrix2 = .ok v ∧
      (∀ q ∈ [(p1, r.matrix1), (p2, r.matrix2)], q.1.vmin = some lo ∧ q.1.vmax = some hi ∧ q.1.xticks = [0, q.2.n] ∧
        q.1.image.n = q.2.m ∧ q.1.image.m = q.2.n ∧
        ∀ i < q.2.n, ∀ j < q.2.m, ∃ x, q.1.image.get j i = some x ∧ q.2.get i j = some x ∧ lo ≤ x ∧ x ≤ hi) ∧
      (∃ q ∈ [r.matrix1, r.matrix2], ∃ i < q.n, ∃ j < q.m, q.get i j = some lo) ∧
      (∃ q ∈ [r.matrix1, r.matrix2], ∃ i < q.n, ∃ j < q.m, q.get i j = some hi) := by
  unfold cramerDistance at hv
  cases h1 : formatData a "intensity" (some 1000) (fun _ => 0) noise1 0.2 normalize with
  | error e => rw [h1] at hv; cases hv
  | ok d1 =>
  cases h2 : formatData b "intensity" (some 1000) (fun _ => 0) noise2 0.2 normalize with
  | error e => rw [h1, h2] at hv; cases hv
  | ok d2 =>
  rw [h1, h2] at hv
  change cramerStatistic (matchSamples c d1 d2).1 (matchSamples c d1 d2).2 = .ok v at hv
  have run : ∀ verb, cramerMetric c a b noise1 noise2 normalize verb label1 label2 =
      .ok ⟨(matchSamples c d1 d2).1, (matchSamples c d1 d2).2, v, if verb then
        [cramerPanel label1 (cramerLimits (matchSamples c d1 d2).1 (matchSamples c d1 d2).2).1
          (cramerLimits (matchSamples c d1 d2).1 (matchSamples c d1 d2).2).2 (matchSamples c d1 d2).1,
        cramerPanel label2 (cramerLimits (matchSamples c d1 d2).1 (matchSamples c d1 d2).2).1
          (cramerLimits (matchSamples c d1 d2).1 (matchSamples c d1 d2).2).2 (matchSamples c d1 d2).2] else []⟩ := by
    intro verb
    unfold cramerMetric
    rw [h1, h2]
    simp only [bind, Except.bind, hv, pure, Except.pure]
  obtain ⟨v1, v2, _⟩ := (C29_rejects _ _).1 ⟨v, hv⟩
  generalize (matchSamples c d1 d2).1 = e1 at *
  generalize (matchSamples c d1 d2).2 = e2 at *
  have full : ∀ {e : Arr2 (Option ℝ)}, SkValid e → ∀ i < e.n, ∀ j < e.m, ∃ x, e.get i j = some x := by
    intro e he i hi j hj
    exact Option.ne_none_iff_exists'.1 (he.2.2 i hi j hj)
  have ne : ∀ {e : Arr2 (Option ℝ)}, SkValid e → validVals e.ravel ≠ [] := by
    intro e he
    obtain ⟨x, hx⟩ := full he 0 he.1 0 he.2.1
    exact List.ne_nil_of_mem (mem_validVals.2 (mem_ravel2.2 ⟨0, he.1, 0, he.2.1, hx⟩))
  obtain ⟨l1, hl1⟩ := exists_minO (ne v1)
  obtain ⟨l2, hl2⟩ := exists_minO (ne v2)
  obtain ⟨u1, hu1⟩ := exists_maxO (ne v1)
  obtain ⟨u2, hu2⟩ := exists_maxO (ne v2)
  obtain ⟨lo, hlo⟩ := exists_minO (v := [l1, l2]) (by simp)
  obtain ⟨hi, hhi⟩ := exists_maxO (v := [u1, u2]) (by simp)
  have hlim : cramerLimits e1 e2 = (some lo, some hi) := by
    unfold cramerLimits nanmin nanmax
    rw [hl1, hl2, hu1, hu2]
    exact Prod.ext hlo hhi
  rw [hlim] at run
  rw [minO_eq_some] at hl1 hl2 hlo
  rw [maxO_eq_some] at hu1 hu2 hhi
  have bound : ∀ i < e1.n, ∀ j < e1.m, ∃ x, e1.get i j = some x ∧ lo ≤ x ∧ x ≤ hi := by
    intro i hi' j hj
    obtain ⟨x, hx⟩ := full v1 i hi' j hj
    have hm := mem_validVals.2 (mem_ravel2.2 ⟨i, hi', j, hj, hx⟩)
    exact ⟨x, hx, (hlo.2 l1 (by simp)).trans (hl1.2 x hm), (hu1.2 x hm).trans (hhi.2 u1 (by simp))⟩
  have bound2 : ∀ i < e2.n, ∀ j < e2.m, ∃ x, e2.get i j = some x ∧ lo ≤ x ∧ x ≤ hi := by
    intro i hi' j hj
    obtain ⟨x, hx⟩ := full v2 i hi' j hj
    have hm := mem_validVals.2 (mem_ravel2.2 ⟨i, hi', j, hj, hx⟩)
    exact ⟨x, hx, (hlo.2 l2 (by simp)).trans (hl2.2 x hm), (hu2.2 x hm).trans (hhi.2 u2 (by simp))⟩
  refine ⟨⟨_, run false, rfl, rfl⟩, _, lo, hi, cramerPanel label1 (some lo) (some hi) e1, cramerPanel label2 (some lo) (some hi) e2,
    run true, rfl, rfl, rfl, rfl, hv, ?_, ?_, ?_⟩
  · intro q hq
    simp only [List.mem_cons, List.not_mem_nil, or_false] at hq
    rcases hq with rfl | rfl
    · refine ⟨rfl, rfl, rfl, rfl, rfl, fun i hi' j hj => ?_⟩
      obtain ⟨x, hx, h⟩ := bound i hi' j hj
      exact ⟨x, hx, hx, h⟩
    · refine ⟨rfl, rfl, rfl, rfl, rfl, fun i hi' j hj => ?_⟩
      obtain ⟨x, hx, h⟩ := bound2 i hi' j hj
      exact ⟨x, hx, hx, h⟩
  · have := hlo.1
    simp only [List.mem_cons, List.not_mem_nil, or_false] at this
    rcases this with h | h
    · exact ⟨e1, by simp, mem_ravel2.1 (mem_validVals.1 (h ▸ hl1.1))⟩
    · exact ⟨e2, by simp, mem_ravel2.1 (mem_validVals.1 (h ▸ hl2.1))⟩
  · have := hhi.1
    simp only [List.mem_cons, List.not_mem_nil, or_false] at this
    rcases this with h | h
    · exact ⟨e1, by simp, mem_ravel2.1 (mem_validVals.1 (h ▸ hu1.1))⟩
    · exact ⟨e2, by simp, mem_ravel2.1 (mem_validVals.1 (h ▸ hu2.1))⟩

/-! ### The order of the channels -/

/-- A draw: the first columns in the first row, the last columns in the others. -/
private def mirror : Choice where
  pick n k i s := if i = 0 then s else n - 1 - s
  lt n k i hk s hs := by split_ifs <;> omega
  inj n k i hk s hs t ht h := by split_ifs at h <;> omega

/-- A cube of ten pixels per channel, two of them valid: 1, and `f v` below it. -/
private noncomputable def wide (f : ℕ → ℝ) : Arr3 (Option ℝ) :=
  ⟨2, 1, 10, fun v _ j => if j = 0 then some 1 else if j = 1 then some (f v) else none⟩

/-- A cube of five pixels and one channel, one of them valid. -/
private noncomputable def small : Arr3 (Option ℝ) := ⟨1, 1, 5, fun _ _ j => if j = 0 then some 1 else none⟩

private theorem wide_format (f : ℕ → ℝ) (hf : ∀ v, f v < 1) :
    ∃ d, formatData (wide f) "intensity" (some 1000) (fun _ => 0) none 0.2 false = .ok d ∧ d.n = 2 ∧ d.m = 2 ∧
      ∀ i, d.get i 0 = some 1 ∧ d.get i 1 = some (f i) := by
  have hM : nanmax (wide f).flat = some 1 := by
    unfold nanmax
    rw [maxO_eq_some]
    constructor
    · exact mem_validVals.2 (mem_flat.2 ⟨0, by simp [wide], 0, by simp [wide], 0, by simp [wide], by simp [wide]⟩)
    · intro t ht
      obtain ⟨v, _, i, _, j, _, e⟩ := mem_flat.1 (mem_validVals.1 ht)
      simp only [wide] at e
      split_ifs at e
      · exact (Option.some.inj e).symm.le
      · rw [← Option.some.inj e]; exact (hf v).le
  have hl : npRound (0.2 * ((wide f).m : ℝ) * ((wide f).p : ℝ)) = 2 := by
    simp only [wide]; unfold npRound; norm_num
  have hk : ∀ v, sortDesc (keptValues (wide f) none v) = [1, f v] := by
    intro v
    have : keptValues (wide f) none v = [1, f v] := by
      simp [keptValues, Arr3.channel, validVals, wide, List.range_succ]
    rw [this]
    simp [sortDesc, (hf v).le]
  have hne : ("intensity" : String) ≠ "spectra" := by decide
  refine ⟨⟨2, 2, fun v k => divO (some ((padOrCut [1, f v] 2).getD k 0)) (some 1)⟩, ?_, rfl, rfl, ?_⟩
  · unfold formatData
    simp only [if_neg hne, if_true]
    unfold intensityData
    simp only [hl, hM, if_true, true_and, hk]
    rw [if_neg (by norm_num), if_neg (by simp [wide]), if_neg (by simp)]
    rfl
  · intro i
    simp [padOrCut, divO]

private theorem small_format :
    ∃ d, formatData small "intensity" (some 1000) (fun _ => 0) none 0.2 false = .ok d ∧ d.n = 1 ∧ d.m = 1 ∧
      d.get 0 0 = some 1 := by
  have hM : nanmax small.flat = some 1 := by
    unfold nanmax
    rw [maxO_eq_some]
    constructor
    · exact mem_validVals.2 (mem_flat.2 ⟨0, by simp [small], 0, by simp [small], 0, by simp [small], by simp [small]⟩)
    · intro t ht
      obtain ⟨v, _, i, _, j, _, e⟩ := mem_flat.1 (mem_validVals.1 ht)
      simp only [small] at e
      split_ifs at e
      exact (Option.some.inj e).symm.le
  have hl : npRound (0.2 * (small.m : ℝ) * (small.p : ℝ)) = 1 := by
    simp only [small]; unfold npRound; norm_num
  have hk : ∀ v, sortDesc (keptValues small none v) = [1] := by
    intro v
    have : keptValues small none v = [1] := by
      simp [keptValues, Arr3.channel, validVals, small, List.range_succ]
    rw [this]
    simp [sortDesc]
  have hne : ("intensity" : String) ≠ "spectra" := by decide
  refine ⟨⟨1, 1, fun v k => divO (some ((padOrCut [1] 1).getD k 0)) (some 1)⟩, ?_, rfl, rfl, ?_⟩
  · unfold formatData
    simp only [if_neg hne, if_true]
    unfold intensityData
    simp only [hl, hM, if_true, true_and, hk]
    rw [if_neg (by norm_num), if_neg (by simp [small]), if_neg (by simp)]
    rfl
  · simp [padOrCut, divO]

private theorem wide_distance (f : ℕ → ℝ) (hf : ∀ v, f v < 1) :
    cramerDistance mirror (wide f) small none none false = .ok (1 / 6 * Real.sqrt (1 - f 1)) := by
  obtain ⟨d, hd, hn, hm, hg⟩ := wide_format f hf
  obtain ⟨e, he, hn', hm', hg'⟩ := small_format
  unfold cramerDistance
  rw [hd, he]
  show cramerStatistic (matchSamples mirror d e).1 (matchSamples mirror d e).2 = _
  have hms : matchSamples mirror d e = (subsample mirror d 1, e) := by
    unfold matchSamples
    rw [hm, hm', if_pos (by norm_num), if_neg (by norm_num)]
  rw [hms]
  have s1 : Sample (subsample mirror d 1) 2 1 (fun i _ => if i = 0 then 1 else f 1) := by
    refine ⟨by norm_num, by norm_num, hn, rfl, fun i hi k hk => ?_⟩
    obtain rfl : k = 0 := by omega
    obtain rfl | rfl : i = 0 ∨ i = 1 := by omega
    · simp [subsample, mirror, hg]
    · simp [subsample, mirror, hm, hg]
  have s2 : Sample e 1 1 (fun _ _ => 1) := by
    refine ⟨by norm_num, by norm_num, hn', hm', fun i hi k hk => ?_⟩
    obtain rfl : k = 0 := by omega
    obtain rfl : i = 0 := by omega
    exact hg'
  rw [C29_value s1 s2]
  congr 1
  have h1 : Real.sqrt ((1 - f 1) ^ 2) = 1 - f 1 := Real.sqrt_sq (by linarith [hf 1])
  have h2 : Real.sqrt ((f 1 - 1) ^ 2) = 1 - f 1 := by rw [← h1]; congr 1; ring
  simp only [cramer, phi, sum_range_succ, sum_range_zero]
  norm_num
  rw [h1, h2]
  ring

/-- For maps of different sizes the order of the channels matters: with some draws, exchanging two channels changes the distance. -/
theorem C107_channel_order_violated : ∃ (c : Choice) (σ : ℕ → ℕ) (a a' b : Arr3 (Option ℝ)) (v v' : ℝ), Shuffled σ a a' ∧
    cramerDistance c a b none none false = .ok v ∧ cramerDistance c a' b none none false = .ok v' ∧ v ≠ v' := by
  let f : ℕ → ℝ := fun v => if v = 0 then 0 else 3 / 4
  let g : ℕ → ℝ := fun v => if v = 0 then 3 / 4 else 0
  have hf : ∀ v, f v < 1 := by intro v; simp only [f]; split_ifs <;> norm_num
  have hg : ∀ v, g v < 1 := by intro v; simp only [g]; split_ifs <;> norm_num
  refine ⟨mirror, fun v => 1 - v, wide f, wide g, small, _, _, ⟨rfl, rfl, ?_, ?_⟩, wide_distance f hf, wide_distance g hg, ?_⟩
  · have : (range (wide f).n : Set ℕ) = {0, 1} := by
      ext x; simp only [wide, coe_range, Set.mem_Iio, Set.mem_insert_iff, Set.mem_singleton_iff]; omega
    rw [this]
    refine ⟨?_, ?_, ?_⟩
    · rintro x (rfl | rfl) <;> simp
    · rintro x (rfl | rfl) y (rfl | rfl) h <;> simp at h ⊢
    · rintro x (rfl | rfl)
      · exact ⟨1, by simp, rfl⟩
      · exact ⟨0, by simp, rfl⟩
  · intro v hv t
    unfold pixelsWith
    have : ∀ q : ℕ × ℕ, (wide g).get v q.1 q.2 = (wide f).get (1 - v) q.1 q.2 := by
      intro q
      have hv' : v = 0 ∨ v = 1 := by simp only [wide] at hv; omega
      rcases hv' with rfl | rfl <;> simp [wide, f, g]
    simp only [this]
    rfl
  · simp only [f, g]
    norm_num

/-- The hypotheses of `C107_faint`, `C107_pixels` and `C107_normalize_violated` are met: five pixels, one used, the others exchanged
for other faint values; the cube has a maximum of 1. -/
example : ∃ a a' : Arr3 (Option ℝ), a.get 0 0 1 ≠ a'.get 0 0 1 ∧ SameAbove (fun _ => 1) a a' ∧ 0 < fifth a ∧
    (∀ v < a.n, fifth a ≤ brightPixels a none v 1) ∧ CubeMax a 1 ∧ Shuffled id a a := by
  classical
  have hl : fifth small = 1 := by
    unfold fifth
    have : npRound (0.2 * (small.m : ℝ) * (small.p : ℝ)) = 1 := by
      simp only [small]; unfold npRound; norm_num
    rw [this]; rfl
  refine ⟨small, ⟨1, 1, 5, fun _ _ j => if j = 0 then some 1 else some (1 / 2)⟩, by simp [small], ⟨rfl, rfl, rfl, ?_⟩, by rw [hl]; exact one_pos, ?_, ?_,
    rfl, rfl, Set.bijOn_id _, fun _ _ _ => rfl⟩
  · intro v _ i _ j _
    by_cases h : j = 0
    · left; simp [small, h]
    · right
      constructor
      · intro x hx; simp [small, h] at hx
      · intro x hx
        simp only [h, if_false, Option.some.injEq] at hx
        rw [← hx]; norm_num
  · intro v _
    rw [hl]
    unfold brightPixels
    rw [Nat.succ_le_iff, card_pos]
    exact ⟨(0, 0), by simp [small, Above]⟩
  · refine ⟨⟨0, by simp [small], 0, by simp [small], 0, by simp [small], by simp [small]⟩, fun v _ i _ j _ t h => ?_⟩
    simp only [small] at h
    split_ifs at h
    exact (Option.some.inj h).symm.le

end TS
