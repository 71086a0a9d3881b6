import Verif.Model.Dendro
import Mathlib.Algebra.Order.BigOperators.Group.List
import Mathlib.Tactic.Linarith
import Mathlib.Tactic.NormNum
import Mathlib.Tactic.FieldSimp

/-!
C68 — dendrogram feature counts, histograms, the cutoff of the distance and the empirical CDFs.
-/

namespace TS

/-- One count and one list of peaks per threshold: entry i belongs to the dendrogram pruned with thresholds 1 to i in order. -/
theorem C68_counts {D : Type*} (lib : DendroLib D) (d : D) (rest : List ℝ) :
    (computeDendro lib d rest).1.length = rest.length + 1 ∧ (computeDendro lib d rest).2.1.length = rest.length + 1 ∧
    ∀ i ≤ rest.length,
      (computeDendro lib d rest).1[i]? = some (lib.len ((rest.take i).foldl lib.prune d)) ∧
      (computeDendro lib d rest).2.1[i]? = some (lib.peaks ((rest.take i).foldl lib.prune d)) := by
  have key : ∀ rest : List ℝ, (computeDendro lib d rest).2.2 = rest.foldl lib.prune d ∧
      (computeDendro lib d rest).1.length = rest.length + 1 ∧ (computeDendro lib d rest).2.1.length = rest.length + 1 ∧
      ∀ i ≤ rest.length,
      (computeDendro lib d rest).1[i]? = some (lib.len ((rest.take i).foldl lib.prune d)) ∧
      (computeDendro lib d rest).2.1[i]? = some (lib.peaks ((rest.take i).foldl lib.prune d)) := by
    intro rest
    induction rest using List.reverseRecOn with
    | nil =>
      refine ⟨rfl, rfl, rfl, fun i hi => ?_⟩
      rw [List.length_nil, Nat.le_zero] at hi
      subst hi
      exact ⟨rfl, rfl⟩
    | append_singleton l x ih =>
      obtain ⟨h0, h1, h2, h3⟩ := ih
      have e : computeDendro lib d (l ++ [x]) =
          ((computeDendro lib d l).1 ++ [lib.len (lib.prune (computeDendro lib d l).2.2 x)],
            (computeDendro lib d l).2.1 ++ [lib.peaks (lib.prune (computeDendro lib d l).2.2 x)],
            lib.prune (computeDendro lib d l).2.2 x) := by
        unfold computeDendro
        rw [List.foldl_append]
        rfl
      rw [e]
      refine ⟨by rw [h0, List.foldl_append]; rfl, by simp [h1], by simp [h2], fun i hi => ?_⟩
      rw [List.length_append, List.length_singleton] at hi
      rcases Nat.lt_or_ge i (l.length + 1) with h | h
      · simp only
        rw [List.getElem?_append_left (by omega), List.getElem?_append_left (by omega), List.take_append_of_le_length (by omega)]
        exact h3 i (by omega)
      · have : i = l.length + 1 := by omega
        subst this
        simp only
        rw [List.getElem?_append_right (by omega), List.getElem?_append_right (by omega), h1, h2, Nat.sub_self, h0,
          List.take_of_length_le (by simp), List.foldl_append]
        exact ⟨rfl, rfl⟩
  exact (key rest).2

/-- A toy dendrogram: a list of structure heights, pruned to those of at least delta. -/
example : (computeDendro (D := List ℝ) ⟨List.length, id, fun d t => d.filter (fun x => decide (t ≤ x))⟩ [1, 2, 3] [2, 3]).1 = [3, 2, 1] := by
  norm_num [computeDendro, List.filter]

private theorem bins_none (minNumber : ℕ) (values : List (List ℝ)) (acc : List (Option ℕ)) :
    (values.foldl (histStep minNumber) (none, acc)).2 =
    acc ++ values.map (fun v => if v.length < minNumber then none else some (Nat.sqrt v.length)) := by
  induction values generalizing acc with
  | nil => simp
  | cons v vs ih =>
    rw [List.foldl_cons, List.map_cons]
    by_cases h : v.length < minNumber
    · simp only [histStep, if_pos h]
      rw [ih, List.append_assoc]
      rfl
    · simp only [histStep, if_neg h]
      rw [ih, List.append_assoc]
      rfl

/-- Without a `bins` option each histogram has as many bins as the integer square root of the number of structures, and
thresholds with too few structures have none. -/
theorem C68_bins_default (minNumber : ℕ) (values : List (List ℝ)) :
    histBins minNumber none values = values.map (fun v => if v.length < minNumber then none else some (Nat.sqrt v.length)) := by
  unfold histBins
  rw [bins_none]
  rfl

/-- What holds of a `bins` option: it is used for the first threshold with enough structures. Missing: the other thresholds
(`C68_bins_violated`). -/
theorem C68_bins_first_partial (minNumber b : ℕ) (v : List ℝ) (values : List (List ℝ)) (h : minNumber ≤ v.length) :
    (histBins minNumber (some b) (v :: values))[0]? = some (some b) := by
  unfold histBins
  rw [List.foldl_cons]
  simp only [histStep, if_neg (not_lt.2 h)]
  rw [bins_none]
  rfl

/-- VIOLATION: the number of bins the caller asked for is forgotten after that; every later threshold gets the default. -/
theorem C68_bins_violated (minNumber b : ℕ) (v : List ℝ) (values : List (List ℝ)) (h : minNumber ≤ v.length) :
    histBins minNumber (some b) (v :: values) =
      some b :: values.map (fun v => if v.length < minNumber then none else some (Nat.sqrt v.length)) := by
  unfold histBins
  rw [List.foldl_cons]
  simp only [histStep, if_neg (not_lt.2 h)]
  rw [bins_none]
  rfl

example : histBins 1 (some 20) [[1, 2, 3, 4], [1, 2, 3, 4]] = [some 20, some 2] := by
  rw [C68_bins_violated 1 20 _ _ (by simp)]
  have : Nat.sqrt 4 = 2 := by rw [Nat.sqrt_eq' 2 |>.symm]
  simp [this]

/-! ### The cutoff -/

private theorem cutoff_ok {nums : List ℕ} {mf c : ℕ} (h : cutoffOf nums mf = .ok c) :
    0 < c ∧ c < nums.length ∧ mf < nums.getD c 0 ∧ ∀ i, c < i → i < nums.length → nums.getD i 0 ≤ mf := by
  unfold cutoffOf at h
  set pos := (List.range nums.length).filter (fun i => decide (mf < nums.getD i 0)) with hpos
  simp only at h
  split_ifs at h with ha
  rw [Except.ok.injEq] at h
  rw [List.any_eq_true] at ha
  obtain ⟨j, hj, hj0⟩ := ha
  have hne : pos ≠ [] := List.ne_nil_of_mem hj
  have hlast : pos.getLastD 0 = pos.getLast hne := by rw [List.getLastD_eq_getLast?, List.getLast?_eq_getLast_of_ne_nil hne]; rfl
  have hsorted : pos.Pairwise (· < ·) := by rw [hpos]; exact List.Pairwise.filter _ List.pairwise_lt_range
  have hle : ∀ i ∈ pos, i ≤ c := by
    intro i hi
    rw [← h, hlast]
    obtain ⟨k, hk, rfl⟩ := List.getElem_of_mem hi
    rw [List.getLast_eq_getElem]
    rcases Nat.lt_or_ge k (pos.length - 1) with hkl | hkl
    · exact le_of_lt (List.pairwise_iff_getElem.1 hsorted k (pos.length - 1) hk (by omega) hkl)
    · have : k = pos.length - 1 := by omega
      subst this
      exact le_refl _
  have hc : c ∈ pos := by rw [← h, hlast]; exact List.getLast_mem hne
  rw [hpos, List.mem_filter, List.mem_range] at hc
  refine ⟨?_, hc.1, of_decide_eq_true hc.2, fun i h1 h2 => ?_⟩
  · have := hle j hj
    simp only [bne_iff_ne] at hj0
    omega
  · by_contra hcon
    have : i ∈ pos := by
      rw [hpos, List.mem_filter, List.mem_range]
      exact ⟨h2, decide_eq_true (not_le.1 hcon)⟩
    have := hle i this
    omega

/-- What holds of the cutoff when the counts never increase with the threshold: the thresholds used (those before the cutoff) have
more than `min_features` structures in both datasets, and no threshold after the cutoff has. Missing: the last threshold with enough
structures should be used too (`C68_cutoff_violated`), and counts that increase again. -/
theorem C68_cutoff_partial (n1 n2 : List ℕ) (mf c : ℕ) (h : distCutoff n1 n2 mf = .ok c)
    (d1 : n1.Pairwise (· ≥ ·)) (d2 : n2.Pairwise (· ≥ ·)) :
    (∀ i < c, mf < n1.getD i 0 ∧ mf < n2.getD i 0) ∧
    (∀ i, c < i → i < n1.length → i < n2.length → ¬ (mf < n1.getD i 0 ∧ mf < n2.getD i 0)) := by
  unfold distCutoff at h
  cases h1 : cutoffOf n1 mf with
  | error e => rw [h1] at h; exact absurd h (by simp [bind, Except.bind])
  | ok c1 =>
    cases h2 : cutoffOf n2 mf with
    | error e => rw [h1, h2] at h; exact absurd h (by simp [bind, Except.bind])
    | ok c2 =>
      rw [h1, h2] at h
      simp only [bind, Except.bind, Except.ok.injEq] at h
      obtain ⟨a1, a2, a3, a4⟩ := cutoff_ok h1
      obtain ⟨b1, b2, b3, b4⟩ := cutoff_ok h2
      have mono : ∀ (n : List ℕ), n.Pairwise (· ≥ ·) → ∀ i j, i < j → j < n.length → n.getD j 0 ≤ n.getD i 0 := by
        intro n hn i j hij hj
        have := List.pairwise_iff_getElem.1 hn i j (by omega) hj hij
        simp only [List.getD_eq_getElem?_getD, List.getElem?_eq_getElem hj, List.getElem?_eq_getElem (show i < n.length by omega),
          Option.getD_some]
        exact this
      refine ⟨fun i hi => ⟨?_, ?_⟩, fun i hi hi1 hi2 => ?_⟩
      · exact lt_of_lt_of_le a3 (mono n1 d1 i c1 (by omega) a2)
      · exact lt_of_lt_of_le b3 (mono n2 d2 i c2 (by omega) b2)
      · rintro ⟨q1, q2⟩
        rcases Nat.le_total c1 c2 with hle | hle
        · have := a4 i (by omega) hi1
          omega
        · have := b4 i (by omega) hi2
          omega

example : distCutoff [500, 300, 150, 20] [400, 120, 110, 3] 100 = .ok 2 := by decide

/-- VIOLATION: the last threshold at which both datasets have enough structures is itself left out, and a dataset in which only the
first threshold has enough is refused although the requirement is met. -/
theorem C68_cutoff_violated :
    (∀ (n1 n2 : List ℕ) (mf c : ℕ), distCutoff n1 n2 mf = .ok c → n1.Pairwise (· ≥ ·) → n2.Pairwise (· ≥ ·) →
      (mf < n1.getD c 0 ∧ mf < n2.getD c 0) ∧ (bestBins n1 n2 c).length = c) ∧
    (∀ (mf k : ℕ) (rest n2 : List ℕ), mf < k → (∀ x ∈ rest, x ≤ mf) →
      distCutoff (k :: rest) n2 mf = .error .valueError) := by
  constructor
  · intro n1 n2 mf c h d1 d2
    unfold distCutoff at h
    cases h1 : cutoffOf n1 mf with
    | error e => rw [h1] at h; exact absurd h (by simp [bind, Except.bind])
    | ok c1 =>
      cases h2 : cutoffOf n2 mf with
      | error e => rw [h1, h2] at h; exact absurd h (by simp [bind, Except.bind])
      | ok c2 =>
        rw [h1, h2] at h
        simp only [bind, Except.bind, Except.ok.injEq] at h
        obtain ⟨a1, a2, a3, a4⟩ := cutoff_ok h1
        obtain ⟨b1, b2, b3, b4⟩ := cutoff_ok h2
        have mono : ∀ (n : List ℕ), n.Pairwise (· ≥ ·) → ∀ i j, i ≤ j → j < n.length → n.getD j 0 ≤ n.getD i 0 := by
          intro n hn i j hij hj
          rcases Nat.lt_or_ge i j with hlt | hge
          · have := List.pairwise_iff_getElem.1 hn i j (by omega) hj hlt
            simp only [List.getD_eq_getElem?_getD, List.getElem?_eq_getElem hj, List.getElem?_eq_getElem (show i < n.length by omega),
              Option.getD_some]
            exact this
          · have : i = j := by omega
            rw [this]
        refine ⟨⟨lt_of_lt_of_le a3 (mono n1 d1 c c1 (by omega) a2), lt_of_lt_of_le b3 (mono n2 d2 c c2 (by omega) b2)⟩, ?_⟩
        unfold bestBins
        rw [List.length_map, List.length_zip, List.length_take, List.length_take]
        omega
  · intro mf k rest n2 hk hr
    have : cutoffOf (k :: rest) mf = .error .valueError := by
      unfold cutoffOf
      simp only
      rw [if_neg]
      rw [List.any_eq_true]
      rintro ⟨i, hi, hi0⟩
      rw [List.mem_filter, List.mem_range] at hi
      simp only [bne_iff_ne] at hi0
      have hlt := of_decide_eq_true hi.2
      obtain ⟨j, rfl⟩ : ∃ j, i = j + 1 := ⟨i - 1, by omega⟩
      have hj : j < rest.length := by
        have := hi.1
        rw [List.length_cons] at this
        omega
      have e : (k :: rest).getD (j + 1) 0 = rest[j] := by
        rw [List.getD_eq_getElem?_getD, List.getElem?_cons_succ, List.getElem?_eq_getElem hj]
        rfl
      rw [e] at hlt
      have := hr rest[j] (List.getElem_mem hj)
      omega
    unfold distCutoff
    rw [this]
    rfl

example : distCutoff [500, 20] [500, 300] 100 = .error .valueError :=
  C68_cutoff_violated.2 100 500 [20] [500, 300] (by norm_num) (by simp)

/-! ### Empirical CDFs -/

private theorem foldl_addO_some (l : List ℝ) (a : ℝ) : (l.map some).foldl addO (some a) = some (a + l.sum) := by
  induction l generalizing a with
  | nil => simp
  | cons x xs ih =>
    rw [List.map_cons, List.foldl_cons]
    have : addO (some a) (some x) = some (a + x) := rfl
    rw [this, ih, List.sum_cons, add_assoc]

private theorem foldl_addO_none (l : List (Option ℝ)) : l.foldl addO none = none := by
  induction l with
  | nil => rfl
  | cons x xs ih => rw [List.foldl_cons]; exact ih

private theorem rowSum_none (l : List (Option ℝ)) (h : none ∈ l) (a : Option ℝ) : l.foldl addO a = none := by
  induction l generalizing a with
  | nil => simp at h
  | cons x xs ih =>
    rw [List.foldl_cons]
    rcases List.mem_cons.1 h with h | h
    · rw [← h]
      have : addO a none = none := by cases a <;> rfl
      rw [this]
      exact foldl_addO_none xs
    · exact ih h _

/-- A row of non-negative numbers with a positive sum: the k-th value is the fraction of the total up to and including entry k,
so the row never decreases and ends at 1. -/
theorem C68_ecdf (row : List ℝ) (h0 : ∀ v ∈ row, 0 ≤ v) (hs : 0 < row.sum) :
    ∃ e : List ℝ, mecdfRow (row.map some) = e.map some ∧ e.length = row.length ∧
      (∀ k < row.length, e[k]? = some ((row.take (k + 1)).sum / row.sum)) ∧
      e.Pairwise (· ≤ ·) ∧ e[row.length - 1]? = some 1 := by
  have hrow : 0 < row.length := by
    rcases Nat.eq_zero_or_pos row.length with h | h
    · rw [List.length_eq_zero_iff] at h; rw [h] at hs; simp at hs
    · exact h
  have hget : ∀ k < row.length, ((List.range row.length).map (fun k => (row.take (k + 1)).sum / row.sum))[k]? =
      some ((row.take (k + 1)).sum / row.sum) := by
    intro k hk
    rw [List.getElem?_map, List.getElem?_range hk]
    rfl
  refine ⟨(List.range row.length).map (fun k => (row.take (k + 1)).sum / row.sum), ?_, by rw [List.length_map, List.length_range],
    hget, ?_, ?_⟩
  · unfold mecdfRow mecdfSum
    rw [foldl_addO_some, zero_add]
    simp only [List.length_map, List.map_map]
    apply List.map_congr_left
    intro k _
    have e : row.map ((fun v => divO v (some row.sum)) ∘ some) = (row.map (fun v => v / row.sum)).map some := by
      rw [List.map_map]
      apply List.map_congr_left
      intro v _
      simp [divO, hs.ne']
    rw [e, ← List.map_take, foldl_addO_some, zero_add, ← List.map_take]
    simp only [Function.comp_apply, Option.some.injEq]
    simp only [div_eq_mul_inv, List.sum_map_mul_right, List.map_id']
  · rw [List.pairwise_map]
    refine List.Pairwise.imp_of_mem ?_ List.pairwise_lt_range
    intro i j _ _ hij
    apply div_le_div_of_nonneg_right _ hs.le
    have : row.take (j + 1) = row.take (i + 1) ++ (row.drop (i + 1)).take (j - i) := by
      rw [show j + 1 = (i + 1) + (j - i) by omega, List.take_add]
    rw [this, List.sum_append]
    have : 0 ≤ ((row.drop (i + 1)).take (j - i)).sum := List.sum_nonneg (fun x hx => h0 x (List.mem_of_mem_drop (List.mem_of_mem_take hx)))
    linarith
  · rw [hget _ (by omega), show row.length - 1 + 1 = row.length by omega, List.take_length, div_self hs.ne']

example : ∃ e : List ℝ, mecdfRow [some 1, some 3, some 0] = e.map some ∧ e[2]? = some 1 := by
  obtain ⟨e, h, _, _, _, h1⟩ := C68_ecdf [1, 3, 0] (by intro v hv; simp at hv; rcases hv with rfl | rfl | rfl <;> norm_num) (by norm_num)
  exact ⟨e, h, h1⟩

/-- VIOLATION: rows shorter than the longest histogram are padded with NaN (dendro_stats.py:749-759), and one NaN makes the whole
empirical CDF of that row NaN, including the entries before it. -/
theorem C68_ecdf_padding_violated (row : List (Option ℝ)) (h : none ∈ row) : ∀ v ∈ mecdfRow row, v = none := by
  intro v hv
  unfold mecdfRow at hv
  simp only [List.mem_map, List.mem_range] at hv
  obtain ⟨k, hk, rfl⟩ := hv
  have hs : mecdfSum row = none := rowSum_none row h _
  apply rowSum_none
  cases row with
  | nil => simp at hk
  | cons x xs =>
    rw [List.map_cons, List.take_succ_cons, hs]
    have : divO x none = none := by cases x <;> rfl
    rw [this]
    exact List.mem_cons_self

example : mecdfRow [some 1, some 1, none] = [none, none, none] := by
  have h := C68_ecdf_padding_violated [some 1, some 1, none] (by simp)
  have hl : (mecdfRow [some 1, some 1, none]).length = 3 := by unfold mecdfRow; simp
  exact List.eq_replicate_iff.2 ⟨hl, h⟩

end TS
