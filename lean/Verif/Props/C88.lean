import Verif.Model.DendroHist
import Verif.Props.C15
import Verif.Props.C18
import Verif.Props.C79

/-! C88 — the histogram distance of two dendrogram statistics. -/

namespace TS
open Finset

namespace Spec

/-- Mean of some numbers. -/
noncomputable def avg (l : List ℝ) : ℝ := l.sum / l.length

/-- The z-scores: differences from the mean in units of the (population) standard deviation. -/
noncomputable def zscores (l : List ℝ) : List ℝ :=
  l.map (fun x => (x - avg l) / Real.sqrt (avg (l.map (fun t => (t - avg l) ^ 2))))

/-- `n` bins of equal width from the smallest to the largest of the numbers in the two lists. -/
def JointEdges (z1 z2 : List ℝ) (n : ℕ) (e : Arr1 ℝ) : Prop :=
  e.n = n + 1 ∧ ∃ lo hi, IsLeast {v | v ∈ z1 ∨ v ∈ z2} lo ∧ IsGreatest {v | v ∈ z1 ∨ v ∈ z2} hi ∧
    ∀ k ≤ n, e.get k = lo + k * ((hi - lo) / n)

/-- A list of peaks that are not all equal. -/
def Varied (l : List ℝ) : Prop := ∃ a ∈ l, ∃ b ∈ l, a ≠ b

end Spec
open Spec

private theorem std_z {l : List ℝ} (h : Varied l) : standardize (l.map some) = (zscores l).map some := by
  obtain ⟨a, ha, b, hb, hab⟩ := h
  have hne : l ≠ [] := List.ne_nil_of_mem ha
  have hm : meanO l = some (avg l) := by simp [meanO, hne, avg]
  have hv : varO l = some (avg (l.map (fun t => (t - avg l) ^ 2))) := by
    have hm' : (l.map (fun t => (t - avg l) ^ 2)) ≠ [] := by simp [hne]
    simp [varO, hm, avg, meanO, hne]
  have hpos := varO_pos hv ha hb hab
  have h0 : Real.sqrt (avg (l.map (fun t => (t - avg l) ^ 2))) ≠ 0 := (Real.sqrt_pos.2 hpos).ne'
  unfold standardize nanmean nanstd zscores
  rw [validVals_some, hm, hv, List.map_map, List.map_map]
  apply List.map_congr_left
  intro x _
  simp [subO, divO, h0]

theorem z_varied {l : List ℝ} (h : Varied l) : Varied (zscores l) := by
  have hz := std_z h
  obtain ⟨a, ha, b, hb, hab⟩ := h
  have hne : l ≠ [] := List.ne_nil_of_mem ha
  have hm : meanO l = some (avg l) := by simp [meanO, hne, avg]
  have hv : varO l = some (avg (l.map (fun t => (t - avg l) ^ 2))) := by
    simp [varO, hm, avg, meanO, hne]
  have hpos := Real.sqrt_pos.2 (varO_pos hv ha hb hab)
  refine ⟨_, List.mem_map.2 ⟨a, ha, rfl⟩, _, List.mem_map.2 ⟨b, hb, rfl⟩, ?_⟩
  intro he
  rw [div_left_inj' hpos.ne'] at he
  exact hab (by linarith)

private theorem nanmin_some (l : List ℝ) : nanmin (l.map some) = minO l := by rw [nanmin, validVals_some]
private theorem nanmax_some (l : List ℝ) : nanmax (l.map some) = maxO l := by rw [nanmax, validVals_some]

theorem pyMinO_some (x y : ℝ) : pyMinO (some x) (some y) = some (min x y) := by
  unfold pyMinO
  by_cases h : y < x
  · rw [if_pos ⟨x, y, rfl, rfl, h⟩, min_eq_right h.le]
  · rw [if_neg, min_eq_left (not_lt.1 h)]
    rintro ⟨a, b, ha, hb, hab⟩
    cases ha; cases hb; exact h hab

private theorem pyMaxO_some (x y : ℝ) : pyMaxO (some x) (some y) = some (max x y) := by
  unfold pyMaxO
  by_cases h : x < y
  · rw [if_pos ⟨x, y, rfl, rfl, h⟩, max_eq_right h.le]
  · rw [if_neg, max_eq_left (not_lt.1 h)]
    rintro ⟨a, b, ha, hb, hab⟩
    cases ha; cases hb; exact h hab

private theorem joint_ends {z1 z2 : List ℝ} (h1 : Varied z1) (h2 : z2 ≠ []) :
    ∃ lo hi, IsLeast {v | v ∈ z1 ∨ v ∈ z2} lo ∧ IsGreatest {v | v ∈ z1 ∨ v ∈ z2} hi ∧ lo < hi ∧
      ∀ num, zBins (z1.map some) (z2.map some) num = .ok (some (linspace lo hi num)) := by
  obtain ⟨a, ha, b, hb, hab⟩ := h1
  have hne : z1 ≠ [] := List.ne_nil_of_mem ha
  obtain ⟨m1, e1⟩ := exists_minO hne
  obtain ⟨m2, e2⟩ := exists_minO h2
  obtain ⟨x1, f1⟩ := exists_maxO hne
  obtain ⟨x2, f2⟩ := exists_maxO h2
  obtain ⟨p1, q1⟩ := minO_eq_some.1 e1
  obtain ⟨p2, q2⟩ := minO_eq_some.1 e2
  obtain ⟨r1, s1⟩ := maxO_eq_some.1 f1
  obtain ⟨r2, s2⟩ := maxO_eq_some.1 f2
  refine ⟨min m1 m2, max x1 x2, ⟨?_, ?_⟩, ⟨?_, ?_⟩, ?_, ?_⟩
  · rcases min_choice m1 m2 with h | h <;> rw [h]
    · exact Or.inl p1
    · exact Or.inr p2
  · rintro v (hv | hv)
    · exact min_le_of_left_le (q1 v hv)
    · exact min_le_of_right_le (q2 v hv)
  · rcases max_choice x1 x2 with h | h <;> rw [h]
    · exact Or.inl r1
    · exact Or.inr r2
  · rintro v (hv | hv)
    · exact le_max_of_le_left (s1 v hv)
    · exact le_max_of_le_right (s2 v hv)
  · have : m1 < x1 := by
      rcases lt_or_gt_of_ne hab with h | h
      · exact lt_of_le_of_lt (q1 a ha) (lt_of_lt_of_le h (s1 b hb))
      · exact lt_of_le_of_lt (q1 b hb) (lt_of_lt_of_le h (s1 a ha))
    exact lt_of_le_of_lt (min_le_left _ _) (lt_of_lt_of_le this (le_max_left _ _))
  · intro num
    unfold zBins
    rw [if_neg (by simp [hne, h2]), nanmin_some, nanmin_some, nanmax_some, nanmax_some, e1, e2, f1, f2,
      pyMinO_some, pyMaxO_some]

private theorem sum_range_map (n : ℕ) (f : ℕ → ℝ) : ((List.range n).map f).sum = ∑ k ∈ range n, f k := by
  induction n with
  | zero => simp
  | succ n ih => rw [List.range_succ, List.map_append, List.sum_append, ih, sum_range_succ]; simp

private theorem nansum_range (n : ℕ) (f : ℕ → Option ℝ) :
    nansum ((List.range n).map f) = ∑ k ∈ range n, (f k).getD 0 := by
  rw [← sum_range_map]
  unfold nansum validVals
  induction (List.range n) with
  | nil => simp
  | cons a l ih =>
    cases h : f a with
    | none => simpa [h] using ih
    | some v => simpa [h] using ih

private theorem sum_pad (n w : ℕ) (hw : n ≤ w) (f : ℕ → ℝ) (h : ∀ k, n ≤ k → f k = 0) :
    ∑ k ∈ range w, f k = ∑ k ∈ range n, f k := by
  symm
  apply sum_subset (range_mono hw)
  intro k _ hk
  exact h k (by simpa using hk)

private theorem share_nn (e : Arr1 ℝ) (x : List ℝ) (k : ℕ) : 0 ≤ share e x k := by unfold share; positivity

private theorem row_ok (lo hi : ℝ) (hlt : lo < hi) (nb w : ℕ) (hnb : 1 ≤ nb) (hw : nb ≤ w) (z : List ℝ) (hne : z ≠ [])
    (hin : ∀ t ∈ z, lo ≤ t ∧ t ≤ hi) :
    (∀ k < nb, dendroRow w (some (linspace lo hi (nb + 1))) (z.map some) k = some (share (linspace lo hi (nb + 1)) z k)) ∧
    (∀ k, nb ≤ k → dendroRow w (some (linspace lo hi (nb + 1))) (z.map some) k = none) ∧
    ∑ k ∈ range nb, share (linspace lo hi (nb + 1)) z k = 1 := by
  set e := linspace lo hi (nb + 1) with he
  have hen : e.n = nb + 1 := rfl
  have hs : StrictEdges e := linspace_edges hlt (by omega)
  have h0 : e.get 0 = lo := linspace_first _ _ _
  have h1 : e.get (e.n - 1) = hi := linspace_last _ _ (by omega)
  have hnbR : (0 : ℝ) < nb := by exact_mod_cast hnb
  set d := (hi - lo) / nb with hd
  have hdpos : 0 < d := div_pos (by linarith) hnbR
  have hwid : ∀ k, e.get (k + 1) - e.get k = d := by
    intro k
    rw [he, hd]; simp only [linspace]; push_cast; ring
  obtain ⟨t, ht⟩ := List.exists_mem_of_ne_nil z hne
  have hex : ∃ x ∈ z, e.get 0 ≤ x ∧ x ≤ e.get (e.n - 1) := ⟨t, ht, by rw [h0]; exact (hin t ht).1, by rw [h1]; exact (hin t ht).2⟩
  have hval := histDensity_value hs (by omega) z hex
  obtain ⟨f, hf, hsum⟩ := histDensity_spec hs (by omega) z hex
  have hdens : ∀ k < nb, dendroDens (some e) (z.map some) k = some (share e z k / d) := by
    intro k hk
    unfold dendroDens
    simp only
    rw [if_pos (by omega), validVals_some, hval k (by omega), hwid]
  have hdens0 : ∀ k, nb ≤ k → dendroDens (some e) (z.map some) k = none := by
    intro k hk
    unfold dendroDens
    simp only
    rw [if_neg (by omega)]
  have hs1 : ∑ k ∈ range nb, share e z k = 1 := by
    rw [← hsum, hen, Nat.add_sub_cancel]
    apply sum_congr rfl
    intro k hk
    rw [mem_range] at hk
    have := (hf k (by omega)).1.symm.trans (hval k (by omega))
    rw [Option.some.inj this, hwid]
    field_simp
  have htot : nansum ((List.range w).map (dendroDens (some e) (z.map some))) = 1 / d := by
    rw [nansum_range, sum_pad nb w hw]
    · rw [← hs1, sum_div]
      apply sum_congr rfl
      intro k hk
      rw [hdens k (mem_range.1 hk)]; rfl
    · intro k hk; rw [hdens0 k hk]; rfl
  refine ⟨?_, ?_, hs1⟩
  · intro k hk
    unfold dendroRow
    rw [hdens k hk, htot]
    have : (1 / d) ≠ 0 := by positivity
    simp only [divO, bind, Option.bind]
    rw [if_neg this]
    congr 1
    field_simp
  · intro k hk
    unfold dendroRow
    rw [hdens0 k hk]
    rfl

private theorem mapM_okay {α β : Type*} (f : α → Py β) (g : α → β) (l : List α) (h : ∀ a ∈ l, f a = .ok (g a)) :
    l.mapM f = .ok (l.map g) := by
  induction l with
  | nil => rfl
  | cons a l ih =>
    rw [List.mapM_cons, h a (by simp), ih (fun b hb => h b (by simp [hb]))]
    rfl

/-- Same, through the total functions: what `histogram_stat` computes once the bins are known. -/
private theorem stat_eq (o : DendroDist) (nb : List ℕ) (hnb : dendroRowBins o = .ok nb) (hne : nb ≠ [])
    (b : ℕ → Option (Arr1 ℝ))
    (hb : ∀ i < nb.length, zBins (standardize ((o.d1.values.getD i []).map some)) (standardize ((o.d2.values.getD i []).map some))
      (nb.getD i 0 + 1) = .ok (b i)) :
    ∃ H : DendroHist, histogramStat o = .ok { o with nbins := .perRow nb, hist := some H } ∧
      H.bins = (List.range nb.length).map b ∧
      H.h1.n = nb.length ∧ H.h1.m = nb.foldr max 0 ∧ H.h2.n = nb.length ∧ H.h2.m = nb.foldr max 0 ∧
      (∀ i < nb.length, H.h1.get i = dendroRow (nb.foldr max 0) (b i) (standardize ((o.d1.values.getD i []).map some))) ∧
      (∀ i < nb.length, H.h2.get i = dendroRow (nb.foldr max 0) (b i) (standardize ((o.d2.values.getD i []).map some))) ∧
      H.ecdf1 = mecdf H.h1 ∧ H.ecdf2 = mecdf H.h2 ∧
      H.distance = (∑ i ∈ range nb.length, 1 / Real.sqrt 2 *
        Real.sqrt (∑ k ∈ range (nb.foldr max 0), hellTerm (H.h1.get i k) (H.h2.get i k))) / nb.length := by
  have hm := mapM_okay (fun i => zBins (standardize ((o.d1.values.getD i []).map some))
    (standardize ((o.d2.values.getD i []).map some)) (nb.getD i 0 + 1)) b (List.range nb.length)
    (fun i hi => hb i (List.mem_range.1 hi))
  have hget : ∀ i < nb.length, ((List.range nb.length).map b).getD i none = b i := by
    intro i hi
    simp [List.getD_eq_getElem?_getD, hi]
  set w := nb.foldr max 0
  set h1 : Arr2 (Option ℝ) := ⟨nb.length, w, fun i => dendroRow w (((List.range nb.length).map b).getD i none)
    (standardize ((o.d1.values.getD i []).map some))⟩ with hh1
  set h2 : Arr2 (Option ℝ) := ⟨nb.length, w, fun i => dendroRow w (((List.range nb.length).map b).getD i none)
    (standardize ((o.d2.values.getD i []).map some))⟩ with hh2
  have hd : hellingerStat h1 h2 = .ok ((∑ i ∈ range nb.length, 1 / Real.sqrt 2 *
        Real.sqrt (∑ k ∈ range w, hellTerm (h1.get i k) (h2.get i k))) / nb.length) := by
    unfold hellingerStat
    rw [if_neg (by simp [hh1, hh2])]
    rw [mapM_okay _ (fun i => 1 / Real.sqrt 2 * Real.sqrt (∑ k ∈ range w, hellTerm (h1.get i k) (h2.get i k)))]
    · simp only [bind, Except.bind, pure, Except.pure]
      rw [sum_range_map]
    · intro i _
      unfold hellinger
      rw [if_neg (by simp [hh1, hh2])]
  refine ⟨⟨(List.range nb.length).map b, h1, h2, mecdf h1, mecdf h2, (∑ i ∈ range nb.length, 1 / Real.sqrt 2 *
        Real.sqrt (∑ k ∈ range w, hellTerm (h1.get i k) (h2.get i k))) / nb.length⟩, ?_, rfl, rfl, rfl, rfl, rfl, ?_, ?_, rfl, rfl, rfl⟩
  · unfold histogramStat
    rw [hnb]
    simp only [bind, Except.bind, pure, Except.pure]
    rw [if_neg hne, hm]
    simp only
    rw [hd]
  · intro i hi; simp only [hh1]; rw [hget i hi]
  · intro i hi; simp only [hh2]; rw [hget i hi]

private theorem le_foldr_max (l : List ℕ) (i : ℕ) (hi : i < l.length) : l.getD i 0 ≤ l.foldr max 0 := by
  induction l generalizing i with
  | nil => simp at hi
  | cons a l ih =>
    cases i with
    | zero => simp
    | succ i => simpa using Or.inr (ih i (by simpa using hi))

private theorem hellTerm_none (a : Option ℝ) : hellTerm none a = 0 ∧ hellTerm a none = 0 := by
  unfold hellTerm
  cases sqrtO a <;> simp [sqrtO, subO]

/-- A stored cutoff is a position in both lists of counts, not the first. -/
private theorem cutoff_pos {n : List ℕ} {mf c : ℕ} (h : cutoffOf n mf = .ok c) : 1 ≤ c ∧ c < n.length := by
  unfold cutoffOf at h
  simp only at h
  set pos := (List.range n.length).filter (fun i => decide (mf < n.getD i 0)) with hpos
  split_ifs at h with ha
  simp only [Except.ok.injEq] at h
  obtain ⟨j, hj, hj0⟩ := List.any_eq_true.1 ha
  have hne : pos ≠ [] := List.ne_nil_of_mem hj
  have hlast : pos.getLastD 0 = pos.getLast hne := by
    rw [List.getLastD_eq_getLast?, List.getLast?_eq_getLast_of_ne_nil hne]; rfl
  have hc : c ∈ pos := by rw [← h, hlast]; exact List.getLast_mem hne
  have hsorted : pos.Pairwise (· < ·) := List.Pairwise.filter _ List.pairwise_lt_range
  have hle : j ≤ c := by
    rw [← h, hlast]
    obtain ⟨k, hk, rfl⟩ := List.getElem_of_mem hj
    rw [List.getLast_eq_getElem]
    rcases Nat.lt_or_ge k (pos.length - 1) with hkl | hkl
    · exact le_of_lt (List.pairwise_iff_getElem.1 hsorted k (pos.length - 1) hk (by omega) hkl)
    · have : k = pos.length - 1 := by omega
      subst this
      exact le_refl _
  rw [hpos, List.mem_filter, List.mem_range] at hc
  simp only [bne_iff_ne] at hj0
  exact ⟨by omega, hc.1⟩

private theorem init_cutoff {d1 d2 : DendroData} {b : DendroBins} {mf : ℕ} {o : DendroDist}
    (h : dendroDistInit d1 d2 b mf = .ok o) :
    o.nbins = b ∧ o.d1 = d1 ∧ o.d2 = d2 ∧ 1 ≤ o.cutoff ∧ o.cutoff < d1.num.length ∧ o.cutoff < d2.num.length := by
  unfold dendroDistInit distCutoff at h
  cases h1 : cutoffOf d1.num mf with
  | error e => rw [h1] at h; cases h
  | ok c1 =>
    cases h2 : cutoffOf d2.num mf with
    | error e => rw [h1, h2] at h; cases h
    | ok c2 =>
      rw [h1, h2] at h
      simp only [bind, Except.bind, pure, Except.pure, Except.ok.injEq] at h
      subst h
      have := cutoff_pos h1
      have := cutoff_pos h2
      refine ⟨rfl, rfl, rfl, ?_, ?_, ?_⟩ <;> simp only <;> omega

namespace Spec

/-- The documented number of bins at a threshold with `n1` and `n2` structures: the root of their mean, rounded down, for
`"best"`, else the number given. -/
noncomputable def binNumber (b : DendroBins) (n1 n2 : ℕ) : ℕ :=
  match b with
  | .count k => k
  | _ => ⌊Real.sqrt (((n1 : ℝ) + n2) / 2)⌋₊

end Spec

private theorem rowBins_ok {o : DendroDist} (hb : ∀ l, o.nbins ≠ .perRow l) (h1 : o.cutoff ≤ o.d1.num.length)
    (h2 : o.cutoff ≤ o.d2.num.length) :
    ∃ nb, dendroRowBins o = .ok nb ∧ nb.length = o.cutoff ∧
      ∀ i < o.cutoff, nb.getD i 0 = binNumber o.nbins (o.d1.num.getD i 0) (o.d2.num.getD i 0) := by
  unfold dendroRowBins
  cases hn : o.nbins with
  | perRow l => exact absurd hn (hb l)
  | count k =>
    refine ⟨_, rfl, by simp [h1], ?_⟩
    intro i hi
    have : i < o.d1.num.length := by omega
    simp [List.getD_eq_getElem?_getD, List.getElem?_replicate, binNumber, hi, this]
  | best =>
    refine ⟨_, rfl, by simp [bestBins, h1, h2], ?_⟩
    intro i hi
    have e1 : i < o.d1.num.length := by omega
    have e2 : i < o.d2.num.length := by omega
    simp [bestBins, List.getD_eq_getElem?_getD, List.getElem?_zip_eq_some, List.getElem?_take, hi, e1, e2, binNumber,
      List.zip, List.getElem?_zipWith]

private theorem hell_row (e : Arr1 ℝ) (z1 z2 : List ℝ) (nb w : ℕ) (hw : nb ≤ w) (r1 r2 : ℕ → Option ℝ)
    (h1 : ∀ k < nb, r1 k = some (share e z1 k)) (h2 : ∀ k < nb, r2 k = some (share e z2 k)) (h0 : ∀ k, nb ≤ k → r1 k = none) :
    1 / Real.sqrt 2 * Real.sqrt (∑ k ∈ range w, hellTerm (r1 k) (r2 k)) = hell nb (share e z1) (share e z2) := by
  rw [sum_pad nb w hw _ (fun k hk => by rw [h0 k hk]; exact (hellTerm_none _).1)]
  have : ∀ k ∈ range nb, hellTerm (r1 k) (r2 k) = (Real.sqrt (share e z1 k) - Real.sqrt (share e z2 k)) ^ 2 := by
    intro k hk
    rw [mem_range] at hk
    have a1 := share_nn e z1 k
    have a2 := share_nn e z2 k
    simp [hellTerm, h1 k hk, h2 k hk, sqrtO, subO, not_lt.2 a1, not_lt.2 a2]
  rw [sum_congr rfl this]
  unfold hell
  rw [Real.sqrt_div' _ (by norm_num)]
  ring

private theorem hell_bound (n : ℕ) (f g : ℕ → ℝ) (hf : ∀ k, 0 ≤ f k) (hg : ∀ k, 0 ≤ g k) (sf : ∑ k ∈ range n, f k = 1)
    (sg : ∑ k ∈ range n, g k = 1) : 0 ≤ hell n f g ∧ hell n f g ≤ 1 ∧ (hell n f g = 0 ↔ ∀ k < n, f k = g k) := by
  refine ⟨Real.sqrt_nonneg _, ?_, ?_⟩
  · unfold hell
    rw [← Real.sqrt_one]
    apply Real.sqrt_le_sqrt
    rw [div_le_one (by norm_num)]
    calc ∑ k ∈ range n, (Real.sqrt (f k) - Real.sqrt (g k)) ^ 2
        ≤ ∑ k ∈ range n, (f k + g k) := by
          apply sum_le_sum
          intro k _
          have h1 := Real.sq_sqrt (hf k)
          have h2 := Real.sq_sqrt (hg k)
          have h3 := Real.sqrt_nonneg (f k)
          have h4 := Real.sqrt_nonneg (g k)
          nlinarith [mul_nonneg h3 h4]
      _ = 2 := by rw [sum_add_distrib, sf, sg]; norm_num
  · have hnn : ∀ k ∈ range n, 0 ≤ (Real.sqrt (f k) - Real.sqrt (g k)) ^ 2 := fun k _ => sq_nonneg _
    have hs := sum_nonneg hnn
    unfold hell
    rw [Real.sqrt_eq_zero (by positivity), div_eq_zero_iff, or_iff_left (by norm_num), sum_eq_zero_iff_of_nonneg hnn]
    constructor
    · intro h k hk
      have := h k (mem_range.2 hk)
      rw [sq_eq_zero_iff, sub_eq_zero] at this
      exact (Real.sqrt_inj (hf k) (hg k)).1 this
    · intro h k hk
      rw [h k (mem_range.1 hk), sub_self]; norm_num

/-- **C88 (histograms and distance).** From the constructor: for `"best"` or a number of bins, when the peaks at every threshold
that is used are not all equal (in either dataset), `histogram_stat` completes.  Row `i` of the histograms then holds, for common
bins of equal width from the smallest to the largest z-score of the two datasets, the shares of the z-scores of the peaks in each
bin (they add up to one), and NaN up to the common width; the distance is the mean over the thresholds of the Hellinger distances of
these shares, it lies in [0, 1], and it is zero exactly when all shares agree.
Missing: thresholds at which all peaks of a dataset are equal (`C88_constant_violated`). -/
theorem C88_histograms_partial (d1 d2 : DendroData) (b : DendroBins) (hb : b = .best ∨ ∃ k, 1 ≤ k ∧ b = .count k) (mf : ℕ)
    (o : DendroDist) (h : dendroDistInit d1 d2 b mf = .ok o) (hl1 : d1.num = d1.values.map List.length)
    (hl2 : d2.num = d2.values.map List.length) (hv1 : ∀ i < o.cutoff, Varied (d1.values.getD i []))
    (hv2 : ∀ i < o.cutoff, Varied (d2.values.getD i [])) :
    ∃ r H, histogramStat o = .ok r ∧ r.hist = some H ∧ H.h1.n = o.cutoff ∧ H.h2.n = o.cutoff ∧ H.h2.m = H.h1.m ∧
    H.bins.length = o.cutoff ∧
    ∃ (e : ℕ → Arr1 ℝ) (nb : ℕ → ℕ) (z1 z2 : ℕ → List ℝ),
      (∀ i, nb i = binNumber b (d1.values.getD i []).length (d2.values.getD i []).length) ∧
      (∀ i, z1 i = zscores (d1.values.getD i [])) ∧ (∀ i, z2 i = zscores (d2.values.getD i [])) ∧
      (∀ i < o.cutoff, H.bins[i]? = some (some (e i)) ∧ JointEdges (z1 i) (z2 i) (nb i) (e i) ∧
        1 ≤ nb i ∧ nb i ≤ H.h1.m ∧
        (∀ k < nb i, H.h1.get i k = some (share (e i) (z1 i) k) ∧ H.h2.get i k = some (share (e i) (z2 i) k)) ∧
        (∀ k, nb i ≤ k → H.h1.get i k = none ∧ H.h2.get i k = none) ∧
        ∑ k ∈ range (nb i), share (e i) (z1 i) k = 1 ∧ ∑ k ∈ range (nb i), share (e i) (z2 i) k = 1) ∧
      H.distance = (∑ i ∈ range o.cutoff, hell (nb i) (share (e i) (z1 i)) (share (e i) (z2 i))) / o.cutoff ∧
      0 ≤ H.distance ∧ H.distance ≤ 1 ∧
      (H.distance = 0 ↔ ∀ i < o.cutoff, ∀ k < nb i, share (e i) (z1 i) k = share (e i) (z2 i) k) := by
  obtain ⟨hob, ho1, ho2, hc1, hcl1, hcl2⟩ := init_cutoff h
  obtain ⟨nbl, hnb, hlen, hnbi⟩ := rowBins_ok (o := o)
    (by rw [hob]; intro l; rcases hb with h | ⟨k, -, h⟩ <;> rw [h] <;> simp) (by rw [ho1]; omega) (by rw [ho2]; omega)
  have hnum : ∀ (d : DendroData), d.num = d.values.map List.length → ∀ i, d.num.getD i 0 = (d.values.getD i []).length := by
    intro d hd i
    rw [hd]
    simp only [List.getD_eq_getElem?_getD, List.getElem?_map]
    cases d.values[i]? <;> rfl
  set nb : ℕ → ℕ := fun i => binNumber b (d1.values.getD i []).length (d2.values.getD i []).length with hnbdef
  have hnb' : ∀ i < o.cutoff, nbl.getD i 0 = nb i := by
    intro i hi
    rw [hnbi i hi, hob, ho1, ho2, hnum d1 hl1, hnum d2 hl2]
  have hnb1 : ∀ i < o.cutoff, 1 ≤ nb i := by
    intro i hi
    have len : ∀ l : List ℝ, Varied l → 1 ≤ l.length := by
      rintro l ⟨a, ha, -⟩
      exact List.length_pos_of_mem ha
    have a1 := len _ (hv1 i hi)
    have a2 := len _ (hv2 i hi)
    rcases hb with hb | ⟨k, hk, hb⟩
    · simp only [hnbdef, hb, binNumber]
      rw [Nat.one_le_floor_iff, Real.one_le_sqrt, le_div_iff₀ (by norm_num)]
      have q1 : (1 : ℝ) ≤ (d1.values.getD i []).length := by exact_mod_cast a1
      have q2 : (1 : ℝ) ≤ (d2.values.getD i []).length := by exact_mod_cast a2
      linarith
    · simp only [hnbdef, hb, binNumber]; exact hk
  set z1 : ℕ → List ℝ := fun i => zscores (d1.values.getD i []) with hz1
  set z2 : ℕ → List ℝ := fun i => zscores (d2.values.getD i []) with hz2
  have hends : ∀ i, ∃ p : ℝ × ℝ, i < o.cutoff → IsLeast {v | v ∈ z1 i ∨ v ∈ z2 i} p.1 ∧
      IsGreatest {v | v ∈ z1 i ∨ v ∈ z2 i} p.2 ∧ p.1 < p.2 ∧
      ∀ num, zBins ((z1 i).map some) ((z2 i).map some) num = .ok (some (linspace p.1 p.2 num)) := by
    intro i
    by_cases hi : i < o.cutoff
    · obtain ⟨a, ha, -⟩ := z_varied (hv2 i hi)
      obtain ⟨lo, hi', r⟩ := joint_ends (z_varied (hv1 i hi)) (List.ne_nil_of_mem ha)
      exact ⟨(lo, hi'), fun _ => r⟩
    · exact ⟨(0, 0), fun h => absurd h hi⟩
  choose p hp using hends
  set e : ℕ → Arr1 ℝ := fun i => linspace (p i).1 (p i).2 (nb i + 1) with hedef
  have s1 : ∀ i < o.cutoff, standardize ((o.d1.values.getD i []).map some) = (z1 i).map some := by
    intro i hi; rw [ho1]; exact std_z (hv1 i hi)
  have s2 : ∀ i < o.cutoff, standardize ((o.d2.values.getD i []).map some) = (z2 i).map some := by
    intro i hi; rw [ho2]; exact std_z (hv2 i hi)
  obtain ⟨H, hH, hbins, n1, m1, n2, m2, g1, g2, -, -, hdist⟩ := stat_eq o nbl hnb
    (by intro h0; rw [h0] at hlen; simp at hlen; omega) (fun i => some (e i)) (by
      intro i hi
      rw [hlen] at hi
      rw [s1 i hi, s2 i hi, (hp i hi).2.2.2, hnb' i hi])
  have hwd : ∀ i < o.cutoff, nb i ≤ nbl.foldr max 0 := by
    intro i hi
    rw [← hnb' i hi]
    exact le_foldr_max nbl i (by omega)
  have hne1 : ∀ i < o.cutoff, z1 i ≠ [] := fun i hi => by
    obtain ⟨a, ha, -⟩ := z_varied (hv1 i hi); exact List.ne_nil_of_mem ha
  have hne2 : ∀ i < o.cutoff, z2 i ≠ [] := fun i hi => by
    obtain ⟨a, ha, -⟩ := z_varied (hv2 i hi); exact List.ne_nil_of_mem ha
  have R1 : ∀ i < o.cutoff, _ := fun i hi => row_ok (p i).1 (p i).2 (hp i hi).2.2.1 (nb i) (nbl.foldr max 0) (hnb1 i hi) (hwd i hi)
    (z1 i) (hne1 i hi) (fun t ht => ⟨(hp i hi).1.2 (Or.inl ht), (hp i hi).2.1.2 (Or.inl ht)⟩)
  have R2 : ∀ i < o.cutoff, _ := fun i hi => row_ok (p i).1 (p i).2 (hp i hi).2.2.1 (nb i) (nbl.foldr max 0) (hnb1 i hi) (hwd i hi)
    (z2 i) (hne2 i hi) (fun t ht => ⟨(hp i hi).1.2 (Or.inr ht), (hp i hi).2.1.2 (Or.inr ht)⟩)
  have g1' : ∀ i < o.cutoff, H.h1.get i = dendroRow (nbl.foldr max 0) (some (e i)) ((z1 i).map some) := by
    intro i hi; rw [g1 i (by omega), s1 i hi]
  have g2' : ∀ i < o.cutoff, H.h2.get i = dendroRow (nbl.foldr max 0) (some (e i)) ((z2 i).map some) := by
    intro i hi; rw [g2 i (by omega), s2 i hi]
  have hD : H.distance = (∑ i ∈ range o.cutoff, hell (nb i) (share (e i) (z1 i)) (share (e i) (z2 i))) / o.cutoff := by
    rw [hdist, hlen]
    congr 1
    apply sum_congr rfl
    intro i hi
    rw [mem_range] at hi
    apply hell_row _ _ _ _ _ (hwd i hi)
    · intro k hk; rw [g1' i hi]; exact (R1 i hi).1 k hk
    · intro k hk; rw [g2' i hi]; exact (R2 i hi).1 k hk
    · intro k hk; rw [g1' i hi]; exact (R1 i hi).2.1 k hk
  have HB : ∀ i < o.cutoff, _ := fun i hi => hell_bound (nb i) (share (e i) (z1 i)) (share (e i) (z2 i)) (share_nn _ _) (share_nn _ _)
    (R1 i hi).2.2 (R2 i hi).2.2
  have hcpos : (0 : ℝ) < o.cutoff := by exact_mod_cast hc1
  have hnn : ∀ i ∈ range o.cutoff, 0 ≤ hell (nb i) (share (e i) (z1 i)) (share (e i) (z2 i)) :=
    fun i hi => (HB i (mem_range.1 hi)).1
  refine ⟨_, H, hH, rfl, by rw [n1, hlen], by rw [n2, hlen], by rw [m1, m2], by rw [hbins]; simp [hlen],
    e, nb, z1, z2, fun _ => rfl, fun _ => rfl, fun _ => rfl, ?_, hD, ?_, ?_, ?_⟩
  · intro i hi
    refine ⟨by rw [hbins]; simp [hlen, hi], ⟨rfl, (p i).1, (p i).2, (hp i hi).1, (hp i hi).2.1, ?_⟩, hnb1 i hi,
      by rw [m1]; exact hwd i hi, ?_, ?_, (R1 i hi).2.2, (R2 i hi).2.2⟩
    · intro k _
      simp only [hedef, linspace]
      push_cast
      ring
    · intro k hk
      rw [g1' i hi, g2' i hi]
      exact ⟨(R1 i hi).1 k hk, (R2 i hi).1 k hk⟩
    · intro k hk
      rw [g1' i hi, g2' i hi]
      exact ⟨(R1 i hi).2.1 k hk, (R2 i hi).2.1 k hk⟩
  · rw [hD]; exact div_nonneg (sum_nonneg hnn) hcpos.le
  · rw [hD, div_le_one hcpos]
    calc ∑ i ∈ range o.cutoff, hell (nb i) (share (e i) (z1 i)) (share (e i) (z2 i)) ≤ ∑ i ∈ range o.cutoff, 1 :=
          sum_le_sum (fun i hi => (HB i (mem_range.1 hi)).2.1)
      _ = o.cutoff := by simp
  · rw [hD, div_eq_zero_iff, or_iff_left hcpos.ne', sum_eq_zero_iff_of_nonneg hnn]
    constructor
    · intro hz i hi k hk
      exact (HB i hi).2.2.1 (hz i (mem_range.2 hi)) k hk
    · intro hz i hi
      exact (HB i (mem_range.1 hi)).2.2.2 (hz i (mem_range.1 hi))

/-! ### What the distance depends on -/

theorem edges_agree {z1 z2 z1' z2' : List ℝ} {n : ℕ} {e e' : Arr1 ℝ} (h : JointEdges z1 z2 n e)
    (h' : JointEdges z1' z2' n e') (hz : ∀ v, (v ∈ z1 ∨ v ∈ z2) ↔ (v ∈ z1' ∨ v ∈ z2')) :
    e'.n = e.n ∧ ∀ k < e.n, e'.get k = e.get k := by
  obtain ⟨hn, lo, hi, hlo, hhi, hk⟩ := h
  obtain ⟨hn', lo', hi', hlo', hhi', hk'⟩ := h'
  have hset : {v | v ∈ z1 ∨ v ∈ z2} = {v | v ∈ z1' ∨ v ∈ z2'} := Set.ext hz
  rw [hset] at hlo hhi
  have e1 := hlo.unique hlo'
  have e2 := hhi.unique hhi'
  refine ⟨by rw [hn, hn'], fun k hk0 => ?_⟩
  rw [hk k (by omega), hk' k (by omega), e1, e2]

/-- The shares depend on the edges and on the numbers up to order. -/
theorem share_agree {e e' : Arr1 ℝ} (hn : e'.n = e.n) (hg : ∀ k < e.n, e'.get k = e.get k) (h2 : 2 ≤ e.n)
    {z z' : List ℝ} (hz : z.Perm z') (k : ℕ) (hk : k + 1 < e.n) : share e' z' k = share e z k := by
  unfold share
  have a : ∀ x, InBin e' k x ↔ InBin e k x := by
    intro x
    unfold InBin
    rw [hn, hg k (by omega), hg (k + 1) hk]
  have b : ∀ x, (e'.get 0 ≤ x ∧ x ≤ e'.get (e'.n - 1)) ↔ (e.get 0 ≤ x ∧ x ≤ e.get (e.n - 1)) := by
    intro x
    rw [hn, hg 0 (by omega), hg (e.n - 1) (by omega)]
  rw [hz.countP_eq, hz.countP_eq]
  have c1 : List.countP (fun x => @decide (InBin e' k x) (Classical.propDecidable _)) z' =
      List.countP (fun x => @decide (InBin e k x) (Classical.propDecidable _)) z' :=
    List.countP_congr (fun x _ => by simp only [decide_eq_true_eq]; exact a x)
  have c2 : List.countP (fun x => @decide (e'.get 0 ≤ x ∧ x ≤ e'.get (e'.n - 1)) (Classical.propDecidable _)) z' =
      List.countP (fun x => @decide (e.get 0 ≤ x ∧ x ≤ e.get (e.n - 1)) (Classical.propDecidable _)) z' :=
    List.countP_congr (fun x _ => by simp only [decide_eq_true_eq]; exact b x)
  convert congrArg₂ (fun (p q : ℕ) => (p : ℝ) / q) c1 c2

/-- The Hellinger distance depends on the shares in the bins only. -/
theorem hell_agree {n : ℕ} {f g f' g' : ℕ → ℝ} (hf : ∀ k < n, f' k = f k) (hg : ∀ k < n, g' k = g k) :
    hell n f' g' = hell n f g := by
  unfold hell
  congr 2
  apply sum_congr rfl
  intro k hk
  rw [hf k (mem_range.1 hk), hg k (mem_range.1 hk)]

/-- The Hellinger distance is symmetric. -/
theorem hell_swap (n : ℕ) (f g : ℕ → ℝ) : hell n f g = hell n g f := by
  unfold hell
  congr 2
  apply sum_congr rfl
  intro k _
  ring

/-- The cutoff of the swapped pair. -/
private theorem init_swap {d1 d2 : DendroData} {b : DendroBins} {mf : ℕ} {o : DendroDist}
    (h : dendroDistInit d1 d2 b mf = .ok o) : dendroDistInit d2 d1 b mf = .ok { o with d1 := d2, d2 := d1 } := by
  unfold dendroDistInit distCutoff at h ⊢
  cases h1 : cutoffOf d1.num mf with
  | error e => rw [h1] at h; cases h
  | ok c1 =>
    cases h2 : cutoffOf d2.num mf with
    | error e => rw [h1, h2] at h; cases h
    | ok c2 =>
      rw [h1, h2] at h
      simp only [bind, Except.bind, pure, Except.pure, Except.ok.injEq] at h ⊢
      subst h
      rw [min_comm]

private theorem binNumber_comm (b : DendroBins) (n m : ℕ) : binNumber b n m = binNumber b m n := by
  unfold binNumber
  cases b <;> simp only [add_comm]

/-- **C88 (symmetry).** Exchanging the two datasets exchanges the histograms and leaves the distance. -/
theorem C88_symmetric (d1 d2 : DendroData) (b : DendroBins) (hb : b = .best ∨ ∃ k, 1 ≤ k ∧ b = .count k) (mf : ℕ)
    (o : DendroDist) (h : dendroDistInit d1 d2 b mf = .ok o) (hl1 : d1.num = d1.values.map List.length)
    (hl2 : d2.num = d2.values.map List.length) (hv1 : ∀ i < o.cutoff, Varied (d1.values.getD i []))
    (hv2 : ∀ i < o.cutoff, Varied (d2.values.getD i [])) :
    ∃ r H o' r' H', histogramStat o = .ok r ∧ r.hist = some H ∧ dendroDistInit d2 d1 b mf = .ok o' ∧
      histogramStat o' = .ok r' ∧ r'.hist = some H' ∧ H'.distance = H.distance ∧ H'.h1.n = H.h2.n ∧ H'.h2.n = H.h1.n ∧
      ∀ i < H.h1.n, ∀ k, H'.h1.get i k = H.h2.get i k ∧ H'.h2.get i k = H.h1.get i k := by
  have h' := init_swap h
  obtain ⟨r, H, hr, hH, n1, n2, m2, -, e, nb, z1, z2, enb, ez1, ez2, hrow, hd, -⟩ :=
    C88_histograms_partial d1 d2 b hb mf o h hl1 hl2 hv1 hv2
  obtain ⟨r', H', hr', hH', n1', n2', m2', -, e', nb', z1', z2', enb', ez1', ez2', hrow', hd', -⟩ :=
    C88_histograms_partial d2 d1 b hb mf _ h' hl2 hl1 hv2 hv1
  have hnbe : ∀ i, nb' i = nb i := by intro i; rw [enb, enb', binNumber_comm]
  have hz1 : ∀ i, z1' i = z2 i := by intro i; rw [ez1', ez2]
  have hz2 : ∀ i, z2' i = z1 i := by intro i; rw [ez2', ez1]
  have hag : ∀ i < o.cutoff, (e' i).n = (e i).n ∧ ∀ k < (e i).n, (e' i).get k = (e i).get k := by
    intro i hi
    have a := (hrow i hi).2.1
    have a' := (hrow' i hi).2.1
    rw [hnbe, hz1, hz2] at a'
    exact edges_agree a a' (fun v => or_comm)
  have hsh : ∀ i < o.cutoff, ∀ k < nb i, ∀ z, share (e' i) z k = share (e i) z k := by
    intro i hi k hk z
    have en : (e i).n = nb i + 1 := (hrow i hi).2.1.1
    exact share_agree (hag i hi).1 (hag i hi).2 (by omega) (List.Perm.refl z) k (by omega)
  refine ⟨r, H, _, r', H', hr, hH, h', hr', hH', ?_, by rw [n1', n2], by rw [n2', n1], ?_⟩
  · rw [hd, hd']
    congr 1
    apply sum_congr rfl
    intro i hi
    have hi' : i < o.cutoff := mem_range.1 hi
    rw [hnbe, hz1, hz2, hell_swap]
    exact hell_agree (fun k hk => hsh i hi' k hk _) (fun k hk => hsh i hi' k hk _)
  · intro i hi k
    rw [n1] at hi
    obtain ⟨-, -, -, -, q1, q2, -⟩ := hrow i hi
    obtain ⟨-, -, -, -, q1', q2', -⟩ := hrow' i hi
    rw [hnbe, hz1, hz2] at q1'
    rw [hnbe] at q2'
    rcases Nat.lt_or_ge k (nb i) with hk | hk
    · rw [(q1 k hk).1, (q1 k hk).2, (q1' k hk).1, (q1' k hk).2, hsh i hi k hk, hsh i hi k hk]
      exact ⟨rfl, rfl⟩
    · rw [(q2 k hk).1, (q2 k hk).2, (q2' k hk).1, (q2' k hk).2]
      exact ⟨rfl, rfl⟩

private theorem avg_perm {l l' : List ℝ} (h : l.Perm l') : avg l = avg l' := by
  unfold avg; rw [h.sum_eq, h.length_eq]

private theorem zscores_perm {l l' : List ℝ} (h : l.Perm l') : (zscores l).Perm (zscores l') := by
  unfold zscores
  rw [avg_perm h]
  have : avg (l.map (fun t => (t - avg l') ^ 2)) = avg (l'.map (fun t => (t - avg l') ^ 2)) := avg_perm (h.map _)
  rw [this]
  exact h.map _

private theorem zscores_affine (l : List ℝ) (a c : ℝ) (ha : 0 < a) : zscores (l.map (fun x => a * x + c)) = zscores l := by
  by_cases hne : l = []
  · subst hne; rfl
  have hlen : (l.length : ℝ) ≠ 0 := by
    have := List.length_pos_of_ne_nil hne
    exact_mod_cast this.ne'
  have hsum : ∀ t : List ℝ, (t.map (fun x => a * x + c)).sum = a * t.sum + t.length * c := by
    intro t
    induction t with
    | nil => simp
    | cons x t ih => simp only [List.map_cons, List.sum_cons, ih, List.length_cons]; push_cast; ring
  have hav : avg (l.map (fun x => a * x + c)) = a * avg l + c := by
    unfold avg
    rw [hsum, List.length_map]
    field_simp
  have hsq : ∀ t : List ℝ, (t.map (fun x => (a * x + c - (a * avg l + c)) ^ 2)).sum = a ^ 2 * (t.map (fun x => (x - avg l) ^ 2)).sum := by
    intro t
    induction t with
    | nil => simp
    | cons x t ih => simp only [List.map_cons, List.sum_cons, ih]; ring
  have hvar : avg ((l.map (fun x => a * x + c)).map (fun t => (t - avg (l.map (fun x => a * x + c))) ^ 2))
      = a ^ 2 * avg (l.map (fun t => (t - avg l) ^ 2)) := by
    have e0 : avg ((l.map (fun x => a * x + c)).map (fun t => (t - (a * avg l + c)) ^ 2))
        = (l.map (fun x => (a * x + c - (a * avg l + c)) ^ 2)).sum / l.length := by
      rw [List.map_map, avg, List.length_map]; rfl
    have e1 : avg (l.map (fun t => (t - avg l) ^ 2)) = (l.map (fun x => (x - avg l) ^ 2)).sum / l.length := by
      rw [avg, List.length_map]
    rw [hav, e0, e1, hsq l, mul_div_assoc]
  have hmap : ∀ x, (a * x + c - (a * avg l + c)) / Real.sqrt (a ^ 2 * avg (l.map (fun t => (t - avg l) ^ 2)))
      = (x - avg l) / Real.sqrt (avg (l.map (fun t => (t - avg l) ^ 2))) := by
    intro x
    rw [Real.sqrt_mul (by positivity), Real.sqrt_sq ha.le, show a * x + c - (a * avg l + c) = a * (x - avg l) by ring]
    exact mul_div_mul_left _ _ ha.ne'
  unfold zscores
  rw [hvar, hav, List.map_map]
  apply List.map_congr_left
  intro x _
  exact hmap x

namespace Spec

/-- The same peaks on another intensity scale (factor, offset) and in another order. -/
def Rescaled (l l' : List ℝ) : Prop := ∃ a c : ℝ, 0 < a ∧ l'.Perm (l.map (fun x => a * x + c))

end Spec

private theorem rescaled_z {l l' : List ℝ} (h : Rescaled l l') : (zscores l).Perm (zscores l') ∧ l'.length = l.length := by
  obtain ⟨a, c, ha, hp⟩ := h
  refine ⟨?_, by rw [hp.length_eq, List.length_map]⟩
  have := zscores_perm hp
  rw [zscores_affine l a c ha] at this
  exact this.symm

private theorem rescaled_varied {l l' : List ℝ} (h : Rescaled l l') (hv : Varied l) : Varied l' := by
  obtain ⟨a, c, ha, hp⟩ := h
  obtain ⟨x, hx, y, hy, hxy⟩ := hv
  refine ⟨a * x + c, hp.mem_iff.2 (List.mem_map.2 ⟨x, hx, rfl⟩), a * y + c, hp.mem_iff.2 (List.mem_map.2 ⟨y, hy, rfl⟩), ?_⟩
  intro he
  exact hxy (mul_left_cancel₀ ha.ne' (by linarith))

/-- **C88 (intensity scale and order).** The distance does not change when the peaks of either dataset are rescaled by positive
factors, shifted by offsets (another one at each threshold, if need be) and reordered. -/
theorem C88_intensity_scale (d1 d2 d1' d2' : DendroData) (b : DendroBins) (hb : b = .best ∨ ∃ k, 1 ≤ k ∧ b = .count k) (mf : ℕ)
    (o : DendroDist) (h : dendroDistInit d1 d2 b mf = .ok o) (hl1 : d1.num = d1.values.map List.length)
    (hl2 : d2.num = d2.values.map List.length) (hv1 : ∀ i < o.cutoff, Varied (d1.values.getD i []))
    (hv2 : ∀ i < o.cutoff, Varied (d2.values.getD i [])) (hn1 : d1'.num = d1.num) (hn2 : d2'.num = d2.num)
    (hl1' : d1'.num = d1'.values.map List.length) (hl2' : d2'.num = d2'.values.map List.length)
    (hs1 : ∀ i < o.cutoff, Rescaled (d1.values.getD i []) (d1'.values.getD i []))
    (hs2 : ∀ i < o.cutoff, Rescaled (d2.values.getD i []) (d2'.values.getD i [])) :
    ∃ r H o' r' H', histogramStat o = .ok r ∧ r.hist = some H ∧ dendroDistInit d1' d2' b mf = .ok o' ∧
      histogramStat o' = .ok r' ∧ r'.hist = some H' ∧ H'.distance = H.distance := by
  have h' : dendroDistInit d1' d2' b mf = .ok { o with d1 := d1', d2 := d2' } := by
    unfold dendroDistInit at h ⊢
    rw [hn1, hn2]
    cases hc : distCutoff d1.num d2.num mf with
    | error e => rw [hc] at h; cases h
    | ok c =>
      rw [hc] at h
      simp only [bind, Except.bind, pure, Except.pure, Except.ok.injEq] at h ⊢
      subst h
      rfl
  obtain ⟨r, H, hr, hH, -, -, -, -, e, nb, z1, z2, enb, ez1, ez2, hrow, hd, -⟩ :=
    C88_histograms_partial d1 d2 b hb mf o h hl1 hl2 hv1 hv2
  obtain ⟨r', H', hr', hH', -, -, -, -, e', nb', z1', z2', enb', ez1', ez2', hrow', hd', -⟩ :=
    C88_histograms_partial d1' d2' b hb mf _ h' hl1' hl2' (fun i hi => rescaled_varied (hs1 i hi) (hv1 i hi))
      (fun i hi => rescaled_varied (hs2 i hi) (hv2 i hi))
  refine ⟨r, H, _, r', H', hr, hH, h', hr', hH', ?_⟩
  rw [hd, hd']
  congr 1
  apply sum_congr rfl
  intro i hi
  have hi' : i < o.cutoff := mem_range.1 hi
  obtain ⟨p1, len1⟩ := rescaled_z (hs1 i hi')
  obtain ⟨p2, len2⟩ := rescaled_z (hs2 i hi')
  rw [← ez1 i, ← ez1' i] at p1
  rw [← ez2 i, ← ez2' i] at p2
  have hnbe : nb' i = nb i := by rw [enb, enb', len1, len2]
  have a := (hrow i hi').2.1
  have a' := (hrow' i hi').2.1
  rw [hnbe] at a'
  obtain ⟨q1, q2⟩ := edges_agree a a' (fun v => or_congr p1.mem_iff p2.mem_iff)
  have en : (e i).n = nb i + 1 := a.1
  have hb1 := (hrow i hi').2.2.1
  rw [hnbe]
  exact hell_agree (fun k hk => share_agree q1 q2 (by omega) p1 k (by omega))
    (fun k hk => share_agree q1 q2 (by omega) p2 k (by omega))

/-- A dataset is at distance zero from any rescaled, reordered copy of itself. -/
theorem C88_copy (d1 d2 : DendroData) (b : DendroBins) (hb : b = .best ∨ ∃ k, 1 ≤ k ∧ b = .count k) (mf : ℕ)
    (o : DendroDist) (h : dendroDistInit d1 d2 b mf = .ok o) (hl1 : d1.num = d1.values.map List.length)
    (hl2 : d2.num = d2.values.map List.length) (hv1 : ∀ i < o.cutoff, Varied (d1.values.getD i []))
    (hs : ∀ i < o.cutoff, Rescaled (d1.values.getD i []) (d2.values.getD i [])) :
    ∃ r H, histogramStat o = .ok r ∧ r.hist = some H ∧ H.distance = 0 := by
  obtain ⟨r, H, hr, hH, -, -, -, -, e, nb, z1, z2, enb, ez1, ez2, hrow, -, -, -, hd⟩ :=
    C88_histograms_partial d1 d2 b hb mf o h hl1 hl2 hv1 (fun i hi => rescaled_varied (hs i hi) (hv1 i hi))
  refine ⟨r, H, hr, hH, hd.2 ?_⟩
  intro i hi k hk
  obtain ⟨p1, -⟩ := rescaled_z (hs i hi)
  rw [← ez1 i, ← ez2 i] at p1
  have en : (e i).n = nb i + 1 := (hrow i hi).2.1.1
  exact (share_agree rfl (fun _ _ => rfl) (by omega) p1 k (by omega)).symm

/-! ### Violations -/

private theorem std_const {l : List ℝ} (c : ℝ) (h : ∀ x ∈ l, x = c) : ∀ v ∈ standardize (l.map some), v = none := by
  intro v hv
  unfold standardize at hv
  obtain ⟨t, ht, rfl⟩ := List.mem_map.1 hv
  obtain ⟨x, hx, rfl⟩ := List.mem_map.1 ht
  have hne : l ≠ [] := List.ne_nil_of_mem hx
  have hlen : (l.length : ℝ) ≠ 0 := by
    have := List.length_pos_of_ne_nil hne
    exact_mod_cast this.ne'
  have hl : l = List.replicate l.length c := List.eq_replicate_iff.2 ⟨rfl, h⟩
  have hm : meanO l = some c := by
    rw [meanO, if_neg hne]
    congr 1
    conv_lhs => rw [hl]
    simp [hlen]
  have hv : varO l = some 0 := by
    have e1 : l.map (fun t => (t - c) ^ 2) = List.replicate l.length 0 := by
      rw [List.eq_replicate_iff]
      refine ⟨by simp, ?_⟩
      intro y hy
      obtain ⟨w, hw, rfl⟩ := List.mem_map.1 hy
      rw [h w hw]; ring
    have e2 : (List.map (fun t => (t - c) ^ 2) l).sum = 0 := by rw [e1]; simp
    simp only [varO, hm, bind, Option.bind, pure]
    rw [meanO, if_neg (by simpa using hne), e2, zero_div]
  unfold nanmean nanstd
  rw [validVals_some, hm, hv]
  simp [divO, subO]

private theorem valid_none {z : List (Option ℝ)} (h : ∀ v ∈ z, v = none) : validVals z = [] := by
  unfold validVals
  rw [List.filterMap_eq_nil_iff]
  intro v hv
  rw [h v hv]; rfl

private theorem dens_none {z : List (Option ℝ)} (h : ∀ v ∈ z, v = none) (e : Option (Arr1 ℝ)) (k : ℕ) :
    dendroDens e z k = none := by
  unfold dendroDens
  cases e with
  | none => rfl
  | some e =>
    simp only
    split
    · rw [valid_none h]
      unfold histDensity histCounts
      simp only [List.filter_nil, List.length_nil, sum_const_zero, Nat.cast_zero, divO, bind, Option.bind]
      split <;> simp_all
    · rfl

/-- VIOLATION: equal peaks.  When at every threshold used all peaks of one of the datasets are equal (clipped data, say), the
distance is zero, whatever the other dataset is. -/
theorem C88_constant_violated (d1 d2 : DendroData) (b : DendroBins) (hb : b = .best ∨ ∃ k, b = .count k) (mf : ℕ) (o : DendroDist)
    (h : dendroDistInit d1 d2 b mf = .ok o) (hv1 : ∀ i < o.cutoff, d1.values.getD i [] ≠ [])
    (hv2 : ∀ i < o.cutoff, d2.values.getD i [] ≠ [])
    (hc : ∀ i < o.cutoff, ∃ c, (∀ x ∈ d1.values.getD i [], x = c) ∨ ∀ x ∈ d2.values.getD i [], x = c) :
    ∃ r H, histogramStat o = .ok r ∧ r.hist = some H ∧ H.distance = 0 := by
  obtain ⟨hob, ho1, ho2, hc1, hcl1, hcl2⟩ := init_cutoff h
  obtain ⟨nbl, hnb, hlen, hnbi⟩ := rowBins_ok (o := o)
    (by rw [hob]; intro l; rcases hb with h | ⟨k, h⟩ <;> rw [h] <;> simp) (by rw [ho1]; omega) (by rw [ho2]; omega)
  have hbin : ∀ i, ∃ e, i < o.cutoff → zBins (standardize ((o.d1.values.getD i []).map some))
      (standardize ((o.d2.values.getD i []).map some)) (nbl.getD i 0 + 1) = .ok e := by
    intro i
    by_cases hi : i < o.cutoff
    · unfold zBins
      rw [if_neg]
      · exact ⟨_, fun _ => rfl⟩
      · rw [ho1, ho2]
        simp only [standardize, List.map_eq_nil_iff, not_or]
        exact ⟨hv1 i hi, hv2 i hi⟩
    · exact ⟨none, fun h => absurd h hi⟩
  choose e he using hbin
  obtain ⟨H, hH, -, -, -, -, -, g1, g2, -, -, hdist⟩ := stat_eq o nbl hnb
    (by intro h0; rw [h0] at hlen; simp at hlen; omega) e (fun i hi => he i (by omega))
  refine ⟨_, H, hH, rfl, ?_⟩
  rw [hdist, div_eq_zero_iff]
  left
  apply sum_eq_zero
  intro i hi
  have hi' : i < nbl.length := mem_range.1 hi
  rw [sum_eq_zero, Real.sqrt_zero, mul_zero]
  intro k _
  rw [g1 i hi', g2 i hi']
  obtain ⟨c, hcc | hcc⟩ := hc i (by omega)
  · rw [← ho1] at hcc
    unfold dendroRow
    rw [dens_none (std_const c hcc)]
    exact (hellTerm_none _).1
  · rw [← ho2] at hcc
    unfold dendroRow
    rw [dens_none (std_const c hcc) _ k]
    exact (hellTerm_none _).2

/-- VIOLATION: a second call.  `histogram_stat`, and with it `distance_metric`, cannot be called again on the same object: the first
call replaces `nbins` by an array. -/
theorem C88_again_violated (o r : DendroDist) (h : histogramStat o = .ok r) (f1 f2 : SlopeFit) :
    histogramStat r = .error .typeError ∧ dendroDistMetric r f1 f2 = .error .typeError := by
  have hr : ∃ l, r.nbins = .perRow l := by
    unfold histogramStat at h
    cases hn : dendroRowBins o with
    | error e => rw [hn] at h; cases h
    | ok nb =>
      rw [hn] at h
      simp only [bind, Except.bind, pure, Except.pure] at h
      split at h
      · cases h
      · split at h
        · cases h
        · split at h
          · cases h
          · cases h; exact ⟨_, rfl⟩
  obtain ⟨l, hl⟩ := hr
  have : histogramStat r = .error .typeError := by
    unfold histogramStat dendroRowBins
    rw [hl]; rfl
  refine ⟨this, ?_⟩
  unfold dendroDistMetric
  rw [this]; rfl

/-- `distance_metric` is both distances: that of the histograms and the t-statistic of the slopes. -/
theorem C88_metric (o r : DendroDist) (h : histogramStat o = .ok r) (f1 f2 : SlopeFit) (he : f1.err ≠ 0 ∨ f2.err ≠ 0) :
    dendroDistMetric o f1 f2 = .ok (r, some (|f1.slope - f2.slope| / Real.sqrt (f1.err ^ 2 + f2.err ^ 2))) := by
  unfold dendroDistMetric
  rw [h]
  have := C15_t_statistic .dendroNumber f1 f2 he
  simp only [slopeDistance, Spec.tStat] at this
  simp only [bind, Except.bind, pure, Except.pure, this]

/-- Non-vacuity: two datasets with two usable thresholds. -/
example : ∃ o, dendroDistInit ⟨[4, 3, 2], [[1, 2, 3, 5], [1, 2, 4], [1, 3]]⟩ ⟨[3, 3, 3], [[2, 2, 7], [1, 6, 6], [1, 6, 6]]⟩ .best 1 = .ok o ∧
    o.cutoff = 2 ∧ (∀ i < o.cutoff, Varied (o.d1.values.getD i [])) ∧ ∀ i < o.cutoff, Varied (o.d2.values.getD i []) := by
  refine ⟨⟨.best, 2, _, _, none⟩, rfl, rfl, ?_, ?_⟩
  · intro i hi
    have : i = 0 ∨ i = 1 := by simp only at hi; omega
    rcases this with rfl | rfl
    · exact ⟨1, by simp, 2, by simp, by norm_num⟩
    · exact ⟨1, by simp, 2, by simp, by norm_num⟩
  · intro i hi
    have : i = 0 ∨ i = 1 := by simp only at hi; omega
    rcases this with rfl | rfl
    · exact ⟨2, by simp, 7, by simp, by norm_num⟩
    · exact ⟨1, by simp, 6, by simp, by norm_num⟩

/-- Non-vacuity: a rescaled, reordered copy, and clipped peaks. -/
example : Rescaled [1, 2, 3] [6, 2, 4] ∧ (∀ x ∈ [7, 7, 7], x = (7 : ℝ)) := by
  refine ⟨⟨2, 0, by norm_num, ?_⟩, by simp⟩
  norm_num
  exact (List.Perm.swap (2 : ℝ) 6 [4]).trans ((List.Perm.swap (4 : ℝ) 6 []).cons 2)

end TS
