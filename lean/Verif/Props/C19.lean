import Verif.Model.StatsUtils

/-! C19 — common histogram bins of two datasets. -/

namespace TS

namespace Spec
/-- The valid values of the two datasets together. -/
def joint (d1 d2 : List (Option ℝ)) : Set ℝ := {v | some v ∈ d1 ∨ some v ∈ d2}

/-- Number of edges when it is not given: square root of the average size, rounded down. -/
noncomputable def edgeCount (nbins : Option ℕ) (d1 d2 : List (Option ℝ)) : ℕ :=
  nbins.getD ⌊Real.sqrt (((d1.length : ℝ) + d2.length) / 2)⌋₊
end Spec

private theorem extremes2 {d1 d2 : List (Option ℝ)} {v1 v2 : ℝ} (h1 : some v1 ∈ d1) (h2 : some v2 ∈ d2) :
    ∃ a1 a2 b1 b2, nanmin d1 = some a1 ∧ nanmin d2 = some a2 ∧ nanmax d1 = some b1 ∧
      nanmax d2 = some b2 ∧ IsLeast (Spec.joint d1 d2) (min a1 a2) ∧
      IsGreatest (Spec.joint d1 d2) (max b1 b2) := by
  have ne : ∀ {d : List (Option ℝ)} {v}, some v ∈ d → validVals d ≠ [] := by
    intro d v h h0
    have := mem_validVals.2 h
    rw [h0] at this; simp at this
  obtain ⟨a1, ha1⟩ := exists_minO (ne h1)
  obtain ⟨a2, ha2⟩ := exists_minO (ne h2)
  obtain ⟨b1, hb1⟩ := exists_maxO (ne h1)
  obtain ⟨b2, hb2⟩ := exists_maxO (ne h2)
  refine ⟨a1, a2, b1, b2, ha1, ha2, hb1, hb2, ⟨?_, ?_⟩, ⟨?_, ?_⟩⟩
  · rcases min_choice a1 a2 with h | h
    · rw [h]; exact Or.inl (mem_validVals.1 (minO_eq_some.1 ha1).1)
    · rw [h]; exact Or.inr (mem_validVals.1 (minO_eq_some.1 ha2).1)
  · rintro v (hv | hv)
    · exact min_le_of_left_le ((minO_eq_some.1 ha1).2 v (mem_validVals.2 hv))
    · exact min_le_of_right_le ((minO_eq_some.1 ha2).2 v (mem_validVals.2 hv))
  · rcases max_choice b1 b2 with h | h
    · rw [h]; exact Or.inl (mem_validVals.1 (maxO_eq_some.1 hb1).1)
    · rw [h]; exact Or.inr (mem_validVals.1 (maxO_eq_some.1 hb2).1)
  · rintro v (hv | hv)
    · exact le_max_of_le_left ((maxO_eq_some.1 hb1).2 v (mem_validVals.2 hv))
    · exact le_max_of_le_right ((maxO_eq_some.1 hb2).2 v (mem_validVals.2 hv))

private theorem chb_eq {d1 d2 : List (Option ℝ)} {v1 v2 lo hi : ℝ} (h1 : some v1 ∈ d1)
    (h2 : some v2 ∈ d2) (hlo : IsLeast (Spec.joint d1 d2) lo) (hhi : IsGreatest (Spec.joint d1 d2) hi)
    (o : BinArgs) :
    commonHistogramBins 1 1 d1 d2 o = .ok
      (if o.logscale then
        logspace (log10 (match o.minVal with | none => lo | some v => max lo v))
          (log10 (match o.maxVal with | none => hi | some v => min hi v)) (Spec.edgeCount o.nbins d1 d2)
       else linspace (match o.minVal with | none => lo | some v => max lo v)
          (match o.maxVal with | none => hi | some v => min hi v) (Spec.edgeCount o.nbins d1 d2)) := by
  obtain ⟨a1, a2, b1, b2, ha1, ha2, hb1, hb2, hl, hg⟩ := extremes2 h1 h2
  have e1 : lo = min a1 a2 := hlo.unique hl
  have e2 : hi = max b1 b2 := hhi.unique hg
  have en : (match o.nbins with
        | some k => k
        | none => (⌊Real.sqrt (((d1.length + d2.length : ℕ) : ℝ) / 2)⌋).toNat)
        = Spec.edgeCount o.nbins d1 d2 := by
    unfold Spec.edgeCount
    cases o.nbins with
    | some k => rfl
    | none =>
      simp only [Option.getD_none]
      rw [Int.floor_toNat]
      push_cast
      rfl
  unfold commonHistogramBins
  rw [if_neg (by omega), ha1, ha2, hb1, hb2]
  rw [← en, e1, e2]
  obtain ⟨nb, lg, mn, mx⟩ := o
  cases nb <;> cases mn <;> cases mx <;> rfl

/-- Linear bins: the requested number of equally spaced, strictly increasing edges; the first is the
smallest and the last the largest valid value of the two datasets; every valid value of either
dataset falls in exactly one bin. -/
theorem C19_linear (d1 d2 : List (Option ℝ)) (nbins : Option ℕ) (v1 v2 lo hi : ℝ) (h1 : some v1 ∈ d1)
    (h2 : some v2 ∈ d2) (hlo : IsLeast (Spec.joint d1 d2) lo) (hhi : IsGreatest (Spec.joint d1 d2) hi)
    (hlt : lo < hi) (hn : 2 ≤ Spec.edgeCount nbins d1 d2) :
    ∃ e, commonHistogramBins 1 1 d1 d2 { nbins := nbins } = .ok e ∧
      e.n = Spec.edgeCount nbins d1 d2 ∧ StrictEdges e ∧ e.get 0 = lo ∧ e.get (e.n - 1) = hi ∧
      (∀ k, k + 1 < e.n → e.get (k + 1) - e.get k = (hi - lo) / ((e.n : ℝ) - 1)) ∧
      ∀ v ∈ Spec.joint d1 d2, ∃! k, InBin e k v := by
  have he := chb_eq h1 h2 hlo hhi { nbins := nbins }
  simp only [Bool.false_eq_true, if_false] at he
  have hs := linspace_edges hlt hn
  refine ⟨_, he, rfl, hs, linspace_first _ _ _, linspace_last _ _ hn, ?_, ?_⟩
  · intro k _
    simp only [linspace]; push_cast; ring
  · intro v hv
    obtain ⟨k, hk⟩ := exists_inBin (x := v) (e := linspace lo hi (Spec.edgeCount nbins d1 d2)) hn
      (by rw [linspace_first]; exact hlo.2 hv)
      (by show v ≤ (linspace lo hi _).get (Spec.edgeCount nbins d1 d2 - 1)
          rw [linspace_last _ _ hn]; exact hhi.2 hv)
    exact ⟨k, hk, fun k' hk' => inBin_unique hs hn hk' hk⟩

/-- Logarithmic bins of positive data: same ends, edges equally spaced in ratio, every valid value in
exactly one bin. -/
theorem C19_log (d1 d2 : List (Option ℝ)) (nbins : Option ℕ) (v1 v2 lo hi : ℝ) (h1 : some v1 ∈ d1)
    (h2 : some v2 ∈ d2) (hlo : IsLeast (Spec.joint d1 d2) lo) (hhi : IsGreatest (Spec.joint d1 d2) hi)
    (hpos : 0 < lo) (hlt : lo < hi) (hn : 2 ≤ Spec.edgeCount nbins d1 d2) :
    ∃ e, commonHistogramBins 1 1 d1 d2 { nbins := nbins, logscale := true } = .ok e ∧
      e.n = Spec.edgeCount nbins d1 d2 ∧ StrictEdges e ∧ e.get 0 = lo ∧ e.get (e.n - 1) = hi ∧
      (∀ k, k + 1 < e.n → e.get (k + 1) / e.get k = (hi / lo) ^ (1 / ((e.n : ℝ) - 1))) ∧
      ∀ v ∈ Spec.joint d1 d2, ∃! k, InBin e k v := by
  have he := chb_eq h1 h2 hlo hhi { nbins := nbins, logscale := true }
  simp only [if_true] at he
  have hll : log10 lo < log10 hi := Real.logb_lt_logb (by norm_num) hpos hlt
  have hs := logspace_edges hll hn
  have ef : (logspace (log10 lo) (log10 hi) (Spec.edgeCount nbins d1 d2)).get 0 = lo := by
    simp only [logspace, Arr1.map, linspace_first]
    exact Real.rpow_logb (by norm_num) (by norm_num) hpos
  have el : (logspace (log10 lo) (log10 hi) (Spec.edgeCount nbins d1 d2)).get
      (Spec.edgeCount nbins d1 d2 - 1) = hi := by
    simp only [logspace, Arr1.map, linspace_last _ _ hn]
    exact Real.rpow_logb (by norm_num) (by norm_num) (hpos.trans hlt)
  refine ⟨_, he, rfl, hs, ef, el, ?_, ?_⟩
  · intro k _
    simp only [logspace, Arr1.map, linspace]
    rw [← Real.rpow_sub (by norm_num)]
    have : log10 lo + ((k + 1 : ℕ) : ℝ) * ((log10 hi - log10 lo) / ((Spec.edgeCount nbins d1 d2 : ℝ) - 1))
        - (log10 lo + (k : ℝ) * ((log10 hi - log10 lo) / ((Spec.edgeCount nbins d1 d2 : ℝ) - 1)))
        = Real.logb 10 (hi / lo) * (1 / ((Spec.edgeCount nbins d1 d2 : ℝ) - 1)) := by
      rw [Real.logb_div (hpos.trans hlt).ne' hpos.ne']
      unfold log10
      push_cast; ring
    rw [this, Real.rpow_mul (by norm_num),
      Real.rpow_logb (by norm_num) (by norm_num) (div_pos (hpos.trans hlt) hpos)]
  · intro v hv
    obtain ⟨k, hk⟩ := exists_inBin (x := v) (e := logspace (log10 lo) (log10 hi) (Spec.edgeCount nbins d1 d2)) hn
      (by rw [ef]; exact hlo.2 hv)
      (by show v ≤ (logspace (log10 lo) (log10 hi) _).get (Spec.edgeCount nbins d1 d2 - 1)
          rw [el]; exact hhi.2 hv)
    exact ⟨k, hk, fun k' hk' => inBin_unique hs hn hk' hk⟩

/-- With limits `min_val`, `max_val` inside the data range: the edges run from one limit to the other,
and exactly the values between the limits are binned (once). -/
theorem C19_limits (d1 d2 : List (Option ℝ)) (nbins : Option ℕ) (v1 v2 lo hi a b : ℝ)
    (h1 : some v1 ∈ d1) (h2 : some v2 ∈ d2) (hlo : IsLeast (Spec.joint d1 d2) lo)
    (hhi : IsGreatest (Spec.joint d1 d2) hi) (ha : lo ≤ a) (hb : b ≤ hi) (hab : a < b)
    (hn : 2 ≤ Spec.edgeCount nbins d1 d2) :
    ∃ e, commonHistogramBins 1 1 d1 d2 { nbins := nbins, minVal := some a, maxVal := some b } = .ok e ∧
      e.n = Spec.edgeCount nbins d1 d2 ∧ StrictEdges e ∧ e.get 0 = a ∧ e.get (e.n - 1) = b ∧
      ∀ v ∈ Spec.joint d1 d2, (a ≤ v ∧ v ≤ b → ∃! k, InBin e k v) ∧
        (v < a ∨ b < v → ¬ ∃ k, InBin e k v) := by
  have he := chb_eq h1 h2 hlo hhi { nbins := nbins, minVal := some a, maxVal := some b }
  simp only [Bool.false_eq_true, if_false, max_eq_right ha, min_eq_right hb] at he
  have hs := linspace_edges hab hn
  have ef := linspace_first a b (Spec.edgeCount nbins d1 d2)
  have el := linspace_last a b hn
  have hen : (linspace a b (Spec.edgeCount nbins d1 d2)).n = Spec.edgeCount nbins d1 d2 := rfl
  refine ⟨_, he, rfl, hs, ef, el, ?_⟩
  intro v _
  refine ⟨?_, ?_⟩
  · rintro ⟨hv1, hv2⟩
    obtain ⟨k, hk⟩ := exists_inBin (x := v) (e := linspace a b (Spec.edgeCount nbins d1 d2)) hn
      (by rw [ef]; exact hv1) (by rw [hen, el]; exact hv2)
    exact ⟨k, hk, fun k' hk' => inBin_unique hs hn hk' hk⟩
  · rintro hv ⟨k, hk, h3, h4⟩
    have hmono : ∀ i j, i ≤ j → j < Spec.edgeCount nbins d1 d2 →
        (linspace a b (Spec.edgeCount nbins d1 d2)).get i
          ≤ (linspace a b (Spec.edgeCount nbins d1 d2)).get j := by
      intro i j hij hj
      rcases Nat.eq_or_lt_of_le hij with h | h
      · rw [h]
      · exact (hs i j h hj).le
    have k1 := hmono 0 k (Nat.zero_le _) (by omega)
    have k2 := hmono (k + 1) (Spec.edgeCount nbins d1 d2 - 1) (by omega) (by omega)
    rw [ef] at k1
    rw [el] at k2
    rcases hv with hv | hv
    · linarith
    · rcases h4 with h4 | ⟨_, h4⟩ <;> linarith

/-- The centres are the midpoints, one fewer than the edges: asking for `nbins` bins returns
`nbins - 1` of them. -/
theorem C19_centres (d1 d2 : List (Option ℝ)) (o : BinArgs) (e : Arr1 ℝ) (k : ℕ)
    (hk : o.nbins = some k) (he : commonHistogramBins 1 1 d1 d2 o = .ok e) :
    (binCentres e).n = k - 1 ∧
    ∀ i < (binCentres e).n, (binCentres e).get i = (e.get i + e.get (i + 1)) / 2 := by
  refine ⟨?_, fun i _ => rfl⟩
  unfold commonHistogramBins at he
  rw [if_neg (by omega)] at he
  split at he
  · cases he
    simp only [hk, binCentres]
    split <;> rfl
  · cases he

/-- Arrays of more than one dimension are rejected. -/
theorem C19_not_1d (n1 n2 : ℕ) (d1 d2 : List (Option ℝ)) (o : BinArgs) (h : 1 < n1 ∨ 1 < n2) :
    commonHistogramBins n1 n2 d1 d2 o = .error .valueError := by
  unfold commonHistogramBins; rw [if_pos h]

/-- Non-vacuity. -/
example : ∃ d1 d2 : List (Option ℝ), some 1 ∈ d1 ∧ some 4 ∈ d2 ∧ IsLeast (Spec.joint d1 d2) 1 ∧
    IsGreatest (Spec.joint d1 d2) 4 ∧ (1 : ℝ) < 4 ∧ 2 ≤ Spec.edgeCount (some 5) d1 d2 := by
  refine ⟨[some 1, none, some 2], [some 4], by simp, by simp, ⟨by simp [Spec.joint], ?_⟩,
    ⟨by simp [Spec.joint], ?_⟩, by norm_num, by simp [Spec.edgeCount]⟩
  · rintro v (h | h) <;> simp at h
    · rcases h with rfl | rfl <;> norm_num
    · subst h; norm_num
  · rintro v (h | h) <;> simp at h
    · rcases h with rfl | rfl <;> norm_num
    · subst h; norm_num

end TS
