import Verif.Lemmas.Psds

/-! C05 — radial profile: every pixel falls in exactly one bin; values are bin means; bins with
at most one pixel are flagged. -/

namespace TS
open Finset Spec Classical

/-- The pixels that should enter bin `k`: finite, inside the wedge mask when there is one, and
with radius in the bin (half-open, last one closed). -/
noncomputable def binPixels (psd2 : Arr2 (Option ℝ)) (azim : Option (Arr2 Bool)) (edges : Arr1 ℝ)
    (freqs : Bool) (k : ℕ) : Finset (ℕ × ℕ) :=
  (range psd2.n ×ˢ range psd2.m).filter (fun p =>
    (psd2.get p.1 p.2 ≠ none) ∧ (∀ a, azim = some a → a.get p.1 p.2 = true) ∧
    InBin edges k (binRadius freqs psd2.n psd2.m p.1 p.2))

private theorem radial_get {n m : ℕ} (i j : ℕ) : (pspecDists n m).get i j = pixRadius n m i j := by
  simp only [pspecDists, hypotArr, makeRadialArrays, axisCentre, Arr2.map, pixRadius]
  rw [Int.cast_add, Int.cast_add, Int.cast_neg, Int.cast_neg, Int.cast_natCast, Int.cast_natCast,
    Int.cast_natCast, Int.cast_natCast]
  congr 2 <;> ring

private theorem dists_max {n m : ℕ} (hn : 0 < n) (hm : 0 < m) :
    ∃ mx, npMax (pspecDists n m).ravel = .ok mx ∧ 0 ≤ mx ∧
      IsGreatest {r | ∃ i < n, ∃ j < m, pixRadius n m i j = r} mx := by
  have hne : (pspecDists n m).ravel ≠ [] := by
    intro h0
    have : (pspecDists n m).get 0 0 ∈ (pspecDists n m).ravel := mem_ravel.2 ⟨0, hn, 0, hm, rfl⟩
    rw [h0] at this; simp at this
  obtain ⟨mx, hmx⟩ : ∃ mx, npMax (pspecDists n m).ravel = .ok mx := by
    cases hr : (pspecDists n m).ravel with
    | nil => exact absurd hr hne
    | cons x xs => exact ⟨_, rfl⟩
  obtain ⟨hmem, hle⟩ := npMax_spec hmx
  refine ⟨mx, hmx, ?_, ?_, ?_⟩
  · obtain ⟨i, hi, j, hj, e⟩ := mem_ravel.1 hmem
    rw [← e, radial_get]
    exact Real.sqrt_nonneg _
  · obtain ⟨i, hi, j, hj, e⟩ := mem_ravel.1 hmem
    exact ⟨i, hi, j, hj, by rw [← e, radial_get]⟩
  · rintro r ⟨i, hi, j, hj, rfl⟩
    apply hle
    exact mem_ravel.2 ⟨i, hi, j, hj, by rw [radial_get]⟩

private theorem selected_iff (psd2 : Arr2 (Option ℝ)) (mask : Option (Arr2 Bool)) (p : ℕ × ℕ) :
    selected psd2 mask p = true ↔
      psd2.get p.1 p.2 ≠ none ∧ (∀ a, mask = some a → a.get p.1 p.2 = true) := by
  unfold selected
  rw [Bool.and_eq_true, Option.isSome_iff_ne_none]
  cases mask <;> simp

/-- Everything but the wedge mask always succeeds. -/
private theorem pspec_eq {psd2 : Arr2 (Option ℝ)} (a : PspecArgs)
    (hn : 0 < psd2.n) (hm : 0 < psd2.m) (h2 : 2 ≤ max psd2.n psd2.m) :
    ∃ (d : Arr2 ℝ) (maxB : ℝ) (nb : ℕ),
      (∀ i < psd2.n, ∀ j < psd2.m, d.get i j = binRadius a.returnFreqs psd2.n psd2.m i j) ∧
      IsHighBin a.returnFreqs a.maxBin psd2.n psd2.m maxB ∧
      (a.nbins = some nb ∨ (a.nbins = none ∧ ∃ r, 0 ≤ r ∧ nb = defaultNbins r a.binsize)) ∧
      pspecFn psd2 a = (pspecAzim psd2.n psd2.m a.theta0 a.deltaTheta).map (fun azim =>
        pspecOutput psd2 d azim (pspecEdges a.logspacing
          (lowBin a.returnFreqs a.minBin psd2.n psd2.m) maxB nb) a.returnStddev) := by
  obtain ⟨fd, hfd, hfn, hfm, hfget⟩ := freqDist_spec hn hm h2
  obtain ⟨mx, hmx, hmx0, hgr⟩ := dists_max hn hm
  obtain ⟨nbins, rstd, binsize, logsp, maxB, minB, rf, th, dt⟩ := a
  have hlow : pspecMinBin minB rf psd2.n psd2.m = lowBin rf minB psd2.n psd2.m := by
    cases minB <;> cases rf <;> simp [pspecMinBin, lowBin]; norm_num
  have hd : ∀ i < psd2.n, ∀ j < psd2.m, (if rf then fd else pspecDists psd2.n psd2.m).get i j
      = binRadius rf psd2.n psd2.m i j := by
    intro i hi j hj
    cases rf
    · simp only [binRadius, Bool.false_eq_true, if_false]; rw [radial_get]
    · simp only [binRadius, if_true]; exact hfget i hi j hj
  have hnb : pspecNbins nbins (pspecDists psd2.n psd2.m) binsize
      = .ok (nbins.getD (defaultNbins mx binsize)) := by
    cases nbins <;> simp [pspecNbins, hmx, bind, Except.bind, pure, Except.pure]
  have hmaxB : pspecMaxBin maxB rf (pspecDists psd2.n psd2.m)
      = .ok (maxB.getD (if rf then 0.5 else mx)) := by
    cases maxB <;> cases rf <;> simp [pspecMaxBin, hmx]
  refine ⟨if rf then fd else pspecDists psd2.n psd2.m, maxB.getD (if rf then 0.5 else mx),
    nbins.getD (defaultNbins mx binsize), hd, ?_, ?_, ?_⟩
  · cases maxB <;> cases rf <;> simp [IsHighBin, hgr]
    norm_num
  · cases nbins
    · right; exact ⟨rfl, mx, hmx0, rfl⟩
    · left; rfl
  · simp only [pspecFn, hnb, hmaxB, hlow, hfd]
    cases pspecAzim psd2.n psd2.m th dt <;> cases rf <;> rfl

private theorem pspec_ok {psd2 : Arr2 (Option ℝ)} {a : PspecArgs} {out : PspecOut}
    (hn : 0 < psd2.n) (hm : 0 < psd2.m) (h2 : 2 ≤ max psd2.n psd2.m)
    (h : pspecFn psd2 a = .ok out) :
    ∃ (d : Arr2 ℝ) (maxB : ℝ) (nb : ℕ),
      (∀ i < psd2.n, ∀ j < psd2.m, d.get i j = binRadius a.returnFreqs psd2.n psd2.m i j) ∧
      IsHighBin a.returnFreqs a.maxBin psd2.n psd2.m maxB ∧
      (a.nbins = some nb ∨ (a.nbins = none ∧ ∃ r, 0 ≤ r ∧ nb = defaultNbins r a.binsize)) ∧
      out.edges = pspecEdges a.logspacing (lowBin a.returnFreqs a.minBin psd2.n psd2.m) maxB nb ∧
      out.counts = binnedStatistic (pspecSamples psd2 d out.azim) out.edges List.length ∧
      out.binCents = ⟨out.edges.n - 1, fun k => (out.edges.get (k + 1) + out.edges.get k) / 2⟩ ∧
      out.ps1D = ⟨out.edges.n - 1, fun k =>
        if a.returnStddev ∧ out.counts.get k ≤ 1 then none
        else (binnedStatistic (pspecSamples psd2 d out.azim) out.edges npMean).get k⟩ := by
  obtain ⟨d, maxB, nb, h1, h3, h4, h5⟩ := pspec_eq a hn hm h2
  rw [h5] at h
  cases haz : pspecAzim psd2.n psd2.m a.theta0 a.deltaTheta with
  | error e => rw [haz] at h; cases h
  | ok az =>
    rw [haz] at h
    simp only [Except.map, Except.ok.injEq] at h
    refine ⟨d, maxB, nb, h1, h3, h4, ?_⟩
    subst h
    unfold pspecOutput
    cases a.returnStddev <;> simp [binnedStatistic]

/-- C05 main statement.  Whenever the profile is computed over increasing bin edges, every bin
`k` reports exactly the number of its pixels and their mean; it is NaN exactly when the bin is
empty or (standard deviations requested) holds at most one pixel. -/
theorem C05_bin_means (psd2 : Arr2 (Option ℝ)) (a : PspecArgs) (out : PspecOut)
    (hn : 0 < psd2.n) (hm : 0 < psd2.m) (h2 : 2 ≤ max psd2.n psd2.m)
    (h : pspecFn psd2 a = .ok out) (he : StrictEdges out.edges) (hb : 2 ≤ out.edges.n)
    (k : ℕ) :
    let S := binPixels psd2 out.azim out.edges a.returnFreqs k
    out.counts.get k = S.card ∧
    out.ps1D.get k =
      if S.card = 0 ∨ (a.returnStddev = true ∧ S.card ≤ 1) then none
      else some (pixMean S (fun p => (psd2.get p.1 p.2).getD 0)) := by
  obtain ⟨d, maxB, nb, hd, -, -, -, hcounts, -, hps⟩ := pspec_ok hn hm h2 h
  have hS : (range psd2.n ×ˢ range psd2.m).filter (fun p => (selected psd2 out.azim p &&
      decide (binOf out.edges (d.get p.1 p.2) = some k)) = true)
      = binPixels psd2 out.azim out.edges a.returnFreqs k := by
    unfold binPixels
    apply Finset.filter_congr
    rintro ⟨i, j⟩ hp
    rw [Finset.mem_product, Finset.mem_range, Finset.mem_range] at hp
    rw [Bool.and_eq_true, decide_eq_true_eq, selected_iff, binOf_eq_some_iff he hb,
      hd i hp.1 j hp.2, and_assoc]
  have hc : out.counts.get k = (binPixels psd2 out.azim out.edges a.returnFreqs k).card := by
    rw [hcounts]
    simp only [binnedStatistic]
    rw [binned_list, length_filter_pixels, hS]
  refine ⟨hc, ?_⟩
  rw [hps]
  simp only [binnedStatistic, npMean]
  rw [binned_list, length_filter_pixels, sum_filter_pixels, hS, hc]
  by_cases h0 : (binPixels psd2 out.azim out.edges a.returnFreqs k).card = 0
  · simp [h0]
  · simp only [h0, false_or, if_false, pixMean]

/-- Every finite, unmasked pixel whose radius lies in the binned range enters exactly one bin. -/
theorem C05_each_pixel_once (psd2 : Arr2 (Option ℝ)) (out : PspecOut) (freqs : Bool)
    (he : StrictEdges out.edges) (hb : 2 ≤ out.edges.n)
    (i j : ℕ) (hi : i < psd2.n) (hj : j < psd2.m) (hfin : psd2.get i j ≠ none)
    (hmask : ∀ a, out.azim = some a → a.get i j = true)
    (hlo : out.edges.get 0 ≤ binRadius freqs psd2.n psd2.m i j)
    (hhi : binRadius freqs psd2.n psd2.m i j ≤ out.edges.get (out.edges.n - 1)) :
    ∃! k, (i, j) ∈ binPixels psd2 out.azim out.edges freqs k := by
  have hmem : ∀ k, (i, j) ∈ binPixels psd2 out.azim out.edges freqs k ↔
      InBin out.edges k (binRadius freqs psd2.n psd2.m i j) := by
    intro k
    simp only [binPixels, Finset.mem_filter, Finset.mem_product, Finset.mem_range]
    tauto
  obtain ⟨k, hk⟩ := exists_inBin hb hlo hhi
  exact ⟨k, (hmem k).2 hk, fun k' hk' => inBin_unique he hb ((hmem k').1 hk') hk⟩

/-- The bins run from the lower to the upper end of the requested range without gaps, and the
reported bin centres are the midpoints. -/
theorem C05_edges (psd2 : Arr2 (Option ℝ)) (a : PspecArgs) (out : PspecOut)
    (hn : 0 < psd2.n) (hm : 0 < psd2.m) (h2 : 2 ≤ max psd2.n psd2.m)
    (h : pspecFn psd2 a = .ok out) (hnb : a.nbins ≠ some 0) (hbs : 0 < a.binsize)
    (hlo : 0 < lowBin a.returnFreqs a.minBin psd2.n psd2.m)
    (hlt : ∀ b, IsHighBin a.returnFreqs a.maxBin psd2.n psd2.m b →
      lowBin a.returnFreqs a.minBin psd2.n psd2.m < b) :
    StrictEdges out.edges ∧ 2 ≤ out.edges.n ∧
    out.edges.get 0 = lowBin a.returnFreqs a.minBin psd2.n psd2.m ∧
    IsHighBin a.returnFreqs a.maxBin psd2.n psd2.m (out.edges.get (out.edges.n - 1)) ∧
    (∀ k, a.nbins = some k → out.edges.n = k + 1) ∧
    out.ps1D.n = out.edges.n - 1 ∧ out.binCents.n = out.edges.n - 1 ∧
    ∀ k, out.binCents.get k = (out.edges.get k + out.edges.get (k + 1)) / 2 := by
  obtain ⟨d, maxB, nb, hd, hhigh, hnbv, hedges, hcounts, hcent, hps⟩ := pspec_ok hn hm h2 h
  have hlt' := hlt maxB hhigh
  set lo := lowBin a.returnFreqs a.minBin psd2.n psd2.m
  have hnb1 : 1 ≤ nb := by
    rcases hnbv with h' | ⟨_, r, hr, rfl⟩
    · rcases Nat.eq_zero_or_pos nb with h0 | h0
      · subst h0; exact absurd h' hnb
      · exact h0
    · have hq : (0 : ℝ) ≤ r / a.binsize := div_nonneg hr hbs.le
      have hf : 0 ≤ ⌊r / a.binsize⌋ := Int.floor_nonneg.2 hq
      have : 0 ≤ npRound (r / a.binsize) := by
        unfold npRound
        split_ifs <;> omega
      unfold defaultNbins
      omega
  have hen : out.edges.n = nb + 1 := by
    rw [hedges]; unfold pspecEdges; split <;> rfl
  have hlog : log10 lo < log10 maxB := Real.logb_lt_logb (by norm_num) hlo hlt'
  have h10 : ∀ x : ℝ, 0 < x → (10 : ℝ) ^ log10 x = x := fun x hx =>
    Real.rpow_logb (by norm_num) (by norm_num) hx
  refine ⟨?_, by omega, ?_, ?_, ?_, ?_, ?_, ?_⟩
  · rw [hedges]; unfold pspecEdges
    split
    · exact logspace_edges hlog (by omega)
    · exact linspace_edges hlt' (by omega)
  · rw [hedges]; unfold pspecEdges
    split
    · simp only [logspace, Arr1.map, linspace_first]; exact h10 _ hlo
    · exact linspace_first _ _ _
  · have : out.edges.get (out.edges.n - 1) = maxB := by
      rw [hen, hedges]; unfold pspecEdges
      split
      · simp only [logspace, Arr1.map]
        rw [linspace_last _ _ (by omega)]; exact h10 _ (hlo.trans hlt')
      · exact linspace_last _ _ (by omega)
    rw [this]; exact hhigh
  · intro k hk
    rcases hnbv with h' | ⟨h', -⟩
    · rw [hk] at h'; cases h'; exact hen
    · rw [hk] at h'; cases h'
  · rw [hps]
  · rw [hcent]
  · intro k; rw [hcent]; simp only; ring

/-- A reported value lies between any bounds on the bin's pixels; in particular a constant
spectrum gives that constant. -/
theorem C05_value_between (psd2 : Arr2 (Option ℝ)) (a : PspecArgs) (out : PspecOut)
    (hn : 0 < psd2.n) (hm : 0 < psd2.m) (h2 : 2 ≤ max psd2.n psd2.m)
    (h : pspecFn psd2 a = .ok out) (he : StrictEdges out.edges) (hb : 2 ≤ out.edges.n)
    (k : ℕ) (lo hi v : ℝ) (hv : out.ps1D.get k = some v)
    (hbd : ∀ p ∈ binPixels psd2 out.azim out.edges a.returnFreqs k,
      ∀ x, psd2.get p.1 p.2 = some x → lo ≤ x ∧ x ≤ hi) :
    lo ≤ v ∧ v ≤ hi := by
  obtain ⟨-, hps⟩ := C05_bin_means psd2 a out hn hm h2 h he hb k
  rw [hps] at hv
  set S := binPixels psd2 out.azim out.edges a.returnFreqs k with hS
  split at hv
  · cases hv
  · rename_i hc
    push Not at hc
    have hcard : (0 : ℝ) < S.card := by
      have := Nat.pos_of_ne_zero hc.1
      exact_mod_cast this
    simp only [Option.some.injEq, pixMean] at hv
    have hb' : ∀ p ∈ S, lo ≤ (psd2.get p.1 p.2).getD 0 ∧ (psd2.get p.1 p.2).getD 0 ≤ hi := by
      intro p hp
      have hne : psd2.get p.1 p.2 ≠ none := by
        rw [hS] at hp
        exact (Finset.mem_filter.1 hp).2.1
      obtain ⟨x, hx⟩ := Option.ne_none_iff_exists'.1 hne
      rw [hx]
      exact hbd p hp x hx
    rw [← hv]
    constructor
    · rw [le_div_iff₀ hcard]
      have := Finset.card_nsmul_le_sum S _ lo (fun p hp => (hb' p hp).1)
      rw [nsmul_eq_mul] at this; linarith
    · rw [div_le_iff₀ hcard]
      have := Finset.sum_le_card_nsmul S _ hi (fun p hp => (hb' p hp).2)
      rw [nsmul_eq_mul] at this; linarith

/-- The profile is always produced for a non-degenerate map, except that a wedge centre without
a wedge width raises ValueError. -/
theorem C05_defined_iff (psd2 : Arr2 (Option ℝ)) (a : PspecArgs)
    (hn : 0 < psd2.n) (hm : 0 < psd2.m) (h2 : 2 ≤ max psd2.n psd2.m) :
    (∃ out, pspecFn psd2 a = .ok out) ↔ ¬ (a.theta0 ≠ none ∧ a.deltaTheta = none) := by
  obtain ⟨d, maxB, nb, -, -, -, h5⟩ := pspec_eq a hn hm h2
  rw [h5]
  obtain ⟨nbins, rstd, binsize, logsp, maxB, minB, rf, th, dt⟩ := a
  cases th <;> cases dt <;> simp [pspecAzim, Except.map]

/-- Non-vacuity: the default options on a 4×5 spectrum meet the hypotheses of the theorems. -/
example : ∃ out, pspecFn ⟨4, 5, fun i j => if i = 1 then none else some ((i : ℝ) + j)⟩ {} = .ok out ∧
    StrictEdges out.edges ∧ 2 ≤ out.edges.n := by
  obtain ⟨out, hout⟩ := (C05_defined_iff ⟨4, 5, fun i j => if i = 1 then none else some ((i : ℝ) + j)⟩
    {} (by norm_num) (by norm_num) (by norm_num)).2 (by simp)
  have := C05_edges _ _ out (by norm_num) (by norm_num) (by norm_num) hout (by simp) (by simp)
    (by norm_num [lowBin]) (by intro b hb; simp [IsHighBin] at hb; subst hb; norm_num [lowBin])
  exact ⟨out, hout, this.1, this.2.1⟩

end TS
