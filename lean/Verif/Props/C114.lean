import Verif.Model.PsdsStd
import Verif.Props.C05
import Verif.Lemmas.PlawFit
import Verif.Lemmas.PSpec
import Verif.Props.C02
import Mathlib.Tactic.IntervalCases

/-! C114 — the standard deviations of the one-dimensional spectrum and the weighted fit. -/

namespace TS
open Finset Spec Classical

/-- Sample standard deviation of `v` over a finite set of pixels. -/
noncomputable def Spec.pixStd (S : Finset (ℕ × ℕ)) (v : ℕ × ℕ → ℝ) : ℝ :=
  Real.sqrt ((∑ p ∈ S, (v p - pixMean S v) ^ 2) / ((S.card : ℝ) - 1))

private theorem radial_get' {n m : ℕ} (i j : ℕ) : (pspecDists n m).get i j = pixRadius n m i j := by
  simp only [pspecDists, hypotArr, makeRadialArrays, axisCentre, Arr2.map, pixRadius]
  rw [Int.cast_add, Int.cast_add, Int.cast_neg, Int.cast_neg, Int.cast_natCast, Int.cast_natCast,
    Int.cast_natCast, Int.cast_natCast]
  congr 2 <;> ring

/-- The profile is the one of `pspec` and the deviations are computed from the same samples. -/
private theorem withStd_ok {tppf : ℝ → ℕ → ℝ} {boot : Option (ℕ × (ℕ → ℕ → ℕ → ℕ))} {psd2 : Arr2 (Option ℝ)} {a : PspecArgs} {out : PspecOut}
    {sd : Arr1 (Option ℝ)} (hn : 0 < psd2.n) (hm : 0 < psd2.m) (h2 : 2 ≤ max psd2.n psd2.m)
    (h : pspecWithStd tppf boot psd2 a = .ok (out, sd)) :
    pspecFn psd2 { a with returnStddev := true } = .ok out ∧
    ∃ d : Arr2 ℝ, (∀ i < psd2.n, ∀ j < psd2.m, d.get i j = binRadius a.returnFreqs psd2.n psd2.m i j) ∧
      sd = pspecStd tppf boot (pspecSamples psd2 d out.azim) out.edges := by
  obtain ⟨fd, hfd, hfn, hfm, hfget⟩ := freqDist_spec hn hm h2
  obtain ⟨nbins, rstd, binsize, logsp, maxB, minB, rf, th, dt⟩ := a
  unfold pspecWithStd at h
  unfold pspecFn
  simp only at h ⊢
  cases haz : pspecAzim psd2.n psd2.m th dt with
  | error e => rw [haz] at h; cases h
  | ok az =>
  cases hnb : pspecNbins nbins (pspecDists psd2.n psd2.m) binsize with
  | error e => rw [haz, hnb] at h; cases h
  | ok nb =>
  cases hmb : pspecMaxBin maxB rf (pspecDists psd2.n psd2.m) with
  | error e => rw [haz, hnb, hmb] at h; cases rf <;> simp [hfd, bind, Except.bind] at h
  | ok mb =>
  cases rf
  · simp only [haz, hnb, hmb, bind, Except.bind, pure, Except.pure, Bool.false_eq_true, if_false] at h ⊢
    split at h
    · cases h
    · simp only [Except.ok.injEq, Prod.mk.injEq] at h
      obtain ⟨h1, h3⟩ := h
      refine ⟨by rw [← h1], pspecDists psd2.n psd2.m, fun i hi j hj => ?_, ?_⟩
      · simp only [binRadius, Bool.false_eq_true, if_false]; rw [radial_get']
      · rw [← h3, ← h1]
        simp [pspecOutput]
  · simp only [haz, hnb, hmb, hfd, bind, Except.bind, pure, Except.pure, if_true] at h ⊢
    split at h
    · cases h
    · simp only [Except.ok.injEq, Prod.mk.injEq] at h
      obtain ⟨h1, h3⟩ := h
      refine ⟨by rw [← h1], fd, fun i hi j hj => ?_, ?_⟩
      · simp only [binRadius, if_true]; exact hfget i hi j hj
      · rw [← h3, ← h1]
        simp [pspecOutput]

/-- The values of a bin are those of its pixels. -/
private theorem bin_values {psd2 : Arr2 (Option ℝ)} {d : Arr2 ℝ} {azim : Option (Arr2 Bool)} {edges : Arr1 ℝ} {freqs : Bool}
    (hd : ∀ i < psd2.n, ∀ j < psd2.m, d.get i j = binRadius freqs psd2.n psd2.m i j) (he : StrictEdges edges) (hb : 2 ≤ edges.n) (k : ℕ) :
    ∃ l : List (ℕ × ℕ), l.Nodup ∧ l.toFinset = binPixels psd2 azim edges freqs k ∧
      ((pspecSamples psd2 d azim).filter (fun s => decide (binOf edges s.1 = some k))).map (·.2) =
        l.map (fun p => (psd2.get p.1 p.2).getD 0) := by
  refine ⟨_, (pixels_nodup psd2.n psd2.m).filter _, ?_, binned_list psd2 d azim edges k⟩
  rw [List.toFinset_filter, pixels_toFinset]
  unfold binPixels
  apply Finset.filter_congr
  rintro ⟨i, j⟩ hp
  rw [Finset.mem_product, Finset.mem_range, Finset.mem_range] at hp
  rw [Bool.and_eq_true, decide_eq_true_eq, binOf_eq_some_iff he hb, hd i hp.1 j hp.2, ← and_assoc]
  refine and_congr_left fun _ => ?_
  unfold selected
  rw [Bool.and_eq_true, Option.isSome_iff_ne_none]
  cases azim <;> simp

private theorem sampleStd_pixels (l : List (ℕ × ℕ)) (hl : l.Nodup) (v : ℕ × ℕ → ℝ) :
    sampleStd (l.map v) = if l.toFinset.card ≤ 1 then none else some (pixStd l.toFinset v) := by
  have hc : l.toFinset.card = l.length := List.toFinset_card_of_nodup hl
  have hs : (l.map v).sum = ∑ p ∈ l.toFinset, v p := (List.sum_toFinset v hl).symm
  unfold sampleStd pixStd pixMean
  rw [List.length_map, hc, hs, List.map_map]
  have h2 : (l.map ((fun x => (x - (∑ p ∈ l.toFinset, v p) / (l.length : ℝ)) ^ 2) ∘ v)).sum =
      ∑ p ∈ l.toFinset, (v p - (∑ p ∈ l.toFinset, v p) / (l.length : ℝ)) ^ 2 := (List.sum_toFinset _ hl).symm
  rw [h2]

/-- **C114 (values).** The standard deviation reported for a bin is the sample standard deviation of its pixels (divisor one less than their number),
or the standard error of Student's t for that number of pixels when this is the larger of the two; a bin with fewer than two pixels
has none.  The profile is the same as without standard deviations asked for, except for those bins. -/
theorem C114_values (tppf : ℝ → ℕ → ℝ) (psd2 : Arr2 (Option ℝ)) (a : PspecArgs) (out : PspecOut) (sd : Arr1 (Option ℝ))
    (hn : 0 < psd2.n) (hm : 0 < psd2.m) (h2 : 2 ≤ max psd2.n psd2.m) (h : pspecWithStd tppf none psd2 a = .ok (out, sd))
    (he : StrictEdges out.edges) (hb : 2 ≤ out.edges.n) (k : ℕ) :
    let S := binPixels psd2 out.azim out.edges a.returnFreqs k
    let s := pixStd S (fun p => (psd2.get p.1 p.2).getD 0)
    sd.n = out.edges.n - 1 ∧
    sd.get k = (if S.card ≤ 1 then none else some (max s (s * (tppf 0.925 (S.card - 1) / Real.sqrt S.card)))) ∧
    out.ps1D.get k = (if S.card ≤ 1 then none else some (pixMean S (fun p => (psd2.get p.1 p.2).getD 0))) := by
  intro S s
  obtain ⟨hp, d, hd, rfl⟩ := withStd_ok hn hm h2 h
  obtain ⟨l, hl, hS, hv⟩ := bin_values (azim := out.azim) hd he hb k
  have hcount := (C05_bin_means psd2 _ out hn hm h2 hp he hb k)
  simp only at hcount
  refine ⟨rfl, ?_, ?_⟩
  · simp only [pspecStd, binnedStatistic, stdOf, hv]
    rw [sampleStd_pixels l hl, List.length_map, ← List.toFinset_card_of_nodup hl, hS]
    have e : (1 - 0.15 / 2 : ℝ) = 0.925 := by norm_num
    by_cases h1 : S.card ≤ 1
    · simp only [correctStd, h1, S, if_true] at *
    · have h1' : ¬ (binPixels psd2 out.azim out.edges a.returnFreqs k).card ≤ 1 := h1
      simp only [correctStd, errFactor, h1', h1, if_false, e, Option.map]
      have hs0 : 0 ≤ s := Real.sqrt_nonneg _
      show (if _ then some (s * _) else some s) = _
      split
      next hA => rw [max_eq_right]; nlinarith [hA, hs0]
      next hA => rw [max_eq_left]; exact (mul_le_mul_of_nonneg_left (not_lt.1 hA) hs0).trans (by rw [mul_one])
  · rw [hcount.2]
    by_cases h1 : S.card ≤ 1
    · have : (binPixels psd2 out.azim out.edges a.returnFreqs k).card ≤ 1 := h1
      simp [h1, this]
    · have h1' : ¬ (binPixels psd2 out.azim out.edges a.returnFreqs k).card ≤ 1 := h1
      have h0 : (binPixels psd2 out.azim out.edges a.returnFreqs k).card ≠ 0 := by omega
      simp [h1, h1', S]
      intro h00
      exact absurd (by rw [h00]; rfl) h0

/-- **C114 (zero).** The standard deviation of a bin with at least two pixels is never negative, and zero exactly when they all have the same power. -/
theorem C114_zero_iff (tppf : ℝ → ℕ → ℝ) (psd2 : Arr2 (Option ℝ)) (a : PspecArgs) (out : PspecOut) (sd : Arr1 (Option ℝ))
    (hn : 0 < psd2.n) (hm : 0 < psd2.m) (h2 : 2 ≤ max psd2.n psd2.m) (h : pspecWithStd tppf none psd2 a = .ok (out, sd))
    (he : StrictEdges out.edges) (hb : 2 ≤ out.edges.n) (k : ℕ) (hk : 2 ≤ (binPixels psd2 out.azim out.edges a.returnFreqs k).card) :
    ∃ v, sd.get k = some v ∧ 0 ≤ v ∧
      (v = 0 ↔ ∃ c, ∀ p ∈ binPixels psd2 out.azim out.edges a.returnFreqs k, psd2.get p.1 p.2 = some c) := by
  obtain ⟨-, hv, -⟩ := C114_values tppf psd2 a out sd hn hm h2 h he hb k
  set S := binPixels psd2 out.azim out.edges a.returnFreqs k with hS
  rw [if_neg (by omega)] at hv
  refine ⟨_, hv, (Real.sqrt_nonneg _).trans (le_max_left _ _), ?_⟩
  set v : ℕ × ℕ → ℝ := fun p => (psd2.get p.1 p.2).getD 0 with hvd
  have hcard : (0 : ℝ) < (S.card : ℝ) - 1 := by
    have : (2 : ℝ) ≤ S.card := by exact_mod_cast hk
    linarith
  have hmax : max (pixStd S v) (pixStd S v * (tppf 0.925 (S.card - 1) / Real.sqrt S.card)) = 0 ↔ pixStd S v = 0 := by
    have h0 : 0 ≤ pixStd S v := Real.sqrt_nonneg _
    constructor
    · intro h; exact le_antisymm ((le_max_left _ _).trans h.le) h0
    · intro h; simp [h]
  rw [hmax]
  have hsome : ∀ p ∈ S, psd2.get p.1 p.2 = some (v p) := by
    intro p hp
    have := (Finset.mem_filter.1 hp).2.1
    cases hg : psd2.get p.1 p.2 with
    | none => exact absurd hg this
    | some x => simp [hvd, hg]
  unfold pixStd
  rw [Real.sqrt_eq_zero (div_nonneg (sum_nonneg fun _ _ => sq_nonneg _) hcard.le), div_eq_zero_iff, or_iff_left hcard.ne',
    sum_eq_zero_iff_of_nonneg (fun _ _ => sq_nonneg _)]
  constructor
  · intro h
    refine ⟨pixMean S v, fun p hp => ?_⟩
    rw [hsome p hp, sub_eq_zero.1 (pow_eq_zero_iff two_ne_zero |>.1 (h p hp))]
  · rintro ⟨c, hc⟩ p hp
    have hvc : ∀ p ∈ S, v p = c := fun p hp => Option.some.inj ((hsome p hp).symm.trans (hc p hp))
    have : pixMean S v = c := by
      unfold pixMean
      rw [sum_congr rfl hvc, sum_const, nsmul_eq_mul]
      field_simp
    rw [hvc p hp, this, sub_self, zero_pow two_ne_zero]

/-! ### Change of units -/

private theorem sum_affine (l : List ℝ) (c b : ℝ) : (l.map fun v => c * v + b).sum = c * l.sum + l.length * b := by
  induction l with
  | nil => simp
  | cons x l ih => simp only [List.map_cons, List.sum_cons, List.length_cons, ih]; push_cast; ring

private theorem sq_affine (l : List ℝ) (c b : ℝ) (h0 : l.length ≠ 0) :
    ((l.map fun v => c * v + b).map fun v => (v - (l.map fun v => c * v + b).sum / (l.map fun v => c * v + b).length) ^ 2).sum =
      c ^ 2 * (l.map fun v => (v - l.sum / l.length) ^ 2).sum := by
  have hl : (l.length : ℝ) ≠ 0 := by exact_mod_cast h0
  rw [sum_affine, List.length_map, List.map_map, ← List.sum_map_mul_left]
  congr 1
  apply List.map_congr_left
  intro v _
  simp only [Function.comp]
  field_simp
  ring

private theorem sqrt_sq_mul (c x y : ℝ) : Real.sqrt (c ^ 2 * x / y) = |c| * Real.sqrt (x / y) := by
  rw [mul_div_assoc, Real.sqrt_mul (sq_nonneg _), Real.sqrt_sq_eq_abs]

private theorem sampleStd_affine (l : List ℝ) (c b : ℝ) :
    sampleStd (l.map fun v => c * v + b) = (sampleStd l).map (|c| * ·) := by
  unfold sampleStd
  rw [List.length_map]
  split
  · rfl
  · next h =>
    simp only [Option.map]
    have := sq_affine l c b (by omega)
    rw [List.length_map] at this
    rw [this, sqrt_sq_mul]

private theorem popStd_affine (l : List ℝ) (c b : ℝ) (h : l.length ≠ 0) : popStd (l.map fun v => c * v + b) = |c| * popStd l := by
  unfold popStd
  rw [sq_affine l c b h, sqrt_sq_mul, List.length_map]

private theorem npMean_affine (l : List ℝ) (c b : ℝ) : npMean (l.map fun v => c * v + b) = (npMean l).map (fun v => c * v + b) := by
  unfold npMean
  rw [List.length_map]
  split
  · rfl
  · next h =>
    have : (l.length : ℝ) ≠ 0 := by exact_mod_cast h
    simp only [Option.map]
    rw [sum_affine]
    congr 1
    field_simp

private theorem resampledStd_affine (draw : ℕ → ℕ → ℕ) (iters : ℕ) (l : List ℝ) (c b : ℝ) :
    resampledStd draw iters (l.map fun v => c * v + b) = (resampledStd draw iters l).map (|c| * ·) := by
  unfold resampledStd
  rw [List.length_map]
  split
  · rfl
  · next h =>
    have e : ((List.range iters).map fun r => popStd ((List.range l.length).map fun i => (l.map fun v => c * v + b).getD (draw r i % l.length) 0)) =
        ((List.range iters).map fun r => popStd ((List.range l.length).map fun i => l.getD (draw r i % l.length) 0)).map fun v => |c| * v + 0 := by
      rw [List.map_map]
      apply List.map_congr_left
      intro r _
      simp only [Function.comp, add_zero]
      rw [← popStd_affine _ c b (by simpa using h), List.map_map]
      congr 1
      apply List.map_congr_left
      intro i _
      have hi : draw r i % l.length < l.length := Nat.mod_lt _ (by omega)
      simp [List.getD_eq_getElem?_getD, hi]
    rw [e, npMean_affine]
    simp

private theorem stdOf_affine (boot : Option (ℕ × (ℕ → ℕ → ℕ → ℕ))) (k : ℕ) (l : List ℝ) (c b : ℝ) :
    stdOf boot k (l.map fun v => c * v + b) = (stdOf boot k l).map (|c| * ·) := by
  cases boot with
  | none => exact sampleStd_affine l c b
  | some p => exact resampledStd_affine (p.2 k) p.1 l c b

private theorem correctStd_scale (tppf : ℝ → ℕ → ℝ) (n : ℕ) (s : Option ℝ) (c : ℝ) :
    correctStd tppf n (s.map (c * ·)) = (correctStd tppf n s).map (c * ·) := by
  unfold correctStd errFactor
  by_cases h : n ≤ 1
  · simp [h]
  · simp only [h, if_false]
    split
    · cases s <;> simp [mul_assoc]
    · rfl

private theorem samples_affine (psd2 : Arr2 (Option ℝ)) (d : Arr2 ℝ) (az : Option (Arr2 Bool)) (c b : ℝ) :
    pspecSamples (psd2.map (Option.map fun v => c * v + b)) d az = (pspecSamples psd2 d az).map fun s => (s.1, c * s.2 + b) := by
  unfold pspecSamples
  rw [List.map_flatMap]
  apply List.flatMap_congr
  intro i _
  rw [List.map_filterMap]
  congr 1
  funext j
  simp only [Arr2.map]
  cases psd2.get i j with
  | none => rfl
  | some v =>
    cases az with
    | none => rfl
    | some m => simp only [Option.map]; split <;> rfl

private theorem binned_affine {β γ : Type*} (samples : List (ℝ × ℝ)) (edges : Arr1 ℝ) (f : List ℝ → β) (g : List ℝ → γ) (u : γ → β) (c b : ℝ)
    (h : ∀ l : List ℝ, f (l.map fun v => c * v + b) = u (g l)) (k : ℕ) :
    (binnedStatistic (samples.map fun s => (s.1, c * s.2 + b)) edges f).get k = u ((binnedStatistic samples edges g).get k) := by
  simp only [binnedStatistic]
  rw [← h, List.filter_map, List.map_map, List.map_map]
  rfl

private theorem final_affine (tppf : ℝ → ℕ → ℝ) (boot : Option (ℕ × (ℕ → ℕ → ℕ → ℕ))) (psd2 : Arr2 (Option ℝ)) (d : Arr2 ℝ) (az : Option (Arr2 Bool))
    (edges : Arr1 ℝ) (c b : ℝ) :
    (if boot.any (fun b => b.1 = 0) && !(pspecSamples (psd2.map (Option.map fun v => c * v + b)) d az).isEmpty then Except.error PyErr.valueError
      else Except.ok (pspecOutput (psd2.map (Option.map fun v => c * v + b)) d az edges true,
        pspecStd tppf boot (pspecSamples (psd2.map (Option.map fun v => c * v + b)) d az) edges)) =
    (if boot.any (fun b => b.1 = 0) && !(pspecSamples psd2 d az).isEmpty then Except.error PyErr.valueError
      else Except.ok (pspecOutput psd2 d az edges true, pspecStd tppf boot (pspecSamples psd2 d az) edges)).map fun r =>
        ({ r.1 with ps1D := r.1.ps1D.map (Option.map fun v => c * v + b) }, r.2.map (Option.map (|c| * ·))) := by
  rw [samples_affine]
  have e : (List.map (fun s : ℝ × ℝ => (s.1, c * s.2 + b)) (pspecSamples psd2 d az)).isEmpty = (pspecSamples psd2 d az).isEmpty := by
    cases pspecSamples psd2 d az <;> rfl
  rw [e]
  split
  · rfl
  · have hc : ∀ k, (binnedStatistic ((pspecSamples psd2 d az).map fun s => (s.1, c * s.2 + b)) edges List.length).get k =
        (binnedStatistic (pspecSamples psd2 d az) edges List.length).get k :=
      binned_affine _ edges List.length List.length id c b (fun l => by simp)
    have hm := binned_affine (pspecSamples psd2 d az) edges npMean npMean (Option.map fun v => c * v + b) c b (fun l => npMean_affine l c b)
    have hs : ∀ j k, (binnedStatistic ((pspecSamples psd2 d az).map fun s => (s.1, c * s.2 + b)) edges (stdOf boot j)).get k =
        ((binnedStatistic (pspecSamples psd2 d az) edges (stdOf boot j)).get k).map (|c| * ·) :=
      fun j => binned_affine (pspecSamples psd2 d az) edges (stdOf boot j) (stdOf boot j) _ c b (fun l => stdOf_affine boot j l c b)
    have hcounts : binnedStatistic ((pspecSamples psd2 d az).map fun s => (s.1, c * s.2 + b)) edges List.length =
        binnedStatistic (pspecSamples psd2 d az) edges List.length := by
      have := funext hc
      simp only [binnedStatistic] at this ⊢
      rw [this]
    simp only [Except.map, Except.ok.injEq, Prod.mk.injEq]
    constructor
    · simp only [pspecOutput, samples_affine, if_true, hcounts, hm, Arr1.map]
      congr 2
      funext k
      split <;> rfl
    · simp only [pspecStd, hcounts, hs, correctStd_scale, Arr1.map]

/-- **C114 (units).** Multiplying the spectrum by a constant and adding another changes the profile in the same way and multiplies every standard deviation
by the size of the first; this holds for bootstrapped deviations with the same draws too. -/
theorem C114_units (tppf : ℝ → ℕ → ℝ) (boot : Option (ℕ × (ℕ → ℕ → ℕ → ℕ))) (psd2 : Arr2 (Option ℝ)) (a : PspecArgs) (c b : ℝ) :
    pspecWithStd tppf boot (psd2.map (Option.map fun v => c * v + b)) a =
      (pspecWithStd tppf boot psd2 a).map fun r =>
        ({ r.1 with ps1D := r.1.ps1D.map (Option.map fun v => c * v + b) }, r.2.map (Option.map (|c| * ·))) := by
  obtain ⟨nbins, rstd, binsize, logsp, maxB, minB, rf, th, dt⟩ := a
  unfold pspecWithStd
  have en : (psd2.map (Option.map fun v => c * v + b)).n = psd2.n := rfl
  have em : (psd2.map (Option.map fun v => c * v + b)).m = psd2.m := rfl
  simp only [en, em]
  cases pspecAzim psd2.n psd2.m th dt with
  | error e => rfl
  | ok az =>
  cases pspecNbins nbins (pspecDists psd2.n psd2.m) binsize with
  | error e => rfl
  | ok nb =>
  cases rf
  · cases pspecMaxBin maxB false (pspecDists psd2.n psd2.m) with
    | error e => rfl
    | ok mb => exact final_affine tppf boot psd2 _ az _ c b
  · cases freqDist psd2.n psd2.m with
    | error e => rfl
    | ok fd =>
      cases pspecMaxBin maxB true (pspecDists psd2.n psd2.m) with
      | error e => rfl
      | ok mb => exact final_affine tppf boot psd2 _ az _ c b

/-! ### Bootstrap -/

private theorem sum_sq_sub (l : List ℝ) (x : ℝ) :
    (l.map fun v => (v - x) ^ 2).sum = (l.map fun v => v ^ 2).sum - 2 * x * l.sum + l.length * x ^ 2 := by
  induction l with
  | nil => simp
  | cons y l ih => simp only [List.map_cons, List.sum_cons, List.length_cons, ih]; push_cast; ring

private theorem popStd_le (l : List ℝ) (lo hi : ℝ) (h0 : l.length ≠ 0) (h : ∀ v ∈ l, lo ≤ v ∧ v ≤ hi) : popStd l ≤ (hi - lo) / 2 := by
  have hl : (0 : ℝ) < l.length := by exact_mod_cast Nat.pos_of_ne_zero h0
  have hne : l ≠ [] := by intro e; rw [e] at h0; exact h0 rfl
  obtain ⟨w, hw⟩ := List.exists_mem_of_ne_nil l hne
  have hlh : lo ≤ hi := (h w hw).1.trans (h w hw).2
  unfold popStd
  apply Real.sqrt_le_iff.2
  refine ⟨by linarith, ?_⟩
  rw [div_le_iff₀ hl]
  have h1 : (l.map fun v => (v - l.sum / l.length) ^ 2).sum ≤ (l.map fun v => (v - (lo + hi) / 2) ^ 2).sum := by
    rw [sum_sq_sub, sum_sq_sub]
    have e : l.sum / l.length * l.length = l.sum := div_mul_cancel₀ _ hl.ne'
    generalize l.sum / (l.length : ℝ) = μ at e ⊢
    have : 0 ≤ (μ - (lo + hi) / 2) ^ 2 * l.length := by positivity
    rw [← e]
    linarith
  refine h1.trans ?_
  have h2 : ∀ v ∈ l.map fun v => (v - (lo + hi) / 2) ^ 2, v ≤ ((hi - lo) / 2) ^ 2 := by
    intro v hv
    obtain ⟨u, hu, rfl⟩ := List.mem_map.1 hv
    apply sq_le_sq'
    · linarith [(h u hu).1]
    · linarith [(h u hu).2]
  have h3 := List.sum_le_card_nsmul _ _ h2
  rw [List.length_map, nsmul_eq_mul] at h3
  linarith

private theorem npMean_between (l : List ℝ) (lo hi : ℝ) (h0 : l.length ≠ 0) (h : ∀ v ∈ l, lo ≤ v ∧ v ≤ hi) :
    ∃ v, npMean l = some v ∧ lo ≤ v ∧ v ≤ hi := by
  have hl : (0 : ℝ) < l.length := by exact_mod_cast Nat.pos_of_ne_zero h0
  refine ⟨_, by unfold npMean; rw [if_neg h0], ?_, ?_⟩
  · rw [le_div_iff₀ hl]
    have := List.card_nsmul_le_sum l lo fun v hv => (h v hv).1
    rw [nsmul_eq_mul] at this
    linarith
  · rw [div_le_iff₀ hl]
    have := List.sum_le_card_nsmul l hi fun v hv => (h v hv).2
    rw [nsmul_eq_mul] at this
    linarith

/-- **C114 (bootstrap).** With `boot_iter` the deviation of a bin is, whatever is drawn, a number between zero and half the range of its pixels
(times the same correction for few pixels); bins with fewer than two pixels have none, and bins of equal pixels have zero. -/
theorem C114_bootstrap (tppf : ℝ → ℕ → ℝ) (iters : ℕ) (hit : 0 < iters) (draw : ℕ → ℕ → ℕ → ℕ) (psd2 : Arr2 (Option ℝ)) (a : PspecArgs)
    (out : PspecOut) (sd : Arr1 (Option ℝ)) (hn : 0 < psd2.n) (hm : 0 < psd2.m) (h2 : 2 ≤ max psd2.n psd2.m)
    (h : pspecWithStd tppf (some (iters, draw)) psd2 a = .ok (out, sd)) (he : StrictEdges out.edges) (hb : 2 ≤ out.edges.n) (k : ℕ) :
    let S := binPixels psd2 out.azim out.edges a.returnFreqs k
    (S.card ≤ 1 → sd.get k = none) ∧
    (2 ≤ S.card → ∀ lo hi : ℝ, (∀ p ∈ S, ∀ v, psd2.get p.1 p.2 = some v → lo ≤ v ∧ v ≤ hi) →
      ∃ v, sd.get k = some v ∧ 0 ≤ v ∧ v ≤ max 1 (tppf 0.925 (S.card - 1) / Real.sqrt S.card) * ((hi - lo) / 2)) := by
  intro S
  obtain ⟨hp, d, hd, rfl⟩ := withStd_ok hn hm h2 h
  obtain ⟨l, hl, hS, hv⟩ := bin_values (azim := out.azim) hd he hb k
  have hlen : l.length = S.card := by rw [← List.toFinset_card_of_nodup hl, hS]
  have e : (1 - 0.15 / 2 : ℝ) = 0.925 := by norm_num
  simp only [pspecStd, binnedStatistic, stdOf, hv]
  rw [List.length_map, hlen]
  constructor
  · intro h1
    simp only [correctStd, h1, if_true]
  · intro h1 lo hi hr
    have h1' : ¬ S.card ≤ 1 := by omega
    have hin : ∀ v ∈ l.map (fun p => (psd2.get p.1 p.2).getD 0), lo ≤ v ∧ v ≤ hi := by
      intro v hv'
      obtain ⟨p, hpl, rfl⟩ := List.mem_map.1 hv'
      have hpS : p ∈ S := by rw [← List.mem_toFinset, hS] at hpl; exact hpl
      have hs := (Finset.mem_filter.1 hpS).2.1
      cases hg : psd2.get p.1 p.2 with
      | none => exact absurd hg hs
      | some x => exact hr p hpS x hg
    obtain ⟨v, hb1, hb2, hb3⟩ : ∃ v, resampledStd (draw k) iters (l.map fun p => (psd2.get p.1 p.2).getD 0) = some v ∧ 0 ≤ v ∧ v ≤ (hi - lo) / 2 := by
      unfold resampledStd
      rw [List.length_map, hlen, if_neg (by omega)]
      apply npMean_between
      · simp; omega
      · intro v hv'
        obtain ⟨r, -, rfl⟩ := List.mem_map.1 hv'
        refine ⟨Real.sqrt_nonneg _, popStd_le _ lo hi (by rw [List.length_map, List.length_range]; omega) ?_⟩
        intro u hu
        obtain ⟨i, -, rfl⟩ := List.mem_map.1 hu
        apply hin
        have hlt : draw k r i % S.card < (l.map fun p => (psd2.get p.1 p.2).getD 0).length := by
          rw [List.length_map, hlen]; exact Nat.mod_lt _ (by omega)
        rw [List.getD_eq_getElem?_getD, List.getElem?_eq_getElem hlt]
        exact List.getElem_mem _
    simp only [correctStd, errFactor, h1', if_false, e, hb1, Option.map]
    split
    next hA =>
      refine ⟨_, rfl, mul_nonneg hb2 (by linarith), ?_⟩
      rw [max_eq_right hA.le, mul_comm]
      exact mul_le_mul_of_nonneg_left hb3 (by linarith)
    next hA =>
      refine ⟨_, rfl, hb2, ?_⟩
      rw [max_eq_left (not_lt.1 hA), one_mul]
      exact hb3

/-- The bootstrapped deviation does not estimate the sample deviation: in a bin of two different pixels it is smaller by at least the square root of two,
whatever is drawn and however often. -/
theorem C114_bootstrap_violated (tppf : ℝ → ℕ → ℝ) (iters : ℕ) (hit : 0 < iters) (draw : ℕ → ℕ → ℕ → ℕ) (psd2 : Arr2 (Option ℝ)) (a : PspecArgs)
    (out out' : PspecOut) (sd sd' : Arr1 (Option ℝ)) (hn : 0 < psd2.n) (hm : 0 < psd2.m) (h2 : 2 ≤ max psd2.n psd2.m)
    (h : pspecWithStd tppf (some (iters, draw)) psd2 a = .ok (out, sd)) (h' : pspecWithStd tppf none psd2 a = .ok (out', sd'))
    (he : StrictEdges out.edges) (hb : 2 ≤ out.edges.n) (k : ℕ) (p q : ℕ × ℕ) (hpq : p ≠ q)
    (hS : binPixels psd2 out.azim out.edges a.returnFreqs k = {p, q}) (hv : psd2.get p.1 p.2 ≠ psd2.get q.1 q.2) :
    out' = out ∧ ∃ v s, sd.get k = some v ∧ sd'.get k = some s ∧ Real.sqrt 2 * v ≤ s ∧ v < s := by
  have ho : out' = out := by
    have e1 := (withStd_ok hn hm h2 h).1
    have e2 := (withStd_ok hn hm h2 h').1
    rw [e1] at e2
    exact (Except.ok.inj e2).symm
  refine ⟨ho, ?_⟩
  subst ho
  have hc : (binPixels psd2 out'.azim out'.edges a.returnFreqs k).card = 2 := by rw [hS, card_pair hpq]
  have hsome : ∀ z ∈ binPixels psd2 out'.azim out'.edges a.returnFreqs k, ∃ x, psd2.get z.1 z.2 = some x := by
    intro z hz
    exact Option.ne_none_iff_exists'.1 (Finset.mem_filter.1 hz).2.1
  obtain ⟨x, hx⟩ := hsome p (by rw [hS]; simp)
  obtain ⟨y, hy⟩ := hsome q (by rw [hS]; simp)
  have hxy : x ≠ y := by intro e; apply hv; rw [hx, hy, e]
  obtain ⟨v, h3, h4, h5⟩ := (C114_bootstrap tppf iters hit draw psd2 a out' sd hn hm h2 h he hb k).2 hc.ge (min x y) (max x y) (by
    intro z hz w hw
    rw [hS, mem_insert, mem_singleton] at hz
    rcases hz with rfl | rfl
    · rw [hx] at hw; cases hw; exact ⟨min_le_left _ _, le_max_left _ _⟩
    · rw [hy] at hw; cases hw; exact ⟨min_le_right _ _, le_max_right _ _⟩)
  obtain ⟨-, h6, -⟩ := C114_values tppf psd2 a out' sd' hn hm h2 h' he hb k
  rw [if_neg (by omega)] at h6
  refine ⟨v, _, h3, h6, ?_⟩
  have hstd : pixStd (binPixels psd2 out'.azim out'.edges a.returnFreqs k) (fun p => (psd2.get p.1 p.2).getD 0) = |x - y| / Real.sqrt 2 := by
    have hm' : pixMean {p, q} (fun p => (psd2.get p.1 p.2).getD 0) = (x + y) / 2 := by
      unfold pixMean
      rw [sum_pair hpq, card_pair hpq, hx, hy]
      norm_num
    unfold pixStd
    rw [hS, hm', sum_pair hpq, card_pair hpq]
    simp only [hx, hy]
    rw [← Real.sqrt_sq_eq_abs, ← Real.sqrt_div (sq_nonneg _)]
    congr 1
    simp only [Option.getD]
    push_cast
    ring
  rw [hstd]
  rw [hc] at h5 ⊢
  set A := tppf 0.925 (2 - 1) / Real.sqrt (2 : ℕ) with hA
  set D := |x - y| / Real.sqrt 2 with hD
  have h2p : (0 : ℝ) < Real.sqrt 2 := Real.sqrt_pos.2 (by norm_num)
  have hDpos : 0 < D := div_pos (abs_pos.2 (sub_ne_zero.2 hxy)) h2p
  have hrange : (max x y - min x y) / 2 = D / Real.sqrt 2 := by
    rw [max_sub_min_eq_abs, hD, div_div, Real.mul_self_sqrt (by norm_num), abs_sub_comm]
  rw [hrange] at h5
  have hmul : max D (D * A) = max 1 A * D := by
    rw [max_mul_of_nonneg _ _ hDpos.le, one_mul, mul_comm]
  rw [hmul]
  have key : Real.sqrt 2 * v ≤ max 1 A * D := by
    calc Real.sqrt 2 * v ≤ Real.sqrt 2 * (max 1 A * (D / Real.sqrt 2)) := mul_le_mul_of_nonneg_left h5 h2p.le
      _ = max 1 A * D := by field_simp
  refine ⟨key, ?_⟩
  have h1 : 1 < Real.sqrt 2 := by rw [Real.lt_sqrt] <;> norm_num
  have hpos : 0 < max 1 A * D := mul_pos (lt_max_of_lt_left one_pos) hDpos
  nlinarith

/-! ### The weighted fit -/

private theorem log10F_scale {c : ℝ} (hc : 0 < c) (p : Option ℝ) : log10F (p.map (c * ·)) = (log10F p).shift (log10 c) := by
  cases p with
  | none => rfl
  | some v =>
    simp only [Option.map, log10F]
    rcases lt_trichotomy v 0 with hv | hv | hv
    · rw [if_pos hv, if_pos (mul_neg_of_pos_of_neg hc hv)]; rfl
    · subst hv; simp [FVal.shift]
    · rw [if_neg hv.not_gt, if_neg hv.ne', if_neg (mul_pos hc hv).not_gt, if_neg (mul_pos hc hv).ne', log10_mul hc hv, add_comm]; rfl

private theorem weight_scale {c : ℝ} (hc : 0 < c) (wt : Bool) (b : PsBin) :
    psWeight wt ⟨b.freq, b.power.map (c * ·), b.std.map (c * ·)⟩ = psWeight wt b := by
  unfold psWeight
  cases wt
  · rfl
  · obtain ⟨f, p, s⟩ := b
    cases s with
    | none => cases p <;> rfl
    | some s =>
      cases p with
      | none => rfl
      | some p =>
        simp only [Option.map, if_true, mul_eq_zero, hc.ne', false_or]
        have : 0.434 * (c * s) / (c * p) = 0.434 * s / p := by
          rw [mul_left_comm, mul_div_mul_left _ _ hc.ne']
        rw [this]

private theorem weight_nonneg (wt : Bool) (b : PsBin) (w : ℝ) (h : psWeight wt b = .fin w) : 0 ≤ w := by
  unfold psWeight at h
  cases wt
  · simp only [Bool.false_eq_true, if_false, FVal.fin.injEq] at h; rw [← h]; norm_num
  · obtain ⟨f, p, s⟩ := b
    cases s with
    | none => cases p <;> simp at h
    | some s =>
      cases p with
      | none => simp at h
      | some p =>
        simp only [if_true] at h
        split at h
        · cases h
        split at h
        · cases h; exact le_refl _
        unfold invSqF at h
        simp only at h
        split at h
        · cases h
        · cases h; positivity

/-- The bins of a spectrum in other units. -/
private theorem bins_scale (tppf : ℝ → ℕ → ℝ) (boot : Option (ℕ × (ℕ → ℕ → ℕ → ℕ))) (ps2D : Arr2 (Option ℝ)) (a : PspecArgs) {c : ℝ} (hc : 0 < c) :
    radialBinsStd tppf boot (ps2D.map (Option.map (c * ·))) a =
      (radialBinsStd tppf boot ps2D a).map (List.map fun b => ⟨b.freq, b.power.map (c * ·), b.std.map (c * ·)⟩) := by
  have h := C114_units tppf boot ps2D a c 0
  simp only [add_zero] at h
  unfold radialBinsStd
  rw [h]
  cases pspecWithStd tppf boot ps2D a with
  | error e => rfl
  | ok r =>
    simp only [Except.map, bind, Except.bind, pure, Except.pure, Arr1.map, List.map_map, abs_of_pos hc]
    rfl

/-- **C114 (weighted fit, units).** Multiplying the spectrum by a positive constant changes neither the weights nor the slope of the weighted (or
unweighted) fit; the intercept moves by the logarithm of the constant.  Two bins of different frequency inside the limits that have a positive power and a positive
standard deviation are assumed. -/
theorem C114_fit_units {lsq : List (ℝ × ℝ × ℝ) → ℝ × ℝ} (hl : LeastSquares lsq) (tppf : ℝ → ℕ → ℝ) (boot : Option (ℕ × (ℕ → ℕ → ℕ → ℕ)))
    (ps2D : Arr2 (Option ℝ)) (a : PspecArgs) (wt : Bool) (low high : Option ℝ) (c : ℝ) (hc : 0 < c) (bins : List PsBin)
    (hbins : radialBinsStd tppf boot ps2D a = .ok bins) (hi : ℝ) (hhi : highCutFor high (bins.map (·.freq)) = .ok hi)
    (b₁ b₂ : PsBin) (m₁ : b₁ ∈ bins) (m₂ : b₂ ∈ bins) (hne : b₁.freq ≠ b₂.freq)
    (hu : ∀ b, b = b₁ ∨ b = b₂ → 0 < b.freq ∧ lowCutFor low ps2D.n ps2D.m < b.freq ∧ b.freq ≤ hi ∧ (∃ p, b.power = some p ∧ 0 < p) ∧
      ∃ s, b.std = some s ∧ 0 < s) :
    ∃ bins', radialBinsStd tppf boot (ps2D.map (Option.map (c * ·))) a = .ok bins' ∧
      fitPspecLine lsq wt low high ps2D.n ps2D.m bins' =
        (fitPspecLine lsq wt low high ps2D.n ps2D.m bins).map (Option.map fun p => (p.1 + log10 c, p.2)) := by
  refine ⟨_, by rw [bins_scale tppf boot ps2D a hc, hbins]; rfl, ?_⟩
  have hf : (bins.map fun b : PsBin => (⟨b.freq, b.power.map (c * ·), b.std.map (c * ·)⟩ : PsBin)).map (·.freq) = bins.map (·.freq) := by
    rw [List.map_map]; rfl
  unfold fitPspecLine
  rw [hf, hhi]
  simp only [bind, Except.bind]
  have hpts : psPoints wt (lowCutFor low ps2D.n ps2D.m) hi (bins.map fun b : PsBin => (⟨b.freq, b.power.map (c * ·), b.std.map (c * ·)⟩ : PsBin)) =
      (psPoints wt (lowCutFor low ps2D.n ps2D.m) hi bins).map (FitPt.shift 0 (log10 c)) := by
    unfold psPoints
    rw [List.filter_map, List.map_map, List.map_map]
    apply List.map_congr_left
    intro b hb
    simp only [Function.comp, FitPt.shift, log10F_scale hc, weight_scale hc]
    congr 1
    cases log10F (some b.freq) <;> simp [FVal.shift]
  rw [hpts]
  have usable : ∀ b, b = b₁ ∨ b = b₂ → b ∈ bins → ∃ y w, 0 < w ∧ (⟨log10F (some b.freq), log10F b.power, psWeight wt b⟩ : FitPt) ∈
      psPoints wt (lowCutFor low ps2D.n ps2D.m) hi bins ∧
      FitPt.usable ⟨log10F (some b.freq), log10F b.power, psWeight wt b⟩ (log10 b.freq) y w := by
    intro b hb hm
    obtain ⟨h1, h2, h3, ⟨p, hp, hp0⟩, s, hs, hs0⟩ := hu b hb
    have hw : ∃ w, 0 < w ∧ psWeight wt b = .fin w := by
      unfold psWeight
      cases wt
      · exact ⟨1, one_pos, rfl⟩
      · have : (0.434 * s / p) ≠ 0 := by positivity
        simp only [if_true, hs, hp, hs0.ne', hp0.ne', if_false, invSqF, this]
        exact ⟨_, by positivity, rfl⟩
    obtain ⟨w, hw0, hw⟩ := hw
    refine ⟨log10 p, w, hw0, ?_, ?_⟩
    · refine List.mem_map.2 ⟨b, List.mem_filter.2 ⟨hm, ?_⟩, rfl⟩
      simp [clipFunc, h2, h3]
    · unfold FitPt.usable
      rw [hw, hp, log10F_pos h1, log10F_pos hp0]
  obtain ⟨y₁, w₁, p₁, q₁, u₁⟩ := usable b₁ (Or.inl rfl) m₁
  obtain ⟨y₂, w₂, p₂, q₂, u₂⟩ := usable b₂ (Or.inr rfl) m₂
  rw [lineFit_shift hl _ 0 (log10 c) (by
    intro q hq w hw
    obtain ⟨b, -, rfl⟩ := List.mem_map.1 hq
    exact weight_nonneg wt b w hw) q₁ q₂ u₁ u₂ p₁ p₂ (by
      intro e
      exact hne (log10_inj (hu b₁ (Or.inl rfl)).1 (hu b₂ (Or.inr rfl)).1 e))]
  simp only [mul_zero, sub_zero]

/-- A weighted fit leaves out the bins whose standard deviation is zero, however certain their power. -/
theorem C114_zero_left_out (lsq : List (ℝ × ℝ × ℝ) → ℝ × ℝ) (low : Option ℝ) (hi : ℝ) (n m : ℕ) (pre post : List PsBin) (f : ℝ) (p : Option ℝ) :
    fitPspecLine lsq true low (some hi) n m (pre ++ ⟨f, p, some 0⟩ :: post) = fitPspecLine lsq true low (some hi) n m (pre ++ post) := by
  have hd : dropMissing (psPoints true (lowCutFor low n m) hi (pre ++ ⟨f, p, some 0⟩ :: post)) =
      dropMissing (psPoints true (lowCutFor low n m) hi (pre ++ post)) := by
    unfold psPoints dropMissing
    simp only [List.filter_append, List.map_append, List.filter_cons]
    split
    · simp only [List.map_cons, List.filter_cons]
      have : psWeight true ⟨f, p, some 0⟩ = .nan := by
        cases p <;> simp [psWeight]
      simp [this, FVal.isNan]
    · rfl
  simp only [fitPspecLine, highCutFor, bind, Except.bind, lineFit, hd]

/-- Opposite Fourier modes of a (real) image have the same power: a bin that holds just one such pair has standard deviation zero, so that a weighted
fit leaves it out (`C114_zero_left_out`) instead of giving it a weight. -/
theorem C114_pair_violated (tppf : ℝ → ℕ → ℝ) (img ps : Arr2 ℝ) (hn : 0 < img.n) (hm : 0 < img.m) (h2 : 2 ≤ max img.n img.m)
    (hps : computePspec img none = .ok ps) (a : PspecArgs) (out : PspecOut) (sd : Arr1 (Option ℝ))
    (h : pspecWithStd tppf none ((ps2DProperty ps).map some) a = .ok (out, sd)) (he : StrictEdges out.edges) (hb : 2 ≤ out.edges.n) (k : ℕ)
    (p q : ℕ × ℕ) (hpq : p ≠ q) (hS : binPixels ((ps2DProperty ps).map some) out.azim out.edges a.returnFreqs k = {p, q})
    (hr : rowFreq img.n q.1 = -rowFreq img.n p.1) (hc : colFreq img.m q.2 = -colFreq img.m p.2) : sd.get k = some 0 := by
  obtain ⟨ps', hps', hcp⟩ := computePspec_none img hn hm
  rw [hps] at hps'; cases hps'
  have hsh : ((ps2DProperty ps).map some).n = img.n ∧ ((ps2DProperty ps).map some).m = img.m := by
    have := C02_ps2D_property ps 0 0 (by rw [hcp.1]; exact hn)
    exact ⟨this.1.trans hcp.1, this.2.1.trans hcp.2.1⟩
  have hget : ∀ i < img.n, ∀ j < img.m, ((ps2DProperty ps).map some).get i j = some (power2 img (rowFreq img.n i) (colFreq img.m j)) := by
    intro i hi j hj
    show some ((ps2DProperty ps).get i j) = _
    rw [(C02_ps2D_property ps i j (by rw [hcp.1]; exact hi)).2.2, hcp.1, hcp.2.2 _ (by omega) _ hj]
    congr 2
    unfold rowFreq
    omega
  obtain ⟨v, h3, -, h4⟩ := C114_zero_iff tppf _ a out sd (by rw [hsh.1]; exact hn) (by rw [hsh.2]; exact hm) (by rw [hsh.1, hsh.2]; exact h2) h he hb k
    (by rw [hS, card_pair hpq])
  have hin : ∀ z ∈ ({p, q} : Finset (ℕ × ℕ)), z.1 < img.n ∧ z.2 < img.m := by
    intro z hz
    rw [← hS] at hz
    have := (Finset.mem_filter.1 hz).1
    rw [mem_product, mem_range, mem_range, hsh.1, hsh.2] at this
    exact this
  rw [h3, h4.2 ⟨power2 img (rowFreq img.n p.1) (colFreq img.m p.2), ?_⟩]
  intro z hz
  rw [hS] at hz
  obtain ⟨z1, z2⟩ := hin z hz
  rw [mem_insert, mem_singleton] at hz
  rcases hz with rfl | rfl
  · exact hget _ z1 _ z2
  · rw [hget _ z1 _ z2, hr, hc, power2_neg]

/-- **C114 (returns).** Whenever the profile can be computed so can its standard deviations, except that `boot_iter=0` is refused. -/
theorem C114_returns (tppf : ℝ → ℕ → ℝ) (boot : Option (ℕ × (ℕ → ℕ → ℕ → ℕ))) (psd2 : Arr2 (Option ℝ)) (a : PspecArgs) (out : PspecOut)
    (h : pspecFn psd2 { a with returnStddev := true } = .ok out) :
    ((∀ b, boot = some b → b.1 ≠ 0) → ∃ sd, pspecWithStd tppf boot psd2 a = .ok (out, sd)) ∧
    (∀ draw i j, boot = some (0, draw) → i < psd2.n → j < psd2.m → psd2.get i j ≠ none → (∀ m, out.azim = some m → m.get i j = true) →
      pspecWithStd tppf boot psd2 a = .error .valueError) := by
  obtain ⟨nbins, rstd, binsize, logsp, maxB, minB, rf, th, dt⟩ := a
  have hne : ∀ (d : Arr2 ℝ) (az : Option (Arr2 Bool)) (i j : ℕ), i < psd2.n → j < psd2.m → psd2.get i j ≠ none → (∀ m, az = some m → m.get i j = true) →
      (pspecSamples psd2 d az).isEmpty = false := by
    intro d az i j hi hj h0 hz
    rw [pspecSamples_eq, List.isEmpty_eq_false_iff]
    intro e
    rw [List.map_eq_nil_iff, List.filter_eq_nil_iff] at e
    apply e (i, j) (mem_pixels.2 ⟨hi, hj⟩)
    unfold selected
    rw [Bool.and_eq_true, Option.isSome_iff_ne_none]
    refine ⟨h0, ?_⟩
    cases az with
    | none => rfl
    | some m => exact hz m rfl
  have fin : ∀ (d : Arr2 ℝ) (az : Option (Arr2 Bool)) (edges : Arr1 ℝ), pspecOutput psd2 d az edges true = out →
      ((∀ b, boot = some b → b.1 ≠ 0) → ∃ sd, (if boot.any (fun b => b.1 = 0) && !(pspecSamples psd2 d az).isEmpty then .error .valueError
        else .ok (pspecOutput psd2 d az edges true, pspecStd tppf boot (pspecSamples psd2 d az) edges) : Py _) = .ok (out, sd)) ∧
      (∀ draw i j, boot = some (0, draw) → i < psd2.n → j < psd2.m → psd2.get i j ≠ none → (∀ m, out.azim = some m → m.get i j = true) →
        (if boot.any (fun b => b.1 = 0) && !(pspecSamples psd2 d az).isEmpty then .error .valueError
        else .ok (pspecOutput psd2 d az edges true, pspecStd tppf boot (pspecSamples psd2 d az) edges) : Py _) = .error .valueError) := by
    intro d az edges ho
    constructor
    · intro hb
      have : boot.any (fun b => b.1 = 0) = false := by
        cases boot with
        | none => rfl
        | some b => simpa using hb b rfl
      rw [this, ho]
      exact ⟨_, rfl⟩
    · intro draw i j hb hi hj h0 hz
      have haz : out.azim = az := by rw [← ho]; rfl
      rw [haz] at hz
      rw [hb, hne d az i j hi hj h0 hz]
      rfl
  unfold pspecFn at h
  unfold pspecWithStd
  simp only at h ⊢
  cases haz : pspecAzim psd2.n psd2.m th dt with
  | error e => rw [haz] at h; cases h
  | ok az =>
  cases hnb : pspecNbins nbins (pspecDists psd2.n psd2.m) binsize with
  | error e => rw [haz, hnb] at h; cases h
  | ok nb =>
  rw [haz, hnb] at h
  cases rf
  · cases hmb : pspecMaxBin maxB false (pspecDists psd2.n psd2.m) with
    | error e => rw [hmb] at h; cases h
    | ok mb =>
      rw [hmb] at h
      exact fin _ az _ (Except.ok.inj h)
  · cases hfd : freqDist psd2.n psd2.m with
    | error e => rw [hfd] at h; cases h
    | ok fd =>
      rw [hfd] at h
      cases hmb : pspecMaxBin maxB true (pspecDists psd2.n psd2.m) with
      | error e => rw [hmb] at h; cases h
      | ok mb =>
        rw [hmb] at h
        exact fin _ az _ (Except.ok.inj h)

private theorem withStd_congr (tppf : ℝ → ℕ → ℝ) (boot : Option (ℕ × (ℕ → ℕ → ℕ → ℕ))) (p p' : Arr2 (Option ℝ)) (a : PspecArgs) (h : p'.Same p) :
    pspecWithStd tppf boot p' a = pspecWithStd tppf boot p a := by
  obtain ⟨n, m, g⟩ := p
  obtain ⟨n', m', g'⟩ := p'
  obtain ⟨e1, e2, e3⟩ := h
  simp only at e1 e2 e3
  subst e1 e2
  have hs : ∀ d az, pspecSamples ⟨n', m', g'⟩ d az = pspecSamples ⟨n', m', g⟩ d az := by
    intro d az
    unfold pspecSamples
    apply List.flatMap_congr
    intro i hi
    apply List.filterMap_congr
    intro j hj
    simp only
    rw [e3 i (List.mem_range.1 hi) j (List.mem_range.1 hj)]
  unfold pspecWithStd pspecOutput
  simp only [hs]

/-- **C114 (brightness).** Multiplying the image by a constant changes neither the weights nor the slope of the weighted (or unweighted) fit of its power spectrum; the
intercept moves by twice the logarithm of its size. -/
theorem C114_brightness {lsq : List (ℝ × ℝ × ℝ) → ℝ × ℝ} (hl : LeastSquares lsq) (tppf : ℝ → ℕ → ℝ) (boot : Option (ℕ × (ℕ → ℕ → ℕ → ℕ)))
    (img ps : Arr2 ℝ) (hn : 0 < img.n) (hm : 0 < img.m) (hps : computePspec img none = .ok ps) (a : PspecArgs) (wt : Bool) (low high : Option ℝ) (c : ℝ) (hc : c ≠ 0)
    (bins : List PsBin) (hbins : radialBinsStd tppf boot ((ps2DProperty ps).map some) a = .ok bins) (hi : ℝ)
    (hhi : highCutFor high (bins.map (·.freq)) = .ok hi) (b₁ b₂ : PsBin) (m₁ : b₁ ∈ bins) (m₂ : b₂ ∈ bins) (hne : b₁.freq ≠ b₂.freq)
    (hu : ∀ b, b = b₁ ∨ b = b₂ → 0 < b.freq ∧ lowCutFor low img.n img.m < b.freq ∧ b.freq ≤ hi ∧ (∃ p, b.power = some p ∧ 0 < p) ∧
      ∃ s, b.std = some s ∧ 0 < s) :
    weightedRun lsq tppf boot none a wt low high (scale2 c img) =
      (weightedRun lsq tppf boot none a wt low high img).map (Option.map fun p => (p.1 + 2 * log10 |c|, p.2)) := by
  obtain ⟨ps0, hps0, hcp⟩ := computePspec_none img hn hm
  rw [hps] at hps0; cases hps0
  obtain ⟨ps', hps', hcp'⟩ := computePspec_none (scale2 c img) hn hm
  have hsame := C02_scale c img ps ps' hn hm hps hps'
  have hpn : ps.n = img.n := hcp.1
  have hpm : ps.m = img.m := hcp.2.1
  have hsh : ∀ q : Arr2 ℝ, q.n = img.n → ((ps2DProperty q).map some).n = q.n ∧ ((ps2DProperty q).map some).m = q.m := by
    intro q hq
    have := C02_ps2D_property q 0 0 (by rw [hq]; exact hn)
    exact ⟨this.1, this.2.1⟩
  have hmap : ((ps2DProperty ps').map some).Same (((ps2DProperty ps).map some).map (Option.map (c ^ 2 * ·))) := by
    have hn' : ps'.n = ps.n := hsame.1
    have hm' : ps'.m = ps.m := hsame.2.1
    refine ⟨((hsh ps' (hn'.trans hpn)).1.trans hn').trans (hsh ps hpn).1.symm, ((hsh ps' (hn'.trans hpn)).2.trans hm').trans (hsh ps hpn).2.symm, ?_⟩
    intro i hi j hj
    rw [(hsh ps' (hn'.trans hpn)).1] at hi
    rw [(hsh ps' (hn'.trans hpn)).2] at hj
    show some ((ps2DProperty ps').get i j) = some (c ^ 2 * (ps2DProperty ps).get i j)
    rw [(C02_ps2D_property ps' i j hi).2.2, (C02_ps2D_property ps i j (by omega)).2.2, hsame.2.2 _ (by omega) _ hj, hn']
    rfl
  have hcc : 0 < c ^ 2 := by positivity
  have hlog : log10 (c ^ 2) = 2 * log10 |c| := by
    rw [← sq_abs, pow_two, log10_mul (abs_pos.2 hc) (abs_pos.2 hc)]
    ring
  obtain ⟨bins', h1, h2⟩ := C114_fit_units hl tppf boot ((ps2DProperty ps).map some) a wt low high (c ^ 2) hcc bins hbins hi hhi b₁ b₂ m₁ m₂ hne
    (by rw [(hsh ps hpn).1, (hsh ps hpn).2, hpn, hpm]; exact hu)
  have hrb : radialBinsStd tppf boot ((ps2DProperty ps').map some) a = .ok bins' := by
    rw [← h1]
    unfold radialBinsStd
    rw [withStd_congr tppf boot _ _ a hmap]
  rw [hlog] at h2
  simp only [weightedRun, hps, hps', bind, Except.bind, hbins, hrb, hmap.1, hmap.2.1]
  exact h2

/-! ### Cases -/

private theorem radii5 (j : ℕ) (hj : j < 5) : pixRadius 1 5 0 j = |(j : ℝ) - 2| := by
  unfold pixRadius
  norm_num [Real.sqrt_sq_eq_abs]

private theorem row_edges (k : ℕ) : (linspace (0.5 : ℝ) 2.5 3).get k = 0.5 + k := by
  simp only [linspace]
  norm_num

private theorem row_bin (v : ℕ → ℝ) (k : ℕ) (hk : k < 2) :
    binPixels ⟨1, 5, fun _ j => some (v j)⟩ none (linspace (0.5 : ℝ) 2.5 3) false k = {(0, 1 - k), (0, 3 + k)} := by
  ext ⟨i, j⟩
  simp only [binPixels, mem_filter, mem_product, mem_range, mem_insert, mem_singleton, Prod.mk.injEq, binRadius, Bool.false_eq_true, if_false, InBin, row_edges]
  simp only [linspace]
  constructor
  · rintro ⟨⟨hi, hj⟩, -, -, hb⟩
    have hi0 : i = 0 := by omega
    subst hi0
    rw [radii5 j hj] at hb
    interval_cases k <;> interval_cases j <;> norm_num at hb <;> norm_num
  · intro h
    have h' : i = 0 ∧ j < 5 := by omega
    obtain ⟨rfl, hj⟩ := h'
    rw [radii5 j hj]
    refine ⟨⟨by omega, hj⟩, by simp, by simp, ?_⟩
    interval_cases k <;> interval_cases j <;> norm_num at h <;> norm_num

/-- A row of five values, binned by the distance from the third: the first bin holds the second and fourth, the second bin the first and last. -/
private theorem row_bins (boot : Option (ℕ × (ℕ → ℕ → ℕ → ℕ))) (hb : boot = none ∨ ∃ d, boot = some (3, d)) (v : ℕ → ℝ) (a : PspecArgs)
    (ha : a = { nbins := some 2, maxBin := some 2.5, returnFreqs := false, logspacing := false }) :
    ∃ out sd, pspecWithStd (fun _ _ => 2) boot ⟨1, 5, fun _ j => some (v j)⟩ a = .ok (out, sd) ∧ StrictEdges out.edges ∧ out.edges.n = 3 ∧
      binPixels ⟨1, 5, fun _ j => some (v j)⟩ out.azim out.edges a.returnFreqs 0 = {(0, 1), (0, 3)} ∧
      binPixels ⟨1, 5, fun _ j => some (v j)⟩ out.azim out.edges a.returnFreqs 1 = {(0, 0), (0, 4)} ∧
      out.binCents.n = 2 ∧ out.binCents.get 0 = 1 ∧ out.binCents.get 1 = 2 := by
  subst ha
  have key : ∃ sd, pspecWithStd (fun _ _ => 2) boot ⟨1, 5, fun _ j => some (v j)⟩ { nbins := some 2, maxBin := some 2.5, returnFreqs := false, logspacing := false } =
      .ok (pspecOutput ⟨1, 5, fun _ j => some (v j)⟩ (pspecDists 1 5) none (linspace (0.5 : ℝ) 2.5 3) true, sd) := by
    rcases hb with rfl | ⟨d, rfl⟩
    · exact ⟨_, rfl⟩
    · exact ⟨pspecStd (fun _ _ => 2) (some (3, d)) (pspecSamples ⟨1, 5, fun _ j => some (v j)⟩ (pspecDists 1 5) none) (linspace (0.5 : ℝ) 2.5 3), rfl⟩
  obtain ⟨sd, key⟩ := key
  refine ⟨_, sd, key, linspace_edges (by norm_num) (by norm_num), rfl, row_bin v 0 (by norm_num), row_bin v 1 (by norm_num), rfl, ?_, ?_⟩
  · show ((linspace (0.5 : ℝ) 2.5 3).get (0 + 1) + (linspace (0.5 : ℝ) 2.5 3).get 0) / 2 = 1
    rw [row_edges, row_edges]
    norm_num
  · show ((linspace (0.5 : ℝ) 2.5 3).get (1 + 1) + (linspace (0.5 : ℝ) 2.5 3).get 1) / 2 = 2
    rw [row_edges, row_edges]
    norm_num

example (v : ℕ → ℝ) : ∃ out sd, pspecWithStd (fun _ _ => 2) none ⟨1, 5, fun _ j => some (v j)⟩ { nbins := some 2, maxBin := some 2.5, returnFreqs := false, logspacing := false } = .ok (out, sd) ∧
    out.ps1D.get 0 = some ((v 1 + v 3) / 2) ∧ (sd.get 1 = some 0 ↔ v 0 = v 4) := by
  obtain ⟨out, sd, h, he, hn, h0, h1, _⟩ := row_bins none (Or.inl rfl) v _ rfl
  refine ⟨out, sd, h, ?_, ?_⟩
  · have := (C114_values (fun _ _ => 2) _ _ out sd (by norm_num) (by norm_num) (by norm_num) h he (by omega) 0).2.2
    rw [h0] at this
    rw [this, card_pair (by norm_num)]
    simp [pixMean]
  · obtain ⟨s, hs, -, hz⟩ := C114_zero_iff (fun _ _ => 2) _ _ out sd (by norm_num) (by norm_num) (by norm_num) h he (by omega) 1 (by rw [h1]; rfl)
    rw [hs, Option.some.injEq, hz, h1]
    simp only [mem_insert, mem_singleton, forall_eq_or_imp, forall_eq, Option.some.injEq]
    exact ⟨fun ⟨c, a, b⟩ => a.trans b.symm, fun e => ⟨v 0, rfl, e.symm⟩⟩

example (v : ℕ → ℝ) (hv : v 1 < v 3) (draw : ℕ → ℕ → ℕ → ℕ) : ∃ out sd sd',
    pspecWithStd (fun _ _ => 2) (some (3, draw)) ⟨1, 5, fun _ j => some (v j)⟩ { nbins := some 2, maxBin := some 2.5, returnFreqs := false, logspacing := false } = .ok (out, sd) ∧
    pspecWithStd (fun _ _ => 2) none ⟨1, 5, fun _ j => some (v j)⟩ { nbins := some 2, maxBin := some 2.5, returnFreqs := false, logspacing := false } = .ok (out, sd') ∧
    (∃ x, sd.get 0 = some x ∧ 0 ≤ x) ∧ sd.get 0 ≠ sd'.get 0 := by
  obtain ⟨out, sd, h, he, hn, h0, _⟩ := row_bins (some (3, draw)) (Or.inr ⟨_, rfl⟩) v _ rfl
  obtain ⟨out', sd', h', _⟩ := row_bins none (Or.inl rfl) v _ rfl
  obtain ⟨rfl, x, s, e1, e2, -, e3⟩ := C114_bootstrap_violated (fun _ _ => 2) 3 (by norm_num) draw _ _ out out' sd sd' (by norm_num) (by norm_num) (by norm_num) h h' he
    (by omega) 0 (0, 1) (0, 3) (by norm_num) h0 (by simpa using hv.ne)
  have hb := C114_bootstrap (fun _ _ => 2) 3 (by norm_num) draw _ _ out' sd (by norm_num) (by norm_num) (by norm_num) h he (by omega) 0
  obtain ⟨y, y1, y2, -⟩ := hb.2 (by rw [h0]; rfl) (v 1) (v 3) (by
    rw [h0]
    simp only [mem_insert, mem_singleton, forall_eq_or_imp, forall_eq, Option.some.injEq, forall_eq']
    exact ⟨⟨le_rfl, hv.le⟩, hv.le, le_rfl⟩)
  refine ⟨out', sd, sd', h, h', ⟨y, y1, y2⟩, ?_⟩
  rw [e1, e2]
  intro e
  exact e3.ne (Option.some.inj e)

example (v : ℕ → ℝ) (draw : ℕ → ℕ → ℕ → ℕ) :
    pspecWithStd (fun _ _ => 2) (some (0, draw)) ⟨1, 5, fun _ j => some (v j)⟩ { nbins := some 2, maxBin := some 2.5, returnFreqs := false, logspacing := false } =
      .error .valueError :=
  (C114_returns (fun _ _ => 2) (some (0, draw)) ⟨1, 5, fun _ j => some (v j)⟩ { nbins := some 2, maxBin := some 2.5, returnFreqs := false, logspacing := false }
    _ rfl).2 draw 0 0 rfl (by norm_num) (by norm_num) (by simp) (by intro m hm; cases hm)

/-- The power spectrum of any row of five pixels: the first bin is one pair of opposite modes. -/
example (g : ℕ → ℕ → ℝ) (ps : Arr2 ℝ) (hps : computePspec ⟨1, 5, g⟩ none = .ok ps) : ∃ out sd,
    pspecWithStd (fun _ _ => 2) none ((ps2DProperty ps).map some) { nbins := some 2, maxBin := some 2.5, returnFreqs := false, logspacing := false } = .ok (out, sd) ∧
      sd.get 0 = some 0 ∧ sd.get 1 = some 0 := by
  obtain ⟨ps', hps', hcp⟩ := computePspec_none ⟨1, 5, g⟩ (by norm_num) (by norm_num)
  rw [hps] at hps'; cases hps'
  have hsame : ((ps2DProperty ps).map some).Same ⟨1, 5, fun _ j => some ((ps2DProperty ps).get 0 j)⟩ := by
    have hq := C02_ps2D_property ps 0 0 (by rw [hcp.1]; exact one_pos)
    have h1 : (ps2DProperty ps).n = 1 := hq.1.trans hcp.1
    have h2 : (ps2DProperty ps).m = 5 := hq.2.1.trans hcp.2.1
    refine ⟨h1, h2, fun i hi j hj => ?_⟩
    have hi : i < (ps2DProperty ps).n := hi
    have : i = 0 := by omega
    subst this
    rfl
  obtain ⟨out, sd, h, he, hn, h0, h1, -⟩ := row_bins none (Or.inl rfl) (fun j => (ps2DProperty ps).get 0 j) _ rfl
  have h' := (withStd_congr (fun _ _ => 2) none _ _ _ hsame).trans h
  have hb : ∀ k, binPixels ((ps2DProperty ps).map some) out.azim out.edges false k =
      binPixels ⟨1, 5, fun _ j => some ((ps2DProperty ps).get 0 j)⟩ out.azim out.edges false k := by
    intro k
    unfold binPixels
    rw [hsame.1, hsame.2.1]
    apply filter_congr
    rintro ⟨i, j⟩ hij
    rw [mem_product, mem_range, mem_range] at hij
    rw [hsame.2.2 i (by rw [hsame.1]; exact hij.1) j (by rw [hsame.2.1]; exact hij.2)]
  refine ⟨out, sd, h', ?_, ?_⟩
  · exact C114_pair_violated _ _ ps (by norm_num) (by norm_num) (by norm_num) hps _ out sd h' he (by omega) 0 (0, 1) (0, 3) (by norm_num) (by rw [hb]; exact h0)
      (by norm_num [rowFreq]) (by norm_num [colFreq])
  · exact C114_pair_violated _ _ ps (by norm_num) (by norm_num) (by norm_num) hps _ out sd h' he (by omega) 1 (0, 0) (0, 4) (by norm_num) (by rw [hb]; exact h1)
      (by norm_num [rowFreq]) (by norm_num [colFreq])

private theorem good_bin (tppf : ℝ → ℕ → ℝ) (psd2 : Arr2 (Option ℝ)) (a : PspecArgs) (out : PspecOut) (sd : Arr1 (Option ℝ))
    (hn : 0 < psd2.n) (hm : 0 < psd2.m) (h2 : 2 ≤ max psd2.n psd2.m) (h : pspecWithStd tppf none psd2 a = .ok (out, sd))
    (he : StrictEdges out.edges) (hb : 2 ≤ out.edges.n) (k : ℕ) (p q : ℕ × ℕ) (hp : p ∈ binPixels psd2 out.azim out.edges a.returnFreqs k)
    (hq : q ∈ binPixels psd2 out.azim out.edges a.returnFreqs k) (x y : ℝ) (hx : psd2.get p.1 p.2 = some x) (hy : psd2.get q.1 q.2 = some y) (hxy : x ≠ y)
    (h0 : ∀ z ∈ binPixels psd2 out.azim out.edges a.returnFreqs k, 0 ≤ (psd2.get z.1 z.2).getD 0) :
    (∃ v, out.ps1D.get k = some v ∧ 0 < v) ∧ ∃ s, sd.get k = some s ∧ 0 < s := by
  have hpq : p ≠ q := by rintro rfl; rw [hx] at hy; exact hxy (Option.some.inj hy)
  have hc : 2 ≤ (binPixels psd2 out.azim out.edges a.returnFreqs k).card := by
    rw [← card_pair hpq]
    apply card_le_card
    intro z hz
    rw [mem_insert, mem_singleton] at hz
    rcases hz with rfl | rfl <;> assumption
  obtain ⟨s, hs, hs0, hs1⟩ := C114_zero_iff tppf psd2 a out sd hn hm h2 h he hb k hc
  have hv := (C114_values tppf psd2 a out sd hn hm h2 h he hb k).2.2
  rw [if_neg (by omega)] at hv
  refine ⟨⟨_, hv, ?_⟩, s, hs, ?_⟩
  · apply div_pos
    · have hpos : ∃ z ∈ binPixels psd2 out.azim out.edges a.returnFreqs k, 0 < (psd2.get z.1 z.2).getD 0 := by
        have a1 := h0 p hp
        have a2 := h0 q hq
        rw [hx] at a1; rw [hy] at a2
        rcases lt_or_gt_of_ne hxy with h | h
        · exact ⟨q, hq, by rw [hy]; exact lt_of_le_of_lt a1 h⟩
        · exact ⟨p, hp, by rw [hx]; exact lt_of_le_of_lt a2 h⟩
      exact sum_pos' h0 hpos
    · have : (2 : ℝ) ≤ (binPixels psd2 out.azim out.edges a.returnFreqs k).card := by exact_mod_cast hc
      linarith
  · refine lt_of_le_of_ne hs0 (fun e => ?_)
    obtain ⟨c, hc'⟩ := hs1.1 e.symm
    have e1 := hc' p hp
    have e2 := hc' q hq
    rw [hx] at e1; rw [hy] at e2
    exact hxy ((Option.some.inj e1).trans (Option.some.inj e2).symm)

private theorem bins_of {tppf : ℝ → ℕ → ℝ} {psd2 : Arr2 (Option ℝ)} {a : PspecArgs} {out : PspecOut} {sd : Arr1 (Option ℝ)}
    (h : pspecWithStd tppf none psd2 a = .ok (out, sd)) (hn : out.binCents.n = 2) :
    radialBinsStd tppf none psd2 a = .ok [⟨out.binCents.get 0, out.ps1D.get 0, sd.get 0⟩, ⟨out.binCents.get 1, out.ps1D.get 1, sd.get 1⟩] := by
  simp only [radialBinsStd, h, bind, Except.bind, hn]
  rfl

/-- Five powers 1 … 5, multiplied by seven. -/
example : ∃ bins', radialBinsStd (fun _ _ => 2) none ((⟨1, 5, fun _ j => some ((j : ℝ) + 1)⟩ : Arr2 (Option ℝ)).map (Option.map (7 * ·)))
      { nbins := some 2, maxBin := some 2.5, returnFreqs := false, logspacing := false } = .ok bins' := by
  obtain ⟨out, sd, h, he, hn, h0, h1, hc, hc0, hc1⟩ := row_bins none (Or.inl rfl) (fun j => (j : ℝ) + 1) _ rfl
  obtain ⟨g1, g2⟩ := good_bin (fun _ _ => 2) _ _ out sd (by norm_num) (by norm_num) (by norm_num) h he (by omega) 0 (0, 1) (0, 3)
    (by rw [h0]; simp) (by rw [h0]; simp) _ _ rfl rfl (by norm_num) (by intro z _; show (0 : ℝ) ≤ (z.2 : ℝ) + 1; positivity)
  obtain ⟨g3, g4⟩ := good_bin (fun _ _ => 2) _ _ out sd (by norm_num) (by norm_num) (by norm_num) h he (by omega) 1 (0, 0) (0, 4)
    (by rw [h1]; simp) (by rw [h1]; simp) _ _ rfl rfl (by norm_num) (by intro z _; show (0 : ℝ) ≤ (z.2 : ℝ) + 1; positivity)
  obtain ⟨bins', hb, -⟩ := C114_fit_units lsqFormula_leastSquares (fun _ _ => 2) none _ _ true (some 0.5) (some 3) 7 (by norm_num) _ (bins_of h hc) 3 rfl
    ⟨out.binCents.get 0, out.ps1D.get 0, sd.get 0⟩ ⟨out.binCents.get 1, out.ps1D.get 1, sd.get 1⟩ (by simp) (by simp) (by rw [hc0, hc1]; norm_num)
    (by
      rintro b (rfl | rfl)
      · simp only [hc0]
        exact ⟨by norm_num, by norm_num [lowCutFor], by norm_num, g1, g2⟩
      · simp only [hc1]
        exact ⟨by norm_num, by norm_num [lowCutFor], by norm_num, g3, g4⟩)
  exact ⟨bins', hb⟩

/-- Two bright pixels of a 4×4 image. -/
private noncomputable def twoPix : Arr2 ℝ := ⟨4, 4, fun i j => if i = 0 ∧ j ≤ 1 then 1 else 0⟩

private theorem twoPix_dft (k l : ℤ) : power2 twoPix k l = ‖1 + om 4 l‖ ^ 2 := by
  unfold power2 dft2
  simp only [twoPix]
  simp [sum_range_succ, om_zero]

private theorem om_four_one : om 4 1 = -Complex.I := by
  unfold om
  rw [show -(2 * (Real.pi : ℂ) * Complex.I * ((1 : ℤ) : ℂ) / ((4 : ℕ) : ℂ)) = ((-(Real.pi / 2) : ℝ) : ℂ) * Complex.I by push_cast; ring, Complex.exp_mul_I,
    ← Complex.ofReal_cos, ← Complex.ofReal_sin, Real.cos_neg, Real.sin_neg, Real.cos_pi_div_two, Real.sin_pi_div_two]
  push_cast
  ring

private theorem twoPix_zero (k : ℤ) : power2 twoPix k 0 = 4 := by
  rw [twoPix_dft, om_zero]
  norm_num

private theorem twoPix_one (k : ℤ) : power2 twoPix k 1 = 2 := by
  rw [twoPix_dft, om_four_one, ← Complex.normSq_eq_norm_sq, Complex.normSq_apply]
  norm_num

private theorem mem_bin_four (g : ℕ → ℕ → ℝ) (k i j : ℕ) (hk : k < 2) (hi : i < 4) (hj : j < 4)
    (h1 : (0.5 + k : ℝ) ^ 2 ≤ ((i : ℝ) - 2) ^ 2 + ((j : ℝ) - 2) ^ 2) (h2 : ((i : ℝ) - 2) ^ 2 + ((j : ℝ) - 2) ^ 2 < (1.5 + k : ℝ) ^ 2) :
    (i, j) ∈ binPixels ⟨4, 4, fun i j => some (g i j)⟩ none (linspace (0.5 : ℝ) 2.5 3) false k := by
  simp only [binPixels, mem_filter, mem_product, mem_range, binRadius, Bool.false_eq_true, if_false, InBin, row_edges]
  have e : pixRadius 4 4 i j = Real.sqrt (((i : ℝ) - 2) ^ 2 + ((j : ℝ) - 2) ^ 2) := by
    unfold pixRadius
    norm_num
  refine ⟨⟨hi, hj⟩, by simp, by simp, by simp only [linspace]; omega, ?_, Or.inl ?_⟩
  · rw [e]
    exact Real.le_sqrt_of_sq_le h1
  · rw [e, Real.sqrt_lt' (by positivity)]
    push_cast
    linarith [show (0.5 + ((k : ℝ) + 1)) ^ 2 = (1.5 + k : ℝ) ^ 2 by ring]

/-- The image of two bright pixels made -3 times as bright. -/
example : weightedRun lsqFormula (fun _ _ => 2) none none { nbins := some 2, maxBin := some 2.5, returnFreqs := false, logspacing := false } true (some 0.5) (some 3)
      (scale2 (-3) twoPix) =
    (weightedRun lsqFormula (fun _ _ => 2) none none { nbins := some 2, maxBin := some 2.5, returnFreqs := false, logspacing := false } true (some 0.5) (some 3)
      twoPix).map (Option.map fun p => (p.1 + 2 * log10 |(-3 : ℝ)|, p.2)) := by
  obtain ⟨ps, hps, hcp⟩ := computePspec_none twoPix (by norm_num [twoPix]) (by norm_num [twoPix])
  have hpn : ps.n = 4 := hcp.1
  have hpm : ps.m = 4 := hcp.2.1
  have hq := fun i j (hi : i < 4) => C02_ps2D_property ps i j (by rw [hpn]; exact hi)
  have hget : ∀ i < 4, ∀ j < 4, (ps2DProperty ps).get i j = power2 twoPix (1 - i) (j - 2) := by
    intro i hi j hj
    rw [(hq i j hi).2.2, hpn, hcp.2.2 _ (by show _ < 4; omega) _ hj]
    show power2 twoPix _ _ = _
    congr 1
    simp only [twoPix]
    omega
  have h4 : (ps2DProperty ps).map some = ⟨4, 4, fun i j => some ((ps2DProperty ps).get i j)⟩ := by
    have e1 : (ps2DProperty ps).n = 4 := (hq 0 0 (by norm_num)).1.trans hpn
    have e2 : (ps2DProperty ps).m = 4 := (hq 0 0 (by norm_num)).2.1.trans hpm
    unfold Arr2.map
    rw [e1, e2]
  have key : ∃ sd, pspecWithStd (fun _ _ => 2) none ((ps2DProperty ps).map some) { nbins := some 2, maxBin := some 2.5, returnFreqs := false, logspacing := false } =
      .ok (pspecOutput ((ps2DProperty ps).map some) (pspecDists 4 4) none (linspace (0.5 : ℝ) 2.5 3) true, sd) := by
    rw [h4]
    exact ⟨_, rfl⟩
  obtain ⟨sd, key⟩ := key
  have hnn : ∀ z ∈ (range 4 ×ˢ range 4 : Finset (ℕ × ℕ)), 0 ≤ (ps2DProperty ps).get z.1 z.2 := by
    rintro ⟨i, j⟩ hz
    rw [mem_product, mem_range, mem_range] at hz
    rw [hget i hz.1 j hz.2]
    exact sq_nonneg _
  rw [h4] at key
  have good := fun k p q hp hq x y hx hy hxy => good_bin (fun _ _ => 2) _ _ _ sd (by norm_num) (by norm_num) (by norm_num) key
    (linspace_edges (by norm_num) (by norm_num)) (show 2 ≤ 3 by norm_num) k p q hp hq x y hx hy hxy (fun z hz => hnn z (Finset.mem_filter.1 hz).1)
  obtain ⟨g1, g2⟩ := good 0 (1, 2) (2, 3) (mem_bin_four _ 0 1 2 (by norm_num) (by norm_num) (by norm_num) (by norm_num) (by norm_num))
    (mem_bin_four _ 0 2 3 (by norm_num) (by norm_num) (by norm_num) (by norm_num) (by norm_num)) 4 2
    (by show some _ = some _; rw [hget 1 (by norm_num) 2 (by norm_num)]; congr 1; exact twoPix_zero _)
    (by show some _ = some _; rw [hget 2 (by norm_num) 3 (by norm_num)]; congr 1; exact twoPix_one _) (by norm_num)
  obtain ⟨g3, g4⟩ := good 1 (0, 2) (0, 3) (mem_bin_four _ 1 0 2 (by norm_num) (by norm_num) (by norm_num) (by norm_num) (by norm_num))
    (mem_bin_four _ 1 0 3 (by norm_num) (by norm_num) (by norm_num) (by norm_num) (by norm_num)) 4 2
    (by show some _ = some _; rw [hget 0 (by norm_num) 2 (by norm_num)]; congr 1; exact twoPix_zero _)
    (by show some _ = some _; rw [hget 0 (by norm_num) 3 (by norm_num)]; congr 1; exact twoPix_one _) (by norm_num)
  have hc0 : ((linspace (0.5 : ℝ) 2.5 3).get (0 + 1) + (linspace (0.5 : ℝ) 2.5 3).get 0) / 2 = 1 := by
    rw [row_edges, row_edges]
    norm_num
  have hc1 : ((linspace (0.5 : ℝ) 2.5 3).get (1 + 1) + (linspace (0.5 : ℝ) 2.5 3).get 1) / 2 = 2 := by
    rw [row_edges, row_edges]
    norm_num
  have hbins := bins_of key rfl
  rw [← h4] at hbins g1 g3
  refine C114_brightness lsqFormula_leastSquares _ none twoPix ps (by norm_num [twoPix]) (by norm_num [twoPix]) hps _ true (some 0.5) (some 3) (-3) (by norm_num) _ hbins 3 rfl
    _ _ (List.mem_cons_self) (List.mem_cons_of_mem _ List.mem_cons_self) ?_ ?_
  · show ((linspace (0.5 : ℝ) 2.5 3).get (0 + 1) + (linspace (0.5 : ℝ) 2.5 3).get 0) / 2 ≠ ((linspace (0.5 : ℝ) 2.5 3).get (1 + 1) + (linspace (0.5 : ℝ) 2.5 3).get 1) / 2
    rw [hc0, hc1]
    norm_num
  · rintro b (rfl | rfl)
    · exact ⟨lt_of_lt_of_eq (by norm_num) hc0.symm, lt_of_lt_of_eq (by norm_num [lowCutFor]) hc0.symm, le_of_eq_of_le hc0 (by norm_num), g1, g2⟩
    · exact ⟨lt_of_lt_of_eq (by norm_num) hc1.symm, lt_of_lt_of_eq (by norm_num [lowCutFor]) hc1.symm, le_of_eq_of_le hc1 (by norm_num), g3, g4⟩

end TS
