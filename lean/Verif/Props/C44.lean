import Verif.Model.Pdf
import Mathlib.Data.List.GetD
import Mathlib.Tactic.Linarith
import Mathlib.Tactic.GCongr

/-! C44 — PDF: kept data, densities, ECDF and percentiles. -/

namespace TS
open Finset

namespace Spec

/-- `p` is the probability density of the data over the bins `e`: the share of the values inside the edges
that falls in the bin, per width; it integrates to 1. -/
def IsDensity (e : Arr1 ℝ) (data : List (Option ℝ)) (p : Arr1 (Option ℝ)) : Prop :=
  p.n = e.n - 1 ∧ ∃ d : ℕ → ℝ, (∀ k < p.n, p.get k = some (d k) ∧ 0 ≤ d k ∧
    d k = share e (validVals data) k / (e.get (k + 1) - e.get k)) ∧
    ∑ k ∈ range p.n, d k * (e.get (k + 1) - e.get k) = 1

end Spec
open Spec

/-- Exactly the finite values above `min_val` are kept, in order and with multiplicity. -/
theorem C44_keeps (minVal : Option ℝ) (img : List (Option ℝ)) :
    ∃ d, pdfKeep minVal img none = .ok d ∧
      ∀ x : ℝ, d.count x = if (∀ m, minVal = some m → m < x) then img.count (some x) else 0 := by
  refine ⟨_, rfl, ?_⟩
  intro x
  induction img with
  | nil => simp
  | cons v t ih =>
    cases v with
    | none => simp only [List.filterMap_cons, Option.bind_none, ih]; split_ifs <;> simp
    | some y =>
      by_cases hy : aboveMin minVal y
      · simp only [List.filterMap_cons, Option.bind_some, if_pos hy, List.count_cons, ih]
        by_cases hxy : y = x
        · subst hxy
          have hy' : ∀ m, minVal = some m → m < y := hy
          rw [if_pos hy', if_pos hy']; simp
        · have : ¬ ((some y : Option ℝ) = some x) := by simpa using hxy
          simp [hxy]
      · simp only [List.filterMap_cons, Option.bind_some, if_neg hy, ih]
        split_ifs with h
        · rw [List.count_cons]
          have : y ≠ x := by rintro rfl; exact hy h
          simp [this]
        · rfl

/-- With weights, the data are the products over the pixels whose value is kept and whose weight is
finite; weights of another shape raise. -/
theorem C44_weighted (minVal : Option ℝ) (img w : List (Option ℝ)) :
    (w.length = img.length → ∃ d, pdfKeep minVal img (some w) = .ok d ∧
      ∀ z : ℝ, z ∈ d ↔ ∃ i x y, i < img.length ∧ img[i]? = some (some x) ∧ w[i]? = some (some y) ∧
        (∀ m, minVal = some m → m < x) ∧ z = x * y) ∧
    (w.length ≠ img.length → pdfKeep minVal img (some w) = .error .indexError) := by
  constructor
  · intro hl
    refine ⟨_, by unfold pdfKeep; simp only; rw [if_neg (not_not.2 hl)], ?_⟩
    intro z
    rw [List.mem_filterMap]
    constructor
    · rintro ⟨⟨v, u⟩, hm, hz⟩
      obtain ⟨i, hi, he⟩ := List.getElem_of_mem hm
      rw [List.getElem_zip] at he
      rw [List.length_zip] at hi
      simp only [Prod.mk.injEq] at he
      cases v with
      | none => simp at hz
      | some x =>
        simp only [Option.bind_some] at hz
        split_ifs at hz with ha
        cases u with
        | none => simp at hz
        | some y =>
          simp only [Option.map_some, Option.some.injEq] at hz
          refine ⟨i, x, y, by omega, ?_, ?_, ha, hz.symm⟩
          · rw [List.getElem?_eq_getElem (by omega), he.1]
          · rw [List.getElem?_eq_getElem (by omega), he.2]
    · rintro ⟨i, x, y, hi, h1, h2, ha, rfl⟩
      refine ⟨(some x, some y), ?_, ?_⟩
      · have hi' : i < (img.zip w).length := by rw [List.length_zip]; omega
        have : (img.zip w)[i] = (some x, some y) := by
          rw [List.getElem_zip]
          rw [List.getElem?_eq_getElem hi, Option.some.injEq] at h1
          rw [List.getElem?_eq_getElem (by omega), Option.some.injEq] at h2
          rw [h1, h2]
        rw [← this]
        exact List.getElem_mem hi'
      · have : aboveMin minVal x := ha
        simp [this]
  · intro hl
    unfold pdfKeep
    simp only
    rw [if_pos hl]

/-- A bin number: the density covers all the data and integrates to 1. -/
theorem C44_density_count (o : PdfObj) (k : ℕ) (hk : 0 < k) (hf : none ∉ o.data) (hne : o.data ≠ []) :
    ∃ e p, makePdf o (some (.count k)) = .ok { o with pdf := some p, bins := some (.edges (binCentres e)) } ∧
      e.n = k + 1 ∧ StrictEdges e ∧ (∀ x, some x ∈ o.data → e.get 0 ≤ x ∧ x ≤ e.get k) ∧ IsDensity e o.data p := by
  obtain ⟨e, he, hn, hs, hin⟩ := histEdges_spec hk (validVals o.data)
  have hlast : e.n - 1 = k := by omega
  obtain ⟨y, ys, hy⟩ := List.exists_cons_of_ne_nil hne
  obtain ⟨x, hx⟩ : ∃ x, some x ∈ o.data := by
    cases hyv : y with
    | none => exact absurd (by rw [hy, hyv]; simp) hf
    | some x => exact ⟨x, by rw [hy, hyv]; simp⟩
  obtain ⟨d, hd, hsum⟩ := histDensity_spec hs (by omega) (validVals o.data)
    ⟨x, mem_validVals.2 hx, hin x (mem_validVals.2 hx)⟩
  have hval := histDensity_value hs (by omega) (validVals o.data) ⟨x, mem_validVals.2 hx, hin x (mem_validVals.2 hx)⟩
  refine ⟨e, histDensity e (validVals o.data), ?_, hn, hs, ?_, rfl, d, fun k hk => ⟨(hd k hk).1, (hd k hk).2,
    Option.some.inj ((hd k hk).1.symm.trans (hval k hk))⟩, hsum⟩
  · unfold makePdf npHistogram
    simp only
    rw [if_neg (by push Not; exact ⟨by omega, hf⟩), he]
    rfl
  · intro x hx
    have := hin x (mem_validVals.2 hx)
    rw [hlast] at this
    exact this

/-- Given increasing edges: the density integrates to 1 as soon as one value lies inside. -/
theorem C44_density_edges (o : PdfObj) (e : Arr1 ℝ) (hs : StrictEdges e) (hn : 2 ≤ e.n)
    (hne : ∃ x, some x ∈ o.data ∧ e.get 0 ≤ x ∧ x ≤ e.get (e.n - 1)) :
    ∃ p, makePdf o (some (.edges e)) = .ok { o with pdf := some p, bins := some (.edges (binCentres e)) } ∧
      IsDensity e o.data p := by
  obtain ⟨x, hx, hi⟩ := hne
  obtain ⟨d, hd, hsum⟩ := histDensity_spec hs hn (validVals o.data) ⟨x, mem_validVals.2 hx, hi⟩
  have hval := histDensity_value hs hn (validVals o.data) ⟨x, mem_validVals.2 hx, hi⟩
  refine ⟨histDensity e (validVals o.data), ?_, rfl, d, fun k hk => ⟨(hd k hk).1, (hd k hk).2,
    Option.some.inj ((hd k hk).1.symm.trans (hval k hk))⟩, hsum⟩
  unfold makePdf npHistogram
  simp only
  rw [if_neg]
  · rfl
  · rintro ⟨i, hi, hlt⟩
    rw [mem_range] at hi
    exact absurd (hs i (i + 1) (by omega) (by omega)) (not_lt.2 hlt.le)

/-- The default: a fresh object chooses at least one bin for any non-empty data. -/
theorem C44_default_bins (data : List (Option ℝ)) (hne : data ≠ []) : ∃ k, 0 < k ∧ pdfAutoBins data = .count k ∧
    |(k : ℝ) - Real.sqrt data.length| ≤ 1 / 2 := by
  have hl : (1 : ℝ) ≤ data.length := by exact_mod_cast List.length_pos_of_ne_nil hne
  have h1 : (1 : ℝ) ≤ Real.sqrt data.length := by rw [Real.one_le_sqrt]; exact hl
  have hf : 1 ≤ ⌊Real.sqrt (data.length : ℝ)⌋ := Int.le_floor.2 (by exact_mod_cast h1)
  have hr : 1 ≤ npRound (Real.sqrt data.length) := by
    unfold npRound; split_ifs <;> omega
  refine ⟨(npRound (Real.sqrt data.length)).toNat, by omega, rfl, ?_⟩
  have hc : (((npRound (Real.sqrt data.length)).toNat : ℕ) : ℝ) = (npRound (Real.sqrt data.length) : ℝ) := by
    have : ((npRound (Real.sqrt data.length)).toNat : ℤ) = npRound (Real.sqrt data.length) := by omega
    exact_mod_cast this
  rw [hc]
  have f1 := Int.floor_le (Real.sqrt data.length)
  have f2 := Int.lt_floor_add_one (Real.sqrt data.length)
  unfold npRound
  split_ifs with a b c
  · rw [abs_le]; constructor <;> linarith
  · push_cast; rw [abs_le]; constructor <;> linarith
  · rw [abs_le]; constructor <;> linarith
  · push_cast; rw [abs_le]; constructor <;> linarith

/-- The first `make_pdf()` of a new object is a density over edges enclosing all data, reported with the
bin centres.  Missing for the full property: repeated calls (`C44_repeat_loses_bin`,
`C44_repeat_violated`). -/
theorem C44_first_call_partial (data : List (Option ℝ)) (hf : none ∉ data) (hne : data ≠ []) :
    ∃ e o, makePdf ⟨data, none, none, none⟩ none = .ok o ∧ StrictEdges e ∧
      (∀ x, some x ∈ data → e.get 0 ≤ x ∧ x ≤ e.get (e.n - 1)) ∧
      o.bins = some (.edges ⟨e.n - 1, fun k => (e.get k + e.get (k + 1)) / 2⟩) ∧
      ∃ p, o.pdf = some p ∧ IsDensity e data p := by
  obtain ⟨k, hk, ha, _⟩ := C44_default_bins data hne
  obtain ⟨e, p, h, hn, hs, hin, hd⟩ := C44_density_count ⟨data, none, none, none⟩ k hk hf hne
  refine ⟨e, ⟨data, some (.edges (binCentres e)), some p, none⟩, ?_, hs, ?_, rfl, p, rfl, hd⟩
  · rw [← h]
    unfold makePdf
    simp only [ha]
  · intro x hx
    rw [show e.n - 1 = k by omega]
    exact hin x hx

example : (none : Option ℝ) ∉ [some 1, some (2 : ℝ)] ∧ [some 1, some (2 : ℝ)] ≠ [] := by simp

/-- Each further `make_pdf()` takes the previous centres as edges: one bin less every time. -/
theorem C44_repeat_loses_bin (o o' o'' : PdfObj) (b : Option BinsArg) (p p' : Arr1 (Option ℝ))
    (h : makePdf o b = .ok o') (h' : makePdf o' none = .ok o'') (hp : o'.pdf = some p) (hp' : o''.pdf = some p') :
    p'.n = p.n - 1 := by
  have key : ∀ (o o' : PdfObj) (b : Option BinsArg) (p : Arr1 (Option ℝ)), makePdf o b = .ok o' → o'.pdf = some p →
      ∃ e, o'.bins = some (.edges e) ∧ e.n = p.n := by
    intro o o' b p h hp
    unfold makePdf at h
    simp only [bind, Except.bind, pure, Except.pure] at h
    split at h
    · cases h
    · rename_i v hv
      obtain ⟨e, q⟩ := v
      cases h
      cases hp
      refine ⟨_, rfl, ?_⟩
      unfold npHistogram at hv
      split at hv
      · split_ifs at hv
        unfold Except.map at hv
        split at hv
        · cases hv
        · cases hv; rfl
      · split_ifs at hv
        cases hv; rfl
  obtain ⟨e, he, hn⟩ := key o o' b p h hp
  unfold makePdf at h'
  rw [he] at h'
  simp only [npHistogram, bind, Except.bind, pure, Except.pure] at h'
  split_ifs at h'
  cases h'
  cases hp'
  show e.n - 1 = p.n - 1
  rw [hn]

/-- Two calls on the same object: a valid density first, no number at all the second time. -/
theorem C44_repeat_violated : ∃ (o o1 o2 : PdfObj) (p : Arr1 (Option ℝ)), o.data = [some 0, some 3] ∧
    makePdf o (some (.count 2)) = .ok o1 ∧ makePdf o1 none = .ok o2 ∧ o2.pdf = some p ∧
    p.n = 1 ∧ p.get 0 = none := by
  let o : PdfObj := ⟨[some 0, some 3], none, none, none⟩
  have hv : validVals [some 0, some (3 : ℝ)] = [0, 3] := by simp [validVals]
  have he : histEdges 2 [0, (3 : ℝ)] = .ok (linspace 0 3 3) := by
    simp [histEdges, minO, maxO]
  have h1 : makePdf o (some (.count 2)) = .ok { o with
      pdf := some (histDensity (linspace 0 3 3) [0, 3]), bins := some (.edges (binCentres (linspace 0 3 3))) } := by
    unfold makePdf npHistogram
    simp only [o, hv, he]
    rw [if_neg (by simp)]
    rfl
  have c0 : (binCentres (linspace 0 3 3)).get 0 = 3 / 4 := by norm_num [binCentres, linspace]
  have c1 : (binCentres (linspace 0 3 3)).get 1 = 9 / 4 := by norm_num [binCentres, linspace]
  have cn : (binCentres (linspace 0 3 3)).n = 2 := rfl
  refine ⟨o, _, ⟨o.data, some (.edges (binCentres (binCentres (linspace 0 3 3)))),
    some (histDensity (binCentres (linspace 0 3 3)) [0, 3]), none⟩,
    histDensity (binCentres (linspace 0 3 3)) [0, 3], rfl, h1, ?_, rfl, rfl, ?_⟩
  · unfold makePdf npHistogram
    simp only [o, hv]
    rw [if_neg]
    · rfl
    · rintro ⟨i, hi, hlt⟩
      rw [cn, mem_range] at hi
      have : i = 0 := by omega
      subst this
      rw [zero_add, c0, c1] at hlt
      norm_num at hlt
  · have hs : StrictEdges (binCentres (linspace 0 3 3)) := by
      intro i j hij hj
      rw [cn] at hj
      have h0 : i = 0 := by omega
      have h1 : j = 1 := by omega
      subst h0; subst h1
      rw [c0, c1]; norm_num
    have hsum := histCounts_sum hs (by rw [cn]) [0, 3]
    rw [cn, show 2 - 1 = 1 from rfl, c0, c1] at hsum
    have hz : ([0, 3] : List ℝ).filter (fun x => decide ((3 / 4 : ℝ) ≤ x ∧ x ≤ 9 / 4)) = [] := by norm_num [List.filter_cons]
    rw [hz, List.length_nil] at hsum
    unfold histDensity
    simp only [hsum]
    cases divO (some (((histCounts (binCentres (linspace 0 3 3)) [0, 3]).get 0 : ℕ) : ℝ))
      (some ((binCentres (linspace 0 3 3)).get (0 + 1) - (binCentres (linspace 0 3 3)).get 0)) <;> simp [divO]

/-- The ECDF lies in [0, 1] and does not decrease; it is 0 below all data and 1 from the largest value
on. -/
theorem C44_ecdf (data : List (Option ℝ)) (hf : none ∉ data) (hne : data ≠ []) :
    (∀ x, 0 ≤ ecdfAt data x ∧ ecdfAt data x ≤ 1) ∧ (∀ x y, x ≤ y → ecdfAt data x ≤ ecdfAt data y) ∧
    (∀ x, (∀ v, some v ∈ data → x < v) → ecdfAt data x = 0) ∧
    (∀ x, (∀ v, some v ∈ data → v ≤ x) → ecdfAt data x = 1) := by
  have hl : (0 : ℝ) < data.length := by exact_mod_cast List.length_pos_of_ne_nil hne
  refine ⟨fun x => ⟨by unfold ecdfAt; positivity, ?_⟩, ?_, ?_, ?_⟩
  · unfold ecdfAt
    rw [div_le_one hl]
    exact_mod_cast List.length_filter_le _ _
  · intro x y hxy
    unfold ecdfAt
    gcongr
    apply List.Sublist.length_le
    apply List.monotone_filter_right
    intro v hv
    cases v with
    | none => simp at hv
    | some t =>
      simp only [Option.any_some, decide_eq_true_eq] at hv ⊢
      exact hv.trans hxy
  · intro x hx
    unfold ecdfAt
    rw [List.filter_eq_nil_iff.2]
    · simp
    · intro v hv
      cases v with
      | none => simp
      | some t => simpa using hx t hv
  · intro x hx
    unfold ecdfAt
    rw [List.filter_eq_self.2]
    · exact div_self hl.ne'
    · intro v hv
      cases v with
      | none => exact absurd hv hf
      | some t => simpa using hx t hv

/-- `make_ecdf` reports the ECDF at the bins, one value per PDF bin. -/
theorem C44_ecdf_at_bins (o o' : PdfObj) (b : Option BinsArg) (h : runPdf o b = .ok o') :
    ∃ e F p, o'.bins = some (.edges e) ∧ o'.ecdf = some F ∧ o'.pdf = some p ∧ F.n = e.n ∧ p.n = e.n ∧
      o'.data = o.data ∧ ∀ k, F.get k = ecdfAt o.data (e.get k) := by
  unfold runPdf at h
  simp only [bind, Except.bind] at h
  split at h
  · cases h
  · rename_i o1 h1
    unfold makePdf at h1
    simp only [bind, Except.bind, pure, Except.pure] at h1
    split at h1
    · cases h1
    · rename_i v hv
      obtain ⟨e, q⟩ := v
      cases h1
      unfold makeEcdf at h
      simp only [Option.isNone_some, Bool.false_eq_true, if_false, bind, Except.bind, pure, Except.pure] at h
      cases h
      refine ⟨_, _, q, rfl, rfl, rfl, rfl, ?_, rfl, fun _ => rfl⟩
      unfold npHistogram at hv
      split at hv
      · split_ifs at hv
        unfold Except.map at hv
        split at hv
        · cases hv
        · cases hv; rfl
      · split_ifs at hv
        cases hv; rfl

/-- `find_percentile` is 100 times the ECDF, whatever has been computed before. -/
theorem C44_find_percentile (o : PdfObj) (x v : ℝ) (h : findPercentile o x = .ok v) :
    v = 100 * ecdfAt o.data x := by
  have hm : ∀ o o' : PdfObj, ∀ b, makePdf o b = .ok o' → o'.data = o.data := by
    intro o o' b h
    unfold makePdf at h
    simp only [bind, Except.bind, pure, Except.pure] at h
    split at h
    · cases h
    · cases h; rfl
  have he : ∀ o o' : PdfObj, makeEcdf o = .ok o' → o'.data = o.data := by
    intro o o' h
    unfold makeEcdf at h
    simp only [bind, Except.bind, pure, Except.pure] at h
    split_ifs at h
    · split at h
      · cases h
      · rename_i o1 h1
        cases h
        exact hm o o1 _ h1
    · cases h; rfl
  unfold findPercentile at h
  simp only [bind, Except.bind, pure, Except.pure] at h
  split_ifs at h
  · split at h
    · cases h
    · rename_i o1 h1
      cases h
      rw [he _ _ h1, mul_comm]
  · cases h
    rw [mul_comm]

/-! ### Percentiles -/

private theorem sorted_get {v : List ℝ} {i j : ℕ} (hij : i ≤ j) (hj : j < v.length) :
    (v.insertionSort (· ≤ ·)).getD i 0 ≤ (v.insertionSort (· ≤ ·)).getD j 0 := by
  have hs : (v.insertionSort (· ≤ ·)).Pairwise (· ≤ ·) := List.pairwise_insertionSort _ _
  have hl : (v.insertionSort (· ≤ ·)).length = v.length := List.length_insertionSort _ _
  rw [List.getD_eq_getElem _ _ (by omega), List.getD_eq_getElem _ _ (by omega)]
  rcases hij.lt_or_eq with h | h
  · exact List.pairwise_iff_getElem.1 hs i j (by omega) (by omega) h
  · subst h; rfl

private theorem floor_pos {n : ℕ} (hn : 0 < n) {q : ℝ} (h0 : 0 ≤ q) (h1 : q ≤ 100) :
    0 ≤ q / 100 * ((n : ℝ) - 1) ∧ ⌊q / 100 * ((n : ℝ) - 1)⌋₊ ≤ n - 1 := by
  have hn1 : (0 : ℝ) ≤ (n : ℝ) - 1 := by
    have : (1 : ℝ) ≤ n := by exact_mod_cast hn
    linarith
  have hp : 0 ≤ q / 100 * ((n : ℝ) - 1) := mul_nonneg (by linarith) hn1
  refine ⟨hp, ?_⟩
  have hle : q / 100 * ((n : ℝ) - 1) ≤ ((n - 1 : ℕ) : ℝ) := by
    rw [Nat.cast_sub hn, Nat.cast_one]
    exact mul_le_of_le_one_left hn1 (by linarith)
  exact Nat.floor_le_of_le hle

private theorem perc_between {v : List ℝ} (hne : v ≠ []) {q : ℝ} (h0 : 0 ≤ q) (h1 : q ≤ 100) :
    let k := ⌊q / 100 * ((v.length : ℝ) - 1)⌋₊
    (v.insertionSort (· ≤ ·)).getD k 0 ≤ npPercentile v q ∧
    npPercentile v q ≤ (v.insertionSort (· ≤ ·)).getD (min (k + 1) (v.length - 1)) 0 := by
  intro k
  have hn : 0 < v.length := List.length_pos_of_ne_nil hne
  obtain ⟨hp, hk⟩ := floor_pos hn h0 h1
  have hs := sorted_get (v := v) (i := k) (j := min (k + 1) (v.length - 1)) (by omega) (by omega)
  have f1 : (k : ℝ) ≤ q / 100 * ((v.length : ℝ) - 1) := Nat.floor_le hp
  have f2 : q / 100 * ((v.length : ℝ) - 1) < k + 1 := Nat.lt_floor_add_one _
  unfold npPercentile
  simp only
  change (v.insertionSort (· ≤ ·)).getD k 0 ≤ (v.insertionSort (· ≤ ·)).getD k 0 +
    ((v.insertionSort (· ≤ ·)).getD (min (k + 1) (v.length - 1)) 0 - (v.insertionSort (· ≤ ·)).getD k 0) *
      (q / 100 * ((v.length : ℝ) - 1) - k) ∧ _ ≤ _
  constructor
  · have : 0 ≤ ((v.insertionSort (· ≤ ·)).getD (min (k + 1) (v.length - 1)) 0 - (v.insertionSort (· ≤ ·)).getD k 0) *
      (q / 100 * ((v.length : ℝ) - 1) - k) := mul_nonneg (by linarith) (by linarith)
    linarith
  · have : ((v.insertionSort (· ≤ ·)).getD (min (k + 1) (v.length - 1)) 0 - (v.insertionSort (· ≤ ·)).getD k 0) *
      (q / 100 * ((v.length : ℝ) - 1) - k) ≤
      ((v.insertionSort (· ≤ ·)).getD (min (k + 1) (v.length - 1)) 0 - (v.insertionSort (· ≤ ·)).getD k 0) * 1 :=
      mul_le_mul_of_nonneg_left (by linarith) (by linarith)
    show (v.insertionSort (· ≤ ·)).getD k 0 + ((v.insertionSort (· ≤ ·)).getD (min (k + 1) (v.length - 1)) 0 -
      (v.insertionSort (· ≤ ·)).getD k 0) * (q / 100 * ((v.length : ℝ) - 1) - k) ≤ _
    linarith

private theorem perc_mono {v : List ℝ} (hne : v ≠ []) {q q' : ℝ} (h0 : 0 ≤ q) (h1 : q' ≤ 100) (hq : q ≤ q') :
    npPercentile v q ≤ npPercentile v q' := by
  have hn : 0 < v.length := List.length_pos_of_ne_nil hne
  obtain ⟨hp, hk⟩ := floor_pos hn h0 (hq.trans h1)
  obtain ⟨hp', hk'⟩ := floor_pos hn (h0.trans hq) h1
  have hn1 : (0 : ℝ) ≤ (v.length : ℝ) - 1 := by
    have : (1 : ℝ) ≤ v.length := by exact_mod_cast hn
    linarith
  have hpos : q / 100 * ((v.length : ℝ) - 1) ≤ q' / 100 * ((v.length : ℝ) - 1) :=
    mul_le_mul_of_nonneg_right (by linarith) hn1
  have hfl := Nat.floor_mono hpos
  rcases hfl.lt_or_eq with hlt | heq
  · refine (perc_between hne h0 (hq.trans h1)).2.trans (le_trans ?_ (perc_between hne (h0.trans hq) h1).1)
    exact sorted_get (by omega) (by omega)
  · have hs := sorted_get (v := v) (i := ⌊q' / 100 * ((v.length : ℝ) - 1)⌋₊)
      (j := min (⌊q' / 100 * ((v.length : ℝ) - 1)⌋₊ + 1) (v.length - 1)) (by omega) (by omega)
    unfold npPercentile
    simp only [heq]
    have := mul_le_mul_of_nonneg_left hpos (sub_nonneg.2 hs)
    linarith

private theorem perm_sort (v : List ℝ) : (v.insertionSort (· ≤ ·)).Perm v := List.perm_insertionSort _ _

/-- Percentiles outside [0, 100] are refused; inside, the value lies within the data, grows with the
percentile, and 0 and 100 give the smallest and the largest value. -/
theorem C44_find_at_percentile (o : PdfObj) (hf : none ∉ o.data) (hne : o.data ≠ []) :
    (∀ q, findAtPercentile o q = .error .valueError ↔ q < 0 ∨ 100 < q) ∧
    ∃ g : ℝ → ℝ, (∀ q, 0 ≤ q → q ≤ 100 → findAtPercentile o q = .ok (some (g q))) ∧
      (∀ q q', 0 ≤ q → q ≤ q' → q' ≤ 100 → g q ≤ g q') ∧
      IsLeast {x | some x ∈ o.data} (g 0) ∧ IsGreatest {x | some x ∈ o.data} (g 100) := by
  have hv : validVals o.data ≠ [] := by
    obtain ⟨y, ys, hy⟩ := List.exists_cons_of_ne_nil hne
    cases hyv : y with
    | none => exact absurd (by rw [hy, hyv]; simp) hf
    | some x => intro h; have := mem_validVals.2 (show some x ∈ o.data by rw [hy, hyv]; simp); rw [h] at this; simp at this
  have hn : 0 < (validVals o.data).length := List.length_pos_of_ne_nil hv
  have hn1 : ((validVals o.data).length : ℝ) - 1 = (((validVals o.data).length - 1 : ℕ) : ℝ) := by
    rw [Nat.cast_sub hn, Nat.cast_one]
  have hl : ((validVals o.data).insertionSort (· ≤ ·)).length = (validVals o.data).length :=
    List.length_insertionSort _ _
  have hmem : ∀ i < (validVals o.data).length,
      some (((validVals o.data).insertionSort (· ≤ ·)).getD i 0) ∈ o.data := by
    intro i hi
    apply mem_validVals.1
    rw [List.getD_eq_getElem _ _ (by omega)]
    exact (perm_sort _).mem_iff.1 (List.getElem_mem _)
  have hidx : ∀ x, some x ∈ o.data → ∃ i < (validVals o.data).length,
      ((validVals o.data).insertionSort (· ≤ ·)).getD i 0 = x := by
    intro x hx
    have := (perm_sort _).mem_iff.2 (mem_validVals.2 hx)
    obtain ⟨i, hi, he⟩ := List.getElem_of_mem this
    exact ⟨i, by omega, by rw [List.getD_eq_getElem _ _ hi, he]⟩
  refine ⟨?_, npPercentile (validVals o.data), ?_, ?_, ?_, ?_⟩
  · intro q
    unfold findAtPercentile
    rw [if_neg hne, if_neg hf]
    split_ifs with h
    · exact ⟨fun _ => h.symm, fun _ => rfl⟩
    · exact ⟨fun hh => (by cases hh), fun hh => absurd hh.symm h⟩
  · intro q h0 h1
    unfold findAtPercentile
    rw [if_neg (by push Not; exact ⟨h1, h0⟩), if_neg hne, if_neg hf]
  · intro q q' h0 hq h1
    exact perc_mono hv h0 h1 hq
  · have e0 : npPercentile (validVals o.data) 0 = ((validVals o.data).insertionSort (· ≤ ·)).getD 0 0 := by
      unfold npPercentile
      simp
    rw [e0]
    refine ⟨hmem 0 hn, ?_⟩
    intro x hx
    obtain ⟨i, hi, he⟩ := hidx x hx
    rw [← he]
    exact sorted_get (by omega) hi
  · have e1 : npPercentile (validVals o.data) 100 =
        ((validVals o.data).insertionSort (· ≤ ·)).getD ((validVals o.data).length - 1) 0 := by
      unfold npPercentile
      simp only
      rw [show (100 : ℝ) / 100 * (((validVals o.data).length : ℝ) - 1) =
        (((validVals o.data).length - 1 : ℕ) : ℝ) by rw [hn1]; ring, Nat.floor_natCast]
      simp
    rw [e1]
    refine ⟨hmem _ (by omega), ?_⟩
    intro x hx
    obtain ⟨i, hi, he⟩ := hidx x hx
    rw [← he]
    exact sorted_get (by omega) (by omega)

example : (none : Option ℝ) ∉ (⟨[some 1, some 2], none, none, none⟩ : PdfObj).data := by simp

end TS
