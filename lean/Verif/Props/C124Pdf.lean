import Verif.Props.C124Stat
import Verif.Model.Pdf

/-! C124: a periodic map shown over several periods. PDF and cumulative distribution. -/

namespace TS
open Finset

/-- Both runs fail with the same exception, or both succeed with related results. -/
private def Both {α β : Type} (R : α → β → Prop) : Py α → Py β → Prop
  | .ok a, .ok b => R a b
  | .error e, .error f => e = f
  | _, _ => False

private theorem Both.bind {α β γ δ : Type} {R : α → β → Prop} {S : γ → δ → Prop} {x : Py α} {y : Py β} {f : α → Py γ} {g : β → Py δ} (h : Both R x y)
    (hf : ∀ a b, R a b → Both S (f a) (g b)) : Both S (x >>= f) (y >>= g) := by
  cases x <;> cases y
  · exact h
  · exact h.elim
  · exact h.elim
  · exact hf _ _ h

private theorem Both.map_eq {α β γ : Type} {R : α → β → Prop} {x : Py α} {y : Py β} {f : α → γ} {g : β → γ} (h : Both R x y)
    (hf : ∀ a b, R a b → f a = g b) : x.map f = y.map g := by
  cases x <;> cases y
  · exact congrArg Except.error h
  · exact h.elim
  · exact h.elim
  · exact congrArg Except.ok (hf _ _ h)

private theorem ravel_length {α : Type} (a : Arr2 α) : a.ravel.length = a.n * a.m := by
  unfold Arr2.ravel
  simp

private theorem ravel_zip {α β : Type} (a : Arr2 α) (c : Arr2 β) (hn : c.n = a.n) (hm : c.m = a.m) :
    a.ravel.zip c.ravel = (⟨a.n, a.m, fun i j => (a.get i j, c.get i j)⟩ : Arr2 (α × β)).ravel := by
  unfold Arr2.ravel
  rw [hn, hm]
  simp only
  have gen : ∀ L : List ℕ, (L.flatMap fun i => (List.range a.m).map fun j => a.get i j).zip (L.flatMap fun i => (List.range a.m).map fun j => c.get i j) =
      L.flatMap fun i => (List.range a.m).map fun j => (a.get i j, c.get i j) := by
    intro L
    induction L with
    | nil => rfl
    | cons i L ih =>
      rw [List.flatMap_cons, List.flatMap_cons, List.flatMap_cons, List.zip_append (by simp), ih, List.zip_map']
  exact gen _

private theorem keep_tiled {p q : ℕ} (minVal : Option ℝ) (img : Arr2 (Option ℝ)) (w : Option (Arr2 (Option ℝ))) (hw : ∀ v ∈ w, v.n = img.n ∧ v.m = img.m) :
    Both (Copies (p * q)) (pdfKeep minVal (Spec.tiled p q img).ravel (w.map fun v => (Spec.tiled p q v).ravel)) (pdfKeep minVal img.ravel (w.map Arr2.ravel)) := by
  cases w with
  | none => exact (ravel_tiled (p := p) (q := q) (a := img) (A := Spec.tiled p q img) rfl rfl fun _ _ _ _ => rfl).filterMap _
  | some v =>
    obtain ⟨hn, hm⟩ := hw v rfl
    have hn' : (Spec.tiled p q v).n = (Spec.tiled p q img).n := by show p * v.n = p * img.n; rw [hn]
    have hm' : (Spec.tiled p q v).m = (Spec.tiled p q img).m := by show q * v.m = q * img.m; rw [hm]
    have h1 : (Spec.tiled p q v).ravel.length = (Spec.tiled p q img).ravel.length := by rw [ravel_length, ravel_length, hn', hm']
    have h2 : v.ravel.length = img.ravel.length := by rw [ravel_length, ravel_length, hn, hm]
    unfold pdfKeep
    simp only [Option.map_some]
    rw [if_neg (by simp [h1]), if_neg (by simp [h2]), ravel_zip _ _ hn' hm', ravel_zip _ _ hn hm]
    refine Copies.filterMap ?_ _
    refine ravel_tiled (p := p) (q := q) rfl rfl fun i _ j _ => ?_
    show (img.get (i % img.n) (j % img.m), v.get (i % v.n) (j % v.m)) = (img.get (i % img.n) (j % img.m), v.get (i % img.n) (j % img.m))
    rw [hn, hm]

private theorem norm_copies {k : ℕ} (hk : 0 < k) {X x : List (Option ℝ)} (h : Copies k X x) (t : String) :
    Both (Copies k) (dataNormalization X t) (dataNormalization x t) := by
  have e1 : nanmean X = nanmean x := h.valid.mean hk
  have e2 : nanmin X = nanmin x := h.valid.min hk
  have e3 : nanmax X = nanmax x := h.valid.max hk
  unfold dataNormalization
  split_ifs
  · exact h.standardize hk
  · unfold center
    rw [e1]
    exact h.map _
  · unfold normalize
    rw [e2, e3]
    exact h.map _
  · unfold normalizeByMean
    rw [e1]
    exact h.map _
  · rfl

private theorem density_copies {k : ℕ} (hk : 0 < k) {X x : List ℝ} (h : Copies k X x) (e : Arr1 ℝ) : histDensity e X = histDensity e x := by
  have hr : (k : ℝ) ≠ 0 := by exact_mod_cast hk.ne'
  have hn : (histCounts e X).n = (histCounts e x).n := rfl
  unfold histDensity
  simp only [hn, h.counts e]
  congr 1
  funext b
  rw [← mul_sum, Nat.cast_mul, Nat.cast_mul]
  by_cases hw : e.get (b + 1) - e.get b = 0
  · simp only [divO, hw, Option.bind_eq_bind, Option.bind_some, if_true, Option.bind_none]
  · rw [divO_some hw, divO_some hw, mul_div_assoc, divO_copies hr]

private theorem histogram_copies {k : ℕ} (hk : 0 < k) {X x : List (Option ℝ)} (h : Copies k X x) (b : BinsArg) : npHistogram X b = npHistogram x b := by
  cases b with
  | count n =>
    unfold npHistogram
    simp only [h.mem hk, h.valid.edges hk, density_copies hk h.valid]
  | edges e =>
    unfold npHistogram
    dsimp only
    rw [density_copies hk h.valid]

private theorem ecdf_copies {k : ℕ} (hk : 0 < k) {X x : List (Option ℝ)} (h : Copies k X x) (t : ℝ) : ecdfAt X t = ecdfAt x t := by
  have hr : (k : ℝ) ≠ 0 := by exact_mod_cast hk.ne'
  have h' : (X : Multiset (Option ℝ)) = k • (x : Multiset (Option ℝ)) := h
  have c := congrArg Multiset.card (congrArg (Multiset.filter fun v : Option ℝ => v.any (fun s => decide (s ≤ t)) = true) h')
  rw [Multiset.filter_nsmul, Multiset.card_nsmul, Multiset.filter_coe, Multiset.filter_coe, Multiset.coe_card, Multiset.coe_card] at c
  simp only [Bool.decide_eq_true] at c
  unfold ecdfAt
  rw [c, h.length, Nat.cast_mul, Nat.cast_mul, mul_div_mul_left _ _ hr]

/-- Two `PDF` objects that differ in the number of copies of the data only. -/
private def PdfSame (k : ℕ) (O o : PdfObj) : Prop := Copies k O.data o.data ∧ O.bins = o.bins ∧ O.pdf = o.pdf ∧ O.ecdf = o.ecdf

private theorem init_tiled {p q : ℕ} (hp : 0 < p) (hq : 0 < q) (minVal : Option ℝ) (bins : Option BinsArg) (norm : Option String) (img : Arr2 (Option ℝ))
    (w : Option (Arr2 (Option ℝ))) (hw : ∀ v ∈ w, v.n = img.n ∧ v.m = img.m) :
    Both (fun O o => PdfSame (p * q) O o ∧ o.bins = bins)
      (pdfInit (Spec.tiled p q img).ravel minVal bins (w.map fun v => (Spec.tiled p q v).ravel) norm) (pdfInit img.ravel minVal bins (w.map Arr2.ravel) norm) := by
  unfold pdfInit
  refine (keep_tiled minVal img w hw).bind fun X x h => ?_
  have fin : ∀ X x : List (Option ℝ), Copies (p * q) X x →
      Both (fun O o => PdfSame (p * q) O o ∧ o.bins = bins) (.ok ⟨X, bins, none, none⟩) (.ok ⟨x, bins, none, none⟩) := fun X x h => ⟨⟨h, rfl, rfl, rfl⟩, rfl⟩
  cases norm with
  | none => exact fin _ _ (h.map some)
  | some t => exact (norm_copies (Nat.mul_pos hp hq) (h.map some) t).bind fin

private theorem run_copies {k : ℕ} (hk : 0 < k) {O o : PdfObj} (h : PdfSame k O o) (bins : Option BinsArg) (hb : o.bins.isSome ∨ bins.isSome) :
    Both (fun O o => PdfSame k O o ∧ o.ecdf.isSome) (runPdf O bins) (runPdf o bins) := by
  obtain ⟨D, B, P, E⟩ := O
  obtain ⟨d, B', P', E'⟩ := o
  obtain ⟨h1, h2, h3, h4⟩ := h
  dsimp only at h1 h2 h3 h4 hb
  subst h2 h3 h4
  unfold runPdf
  refine Both.bind (R := fun O o => PdfSame k O o ∧ o.pdf.isSome) ?_ ?_
  · have key : ∀ b, Both (fun O o => PdfSame k O o ∧ o.pdf.isSome)
        (npHistogram D b >>= fun r => .ok { data := D, bins := some (.edges (binCentres r.1)), pdf := some r.2, ecdf := E })
        (npHistogram d b >>= fun r => .ok { data := d, bins := some (.edges (binCentres r.1)), pdf := some r.2, ecdf := E }) := by
      intro b
      rw [histogram_copies hk h1]
      cases npHistogram d b with
      | error e => rfl
      | ok r => exact ⟨⟨h1, rfl, rfl, rfl⟩, rfl⟩
    unfold makePdf
    cases bins with
    | some b => exact key b
    | none => cases B with
      | some b => exact key b
      | none => simp at hb
  · rintro ⟨D, B, P, E⟩ ⟨d, B', P', E'⟩ ⟨⟨h1, h2, h3, h4⟩, h5⟩
    dsimp only at h1 h2 h3 h4 h5
    subst h2 h3 h4
    obtain ⟨f, rfl⟩ := Option.isSome_iff_exists.1 h5
    refine ⟨⟨h1, rfl, rfl, ?_⟩, rfl⟩
    show some (Arr1.map (ecdfAt D) _) = some (Arr1.map (ecdfAt d) _)
    rw [funext (ecdf_copies hk h1)]
    rfl

/-- **PDF.** With given bins, their number or their edges, passed to the constructor or to `run`, the bins, densities and cumulative distribution of a repeated map
are those of one period, and so is the percentile of every value. This holds for every lower limit and normalisation, and with weights repeated with the
map. An exception is the same as well. -/
theorem C124_pdf {p q : ℕ} (hp : 0 < p) (hq : 0 < q) (minVal : Option ℝ) (bins bins' : Option BinsArg) (hb : bins.isSome ∨ bins'.isSome) (norm : Option String)
    (img : Arr2 (Option ℝ)) (w : Option (Arr2 (Option ℝ))) (hw : ∀ v ∈ w, v.n = img.n ∧ v.m = img.m) :
    (do let o ← pdfInit (Spec.tiled p q img).ravel minVal bins (w.map fun v => (Spec.tiled p q v).ravel) norm
        runPdf o bins').map (fun o : PdfObj => (o.bins, o.pdf, o.ecdf)) =
      (do let o ← pdfInit img.ravel minVal bins (w.map Arr2.ravel) norm
          runPdf o bins').map (fun o : PdfObj => (o.bins, o.pdf, o.ecdf)) ∧
    ∀ x : ℝ, (do let o ← pdfInit (Spec.tiled p q img).ravel minVal bins (w.map fun v => (Spec.tiled p q v).ravel) norm
                 let o ← runPdf o bins'
                 findPercentile o x) =
      (do let o ← pdfInit img.ravel minVal bins (w.map Arr2.ravel) norm
          let o ← runPdf o bins'
          findPercentile o x) := by
  have hk := Nat.mul_pos hp hq
  have run := (init_tiled hp hq minVal bins norm img w hw).bind (f := fun o => runPdf o bins') (g := fun o => runPdf o bins') fun O o h =>
    run_copies hk h.1 bins' (by rw [h.2]; exact hb)
  refine ⟨run.map_eq fun O o h => by rw [h.1.2.1, h.1.2.2.1, h.1.2.2.2], fun x => ?_⟩
  have fin := run.bind (f := fun o => findPercentile o x) (g := fun o => findPercentile o x) (S := Eq) ?_
  · rw [← bind_assoc, ← bind_assoc]
    have := fin.map_eq (f := id) (g := id) fun _ _ h => h
    simpa only [Except.map_id, id] using this
  · rintro ⟨D, B, P, E⟩ ⟨d, B', P', E'⟩ ⟨⟨h1, h2, h3, h4⟩, h5⟩
    dsimp only at h1 h2 h3 h4 h5
    subst h2 h3 h4
    obtain ⟨f, rfl⟩ := Option.isSome_iff_exists.1 h5
    show ecdfAt D x * 100 = ecdfAt d x * 100
    rw [ecdf_copies hk h1]

/-- **Histograms of the moment maps.** With periodic boundaries and given bins the histograms of the mean, variance, skewness and kurtosis of a repeated image are
those of one period. -/
theorem C124_moment_histograms {p q : ℕ} (hp : 0 < p) (hq : 0 < q) (junkI junkW junkI' junkW' : ℕ → ℕ → Option ℝ) (minFrac rad : ℝ) (img wgt : Arr2 (Option ℝ))
    (hw : wgt.n = img.n ∧ wgt.m = img.m) (hrad : 0 < rad) (hf : 0 < minFrac ∧ minFrac ≤ 1) :
    ∃ res res', spatialDistrib junkI junkW true minFrac rad img wgt = .ok res ∧
      spatialDistrib junkI' junkW' true minFrac rad (Spec.tiled p q img) (Spec.tiled p q wgt) = .ok res' ∧
      ∀ (f : MomentSet → Option ℝ) (bins : BinsArg), momentHist (res'.map f).ravel bins = momentHist (res.map f).ravel bins := by
  obtain ⟨res, res', e, e', hn, hm, hs⟩ := C124_moments hp hq junkI junkW junkI' junkW' minFrac rad img wgt hw hrad hf
  refine ⟨res, res', e, e', fun f bins => ?_⟩
  have hk := Nat.mul_pos hp hq
  have c : Copies (p * q) (res'.map f).ravel (res.map f).ravel := ravel_tiled hn hm fun i hi j hj => congrArg f (hs i hi j hj)
  unfold momentHist
  cases bins with
  | count k => simp only [c.valid.edges hk, density_copies hk c.valid]
  | edges e => simp only [density_copies hk c.valid]

/-- The value at a percentile changes, because `find_at_percentile` interpolates between neighbouring data: for the row 0, 2 the lower quartile is 1/2, and 0
when the row is shown twice. -/
theorem C124_percentile_violated : ∃ img : Arr2 (Option ℝ),
    (pdfInit img.ravel none none none none >>= fun o => findAtPercentile o 25) = .ok (some (1 / 2)) ∧
    (pdfInit (Spec.tiled 1 2 img).ravel none none none none >>= fun o => findAtPercentile o 25) = .ok (some 0) := by
  refine ⟨⟨1, 2, fun _ j => some (if j = 0 then 0 else 2)⟩, ?_, ?_⟩
  · have hd : (⟨1, 2, fun _ j => some (if j = 0 then 0 else 2)⟩ : Arr2 (Option ℝ)).ravel = [some 0, some 2] := by
      simp [Arr2.ravel, List.range_succ]
    have hk : pdfKeep none [some (0 : ℝ), some 2] none = .ok [0, 2] := by simp [pdfKeep, aboveMin]
    rw [hd]
    unfold pdfInit
    rw [hk]
    show findAtPercentile ⟨[some 0, some 2], none, none, none⟩ 25 = _
    have hs : List.insertionSort (· ≤ ·) [(0 : ℝ), 2] = [0, 2] := by simp [List.insertionSort, List.orderedInsert]
    have hf : ⌊(1 / 4 : ℝ)⌋₊ = 0 := Nat.floor_eq_zero.2 (by norm_num)
    have hp : npPercentile [0, 2] 25 = 1 / 2 := by
      unfold npPercentile
      simp only [hs, List.length_cons, List.length_nil]
      norm_num
      rw [hf]
      norm_num
    simp [findAtPercentile, validVals, hp]
    norm_num
  · have hd : (Spec.tiled 1 2 ⟨1, 2, fun _ j => some (if j = 0 then 0 else 2)⟩ : Arr2 (Option ℝ)).ravel = [some 0, some 2, some 0, some 2] := by
      simp [Arr2.ravel, List.range_succ, Spec.tiled]
    have hk : pdfKeep none [some (0 : ℝ), some 2, some 0, some 2] none = .ok [0, 2, 0, 2] := by simp [pdfKeep, aboveMin]
    rw [hd]
    unfold pdfInit
    rw [hk]
    show findAtPercentile ⟨[some 0, some 2, some 0, some 2], none, none, none⟩ 25 = _
    have hs : List.insertionSort (· ≤ ·) [(0 : ℝ), 2, 0, 2] = [0, 0, 2, 2] := by
      norm_num [List.insertionSort, List.orderedInsert]
    have hp : npPercentile [0, 2, 0, 2] 25 = 0 := by
      have hf : ⌊(3 / 4 : ℝ)⌋₊ = 0 := Nat.floor_eq_zero.2 (by norm_num)
      unfold npPercentile
      simp only [hs, List.length_cons, List.length_nil]
      norm_num
      simp [hf]
    simp [findAtPercentile, validVals, hp]
    norm_num

/-- The hypotheses can be met, and the runs succeed: the row 0, 2 with four bins. -/
example : ∃ o : PdfObj, (pdfInit (⟨1, 2, fun _ j => some (if j = 0 then 0 else 2)⟩ : Arr2 (Option ℝ)).ravel none none none none >>=
    fun o => runPdf o (some (.count 4))) = .ok o ∧ o.pdf.isSome := by
  obtain ⟨e, he, -⟩ := histEdges_spec (nb := 4) (by norm_num) [0, 2]
  have hd : (⟨1, 2, fun _ j => some (if j = 0 then 0 else 2)⟩ : Arr2 (Option ℝ)).ravel = [some 0, some 2] := by
    simp [Arr2.ravel, List.range_succ]
  have hk : pdfKeep none [some (0 : ℝ), some 2] none = .ok [0, 2] := by simp [pdfKeep, aboveMin]
  have hh : npHistogram [some (0 : ℝ), some 2] (.count 4) = .ok (e, histDensity e [0, 2]) := by
    unfold npHistogram
    simp [validVals, he, Except.map]
  refine ⟨⟨[some 0, some 2], some (.edges (binCentres e)), some (histDensity e [0, 2]), some ((binCentres e).map (ecdfAt [some 0, some 2]))⟩, ?_, rfl⟩
  rw [hd]
  unfold pdfInit
  rw [hk]
  show runPdf ⟨[some 0, some 2], none, none, none⟩ (some (.count 4)) = _
  unfold runPdf makePdf
  simp only [hh]
  rfl

end TS
