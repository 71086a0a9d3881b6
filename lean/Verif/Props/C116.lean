import Mathlib.Data.List.TakeWhile
import Verif.Model.DistanceFigures
import Verif.Props.C24
import Verif.Props.C25
import Verif.Props.C27
import Verif.Props.C35
import Verif.Props.C46
import Verif.Props.C67
import Verif.Props.C79
import Verif.Props.C85
import Verif.Props.C88
import Verif.Props.C89
import Verif.Props.C96

/-! C116 — the figure of a distance shows what was compared. -/

namespace TS
open Finset

namespace Spec

/-- The panel at a place of a figure. -/
def panelAt (fig : List FigPanel) (place : ℕ) : Option FigPanel := fig.find? fun p => p.place == place

/-- The images of a panel with the limits of their colours as given. -/
def imagesIn (p : FigPanel) : List (Arr2 (Option ℝ) × Option ℝ × Option ℝ) :=
  p.marks.filterMap fun m => match m with
    | .image a lo hi => some (a, lo, hi)
    | _ => none

/-- The curves (or sets of points) of a panel, with their colours. -/
def curvesIn (p : FigPanel) : List (String × List (Option ℝ × Option ℝ)) :=
  p.marks.filterMap fun m => match m with
    | .line c _ l => some (c, l)
    | _ => none

/-- The sets of bars of a panel: colour, width, and centre and height of each bar. -/
def barsIn (p : FigPanel) : List (String × Option ℝ × List (Option ℝ × Option ℝ)) :=
  p.marks.filterMap fun m => match m with
    | .bars c w l => some (c, w, l)
    | _ => none

/-- The points with errors of a panel. -/
def errorsIn (p : FigPanel) : List (String × List (ℝ × Option ℝ × Option ℝ)) :=
  p.marks.filterMap fun m => match m with
    | .points c _ l => some (c, l)
    | _ => none

/-- The Hellinger sum of two lists of heights, NaN left out: `Σ (√a - √b)²`. -/
noncomputable def rootDiff (a b : List (Option ℝ)) : ℝ :=
  ((a.zip b).map fun t => match t with
    | (some x, some y) => if 0 ≤ x ∧ 0 ≤ y then (Real.sqrt x - Real.sqrt y) ^ 2 else 0
    | _ => 0).sum

/-- What the values are after a normalisation: deviations from the mean over the standard deviation, deviations from the mean, fractions of
the mean; the intensities themselves otherwise. -/
def pdfAbscissa (norm : Option String) : String :=
  if norm = some "standardize" then "z-score" else if norm = some "center" then "I - mean(I)"
  else if norm = some "normalize_by_mean" then "I / mean(I)" else "Intensity"

end Spec
open Spec

/-! ### bispectrum -/

/-- **C116 (bispectrum).** Two panels side by side, titled with the labels or with 1 and 2, in the colour map asked for
from 0 to 1.  For
complete surfaces of one shape the two distances are the root of the sum of the squared differences of the two images drawn, and the
difference of their means. -/
theorem C116_bispec (n m : ℕ) (hn : 0 < n) (hm : 0 < m) (f g : ℕ → ℕ → ℝ) (l1 l2 : Option String) (cmap : String) :
    ∃ p q s t, bispecFigure (surfOf n m f) (surfOf n m g) l1 l2 cmap = [p, q] ∧ p.cmap = some cmap ∧ q.cmap = some cmap ∧ (p.rows, p.cols, p.place) = (1, 2, 1) ∧
      (q.rows, q.cols, q.place) = (1, 2, 2) ∧ p.title = some (l1.getD "1") ∧ q.title = some (l2.getD "2") ∧
      imagesIn p = [(s, some 0, some 1)] ∧ imagesIn q = [(t, some 0, some 1)] ∧ s = surfOf n m f ∧ t = surfOf n m g ∧
      (bispecDistance (surfOf n m f) (surfOf n m g)).surface =
        some (Real.sqrt (∑ i ∈ range n, ∑ j ∈ range m, ((s.get i j).getD 0 - (t.get i j).getD 0) ^ 2)) ∧
      (bispecDistance (surfOf n m f) (surfOf n m g)).mean =
        some |(∑ i ∈ range n, ∑ j ∈ range m, (s.get i j).getD 0) / (n * m) - (∑ i ∈ range n, ∑ j ∈ range m, (t.get i j).getD 0) / (n * m)| := by
  refine ⟨_, _, _, _, rfl, rfl, rfl, rfl, rfl, rfl, rfl, rfl, rfl, rfl, rfl, ?_, ?_⟩
  · rw [C67_value n m hn hm]; rfl
  · rw [C67_value n m hn hm]; rfl

/-- **C116 (bispectrum, colours).** No number of a computed bicoherence is cut off by the colour scale. -/
theorem C116_bispec_range (img1 img2 : Arr2 ℝ) (ms1 ms2 : Bool) (dr1 dr2 : ℕ → ℕ → List (ℝ × ℝ)) (o1 o2 : BispecOut)
    (h1 : computeBispectrum img1 ms1 dr1 = .ok o1) (h2 : computeBispectrum img2 ms2 dr2 = .ok o2) (l1 l2 : Option String) :
    ∀ p ∈ bispecFigure o1.bicoherence o2.bicoherence l1 l2, ∀ im ∈ imagesIn p, ∃ lo hi, im.2 = (some lo, some hi) ∧
      ∀ i j v, im.1.get i j = some v → lo ≤ v ∧ v ≤ hi := by
  intro p hp im him
  simp only [bispecFigure, List.mem_cons, List.not_mem_nil, or_false] at hp
  rcases hp with rfl | rfl
  · simp only [imagesIn, List.filterMap_cons, List.filterMap_nil, List.mem_singleton] at him
    subst him
    exact ⟨0, 1, rfl, fun i j v hv => C46_range img1 ms1 dr1 o1 h1 i j v hv⟩
  · simp only [imagesIn, List.filterMap_cons, List.filterMap_nil, List.mem_singleton] at him
    subst him
    exact ⟨0, 1, rfl, fun i j v hv => C46_range img2 ms2 dr2 o2 h2 i j v hv⟩

/-- **C116 (bispectrum, axes).** The axes are labelled the wrong way round: the horizontal axis is labelled k_1 and the vertical one
k_2, but the number drawn in column `x` of row `y` is the bicoherence of the triangles with k_1 of length `y` and k_2 of length `x`; the
axis labelled k_1 has as many columns as there are lengths of k_2. -/
theorem C116_bispec_axes_violated (img : Arr2 ℝ) (ms : Bool) (draws : ℕ → ℕ → List (ℝ × ℝ)) (o : BispecOut)
    (h : computeBispectrum img ms draws = .ok o) (b : Arr2 (Option ℝ)) (l1 l2 : Option String) :
    ∃ p s, panelAt (bispecFigure o.bicoherence b l1 l2) 1 = some p ∧ imagesIn p = [(s, some 0, some 1)] ∧
      p.xlabel = some "k_1" ∧ p.ylabel = some "k_2" ∧ s.n = img.n / 2 ∧ s.m = img.m / 2 ∧
      ∀ y < img.n / 2, ∀ x < img.m / 2, ∃ samples, bispecSamples (bispecFft img ms) y x (draws y x) = .ok samples ∧
        s.get y x = bicohOf samples := by
  unfold computeBispectrum at h
  simp only at h
  split_ifs at h with hc
  cases h
  refine ⟨_, _, rfl, rfl, rfl, rfl, rfl, rfl, ?_⟩
  intro y hy x hx
  cases e : bispecSamples (bispecFft img ms) y x (draws y x) with
  | error er => exact absurd ⟨y, hy, x, hx, er, e⟩ hc
  | ok l =>
    refine ⟨l, rfl, ?_⟩
    simp only [e]

/-- A 4×2 image: two lengths of k_1, one of k_2; the axis labelled k_1 has one column. -/
example : ∃ o, computeBispectrum ⟨4, 2, fun i _ => (i : ℝ)⟩ false (fun _ _ => [(0, 0)]) = .ok o := by
  unfold computeBispectrum
  simp only
  rw [if_neg]
  · exact ⟨_, rfl⟩
  · rintro ⟨k1, h1, k2, h2, e, he⟩
    have hk2 : k2 = 0 := by omega
    subst hk2
    have tri : triangle k1 0 (0, 0) = ⟨((k1 : ℤ), 0), (0, 0), ((k1 : ℤ), 0)⟩ := by
      have p0 : pyInt 0 = 0 := by simp [pyInt]
      have pk : pyInt (k1 : ℝ) = k1 := by
        unfold pyInt; rw [if_pos (by positivity)]; exact Int.floor_natCast k1
      simp [triangle, p0, pk]
    have a1 : npIdx 4 ((k1 : ℕ) : ℤ) = .ok k1 := by
      rw [npIdx_ok (by constructor <;> omega)]; congr 1; omega
    have a2 : npIdx 2 (0 : ℤ) = .ok 0 := npIdx_ok (by norm_num)
    have a3 : npIdx 4 (0 : ℤ) = .ok 0 := npIdx_ok (by norm_num)
    simp only [bispecSamples, List.mapM_cons, List.mapM_nil, tri, bispecSample, fftAt, bispecFft, a1, a2, a3, bind, Except.bind, pure,
      Except.pure] at he
    cases he

/-! ### genus -/

/-- **C116 (genus).** When there is a distance, its figure has four curves: the genus of each image per area at its own thresholds,
and the two splines, drawn at the same places, as many as there are thresholds (one less when their number is odd).  The distance is the root of the sum of the squared vertical distances of the last two.  Each pair is in the colour of its
image. -/
theorem C116_genus {spl : Spline} {s : ℝ} {g1 g2 : GenusCurve} {d : ℝ} (h : genusDist spl s g1 g2 = .ok d) (l1 l2 : Option String)
    (c1 c2 : String) :
    ∃ (p : FigPanel) (x y1 y2 : ℕ → ℝ) (n : ℕ), genusFigure spl s g1 g2 l1 l2 c1 c2 = .ok p ∧ n = 2 * ((g1.thr.n + g2.thr.n) / 2) ∧
      curvesIn p = [(c1, drawnPts (((List.range g1.thr.n).map g1.thr.get).zip (g1.vals.map fun v : ℤ => (v : ℝ) / ((g1.size : ℝ) / s)))),
        (c2, drawnPts (((List.range g2.thr.n).map g2.thr.get).zip (g2.vals.map fun v : ℤ => (v : ℝ) / (g2.size : ℝ)))),
        (c1, (List.range n).map fun k => (some (x k), some (y1 k))), (c2, (List.range n).map fun k => (some (x k), some (y2 k)))] ∧
      d = Real.sqrt (∑ k ∈ range n, (y1 k - y2 k) ^ 2) := by
  simp only [genusDist, bind, Except.bind, pure, Except.pure] at h
  split at h
  · cases h
  rename_i p hp
  split at h
  · cases h
  rename_i f1 h1
  split at h
  · cases h
  rename_i f2 h2
  cases h
  have hn : p.n = 2 * ((g1.thr.n + g2.thr.n) / 2) := by
    simp only [genusPoints, bind, Except.bind, pure, Except.pure] at hp
    split at hp
    · cases hp
    split at hp
    · cases hp
    split at hp
    · cases hp
    split at hp
    · cases hp
    cases hp
    rfl
  cases hq : genusFigure spl s g1 g2 l1 l2 c1 c2 with
  | error e => simp only [genusFigure, hp, h1, h2, bind, Except.bind, pure, Except.pure] at hq; cases hq
  | ok q =>
    refine ⟨q, p.get, fun k => f1 (p.get k), fun k => f2 (p.get k), p.n, rfl, hn, ?_, rfl⟩
    simp only [genusFigure, hp, h1, h2, bind, Except.bind, pure, Except.pure, Except.ok.injEq] at hq
    subst hq
    simp [curvesIn, GenusCurve.perArea, drawnPts, Function.comp_def]

/-- **C116 (genus, spline).** With an interpolating spline routine the third curve goes through the points of the first: where a drawn
point of the first curve has the abscissa of a point of the third curve, the ordinates agree. -/
theorem C116_genus_through {spl : Spline} (hs : Spec.Interpolates spl) {s : ℝ} {g1 g2 : GenusCurve} {p : FigPanel} {c1 c2 : String}
    {l1 l2 : Option String} (hl : g1.vals.length = g1.thr.n) (h4 : 4 ≤ g1.thr.n) (hinc : ((List.range g1.thr.n).map g1.thr.get).Pairwise (· < ·))
    (h : genusFigure spl s g1 g2 l1 l2 c1 c2 = .ok p) (a b c e : String × List (Option ℝ × Option ℝ)) (hc : curvesIn p = [a, b, c, e])
    (x y y' : ℝ) (hy : (some x, some y) ∈ a.2) (hy' : (some x, some y') ∈ c.2) : y = y' := by
  simp only [genusFigure, bind, Except.bind, pure, Except.pure] at h
  split at h
  · cases h
  rename_i q hq
  split at h
  · cases h
  rename_i f1 h1
  split at h
  · cases h
  rename_i f2 h2
  cases h
  simp only [curvesIn, List.filterMap_cons, List.filterMap_nil, List.cons.injEq] at hc
  obtain ⟨rfl, rfl, rfl, rfl, -⟩ := hc
  obtain ⟨f, hf, hpt⟩ := hs.accepts _ (g1.perArea ((g1.size : ℝ) / s)) (by simp [GenusCurve.perArea, hl]) (by simpa using h4) hinc
  rw [h1] at hf
  cases hf
  simp only [drawnPts, List.mem_map, Prod.mk.injEq, Option.some.injEq] at hy hy'
  obtain ⟨⟨u, v⟩, huv, rfl, rfl⟩ := hy
  obtain ⟨⟨u', v'⟩, ⟨k', -, hk'⟩, hu', hv'⟩ := hy'
  simp only [Prod.mk.injEq] at hk' hu' hv'
  obtain ⟨k, hk, he⟩ := List.getElem_of_mem huv
  simp only [List.getElem_zip, Prod.mk.injEq] at he
  have := hpt k (by simp at hk; simpa using hk.1) (by simp at hk; simpa using hk.2)
  rw [he.1, he.2] at this
  rw [← this, ← hv', ← hk'.2, hk'.1]
  simp only at hu' ⊢
  rw [hu']

/-- **C116 (genus, legend).** Nothing tells the images apart when no labels are given: the legend is empty. -/
theorem C116_genus_legend_violated {spl : Spline} {s : ℝ} {g1 g2 : GenusCurve} {p : FigPanel} {c1 c2 : String}
    (h : genusFigure spl s g1 g2 none none c1 c2 = .ok p) : legend p = [] := by
  simp only [genusFigure, bind, Except.bind, pure, Except.pure] at h
  split at h
  · cases h
  split at h
  · cases h
  split at h
  · cases h
  cases h
  rfl

/-- With labels it names each image once, in its colour. -/
theorem C116_genus_legend {spl : Spline} {s : ℝ} {g1 g2 : GenusCurve} {p : FigPanel} {c1 c2 l1 l2 : String}
    (h : genusFigure spl s g1 g2 (some l1) (some l2) c1 c2 = .ok p) : legend p = [(c1, l1), (c2, l2)] := by
  simp only [genusFigure, bind, Except.bind, pure, Except.pure] at h
  split at h
  · cases h
  split at h
  · cases h
  split at h
  · cases h
  cases h
  rfl

/-- Non-vacuity: two curves with four thresholds each, on different pixel scales. -/
example : ∃ d, genusDist polySpline (1 / 2) ⟨linspace 0 3 4, [1, 2, 0, -1], 16⟩ ⟨linspace 0 3 4, [1, 2, 0, -1], 64⟩ = .ok d ∧ d ≠ 0 :=
  C85_area_violated polySpline_interpolates (by norm_num) (le_refl 4) rfl (by norm_num) (by norm_num) (by norm_num) (by norm_num) (by norm_num)
    (by norm_num) (by norm_num)

/-! ### dendrograms -/

/-- **C116 (feature numbers).** The figure shows the fitted points of each dataset and the fitted line; the slope between any two points of
the line drawn for a dataset is the slope the distance uses: for two points of each line the distance is the difference of the slopes
read off, over the root of the sum of the squared errors. -/
theorem C116_num (fv1 fv2 : List (ℝ × ℝ)) (f1 f2 : SlopeFit) (a1 a2 : ℝ) (s1 s2 : Style) (hv : f1.err ^ 2 + f2.err ^ 2 ≠ 0) :
    ∃ P1 L1 P2 L2, curvesIn (numFigure fv1 fv2 a1 f1.slope a2 f2.slope s1 s2) =
        [(s1.color, P1), (s1.color, L1), (s2.color, P2), (s2.color, L2)] ∧ P1 = drawnPts fv1 ∧ P2 = drawnPts fv2 ∧
      L1.map Prod.fst = P1.map Prod.fst ∧ L2.map Prod.fst = P2.map Prod.fst ∧
      (∀ x y, (some x, some y) ∈ L1 → y = a1 + f1.slope * x) ∧ (∀ x y, (some x, some y) ∈ L2 → y = a2 + f2.slope * x) ∧
      legend (numFigure fv1 fv2 a1 f1.slope a2 f2.slope s1 s2) = [(s1.color, s1.label), (s2.color, s2.label)] ∧
      ∀ x x' y y' u u' v v', (some x, some y) ∈ L1 → (some x', some y') ∈ L1 → x ≠ x' → (some u, some v) ∈ L2 → (some u', some v') ∈ L2 → u ≠ u' →
        numfeatureDistance f1 f2 = some (|(y' - y) / (x' - x) - (v' - v) / (u' - u)| / Real.sqrt (f1.err ^ 2 + f2.err ^ 2)) := by
  refine ⟨_, _, _, _, rfl, rfl, rfl, ?_, ?_, ?_, ?_, rfl, ?_⟩
  · simp [drawnPts, Function.comp_def]
  · simp [drawnPts, Function.comp_def]
  · intro x y h
    simp only [drawnPts, List.map_map, List.mem_map, Function.comp_apply, Prod.mk.injEq, Option.some.injEq] at h
    obtain ⟨p, -, rfl, rfl⟩ := h
    rfl
  · intro x y h
    simp only [drawnPts, List.map_map, List.mem_map, Function.comp_apply, Prod.mk.injEq, Option.some.injEq] at h
    obtain ⟨p, -, rfl, rfl⟩ := h
    rfl
  · intro x x' y y' u u' v v' h1 h2 hx h3 h4 hu
    have slope : ∀ (fv : List (ℝ × ℝ)) (a b x y x' y' : ℝ), (some x, some y) ∈ drawnPts (fv.map fun p => (p.1, a + b * p.1)) →
        (some x', some y') ∈ drawnPts (fv.map fun p => (p.1, a + b * p.1)) → x ≠ x' → (y' - y) / (x' - x) = b := by
      intro fv a b x y x' y' ha hb hne
      simp only [drawnPts, List.map_map, List.mem_map, Function.comp_apply, Prod.mk.injEq, Option.some.injEq] at ha hb
      obtain ⟨p, -, rfl, rfl⟩ := ha
      obtain ⟨q, -, rfl, rfl⟩ := hb
      rw [div_eq_iff (sub_ne_zero.2 (Ne.symm hne))]
      ring
    rw [slope fv1 a1 f1.slope x y x' y' h1 h2 hx, slope fv2 a2 f2.slope u v u' v' h3 h4 hu]
    unfold numfeatureDistance quotAbs
    rw [if_neg hv]

/-- Non-vacuity: two fitted points on different abscissae in each line, an error that is not zero. -/
example : ((some 0, some 1) : Option ℝ × Option ℝ) ∈ drawnPts ([(0, 1), (1, 3)] : List (ℝ × ℝ)) ∧ (1 : ℝ) ^ 2 + 0 ^ 2 ≠ 0 := by
  constructor
  · simp [drawnPts]
  · norm_num

private theorem mapM_inv {α β : Type} (f : α → Py β) (l : List α) (r : List β) (h : l.mapM f = .ok r) :
    r.length = l.length ∧ ∀ i (hi : i < l.length) (hr : i < r.length), f l[i] = .ok r[i] := by
  induction l generalizing r with
  | nil => cases h; simp
  | cons a l ih =>
    rw [List.mapM_cons] at h
    cases ha : f a with
    | error e => rw [ha] at h; cases h
    | ok b =>
      cases hl : l.mapM f with
      | error e => rw [ha, hl] at h; cases h
      | ok bs =>
        rw [ha, hl] at h
        cases h
        obtain ⟨h1, h2⟩ := ih bs hl
        refine ⟨by simp [h1], ?_⟩
        intro i hi hr
        cases i with
        | zero => simpa using ha
        | succ i => simpa using h2 i (by simpa using hi) (by simpa using hr)

private theorem mapM_ok' {α β : Type} (f : α → Py β) (g : α → β) (l : List α) (h : ∀ a ∈ l, f a = .ok (g a)) : l.mapM f = .ok (l.map g) := by
  induction l with
  | nil => rfl
  | cons a l ih =>
    rw [List.mapM_cons, h a (by simp), ih (fun b hb => h b (by simp [hb]))]
    rfl

private theorem stat_shape {o r : DendroDist} {H : DendroHist} (h : histogramStat o = .ok r) (hH : r.hist = some H) :
    ∃ nb, r.nbins = .perRow nb ∧ H.h1.n = nb.length ∧ H.h1.m = nb.foldr max 0 ∧ H.ecdf1 = mecdf H.h1 ∧ H.ecdf2 = mecdf H.h2 ∧
      ∀ i e, H.bins[i]? = some (some e) → e.n = nb.getD i 0 + 1 := by
  simp only [histogramStat, bind, Except.bind, pure, Except.pure] at h
  split at h
  · cases h
  rename_i nb hnb
  split_ifs at h
  split at h
  · cases h
  rename_i bins hbins
  split at h
  · cases h
  rename_i d hd
  cases h
  cases hH
  refine ⟨nb, rfl, rfl, rfl, rfl, rfl, ?_⟩
  intro i e he
  obtain ⟨hl, hi⟩ := mapM_inv _ _ _ hbins
  obtain ⟨hlt, hget⟩ := List.getElem?_eq_some_iff.1 he
  have := hi i (hl ▸ hlt) hlt
  rw [hget, List.getElem_range] at this
  unfold zBins at this
  split_ifs at this
  simp only [Except.ok.injEq] at this
  split at this
  · cases this; rfl
  · cases this

private theorem hist_panels {r : DendroDist} {nb : List ℕ} {H : DendroHist} (s1 s2 : Style) (h1 : r.nbins = .perRow nb) (h2 : r.hist = some H)
    {m1 m2 : List Mark} (b1 : barMarks s1.color H.bins nb H.h1 = .ok m1) (b2 : barMarks s2.color H.bins nb H.h2 = .ok m2) :
    ∃ fig p3 p4, dendroHistFigure r s1 s2 = .ok fig ∧ panelAt fig 3 = some p3 ∧ panelAt fig 4 = some p4 ∧ p3.marks = m1 ∧ p4.marks = m2 := by
  simp only [dendroHistFigure, h1, h2, b1, b2, bind, Except.bind, pure, Except.pure]
  exact ⟨_, _, _, rfl, rfl, rfl, rfl, rfl⟩

private theorem filter_marks (f : ℕ → Mark) (g : Mark → Option (String × Option ℝ × List (Option ℝ × Option ℝ)))
    (k : ℕ → String × Option ℝ × List (Option ℝ × Option ℝ)) (h : ∀ i, g (f i) = some (k i)) (n : ℕ) :
    ((List.range n).map f).filterMap g = (List.range n).map k := by
  induction (List.range n) with
  | nil => rfl
  | cons a l ih => simp [h, ih]

private theorem getD_le_max (l : List ℕ) (i : ℕ) : l.getD i 0 ≤ l.foldr max 0 := by
  induction l generalizing i with
  | nil => simp
  | cons a l ih =>
    cases i with
    | zero => simp
    | succ i => simpa using le_trans (ih i) (le_max_right _ _)

private theorem max_le_of (l : List ℕ) (m : ℕ) (h : ∀ i < l.length, l.getD i 0 ≤ m) : l.foldr max 0 ≤ m := by
  induction l with
  | nil => simp
  | cons a l ih =>
    simp only [List.foldr_cons]
    exact max_le (by simpa using h 0 (by simp)) (ih fun i hi => by simpa using h (i + 1) (by simpa using hi))

private theorem hist_curves {r : DendroDist} {nb : List ℕ} {H : DendroHist} (s1 s2 : Style) (h1 : r.nbins = .perRow nb) (h2 : r.hist = some H)
    {fig : List FigPanel} (hf : dendroHistFigure r s1 s2 = .ok fig) :
    ∃ p1 p2, panelAt fig 1 = some p1 ∧ panelAt fig 2 = some p2 ∧ p1.marks = ecdfMarks s1.color H.bins nb H.ecdf1 ∧
      p2.marks = ecdfMarks s2.color H.bins nb H.ecdf2 := by
  simp only [dendroHistFigure, h1, h2, bind, Except.bind, pure, Except.pure] at hf
  split at hf
  · cases hf
  split at hf
  · cases hf
  simp only [Except.ok.injEq] at hf
  subst hf
  exact ⟨_, _, rfl, rfl, rfl, rfl⟩

private theorem filter_lines (f : ℕ → Mark) (g : Mark → Option (String × List (Option ℝ × Option ℝ)))
    (k : ℕ → String × List (Option ℝ × Option ℝ)) (h : ∀ i, g (f i) = some (k i)) (n : ℕ) :
    ((List.range n).map f).filterMap g = (List.range n).map k := by
  induction (List.range n) with
  | nil => rfl
  | cons a l ih => simp [h, ih]

private theorem hist_core (d1 d2 : DendroData) (b : DendroBins) (hb : b = .best ∨ ∃ k, 1 ≤ k ∧ b = .count k) (mf : ℕ)
    (o : DendroDist) (h : dendroDistInit d1 d2 b mf = .ok o) (hl1 : d1.num = d1.values.map List.length)
    (hl2 : d2.num = d2.values.map List.length) (hv1 : ∀ i < o.cutoff, Varied (d1.values.getD i []))
    (hv2 : ∀ i < o.cutoff, Varied (d2.values.getD i [])) (s1 s2 : Style) :
    ∃ (r : DendroDist) (H : DendroHist) (fig : List FigPanel) (p1 p3 p4 : FigPanel) (e : ℕ → Arr1 ℝ) (nb : ℕ → ℕ) (z1 z2 : ℕ → List ℝ),
      histogramStat o = .ok r ∧ r.hist = some H ∧ dendroHistFigure r s1 s2 = .ok fig ∧
      panelAt fig 1 = some p1 ∧ panelAt fig 3 = some p3 ∧ panelAt fig 4 = some p4 ∧
      barsIn p3 = (List.range o.cutoff).map (fun i => (s1.color, some ((e i).get 1 - (e i).get 0),
        (List.range (nb i)).map fun k => (some (((e i).get k + (e i).get (k + 1)) / 2), some (share (e i) (z1 i) k)))) ∧
      barsIn p4 = (List.range o.cutoff).map (fun i => (s2.color, some ((e i).get 1 - (e i).get 0),
        (List.range (nb i)).map fun k => (some (((e i).get k + (e i).get (k + 1)) / 2), some (share (e i) (z2 i) k)))) ∧
      curvesIn p1 = (List.range o.cutoff).map (fun i => (s1.color,
        (List.range (nb i)).map fun k => (some (((e i).get k + (e i).get (k + 1)) / 2), (mecdf H.h1).get i k))) ∧
      (∀ i, z1 i = zscores (d1.values.getD i [])) ∧ (∀ i, z2 i = zscores (d2.values.getD i [])) ∧
      (∀ i, nb i = binNumber b (d1.values.getD i []).length (d2.values.getD i []).length) ∧
      (∀ m, (∀ i < o.cutoff, nb i ≤ m) → H.h1.m ≤ m) ∧
      (∀ i < o.cutoff, JointEdges (z1 i) (z2 i) (nb i) (e i) ∧ 1 ≤ nb i ∧ nb i ≤ H.h1.m ∧
        (∀ k < nb i, H.h1.get i k = some (share (e i) (z1 i) k)) ∧ (∀ k, nb i ≤ k → H.h1.get i k = none) ∧
        ∑ k ∈ range (nb i), share (e i) (z1 i) k = 1 ∧ ∑ k ∈ range (nb i), share (e i) (z2 i) k = 1) ∧
      H.distance = (∑ i ∈ range o.cutoff, hell (nb i) (share (e i) (z1 i)) (share (e i) (z2 i))) / o.cutoff := by
  obtain ⟨r, H, hr, hH, n1, n2, m2, hbl, e, nb, z1, z2, enb, ez1, ez2, hrow, hd, -⟩ := C88_histograms_partial d1 d2 b hb mf o h hl1 hl2 hv1 hv2
  obtain ⟨nl, hnl, hlen, hm, hE, -, hen⟩ := stat_shape hr hH
  have hc : nl.length = o.cutoff := by rw [← hlen, n1]
  have hnb : ∀ i < o.cutoff, nl.getD i 0 = nb i := by
    intro i hi
    have a := hen i (e i) (hrow i hi).1
    have b := (hrow i hi).2.1.1
    omega
  have hbin : ∀ i < o.cutoff, H.bins.getD i none = some (e i) := by
    intro i hi
    rw [List.getD_eq_getElem?_getD, (hrow i hi).1]; rfl
  have hcen : ∀ i < o.cutoff, dendroCentres (H.bins.getD i none) (nl.getD i 0) =
      (List.range (nb i)).map fun k => some (((e i).get k + (e i).get (k + 1)) / 2) := by
    intro i hi
    rw [hbin i hi]
    unfold dendroCentres
    simp only
    rw [(hrow i hi).2.1.1, Nat.add_sub_cancel]
  have hwid : ∀ i < o.cutoff, barWidth (H.bins.getD i none) (nl.getD i 0) = .ok (some ((e i).get 1 - (e i).get 0)) := by
    intro i hi
    rw [hbin i hi]
    unfold barWidth
    simp only
    rw [if_neg (by rw [(hrow i hi).2.1.1]; have := (hrow i hi).2.2.1; omega)]
  have hbars : ∀ (c : String) (a : Arr2 (Option ℝ)) (f : ℕ → ℕ → ℝ), (∀ i < o.cutoff, ∀ k < nb i, a.get i k = some (f i k)) →
      barMarks c H.bins nl a = .ok ((List.range o.cutoff).map fun i => Mark.bars c (some ((e i).get 1 - (e i).get 0))
        ((List.range (nb i)).map fun k => (some (((e i).get k + (e i).get (k + 1)) / 2), some (f i k)))) := by
    intro c a f hf
    unfold barMarks
    rw [hc]
    apply mapM_ok'
    intro i hi
    rw [List.mem_range] at hi
    rw [hwid i hi, hcen i hi, hnb i hi]
    simp only [bind, Except.bind, pure, Except.pure]
    congr 2
    rw [List.zip_map', List.map_congr_left]
    intro k hk
    rw [hf i hi k (List.mem_range.1 hk)]
  have b1 := hbars s1.color H.h1 (fun i k => share (e i) (z1 i) k) (fun i hi k hk => ((hrow i hi).2.2.2.2.1 k hk).1)
  have b2 := hbars s2.color H.h2 (fun i k => share (e i) (z2 i) k) (fun i hi k hk => ((hrow i hi).2.2.2.2.1 k hk).2)
  obtain ⟨fig, p3, p4, hfig, q3, q4, m3, m4⟩ := hist_panels s1 s2 hnl hH b1 b2
  obtain ⟨p1, p2, q1, -, m1, -⟩ := hist_curves s1 s2 hnl hH hfig
  refine ⟨r, H, fig, p1, p3, p4, e, nb, z1, z2, hr, hH, hfig, q1, q3, q4, ?_, ?_, ?_, ez1, ez2, enb, ?_, ?_, hd⟩
  · unfold barsIn; rw [m3]; exact filter_marks _ _ _ (fun i => rfl) _
  · unfold barsIn; rw [m4]; exact filter_marks _ _ _ (fun i => rfl) _
  · have := filter_lines (fun n => Mark.line s1.color none
      ((dendroCentres (H.bins.getD n none) (nl.getD n 0)).zip ((List.range (nl.getD n 0)).map (H.ecdf1.get n))))
      (fun m => match m with
        | .line c _ l => some (c, l)
        | _ => none) _ (fun i => rfl) nl.length
    unfold curvesIn; rw [m1]
    refine this.trans ?_
    rw [hc]
    apply List.map_congr_left
    intro i hi
    rw [List.mem_range] at hi
    rw [hcen i hi, hnb i hi, List.zip_map', hE]
  · intro m hm'
    rw [hm]
    exact max_le_of _ _ fun i hi => by rw [hnb i (by omega)]; exact hm' i (by omega)
  · intro i hi
    obtain ⟨-, h1, h2, h3, h4, h5, h6, h7⟩ := hrow i hi
    exact ⟨h1, h2, h3, fun k hk => (h4 k hk).1, fun k hk => (h5 k hk).1, h6, h7⟩

/-- **C116 (histograms).** When the histograms exist (see C88), the lower panels show, for each threshold used, one bar for each bin:
its width is that of the bin, neighbouring bars touch, and the bars reach from the smallest to the largest z-score of the two datasets;
the heights of the bars of a threshold add up to 1.  The distance is the mean over the thresholds of the Hellinger distances of the
heights drawn in the two panels. -/
theorem C116_hist (d1 d2 : DendroData) (b : DendroBins) (hb : b = .best ∨ ∃ k, 1 ≤ k ∧ b = .count k) (mf : ℕ)
    (o : DendroDist) (h : dendroDistInit d1 d2 b mf = .ok o) (hl1 : d1.num = d1.values.map List.length)
    (hl2 : d2.num = d2.values.map List.length) (hv1 : ∀ i < o.cutoff, Varied (d1.values.getD i []))
    (hv2 : ∀ i < o.cutoff, Varied (d2.values.getD i [])) (s1 s2 : Style) :
    ∃ (r : DendroDist) (H : DendroHist) (fig : List FigPanel) (p3 p4 : FigPanel) (x y1 y2 : ℕ → ℕ → ℝ) (w : ℕ → ℝ) (nb : ℕ → ℕ),
      histogramStat o = .ok r ∧ r.hist = some H ∧ dendroHistFigure r s1 s2 = .ok fig ∧
      panelAt fig 3 = some p3 ∧ panelAt fig 4 = some p4 ∧
      (∀ i, nb i = binNumber b (d1.values.getD i []).length (d2.values.getD i []).length) ∧
      barsIn p3 = (List.range o.cutoff).map (fun i => (s1.color, some (w i), (List.range (nb i)).map fun k => (some (x i k), some (y1 i k)))) ∧
      barsIn p4 = (List.range o.cutoff).map (fun i => (s2.color, some (w i), (List.range (nb i)).map fun k => (some (x i k), some (y2 i k)))) ∧
      (∀ i < o.cutoff, 1 ≤ nb i ∧ 0 < w i ∧ (∀ k, k + 1 < nb i → x i (k + 1) - w i / 2 = x i k + w i / 2) ∧
        IsLeast {v | v ∈ zscores (d1.values.getD i []) ∨ v ∈ zscores (d2.values.getD i [])} (x i 0 - w i / 2) ∧
        IsGreatest {v | v ∈ zscores (d1.values.getD i []) ∨ v ∈ zscores (d2.values.getD i [])} (x i (nb i - 1) + w i / 2) ∧
        ∑ k ∈ range (nb i), y1 i k = 1 ∧ ∑ k ∈ range (nb i), y2 i k = 1) ∧
      H.distance = (∑ i ∈ range o.cutoff, hell (nb i) (y1 i) (y2 i)) / o.cutoff := by
  obtain ⟨r, H, fig, p1, p3, p4, e, nb, z1, z2, hr, hH, hfig, -, q3, q4, b3, b4, -, ez1, ez2, enb, -, hrow, hd⟩ :=
    hist_core d1 d2 b hb mf o h hl1 hl2 hv1 hv2 s1 s2
  · refine ⟨r, H, fig, p3, p4, fun i k => ((e i).get k + (e i).get (k + 1)) / 2, fun i k => share (e i) (z1 i) k, fun i k => share (e i) (z2 i) k,
      fun i => (e i).get 1 - (e i).get 0, nb, hr, hH, hfig, q3, q4, enb, b3, b4, ?_, hd⟩
    · intro i hi
      obtain ⟨⟨hn, lo, hi', hlo, hhi, hg⟩, h1, -, -, -, t1, t2⟩ := hrow i hi
      rw [ez1, ez2] at hlo hhi
      have hnR : (0 : ℝ) < nb i := by exact_mod_cast h1
      have hlt : lo < hi' := by
        obtain ⟨a, ha, c, hca, hne⟩ := z_varied (hv1 i hi)
        have a1 := hlo.2 (Or.inl ha); have a2 := hhi.2 (Or.inl ha)
        have c1 := hlo.2 (Or.inl hca); have c2 := hhi.2 (Or.inl hca)
        rcases lt_or_gt_of_ne hne with h | h <;> linarith
      have g0 := hg 0 (by omega)
      have g1 := hg 1 (by omega)
      push_cast at g0 g1
      have hw : (e i).get 1 - (e i).get 0 = (hi' - lo) / nb i := by rw [g0, g1]; ring
      refine ⟨h1, ?_, ?_, ?_, ?_, t1, t2⟩
      · show 0 < (e i).get 1 - (e i).get 0
        rw [hw]; exact div_pos (by linarith) hnR
      · intro k hk
        simp only
        rw [hw, hg k (by omega), hg (k + 1) (by omega), hg (k + 1 + 1) (by omega)]
        push_cast; ring
      · have : ((e i).get 0 + (e i).get (0 + 1)) / 2 - ((e i).get 1 - (e i).get 0) / 2 = lo := by
          rw [zero_add, g0, g1]; ring
        simp only
        rw [this]; exact hlo
      · have : ((e i).get (nb i - 1) + (e i).get (nb i - 1 + 1)) / 2 + ((e i).get 1 - (e i).get 0) / 2 = hi' := by
          rw [hw, hg (nb i - 1) (by omega), hg (nb i - 1 + 1) (by omega), Nat.sub_add_cancel h1]
          have : ((nb i - 1 : ℕ) : ℝ) = nb i - 1 := by rw [Nat.cast_sub h1]; norm_num
          rw [this]
          field_simp
          ring
        simp only
        rw [this]; exact hhi

private theorem area_sum (w : ℝ) (n : ℕ) (x y : ℕ → ℝ) : (((List.range n).map fun k => (x k, y k)).map fun p => w * p.2).sum = w * ∑ k ∈ range n, y k := by
  rw [List.map_map, Finset.mul_sum, Finset.sum_range]
  induction n with
  | zero => simp
  | succ n ih => rw [List.range_succ, List.map_append, List.sum_append, ih, Fin.sum_univ_castSucc]; simp

/-- **C116 (histograms, violation).** The ordinate of the bars is labelled "PDF", but it is the share of a bin and not a density: the
bars of a threshold cover an area of (range of the z-scores) / (number of bins), which is 1 only by accident. -/
theorem C116_hist_area_violated (d1 d2 : DendroData) (b : DendroBins) (hb : b = .best ∨ ∃ k, 1 ≤ k ∧ b = .count k) (mf : ℕ)
    (o : DendroDist) (h : dendroDistInit d1 d2 b mf = .ok o) (hl1 : d1.num = d1.values.map List.length)
    (hl2 : d2.num = d2.values.map List.length) (hv1 : ∀ i < o.cutoff, Varied (d1.values.getD i []))
    (hv2 : ∀ i < o.cutoff, Varied (d2.values.getD i [])) (s1 s2 : Style) :
    ∃ (r : DendroDist) (fig : List FigPanel) (p3 : FigPanel),
      histogramStat o = .ok r ∧ dendroHistFigure r s1 s2 = .ok fig ∧ panelAt fig 3 = some p3 ∧
      ∀ i < o.cutoff, ∀ lo hi, IsLeast {v | v ∈ zscores (d1.values.getD i []) ∨ v ∈ zscores (d2.values.getD i [])} lo →
        IsGreatest {v | v ∈ zscores (d1.values.getD i []) ∨ v ∈ zscores (d2.values.getD i [])} hi →
        ∃ (w : ℝ) (pts : List (ℝ × ℝ)), (barsIn p3)[i]? = some (s1.color, some w, pts.map fun p => (some p.1, some p.2)) ∧
          (pts.map fun p => w * p.2).sum = (hi - lo) / pts.length := by
  obtain ⟨r, H, fig, p3, p4, x, y1, y2, w, nb, hr, -, hf, q3, -, -, b3, -, hrow, -⟩ := C116_hist d1 d2 b hb mf o h hl1 hl2 hv1 hv2 s1 s2
  refine ⟨r, fig, p3, hr, hf, q3, ?_⟩
  intro i hi lo hi' hlo hhi
  obtain ⟨h1, -, htouch, hl, hh, t1, -⟩ := hrow i hi
  refine ⟨w i, (List.range (nb i)).map fun k => (x i k, y1 i k), ?_, ?_⟩
  · rw [b3]; simp [hi, List.map_map, Function.comp_def]
  · rw [area_sum, t1, mul_one, List.length_map, List.length_range]
    have e1 := hl.unique hlo
    have e2 := hh.unique hhi
    have step : ∀ k < nb i, x i k = x i 0 + k * w i := by
      intro k
      induction k with
      | zero => intro _; simp
      | succ k ih => intro hk; have := htouch k hk; have := ih (by omega); push_cast; linarith
    have := step (nb i - 1) (by omega)
    rw [Nat.cast_sub h1, Nat.cast_one] at this
    have hnR : (0 : ℝ) < nb i := by exact_mod_cast h1
    rw [eq_div_iff hnR.ne', ← e1, ← e2, this]
    ring

/-- **C116 (histograms, distribution functions).** The upper panel of a dataset has one curve for each threshold, with a point above
the middle of each bar of the lower one.  At a threshold with the largest number of bins the curve is the running sum of the bars.
At every threshold with fewer bins all the points are NaN, so nothing of it is drawn. -/
theorem C116_hist_ecdf_violated (d1 d2 : DendroData) (b : DendroBins) (hb : b = .best ∨ ∃ k, 1 ≤ k ∧ b = .count k) (mf : ℕ)
    (o : DendroDist) (h : dendroDistInit d1 d2 b mf = .ok o) (hl1 : d1.num = d1.values.map List.length)
    (hl2 : d2.num = d2.values.map List.length) (hv1 : ∀ i < o.cutoff, Varied (d1.values.getD i []))
    (hv2 : ∀ i < o.cutoff, Varied (d2.values.getD i [])) (s1 s2 : Style) :
    ∃ (r : DendroDist) (fig : List FigPanel) (p1 p3 : FigPanel) (x y : ℕ → ℕ → ℝ) (w : ℕ → ℝ) (nb : ℕ → ℕ) (c : ℕ → ℕ → Option ℝ),
      histogramStat o = .ok r ∧ dendroHistFigure r s1 s2 = .ok fig ∧ panelAt fig 1 = some p1 ∧ panelAt fig 3 = some p3 ∧
      (∀ i, nb i = binNumber b (d1.values.getD i []).length (d2.values.getD i []).length) ∧
      barsIn p3 = (List.range o.cutoff).map (fun i => (s1.color, some (w i), (List.range (nb i)).map fun k => (some (x i k), some (y i k)))) ∧
      curvesIn p1 = (List.range o.cutoff).map (fun i => (s1.color, (List.range (nb i)).map fun k => (some (x i k), c i k))) ∧
      (∀ i < o.cutoff, (∀ j < o.cutoff, nb j ≤ nb i) → ∀ k < nb i, c i k = some (∑ t ∈ range (k + 1), y i t)) ∧
      ∀ i < o.cutoff, ∀ j < o.cutoff, nb i < nb j → ∀ k < nb i, c i k = none := by
  obtain ⟨r, H, fig, p1, p3, p4, e, nb, z1, z2, hr, hH, hfig, q1, q3, -, b3, -, c1, -, -, enb, hmax, hrow, -⟩ :=
    hist_core d1 d2 b hb mf o h hl1 hl2 hv1 hv2 s1 s2
  refine ⟨r, fig, p1, p3, _, _, _, nb, fun i k => (mecdf H.h1).get i k, hr, hfig, q1, q3, enb, b3, c1, ?_, ?_⟩
  · intro i hi hw k hk
    obtain ⟨-, h1, h2, h3, -, h5, -⟩ := hrow i hi
    have hm : H.h1.m = nb i := le_antisymm (hmax _ hw) h2
    have hrow : CountRow H.h1 i (fun k => share (e i) (z1 i) k) := by
      have nn : ∀ k, 0 ≤ share (e i) (z1 i) k := fun k => by unfold share; positivity
      refine ⟨fun j hj => h3 j (hm ▸ hj), fun j _ => nn j, ?_⟩
      by_contra hcon
      push Not at hcon
      have : ∑ k ∈ range (nb i), share (e i) (z1 i) k = 0 :=
        sum_eq_zero fun t ht => le_antisymm (hcon t (hm ▸ mem_range.1 ht)) (nn t)
      rw [h5] at this
      norm_num at this
    obtain ⟨c, hc, -, -, -, hc0, hcs⟩ := C24_cumulative H.h1 i _ hrow
    rw [hm, h5] at hcs hc0
    show (mecdf H.h1).get i k = _
    rw [hc k (hm ▸ hk)]
    congr 1
    induction k with
    | zero => simpa using hc0
    | succ k ih =>
      rw [sum_range_succ, ← ih (by omega), ← hcs k hk]; ring
  · intro i hi j hj hij k hk
    obtain ⟨-, h1, h2, h3, h4, h5, -⟩ := hrow i hi
    have hj2 := (hrow j hj).2.2.1
    exact C24_padded_rows_are_lost H.h1 i (nb i) (by omega) (h4 _ le_rfl) k (by omega)

/-- Non-vacuity: two thresholds with a different number of bins, two and one. -/
example : ∃ o, dendroDistInit ⟨[4, 2, 2], [[1, 2, 3, 5], [1, 4], [1, 3]]⟩ ⟨[4, 2, 2], [[2, 2, 3, 7], [1, 6], [1, 6]]⟩ .best 1 = .ok o ∧
    o.cutoff = 2 ∧ (∀ i < o.cutoff, Varied (o.d1.values.getD i [])) ∧ (∀ i < o.cutoff, Varied (o.d2.values.getD i [])) ∧
    binNumber .best 4 4 = 2 ∧ binNumber .best 2 2 = 1 := by
  refine ⟨⟨.best, 2, _, _, none⟩, rfl, rfl, ?_, ?_, ?_, ?_⟩
  · intro i hi
    have : i = 0 ∨ i = 1 := by simp only at hi; omega
    rcases this with rfl | rfl
    · exact ⟨1, by simp, 2, by simp, by norm_num⟩
    · exact ⟨1, by simp, 4, by simp, by norm_num⟩
  · intro i hi
    have : i = 0 ∨ i = 1 := by simp only at hi; omega
    rcases this with rfl | rfl
    · exact ⟨2, by simp, 7, by simp, by norm_num⟩
    · exact ⟨1, by simp, 6, by simp, by norm_num⟩
  · unfold binNumber
    have : Real.sqrt ((((4 : ℕ) : ℝ) + (4 : ℕ)) / 2) = (2 : ℕ) := by
      rw [show ((((4 : ℕ) : ℝ) + (4 : ℕ)) / 2) = 2 ^ 2 by norm_num]; rw [Real.sqrt_sq (by norm_num)]; norm_num
    simp only [this, Nat.floor_natCast]
  · unfold binNumber
    rw [Nat.floor_eq_iff (by positivity)]
    constructor
    · rw [Real.le_sqrt' (by norm_num)]; norm_num
    · rw [Real.sqrt_lt' (by norm_num)]; norm_num

/-! ### names of the saved figures -/

private theorem splitext_dot (a e : List Char) (he : ∀ c ∈ e, c ≠ '.' ∧ c ≠ '/') (ha : ∃ c ∈ a.reverse.takeWhile (· != '/'), c ≠ '.') :
    splitext (a ++ '.' :: e) = (a, '.' :: e) := by
  have hk : ∀ c ∈ e.reverse, (fun c : Char => c != '.' && c != '/') c = true := by
    intro c hc; simpa using he c (by simpa using hc)
  have hr : (a ++ '.' :: e).reverse = e.reverse ++ '.' :: a.reverse := by simp
  have h1 : (e.reverse ++ '.' :: a.reverse).dropWhile (fun c : Char => c != '.' && c != '/') = '.' :: a.reverse := by
    rw [List.dropWhile_append_of_pos hk]; simp
  have h2 : (e.reverse ++ '.' :: a.reverse).takeWhile (fun c : Char => c != '.' && c != '/') = e.reverse := by
    rw [List.takeWhile_append_of_pos hk]; simp
  have h3 : (a.reverse.takeWhile (· != '/')).any (· != '.') = true := by
    obtain ⟨c, hc, hne⟩ := ha
    exact List.any_eq_true.2 ⟨c, hc, by simpa using hne⟩
  simp only [splitext, hr, h1, h2, h3]
  simp

private theorem splitext_parts (p : List Char) : (splitext p).1 ++ (splitext p).2 = p ∧
    ((splitext p).2 ≠ [] → ∃ e, (splitext p).2 = '.' :: e ∧ (∀ c ∈ e, c ≠ '.' ∧ c ≠ '/')) := by
  unfold splitext
  simp only
  split
  · rename_i r hr
    split_ifs with hc
    · have hp := List.takeWhile_append_dropWhile (p := fun c : Char => c != '.' && c != '/') (l := p.reverse)
      rw [hr] at hp
      constructor
      · have := congrArg List.reverse hp
        rw [List.reverse_append, List.reverse_reverse] at this
        simpa using this
      · intro _
        refine ⟨_, rfl, ?_⟩
        intro c hc
        have := List.mem_takeWhile_imp (List.mem_reverse.1 hc)
        simpa using this
    · simp
  · simp

private theorem tail_ok (a : List Char) (t : List Char) (c : Char) (ht : ∀ x ∈ t, x ≠ '/') (hc : c ∈ t) (hd : c ≠ '.') :
    ∃ c ∈ (a ++ t).reverse.takeWhile (· != '/'), c ≠ '.' := by
  refine ⟨c, ?_, hd⟩
  rw [List.reverse_append, List.takeWhile_append_of_pos (by intro x hx; simpa using ht x (by simpa using hx))]
  simp [hc]

/-- **C116 (names of the figures).** A name with an extension of a supported format: both figures are saved, under two different
names with the same extension, and both distances are set. -/
theorem C116_save_names (supported : List (List Char)) (default : List Char) (hist num : Option ℝ) (root ext : List Char)
    (hsplit : splitext (root ++ '.' :: ext) = (root, '.' :: ext)) (hne : ext ≠ []) (hsup : ext.map Char.toLower ∈ supported) :
    dendroMetricSaved supported default hist num (root ++ '.' :: ext) =
      ((some hist, some num), .ok [root ++ ".hist_distance.".toList ++ ext, root ++ ".num_distance.".toList ++ ext]) ∧
    root ++ ".hist_distance.".toList ++ ext ≠ root ++ ".num_distance.".toList ++ ext := by
  have hp := splitext_parts (root ++ '.' :: ext)
  rw [hsplit] at hp
  obtain ⟨e, he, hce⟩ := hp.2 (by simp)
  simp only [List.cons.injEq, true_and] at he
  subst he
  have g : ∀ t : List Char, (∀ x ∈ t, x ≠ '/') → (∃ c ∈ t, c ≠ '.') →
      savefig supported default (root ++ t ++ '.' :: ext) = .ok (root ++ t ++ '.' :: ext) := by
    rintro t ht ⟨c, hc, hd⟩
    unfold savefig
    rw [splitext_dot (root ++ t) ext hce (tail_ok root t c ht hc hd)]
    cases hx : ext with
    | nil => exact absurd hx hne
    | cons a l => rw [← hx]; simp only [List.drop_succ_cons, List.drop_zero, hx]; rw [← hx, if_pos hsup]
  have n1 := g ".hist_distance".toList (by decide) ⟨'h', by decide, by decide⟩
  have n2 := g ".num_distance".toList (by decide) ⟨'n', by decide, by decide⟩
  constructor
  · unfold dendroMetricSaved dendroSaveNames
    simp only [hsplit]
    rw [n1, n2]
    simp
  · intro hcon
    rw [List.append_assoc, List.append_assoc] at hcon
    have := List.append_cancel_left hcon
    simp at this

/-- **C116 (names of the figures, violation).** A name without extension, as `savefig` takes: the text inserted for the first figure
is read as the format of the file.  The call fails with ValueError after the first distance; the second is never set. -/
theorem C116_save_bare_violated (supported : List (List Char)) (default : List Char) (hist num : Option ℝ) (name : List Char)
    (hne : name ≠ []) (hd : ∀ c ∈ name, c ≠ '.' ∧ c ≠ '/') (hs : "hist_distance".toList ∉ supported) :
    savefig supported default name = .ok (name ++ '.' :: default) ∧
    dendroMetricSaved supported default hist num name = ((some hist, none), .error .valueError) := by
  have hsp : splitext name = (name, []) := by
    have : name.reverse.dropWhile (fun c : Char => c != '.' && c != '/') = [] := by
      rw [List.dropWhile_eq_nil_iff]
      intro c hc
      simpa using hd c (by simpa using hc)
    simp only [splitext, this]
  constructor
  · unfold savefig
    rw [hsp]
    simp only [List.drop_nil]
    have : name.reverse.dropWhile (· == '.') = name.reverse := by
      cases hr : name.reverse with
      | nil => rfl
      | cons a l =>
        have : a ∈ name := by rw [← List.mem_reverse, hr]; simp
        rw [List.dropWhile_cons_of_neg]
        simpa using (hd a this).1
    rw [this, List.reverse_reverse]
  · unfold dendroMetricSaved dendroSaveNames
    rw [hsp]
    simp only [List.append_nil]
    have hx : splitext (name ++ ".hist_distance".toList) = (name, ".hist_distance".toList) := by
      have := splitext_dot name "hist_distance".toList (by decide) (by
        obtain ⟨c, l, hcl⟩ := List.exists_cons_of_ne_nil hne
        have hc : c ∈ name := by rw [hcl]; simp
        refine ⟨c, ?_, (hd c hc).1⟩
        rw [List.takeWhile_eq_self_iff.2 (by intro x hx; simpa using (hd x (by simpa using hx)).2)]
        simpa using hc)
      simpa using this
    have : savefig supported default (name ++ ".hist_distance".toList) = .error .valueError := by
      unfold savefig
      rw [hx]
      have : (List.drop 1 ".hist_distance".toList) = "hist_distance".toList := by decide
      simp only [this]
      have h2 : "hist_distance".toList.map Char.toLower = "hist_distance".toList := by decide
      split
      · rename_i hh; exact absurd hh (by decide)
      · rw [h2, if_neg hs]
    rw [this]

/-- Non-vacuity: `plots/cloud.PDF` and `cloud`. -/
example : splitext ("plots/cloud".toList ++ '.' :: "PDF".toList) = ("plots/cloud".toList, '.' :: "PDF".toList) ∧
    "PDF".toList.map Char.toLower ∈ ["png".toList, "pdf".toList] ∧ (∀ c ∈ "cloud".toList, c ≠ '.' ∧ c ≠ '/') ∧
    "hist_distance".toList ∉ ["png".toList, "pdf".toList] := by decide

/-! ### PCA -/

/-- **C116 (PCA).** The two panels above show the two covariance matrices under the labels.  Below, bar number `i` (from 1, in steps of 1,
half a unit wide) has the share of the compared eigenvalue `i` in the sum of the compared ones; the heights of a panel add up to 1, and the
distance is the root of the sum of the squared differences of the heights of bars with the same number.  The bars end inside the panel
whenever the dataset has at least as many significant eigenvalues as are compared. -/
theorem C116_pca (ms : Bool) (k : ℕ) (cov1 cov2 : Arr2 (Option ℝ)) (e1 e2 : List ℝ) (n1 n2 : ℕ) (s1 s2 : Style)
    (h1 : Admissible ms k e1) (h2 : Admissible ms k e2) :
    ∃ (p1 p2 p3 p4 : FigPanel) (y1 y2 : ℕ → ℝ) (d : ℝ),
      let fig := pcaFigure ms k cov1 cov2 e1 e2 n1 n2 s1 s2
      panelAt fig 1 = some p1 ∧ panelAt fig 2 = some p2 ∧ panelAt fig 3 = some p3 ∧ panelAt fig 4 = some p4 ∧
      p1.title = some s1.label ∧ p2.title = some s2.label ∧
      (∃ v, imagesIn p1 = [(cov1, v, none)]) ∧ (∃ v, imagesIn p2 = [(cov2, v, none)]) ∧
      barsIn p3 = [(s1.color, some 0.5, (List.range (comparedCount ms k)).map fun i : ℕ => (some ((i : ℝ) + 1), some (y1 i)))] ∧
      barsIn p4 = [(s2.color, some 0.5, (List.range (comparedCount ms k)).map fun i : ℕ => (some ((i : ℝ) + 1), some (y2 i)))] ∧
      (∀ i, y1 i = eigShare ms k e1 i ∧ y2 i = eigShare ms k e2 i) ∧
      ∑ i ∈ range (comparedCount ms k), y1 i = 1 ∧ ∑ i ∈ range (comparedCount ms k), y2 i = 1 ∧
      pcaDistance ms k e1 e2 = .ok (some d) ∧ d = Real.sqrt (∑ i ∈ range (comparedCount ms k), (y1 i - y2 i) ^ 2) ∧
      (comparedCount ms k ≤ n1 → ∃ lo hi, p3.xlim = some (lo, hi) ∧
        ∀ i < comparedCount ms k, lo < (i : ℝ) + 1 - 0.5 / 2 ∧ (i : ℝ) + 1 + 0.5 / 2 < hi) := by
  have hs : ∀ e, Admissible ms k e → ∑ i ∈ range (comparedCount ms k), eigShare ms k e i = 1 := by
    intro e he
    unfold eigShare
    rw [← sum_div, div_self he.2.ne']
  have hb : ∀ (c : String) (e : List ℝ), Admissible ms k e → pcaDistBars c (pcaNormalised ms k e) =
      .bars c (some 0.5) ((List.range (comparedCount ms k)).map fun i : ℕ => (some ((i : ℝ) + 1), some (eigShare ms k e i))) := by
    intro c e he
    unfold pcaDistBars
    rw [normalised_eq ms k e he, List.length_map, List.length_range, List.zip_map']
  refine ⟨_, _, _, _, fun i => eigShare ms k e1 i, fun i => eigShare ms k e2 i, _, rfl, rfl, rfl, rfl, rfl, rfl, ⟨_, rfl⟩, ⟨_, rfl⟩, ?_, ?_,
    fun i => ⟨rfl, rfl⟩, hs e1 h1, hs e2 h2, C35_value ms k e1 e2 h1 h2, rfl, ?_⟩
  · simp only [barsIn, List.filterMap_cons, hb s1.color e1 h1, List.filterMap_nil]
  · simp only [barsIn, List.filterMap_cons, hb s2.color e2 h2, List.filterMap_nil]
  · intro hn
    refine ⟨_, _, rfl, ?_⟩
    intro i hi
    have : (i : ℝ) + 1 ≤ n1 := by exact_mod_cast (by omega : i + 1 ≤ n1)
    have : (0 : ℝ) ≤ i := Nat.cast_nonneg i
    constructor <;> linarith

/-- **C116 (PCA, violation).** The ordinate is labelled "Proportion of Variance", but when the eigenvalues that are not compared add up to
something positive every bar of a positive eigenvalue is higher than that eigenvalue's share of the total. -/
theorem C116_pca_proportion_violated (ms : Bool) (k : ℕ) (e : List ℝ) (h : Admissible ms k e) (i : ℕ) (hpos : 0 < compared ms e i)
    (hrest : ∑ j ∈ range (comparedCount ms k), compared ms e j < e.sum) :
    compared ms e i / e.sum < eigShare ms k e i := by
  unfold eigShare
  exact div_lt_div_of_pos_left hpos h.2 hrest

/-- **C116 (PCA, violation).** Without subtraction of the mean the bar at abscissa 1 is the second eigenvalue, that at 2 the third, and so
on. -/
theorem C116_pca_number_violated (k : ℕ) (hk : 2 ≤ k) (cov1 cov2 : Arr2 (Option ℝ)) (e1 e2 : List ℝ) (n1 n2 : ℕ) (s1 s2 : Style)
    (h1 : Admissible false k e1) :
    ∃ p3, panelAt (pcaFigure false k cov1 cov2 e1 e2 n1 n2 s1 s2) 3 = some p3 ∧
      ∃ pts, barsIn p3 = [(s1.color, some 0.5, pts)] ∧ pts.length = k - 1 ∧
        ∀ i < k - 1, pts[i]? = some (some ((i + 1 : ℕ) : ℝ), some (e1.getD (i + 1) 0 / ∑ j ∈ range (k - 1), e1.getD (j + 1) 0)) := by
  refine ⟨_, rfl, (List.range (k - 1)).map fun i => (some ((i + 1 : ℕ) : ℝ), some (eigShare false k e1 i)), ?_, by simp, ?_⟩
  · have : pcaDistBars s1.color (pcaNormalised false k e1) =
        .bars s1.color (some 0.5) ((List.range (k - 1)).map fun i => (some ((i + 1 : ℕ) : ℝ), some (eigShare false k e1 i))) := by
      unfold pcaDistBars
      rw [normalised_eq false k e1 h1, List.length_map, List.length_range, List.zip_map']
      simp [comparedCount]
    simp only [barsIn, List.filterMap_cons, this, List.filterMap_nil]
  · intro i hi
    simp [hi, eigShare, compared, comparedCount]

/-- **C116 (PCA, violation).** The colour map asked for is used for the first covariance matrix only. -/
theorem C116_pca_cmap_violated (ms : Bool) (k : ℕ) (cov1 cov2 : Arr2 (Option ℝ)) (e1 e2 : List ℝ) (n1 n2 : ℕ) (s1 s2 : Style) (cmap : String) :
    (panelAt (pcaFigure ms k cov1 cov2 e1 e2 n1 n2 s1 s2 cmap) 1).map FigPanel.cmap = some (some cmap) ∧
    (panelAt (pcaFigure ms k cov1 cov2 e1 e2 n1 n2 s1 s2 cmap) 2).map FigPanel.cmap = some none := ⟨rfl, rfl⟩

/-- Non-vacuity: the spectrum 4, 3, 2, 1 with three eigenvalues compared, with and without subtraction of the mean. -/
example : Admissible true 3 [4, 3, 2, 1] ∧ Admissible false 3 [4, 3, 2, 1] ∧ 0 < compared true [4, 3, 2, 1] 0 ∧
    ∑ j ∈ range (comparedCount true 3), compared true [4, 3, 2, 1] j < ([4, 3, 2, 1] : List ℝ).sum := by
  refine ⟨⟨by simp, ?_⟩, ⟨by simp, ?_⟩, ?_, ?_⟩ <;> norm_num [comparedCount, compared, sum_range_succ]

/-! ### higher moments -/

private theorem makeHists_inv {o m : SMoments} {sb kb : Arr1 ℝ} (h : o.makeHists none none (some (.edges sb)) (some (.edges kb)) = .ok m) :
    ∃ H, m.hists = some H ∧ H.skewness = (⟨sb.n - 1, fun k => (sb.get k + sb.get (k + 1)) / 2⟩, histDensity sb (validVals o.maps.skewness)) ∧
      H.kurtosis = (⟨kb.n - 1, fun k => (kb.get k + kb.get (k + 1)) / 2⟩, histDensity kb (validVals o.maps.kurtosis)) := by
  simp only [SMoments.makeHists, bind, Except.bind, pure, Except.pure] at h
  split at h
  · cases h
  split at h
  · cases h
  simp only [SMoments.makeHists.momHist, momBins, momentHist, bind, Except.bind, pure, Except.pure, Except.ok.injEq] at h
  subst h
  exact ⟨_, rfl, rfl, rfl⟩

private theorem hell_root (n : ℕ) (f g : ℕ → Option ℝ) :
    ∑ i ∈ range n, hellTerm (f i) (g i) = rootDiff ((List.range n).map f) ((List.range n).map g) := by
  unfold rootDiff
  rw [List.zip_map', List.map_map]
  have hs : ∀ F : ℕ → ℝ, ((List.range n).map F).sum = ∑ k ∈ range n, F k := by
    intro F
    induction n with
    | zero => simp
    | succ n ih => rw [List.range_succ, List.map_append, List.sum_append, ih, sum_range_succ]; simp
  rw [hs]
  apply sum_congr rfl
  intro i _
  simp only [Function.comp]
  unfold hellTerm sqrtO
  cases f i <;> cases g i <;> simp [subO]
  rename_i a b
  by_cases ha : a < 0 <;> by_cases hb : b < 0 <;> simp [ha, hb, not_lt.1, not_le.2]

private theorem mom_panel (e : Arr1 ℝ) (v1 v2 : List ℝ) (w dist : ℝ)
    (hw : firstStep ⟨e.n - 1, fun k => (e.get k + e.get (k + 1)) / 2⟩ = .ok w)
    (hd : hellinger (histDensity e v1) (histDensity e v2) w = .ok dist) :
    ∃ (n : ℕ) (x : ℕ → ℝ) (y1 y2 : ℕ → Option ℝ), 2 ≤ n ∧
      histCurve (⟨e.n - 1, fun k => (e.get k + e.get (k + 1)) / 2⟩, histDensity e v1) = (List.range n).map (fun k => (some (x k), y1 k)) ∧
      histCurve (⟨e.n - 1, fun k => (e.get k + e.get (k + 1)) / 2⟩, histDensity e v2) = (List.range n).map (fun k => (some (x k), y2 k)) ∧
      dist = (x 1 - x 0) * Real.sqrt (rootDiff ((List.range n).map y1) ((List.range n).map y2) / 2) := by
  have hn : ∀ v, (histDensity e v).n = e.n - 1 := fun v => rfl
  unfold firstStep at hw
  split_ifs at hw with hlt
  simp only [Except.ok.injEq] at hw
  simp only at hlt
  refine ⟨e.n - 1, fun k => (e.get k + e.get (k + 1)) / 2, (histDensity e v1).get, (histDensity e v2).get, by omega, ?_, ?_, ?_⟩
  · simp only [histCurve, hn, min_self]
  · simp only [histCurve, hn, min_self]
  · unfold hellinger at hd
    split_ifs at hd
    simp only [Except.ok.injEq] at hd
    rw [← hd, hn, hell_root, Real.sqrt_div' _ (by norm_num : (0 : ℝ) ≤ 2), ← hw]
    ring

/-- **C116 (higher moments).** After a comparison the figure exists: the kurtosis at the left, the skewness at the right, and in each panel
one curve for each dataset, in its colour, with the same abscissae.  The distance is the step of the abscissae times the root of half the
sum of the squared differences of the roots of the ordinates. -/
theorem C116_mom (d r : MomDist) (nbins : Option ℕ) (h : d.metric nbins = .ok r) (s1 s2 : Style) :
    ∃ fig p1 p2, momFigure r s1 s2 = .ok fig ∧ panelAt fig 1 = some p1 ∧ panelAt fig 2 = some p2 ∧
      p1.xlabel = some "Kurtosis" ∧ p2.xlabel = some "Skewness" ∧
      ∀ p dist, (p = p1 ∧ r.kurtosis = some dist) ∨ (p = p2 ∧ r.skewness = some dist) →
        ∃ (n : ℕ) (x : ℕ → ℝ) (y1 y2 : ℕ → Option ℝ), 2 ≤ n ∧
          curvesIn p = [(s1.color, (List.range n).map fun k => (some (x k), y1 k)), (s2.color, (List.range n).map fun k => (some (x k), y2 k))] ∧
          dist = (x 1 - x 0) * Real.sqrt (rootDiff ((List.range n).map y1) ((List.range n).map y2) / 2) := by
  simp only [MomDist.metric, MomDist.commonHists, bind, Except.bind, pure, Except.pure] at h
  split at h
  · cases h
  rename_i v hv
  split at hv
  · cases hv
  rename_i sb hsb
  split at hv
  · cases hv
  rename_i kb hkb
  split at hv
  · cases hv
  rename_i m1 hm1
  split at hv
  · cases hv
  rename_i m2 hm2
  simp only [Except.ok.injEq] at hv
  subst hv
  obtain ⟨H1, e1, s1', k1⟩ := makeHists_inv hm1
  obtain ⟨H2, e2, s2', k2⟩ := makeHists_inv hm2
  simp only [e1, e2, s1', s2', k1, k2] at h
  split at h
  · cases h
  rename_i kw hkw
  split at h
  · cases h
  rename_i kd hkd
  split at h
  · cases h
  rename_i sw hsw
  split at h
  · cases h
  rename_i sd hsd
  simp only [Except.ok.injEq] at h
  subst h
  refine ⟨_, _, _, by simp only [momFigure, e1, e2]; rfl, rfl, rfl, rfl, rfl, ?_⟩
  rintro p dist (⟨rfl, hd⟩ | ⟨rfl, hd⟩)
  · simp only [Option.some.injEq] at hd
    subst hd
    obtain ⟨n, x, y1, y2, hn, c1, c2, hd⟩ := mom_panel kb _ _ kw _ hkw hkd
    exact ⟨n, x, y1, y2, hn, by simp only [curvesIn, List.filterMap_cons, List.filterMap_nil, k1, k2, c1, c2], hd⟩
  · simp only [Option.some.injEq] at hd
    subst hd
    obtain ⟨n, x, y1, y2, hn, c1, c2, hd⟩ := mom_panel sb _ _ sw _ hsw hsd
    exact ⟨n, x, y1, y2, hn, by simp only [curvesIn, List.filterMap_cons, List.filterMap_nil, s1', s2', c1, c2], hd⟩

/-- Non-vacuity: a comparison that succeeds. -/
example : ∃ d r, MomDist.metric d none = .ok r := by
  obtain ⟨d, r, -, h, -⟩ := C89_width_violated
  exact ⟨d, r, h⟩

/-! ### SCF -/

private theorem arrMin_ok {size : ℕ} (hs : 0 < size) {a : Arr2 (Option ℝ)} {u : ℕ → ℕ → ℝ} (hn : a.n = size ∧ a.m = size)
    (h : ∀ j < size, ∀ i < size, a.get j i = some (u j i)) :
    ∃ lo, arrMin a = some lo ∧ IsLeast {t | ∃ j < size, ∃ i < size, t = u j i} lo := by
  have hmem : ∀ x, x ∈ a.ravel ↔ ∃ j < size, ∃ i < size, x = some (u j i) := by
    intro x
    rw [mem_ravel]
    constructor
    · rintro ⟨j, hj, i, hi, rfl⟩
      exact ⟨j, hn.1 ▸ hj, i, hn.2 ▸ hi, h j (hn.1 ▸ hj) i (hn.2 ▸ hi)⟩
    · rintro ⟨j, hj, i, hi, rfl⟩
      exact ⟨j, hn.1.symm ▸ hj, i, hn.2.symm ▸ hi, h j hj i hi⟩
  have hnone : none ∉ a.ravel := by
    rw [hmem]
    rintro ⟨j, _, i, _, hx⟩
    cases hx
  have hv : ∀ t, t ∈ validVals a.ravel ↔ ∃ j < size, ∃ i < size, t = u j i := by
    intro t
    rw [mem_validVals, hmem]
    simp
  obtain ⟨m, hm⟩ := exists_minO (v := validVals a.ravel) (by
    intro h0
    have := (hv (u 0 0)).2 ⟨0, hs, 0, hs, rfl⟩
    rw [h0] at this
    simp at this)
  refine ⟨m, ?_, ?_⟩
  · unfold arrMin
    rw [if_neg hnone]
    exact hm
  · obtain ⟨h1, h2⟩ := minO_eq_some.1 hm
    exact ⟨(hv m).1 h1, fun t ht => h2 t ((hv t).2 ht)⟩

/-- **C116 (SCF).** For two complete surfaces the figure shows the first and the second under their labels, with the same lower end of the
colours, which is the smallest value of the two; the third image has the weighted squared difference at each lag, and the square of the
distance times the sum of the weights is the sum of its values; the fourth panel has the two spectra with their errors, the lags times the
size of a pixel of the own dataset in the unit asked for. -/
theorem C116_scf (weighted : Bool) (size : ℕ) (hsize : 0 < size) (a b : Arr2 (Option ℝ)) (u v : ℕ → ℕ → ℝ)
    (ha : a.n = size ∧ a.m = size) (hb : b.n = size ∧ b.m = size)
    (hu : ∀ j < size, ∀ i < size, a.get j i = some (u j i)) (hv : ∀ j < size, ∀ i < size, b.get j i = some (v j i))
    (sp1 sp2 : Spatial) (spec1 spec2 : ScfSpec) (unit : SUnit) (unitName : String) (c1 c2 : ℝ) (hc1 : PixelSize sp1 unit c1)
    (hc2 : PixelSize sp2 unit c2) (s1 s2 : Style) :
    ∃ (fig : List FigPanel) (p1 p2 p3 p4 : FigPanel) (lo d : ℝ) (z : ℕ → ℕ → ℝ) (w : Arr2 (Option ℝ)),
      scfFigure weighted size a b sp1 sp2 spec1 spec2 unit unitName s1 s2 = .ok fig ∧
      panelAt fig 1 = some p1 ∧ panelAt fig 2 = some p2 ∧ panelAt fig 3 = some p3 ∧ panelAt fig 4 = some p4 ∧
      p1.title = some s1.label ∧ p2.title = some s2.label ∧
      imagesIn p1 = [(a, some lo, none)] ∧ imagesIn p2 = [(b, some lo, none)] ∧
      IsLeast {t | ∃ j < size, ∃ i < size, t = u j i ∨ t = v j i} lo ∧
      imagesIn p3 = [(w, none, none)] ∧ w.n = size ∧ w.m = size ∧ (∀ j < size, ∀ i < size, w.get j i = some (z j i)) ∧
      (∀ j < size, ∀ i < size, z j i = Spec.lagWeight weighted size j i * (u j i - v j i) ^ 2) ∧
      scfDistance weighted size a b = .ok (some d) ∧ 0 ≤ d ∧
      d ^ 2 * ∑ j ∈ range size, ∑ i ∈ range size, Spec.lagWeight weighted size j i = ∑ j ∈ range size, ∑ i ∈ range size, z j i ∧
      errorsIn p4 = [(s1.color, spec1.map fun q => (q.1 * c1, q.2)), (s2.color, spec2.map fun q => (q.1 * c2, q.2))] ∧
      p4.xlabel = some ("Lags (" ++ unitName ++ ")") := by
  obtain ⟨l1, m1, hl1⟩ := arrMin_ok hsize ha hu
  obtain ⟨l2, m2, hl2⟩ := arrMin_ok hsize hb hv
  have conv : ∀ (sp : Spatial) (c : ℝ) (hc : PixelSize sp unit c) (spec : ScfSpec), scfSpecIn sp unit spec = .ok (spec.map fun q => (q.1 * c, q.2)) := by
    intro sp c hc spec
    unfold scfSpecIn
    apply mapM_ok'
    intro q _
    rw [conv_ok hc]
    rfl
  obtain ⟨d, hd, hd0, hd2⟩ := C27_value weighted size hsize a b u v ha hb hu hv
  refine ⟨_, _, _, _, _, min l1 l2, d, fun j i => Spec.lagWeight weighted size j i * (u j i - v j i) ^ 2, scfDifference weighted size a b,
    by simp only [scfFigure, conv sp1 c1 hc1, conv sp2 c2 hc2, m1, m2, pyMinO_some, bind, Except.bind, pure, Except.pure]; rfl,
    rfl, rfl, rfl, rfl, rfl, rfl, rfl, rfl, ?_, rfl, rfl, rfl, ?_, fun j _ i _ => rfl, hd, hd0, hd2, rfl, rfl⟩
  · constructor
    · rcases min_choice l1 l2 with h | h <;> rw [h]
      · obtain ⟨j, hj, i, hi, h⟩ := hl1.1; exact ⟨j, hj, i, hi, Or.inl h⟩
      · obtain ⟨j, hj, i, hi, h⟩ := hl2.1; exact ⟨j, hj, i, hi, Or.inr h⟩
    · rintro t ⟨j, hj, i, hi, h | h⟩
      · exact le_trans (min_le_left _ _) (hl1.2 ⟨j, hj, i, hi, h⟩)
      · exact le_trans (min_le_right _ _) (hl2.2 ⟨j, hj, i, hi, h⟩)
  · intro j hj i hi
    simp only [scfDifference, hu j hj i hi, hv j hj i hi, subO, scfWeight_lag, Option.map_some, bind, Option.bind, pure]
    rw [mul_comm]

/-- **C116 (SCF, colours).** For surfaces of cubes with signal whose lags contain zero, the largest value of each image is 1, so with the
common lower end the colours of the two images mean the same. -/
theorem C116_scf_scale (data : Arr3 (Option ℝ)) (lag : Arr1 ℤ) (s : Arr2 (Option ℝ))
    (hs : scfSurface "continuous" data (lag.map (fun k : ℤ => (k : ℝ))) = .ok s) (k : ℕ) (hk : k < lag.n) (h0 : lag.get k = 0)
    (hsig : ∃ v < data.n, ∃ a < data.m, ∃ b < data.p, ∃ t, data.get v a b = some t ∧ t ≠ 0) :
    IsGreatest {t | ∃ j < s.n, ∃ i < s.m, s.get j i = some t} 1 := by
  obtain ⟨s', hs', hn, hm, hb⟩ := C25_bounded "continuous" (Or.inl rfl) data (lag.map (fun k : ℤ => (k : ℝ))) (by simp)
  rw [hs] at hs'
  cases hs'
  have hn' : s.n = lag.n := hn
  have hm' : s.m = lag.n := hm
  refine ⟨⟨k, by omega, k, by omega, C25_zero_lag data lag s hs k k hk hk h0 h0 hsig⟩, ?_⟩
  rintro t ⟨j, hj, i, hi, h⟩
  exact (hb j (hn ▸ hj) i (hm ▸ hi) t h).2

/-- Non-vacuity: two complete 3×3 surfaces, pixels as unit. -/
example : ∃ (a b : Arr2 (Option ℝ)) (u v : ℕ → ℕ → ℝ), (a.n = 3 ∧ a.m = 3) ∧ (b.n = 3 ∧ b.m = 3) ∧ (∀ j < 3, ∀ i < 3, a.get j i = some (u j i)) ∧
    (∀ j < 3, ∀ i < 3, b.get j i = some (v j i)) ∧ u 0 1 ≠ v 0 1 ∧ PixelSize ⟨none, none⟩ .pix 1 :=
  ⟨⟨3, 3, fun j i => some (j + i)⟩, ⟨3, 3, fun j i => some (j * i)⟩, fun j i => j + i, fun j i => j * i, ⟨rfl, rfl⟩, ⟨rfl, rfl⟩, fun _ _ _ _ => rfl,
    fun _ _ _ _ => rfl, by norm_num, by norm_num, rfl⟩

/-! ### PDF -/

private theorem run_inv {o r : PdfObj} {e : Arr1 ℝ} (h : runPdf o (some (.edges e)) = .ok r) :
    r.pdf = some (histDensity e (validVals r.data)) ∧ r.ecdf = some ((binCentres e).map (ecdfAt r.data)) := by
  simp only [runPdf, makePdf, npHistogram, bind, Except.bind, pure, Except.pure] at h
  split at h
  · cases h
  rename_i v hv
  split_ifs at hv
  simp only [Except.ok.injEq] at hv
  subst hv
  simp only [makeEcdf, bind, Except.bind, pure, Except.pure, Option.isNone_some, Bool.false_eq_true, if_false, Except.ok.injEq] at h
  subst h
  exact ⟨rfl, rfl⟩

private theorem init_inv {a b : PdfInput} {o : PdfDistOpts} {d : PdfDist} (h : pdfDistInit a b o = .ok d) :
    d.pdf1.pdf = some (histDensity d.bins (validVals d.pdf1.data)) ∧ d.pdf1.ecdf = some ((binCentres d.bins).map (ecdfAt d.pdf1.data)) ∧
    d.pdf2.pdf = some (histDensity d.bins (validVals d.pdf2.data)) ∧ d.pdf2.ecdf = some ((binCentres d.bins).map (ecdfAt d.pdf2.data)) := by
  unfold pdfDistInit at h
  split_ifs at h
  simp only [bind, Except.bind, pure, Except.pure] at h
  split at h
  · cases h
  split at h
  · cases h
  split at h
  · cases h
  split at h
  · cases h
  rename_i r1 hr1
  split at h
  · cases h
  rename_i r2 hr2
  cases h
  obtain ⟨a1, a2⟩ := run_inv hr1
  obtain ⟨b1, b2⟩ := run_inv hr2
  exact ⟨a1, a2, b1, b2⟩

private theorem rowSum_real (f : ℕ → Option ℝ) (g : ℕ → ℝ) (n : ℕ) (h : ∀ k < n, f k = some (g k)) : rowSum f n = some (∑ k ∈ range n, g k) := by
  unfold rowSum
  induction n with
  | zero => simp
  | succ n ih =>
    rw [List.range_succ, List.foldl_append, ih (fun k hk => h k (by omega)), sum_range_succ]
    simp [h n (by omega), addO]

private theorem hell_units (p q : Arr1 (Option ℝ)) (n : ℕ) (hp : p.n = n) (hq : q.n = n) (f g : ℕ → ℝ) (hf : ∀ k < n, p.get k = some (f k) ∧ 0 ≤ f k)
    (hg : ∀ k < n, q.get k = some (g k) ∧ 0 ≤ g k) (sf : ∑ k ∈ range n, f k ≠ 0) (sg : ∑ k ∈ range n, g k ≠ 0) :
    hellinger (pdfUnit p) (pdfUnit q) 1 =
      .ok (hell n (fun k => f k / ∑ j ∈ range n, f j) (fun k => g k / ∑ j ∈ range n, g j)) := by
  have pf : 0 ≤ ∑ k ∈ range n, f k := sum_nonneg fun k hk => (hf k (mem_range.1 hk)).2
  have pg : 0 ≤ ∑ k ∈ range n, g k := sum_nonneg fun k hk => (hg k (mem_range.1 hk)).2
  have key : ∀ k < n, hellTerm ((pdfUnit p).get k) ((pdfUnit q).get k) =
      (Real.sqrt (f k / ∑ j ∈ range n, f j) - Real.sqrt (g k / ∑ j ∈ range n, g j)) ^ 2 := by
    intro k hk
    simp only [pdfUnit, hp, hq, rowSum_real p.get f n (fun k hk => (hf k hk).1), rowSum_real q.get g n (fun k hk => (hg k hk).1),
      (hf k hk).1, (hg k hk).1]
    have a1 : ¬ (f k / ∑ j ∈ range n, f j) < 0 := not_lt.2 (div_nonneg (hf k hk).2 pf)
    have a2 : ¬ (g k / ∑ j ∈ range n, g j) < 0 := not_lt.2 (div_nonneg (hg k hk).2 pg)
    simp [divO, sf, sg, hellTerm, sqrtO, subO, a1, a2]
  unfold hellinger
  rw [if_neg (by simp [pdfUnit, hp, hq])]
  unfold hell
  have : (pdfUnit p).n = n := hp
  rw [this, sum_congr rfl (fun k hk => key k (mem_range.1 hk)), Real.sqrt_div' _ (by norm_num : (0 : ℝ) ≤ 2)]
  congr 1
  ring

private theorem ept_eq (e : Arr1 ℝ) (F : ℝ → ℝ) :
    drawnPts ((pdfCentres e).zip ((List.range ((binCentres e).map F).n).map ((binCentres e).map F).get)) =
      (List.range (e.n - 1)).map fun k => (some ((e.get k + e.get (k + 1)) / 2), some (F ((e.get k + e.get (k + 1)) / 2))) := by
  have : ((binCentres e).map F).n = e.n - 1 := rfl
  rw [this]
  unfold pdfCentres drawnPts
  rw [List.zip_map', List.map_map]
  rfl

private theorem pts_eq (e : Arr1 ℝ) (a : Arr1 (Option ℝ)) (ha : a.n = e.n - 1) :
    ((pdfCentres e).map some).zip ((List.range a.n).map a.get) =
      (List.range (e.n - 1)).map fun k => (some ((e.get k + e.get (k + 1)) / 2), a.get k) := by
  rw [ha]
  unfold pdfCentres
  rw [List.map_map, List.zip_map']
  rfl

private theorem args_ok (sh : List ℝ) (sc : ℝ) : lognormArgs (sh ++ [sc]) = .ok (sh, sc) := by
  unfold lognormArgs fromEnd
  rw [if_pos (by simp)]
  simp [bind, Except.bind, pure, Except.pure]

private theorem pdf_label (norm : Option String) : pdfXlabel norm = pdfAbscissa norm := by
  unfold pdfXlabel pdfAbscissa
  split <;> simp_all

/-- **C116 (PDF).** The left panel has the two PDFs and the right one the two empirical distribution functions, each dataset in its colour
and all at the same abscissae; a point of the right panel is the fraction of the dataset at or below its abscissa.  The Hellinger distance
is that of the drawn PDFs divided by their sums; the two curves of the right panel are nowhere further apart than the KS distance.  With a fit,
each panel has two further curves in the same colours, at 1000 abscissae from the first to the last bin: the density (distribution function)
of the model with the shape parameters fitted, `loc` 0 and the scale fitted. -/
theorem C116_pdf (a b : PdfInput) (o : PdfDistOpts) (d : PdfDist) (h : pdfDistInit a b o = .ok d) (hn : 2 ≤ d.bins.n) (norm : Option String)
    (m : DistModel) (sh1 sh2 : List ℝ) (sc1 sc2 : ℝ) (s1 s2 : Style) :
    ∃ (fig fig' : List FigPanel) (p1 p2 p1' p2' : FigPanel) (n : ℕ) (x : ℕ → ℝ) (f g : ℕ → Option ℝ) (F G : ℕ → ℝ) (vals : List ℝ),
      pdfFigure d norm m none s1 s2 = .ok fig ∧ panelAt fig 1 = some p1 ∧ panelAt fig 2 = some p2 ∧
      pdfFigure d norm m (some (sh1 ++ [sc1], sh2 ++ [sc2])) s1 s2 = .ok fig' ∧ panelAt fig' 1 = some p1' ∧ panelAt fig' 2 = some p2' ∧
      p1.xlabel = some (pdfAbscissa norm) ∧ p2.xlabel = some (pdfAbscissa norm) ∧ p1'.xlabel = p1.xlabel ∧ p2'.xlabel = p2.xlabel ∧
      n = d.bins.n - 1 ∧ (∀ k < n, x k = (d.bins.get k + d.bins.get (k + 1)) / 2) ∧
      curvesIn p1 = [(s1.color, (List.range n).map fun k => (some (x k), f k)), (s2.color, (List.range n).map fun k => (some (x k), g k))] ∧
      curvesIn p2 = [(s1.color, (List.range n).map fun k => (some (x k), some (F k))),
        (s2.color, (List.range n).map fun k => (some (x k), some (G k)))] ∧
      (∀ k < n, F k = ((d.pdf1.data.filter fun v => v.any fun t => decide (t ≤ x k)).length : ℝ) / d.pdf1.data.length ∧
        G k = ((d.pdf2.data.filter fun v => v.any fun t => decide (t ≤ x k)).length : ℝ) / d.pdf2.data.length) ∧
      (∀ f' g' : ℕ → ℝ, (∀ k < n, f k = some (f' k) ∧ 0 ≤ f' k) → (∀ k < n, g k = some (g' k) ∧ 0 ≤ g' k) →
        ∑ k ∈ range n, f' k ≠ 0 → ∑ k ∈ range n, g' k ≠ 0 →
        pdfDistHellinger d = .ok (hell n (fun k => f' k / ∑ j ∈ range n, f' j) (fun k => g' k / ∑ j ∈ range n, g' j))) ∧
      (d.pdf1.data ≠ [] → d.pdf2.data ≠ [] → none ∉ d.pdf1.data → none ∉ d.pdf2.data →
        ∃ D, pdfDistKs d = .ok (some D) ∧ ∀ k < n, |F k - G k| ≤ D) ∧
      vals.length = 1000 ∧ vals[0]? = some (x 0) ∧ vals[999]? = some (x (n - 1)) ∧
      curvesIn p1' = curvesIn p1 ++ [(s1.color, vals.map fun v => (some v, some (m.pdf sh1 0 sc1 v))),
        (s2.color, vals.map fun v => (some v, some (m.pdf sh2 0 sc2 v)))] ∧
      curvesIn p2' = curvesIn p2 ++ [(s1.color, vals.map fun v => (some v, some (m.cdf sh1 0 sc1 v))),
        (s2.color, vals.map fun v => (some v, some (m.cdf sh2 0 sc2 v)))] := by
  obtain ⟨q1, c1, q2, c2⟩ := init_inv h
  obtain ⟨b0, bs, hcs⟩ : ∃ b0 bs, pdfCentres d.bins = b0 :: bs := by
    apply List.exists_cons_of_ne_nil
    unfold pdfCentres
    simp; omega
  have hx0 : b0 = (d.bins.get 0 + d.bins.get (0 + 1)) / 2 := by
    have : (pdfCentres d.bins)[0]? = some b0 := by rw [hcs]; rfl
    unfold pdfCentres at this
    rw [List.getElem?_map, List.getElem?_range (by omega)] at this
    simpa using this.symm
  have hxl : (pdfCentres d.bins).getLastD b0 = (d.bins.get (d.bins.n - 1 - 1) + d.bins.get (d.bins.n - 1 - 1 + 1)) / 2 := by
    rw [List.getLastD_eq_getLast?]
    unfold pdfCentres
    rw [List.getLast?_map, List.getLast?_range, if_neg (by omega)]
    rfl
  have hvals : shownVals (pdfCentres d.bins) = .ok ((List.range 1000).map (linspace b0 ((pdfCentres d.bins).getLastD b0) 1000).get) := by
    conv_lhs => rw [hcs]
    unfold shownVals
    rw [hcs]
  have hdr : ∀ (vals : List ℝ) (F : ℝ → ℝ), drawnPts (vals.map fun x => (x, F x)) = vals.map fun v => (some v, some (F v)) := by
    intro vals F
    unfold drawnPts
    rw [List.map_map]; rfl
  set vals := (List.range 1000).map (linspace b0 ((pdfCentres d.bins).getLastD b0) 1000).get with hv
  refine ⟨_, _, _, _, _, _, d.bins.n - 1, fun k => (d.bins.get k + d.bins.get (k + 1)) / 2,
    (histDensity d.bins (validVals d.pdf1.data)).get, (histDensity d.bins (validVals d.pdf2.data)).get,
    fun k => ecdfAt d.pdf1.data ((d.bins.get k + d.bins.get (k + 1)) / 2), fun k => ecdfAt d.pdf2.data ((d.bins.get k + d.bins.get (k + 1)) / 2),
    vals,
    by simp only [pdfFigure, q1, q2, c1, c2, bind, Except.bind, pure, Except.pure]; rfl, rfl, rfl,
    by simp only [pdfFigure, fitCurves, args_ok, hvals, q1, q2, c1, c2, bind, Except.bind, pure, Except.pure]; rfl, rfl, rfl,
    by exact congrArg some (pdf_label norm), by exact congrArg some (pdf_label norm), by rfl, by rfl, rfl, fun k _ => rfl, ?_, ?_, fun k _ => ⟨rfl, rfl⟩, ?_, ?_, ?_, ?_, ?_, ?_, ?_⟩
  · simp only [curvesIn, List.filterMap_cons, List.filterMap_nil, List.append_nil]
    rw [pts_eq d.bins _ rfl, pts_eq d.bins _ rfl]
  · simp only [curvesIn, List.filterMap_cons, List.filterMap_nil, List.append_nil]
    rw [ept_eq, ept_eq]
  · intro f' g' hf hg sf sg
    unfold pdfDistHellinger
    rw [q1, q2]
    exact hell_units (histDensity d.bins (validVals d.pdf1.data)) (histDensity d.bins (validVals d.pdf2.data)) (d.bins.n - 1) rfl rfl f' g' hf hg sf sg
  · intro n1 n2 f1 f2
    obtain ⟨D, hD, -, -, hg⟩ := C79_ks d n1 n2 f1 f2
    exact ⟨D, hD, fun k _ => hg.2 ⟨_, rfl⟩⟩
  · simp [hv]
  · rw [hv, List.getElem?_map, List.getElem?_range (by norm_num)]
    simp [linspace, hx0]
  · rw [hv, List.getElem?_map, List.getElem?_range (by norm_num), hxl]
    simp only [linspace, Option.map_some, Option.some.injEq]
    push_cast
    ring
  · simp only [curvesIn, List.filterMap_cons, List.filterMap_nil, List.filterMap_append, List.append_nil, hdr]
  · simp only [curvesIn, List.filterMap_cons, List.filterMap_nil, List.filterMap_append, List.append_nil, hdr]

/-- Non-vacuity: the two images of C79 with three edges. -/
example : ∃ d, pdfDistInit ⟨[some 0, none, some 1], none, none⟩ ⟨[some 2, some 4], none, none⟩ { nbins := some 3 } = .ok d ∧ 2 ≤ d.bins.n := by
  obtain ⟨p1, p2, h1, h2, v1, v2, lo, hi, hn, -⟩ := pdf_pair_example
  obtain ⟨d, hd, hb, -⟩ := C79_value_partial ⟨[some 0, none, some 1], none, none⟩ ⟨[some 2, some 4], none, none⟩ { nbins := some 3 } rfl rfl rfl
    p1 p2 h1 h2 0 2 0 4 v1 v2 lo hi (by norm_num) hn
  exact ⟨d, hd, hb ▸ hn⟩

end TS
