import Verif.Props.C118
import Verif.Props.C79

/-! C122: rows and columns of missing pixels around a map do not change its statistics. Maps. -/

namespace TS
open Finset

namespace Spec

/-- The map with `t` rows above it, `b` below, `l` columns to the left and `r` to the right, all missing. -/
def framed (t b l r : ℕ) (a : Arr2 (Option ℝ)) : Arr2 (Option ℝ) :=
  ⟨t + a.n + b, l + a.m + r, fun i j => if t ≤ i ∧ i < t + a.n ∧ l ≤ j ∧ j < l + a.m then a.get (i - t) (j - l) else none⟩

end Spec

/-! ### Lists of pixels -/

private theorem flatMap_frame {β : Type} (t n b : ℕ) (g : ℕ → List β) (h : ∀ i < t + n + b, ¬(t ≤ i ∧ i < t + n) → g i = []) :
    (List.range (t + n + b)).flatMap g = (List.range n).flatMap fun i => g (t + i) := by
  rw [List.range_add, List.range_add, List.flatMap_append, List.flatMap_append, List.flatMap_map, List.flatMap_map,
    (List.flatMap_eq_nil_iff (l := List.range t)).2, (List.flatMap_eq_nil_iff (l := List.range b)).2, List.nil_append, List.append_nil]
  · intro i hi
    have := List.mem_range.1 hi
    exact h _ (by omega) (by omega)
  · intro i hi
    have := List.mem_range.1 hi
    exact h _ (by omega) (by omega)

/-- What a map within a frame gives, when the frame gives nothing. -/
theorem framed_ravel {α β : Type} {a a' : Arr2 α} {t b l r : ℕ} (hn : a'.n = t + a.n + b) (hm : a'.m = l + a.m + r) (f : α → Option β)
    (hin : ∀ i < a.n, ∀ j < a.m, f (a'.get (t + i) (l + j)) = f (a.get i j))
    (hout : ∀ i < a'.n, ∀ j < a'.m, ¬(t ≤ i ∧ i < t + a.n ∧ l ≤ j ∧ j < l + a.m) → f (a'.get i j) = none) :
    a'.ravel.filterMap f = a.ravel.filterMap f := by
  have one : ∀ (k : ℕ) (g : ℕ → α), ((List.range k).map g).filterMap f = (List.range k).flatMap fun j => (f (g j)).toList := by
    intro k g
    rw [List.filterMap_map, List.filterMap_eq_flatMap_toList]
    rfl
  unfold Arr2.ravel
  rw [List.filterMap_flatMap, List.filterMap_flatMap, hn, flatMap_frame t a.n b]
  · refine List.flatMap_congr fun i hi => ?_
    have hi := List.mem_range.1 hi
    rw [one, one, hm, flatMap_frame l a.m r]
    · refine List.flatMap_congr fun j hj => ?_
      rw [hin i hi j (List.mem_range.1 hj)]
    · intro j hj ho
      rw [hout (t + i) (by omega) j (by omega) (by omega)]
      rfl
  · intro i hi ho
    rw [one]
    refine List.flatMap_eq_nil_iff.2 fun j hj => ?_
    rw [hout i (by omega) j (by simpa using hj) (by omega)]
    rfl

theorem framed_in (t b l r : ℕ) (a : Arr2 (Option ℝ)) {i j : ℕ} (hi : i < a.n) (hj : j < a.m) :
    (Spec.framed t b l r a).get (t + i) (l + j) = a.get i j := by
  show (if _ then _ else _) = _
  rw [if_pos (by omega), Nat.add_sub_cancel_left, Nat.add_sub_cancel_left]

theorem framed_out (t b l r : ℕ) (a : Arr2 (Option ℝ)) {i j : ℕ} (h : ¬(t ≤ i ∧ i < t + a.n ∧ l ≤ j ∧ j < l + a.m)) :
    (Spec.framed t b l r a).get i j = none := if_neg h

private theorem filterMap_framed {β : Type} (t b l r : ℕ) (a : Arr2 (Option ℝ)) (f : Option ℝ → Option β) (hf : f none = none) :
    (Spec.framed t b l r a).ravel.filterMap f = a.ravel.filterMap f :=
  framed_ravel rfl rfl f (fun i hi j hj => by rw [framed_in t b l r a hi hj]) fun i _ j _ h => by rw [framed_out t b l r a h, hf]

/-- **Values.** The valid values of a map, in their order, are those of the map within a frame. -/
theorem C122_values (t b l r : ℕ) (a : Arr2 (Option ℝ)) : validVals (Spec.framed t b l r a).ravel = validVals a.ravel :=
  filterMap_framed t b l r a id rfl

private theorem ravel_zip {α β : Type} (a : Arr2 α) (c : Arr2 β) (hn : c.n = a.n) (hm : c.m = a.m) :
    a.ravel.zip c.ravel = (⟨a.n, a.m, fun i j => (a.get i j, c.get i j)⟩ : Arr2 (α × β)).ravel := by
  unfold Arr2.ravel
  rw [hn, hm]
  simp only
  have gen : ∀ L : List ℕ, (L.flatMap fun i => (List.range a.m).map fun j => a.get i j).zip (L.flatMap fun i => (List.range a.m).map fun j => c.get i j) =
      L.flatMap fun i => (List.range a.m).map fun j => (a.get i j, c.get i j) := by
    intro L
    induction L with
    | nil => rfl
    | cons i L ih =>
      rw [List.flatMap_cons, List.flatMap_cons, List.flatMap_cons, List.zip_append (by simp), ih, List.zip_map']
  exact gen _

private theorem ravel_length {α : Type} (a : Arr2 α) : a.ravel.length = a.n * a.m := by
  unfold Arr2.ravel
  simp

/-! ### PDF -/

/-- **PDF.** The object made from an image is the one made from the image within a frame, with or without weights (which get the same frame); so are
all distributions, percentiles and fits made from it. -/
theorem C122_pdf (t b l r : ℕ) (img : Arr2 (Option ℝ)) (minVal : Option ℝ) (bins : Option BinsArg) (norm : Option String) :
    pdfInit (Spec.framed t b l r img).ravel minVal bins none norm = pdfInit img.ravel minVal bins none norm ∧
    ∀ w : Arr2 (Option ℝ), w.n = img.n → w.m = img.m →
      pdfInit (Spec.framed t b l r img).ravel minVal bins (some (Spec.framed t b l r w).ravel) norm = pdfInit img.ravel minVal bins (some w.ravel) norm := by
  constructor
  · unfold pdfInit pdfKeep
    rw [filterMap_framed t b l r img _ rfl]
  · intro w hn hm
    have e : pdfKeep minVal (Spec.framed t b l r img).ravel (some (Spec.framed t b l r w).ravel) = pdfKeep minVal img.ravel (some w.ravel) := by
      have h1 : (Spec.framed t b l r w).ravel.length = (Spec.framed t b l r img).ravel.length := by
        rw [ravel_length, ravel_length]
        simp only [Spec.framed, hn, hm]
      have h2 : w.ravel.length = img.ravel.length := by rw [ravel_length, ravel_length, hn, hm]
      unfold pdfKeep
      simp only
      rw [if_neg (by simp [h1]), if_neg (by simp [h2]), ravel_zip _ _ (by simp only [Spec.framed, hn]) (by simp only [Spec.framed, hm]), ravel_zip _ _ hn hm]
      refine congrArg Except.ok (framed_ravel (t := t) (b := b) (l := l) (r := r) rfl rfl _ ?_ ?_)
      · intro i hi j hj
        simp only
        rw [framed_in t b l r img hi hj, framed_in t b l r w (hn ▸ hi) (hm ▸ hj)]
      · intro i _ j _ h
        simp only
        rw [framed_out t b l r img h]
        rfl
    unfold pdfInit
    rw [e]

/-- The distance of the PDFs of two images, each within its own frame: objects, bins and any exception are the same. -/
theorem C122_pdf_distance (t b l r t' b' l' r' : ℕ) (img img' : Arr2 (Option ℝ)) (mv mv' : Option ℝ) (o : PdfDistOpts) :
    pdfDistInit ⟨(Spec.framed t b l r img).ravel, mv, none⟩ ⟨(Spec.framed t' b' l' r' img').ravel, mv', none⟩ o =
    pdfDistInit ⟨img.ravel, mv, none⟩ ⟨img'.ravel, mv', none⟩ o := by
  unfold pdfDistInit
  simp only [(C122_pdf t b l r img mv none o.norm).1, (C122_pdf t' b' l' r' img' mv' none o.norm).1]

/-! ### Genus -/

private def valued (img : Arr2 (Option ℝ)) (P : ℝ → Prop) : Set (ℕ × ℕ) := {p | p.1 < img.n ∧ p.2 < img.m ∧ ∃ v, img.get p.1 p.2 = some v ∧ P v}

private theorem valued_framed (t b l r : ℕ) (img : Arr2 (Option ℝ)) (P : ℝ → Prop) :
    valued (Spec.framed t b l r img) P = (fun p => (t + p.1, l + p.2)) '' valued img P := by
  ext ⟨i, j⟩
  constructor
  · rintro ⟨h1, h2, v, hv, hP⟩
    by_cases h : t ≤ i ∧ i < t + img.n ∧ l ≤ j ∧ j < l + img.m
    · refine ⟨(i - t, j - l), ⟨?_, ?_, v, ?_, hP⟩, ?_⟩
      · show i - t < img.n; omega
      · show j - l < img.m; omega
      · have := framed_in t b l r img (i := i - t) (j := j - l) (by omega) (by omega)
        rw [show t + (i - t) = i by omega, show l + (j - l) = j by omega] at this
        exact this.symm.trans hv
      · show (t + (i - t), l + (j - l)) = (i, j)
        rw [show t + (i - t) = i by omega, show l + (j - l) = j by omega]
    · rw [framed_out t b l r img h] at hv
      cases hv
  · rintro ⟨⟨a, c⟩, ⟨h1, h2, v, hv, hP⟩, he⟩
    have h1 : a < img.n := h1
    have h2 : c < img.m := h2
    obtain ⟨rfl, rfl⟩ := Prod.mk.inj he
    refine ⟨?_, ?_, v, ?_, hP⟩
    · show t + a < t + img.n + b; omega
    · show l + c < l + img.m + r; omega
    · exact (framed_in t b l r img h1 h2).trans hv

private theorem regions_framed (t b l r : ℕ) (c : Bool) (img : Arr2 (Option ℝ)) (P : ℝ → Prop) (Q : ℕ → Prop) :
    {R ∈ Spec.regions c (valued (Spec.framed t b l r img) P) | Q R.ncard}.ncard = {R ∈ Spec.regions c (valued img P) | Q R.ncard}.ncard := by
  refine (regions_card_image (valued_framed t b l r img P) ?_ ?_ Q).symm
  · rintro ⟨i, j⟩ _ ⟨i', j'⟩ _ h
    have := Prod.mk.inj h
    exact Prod.ext (by simpa using this.1) (by simpa using this.2)
  · intro p _ q _
    cases c <;> simp only [Spec.Touch, Bool.false_eq_true, false_and, true_and, or_false] <;> constructor <;> (intro h; omega)

/-- **Genus.** The genus of an image at a threshold is that of the image within a frame. -/
theorem C122_genus_value (t b l r : ℕ) (img : Arr2 (Option ℝ)) (v : ℝ) (removal : Bool) (minSize : ℤ) (conn : ℕ) (hc : conn = 1 ∨ conn = 2) :
    genusValue (Spec.framed t b l r img) v removal minSize conn = genusValue img v removal minSize conn := by
  have hb := regions_framed t b l r (Spec.corners conn) img (fun x => v < x)
  have hd := regions_framed t b l r (Spec.corners conn) img (fun x => x < v)
  cases removal with
  | false =>
    rw [C47_value_all _ v minSize conn hc, C47_value_all _ v minSize conn hc]
    have h1 := hb fun _ => True
    have h2 := hd fun _ => True
    simp only [and_true, Set.setOf_mem_eq] at h1 h2
    exact congrArg₂ (fun a b : ℕ => (a : ℤ) - b) h1 h2
  | true =>
    rw [C47_value_removal _ v minSize conn hc, C47_value_removal _ v minSize conn hc]
    exact congrArg₂ (fun a b : ℕ => (a : ℤ) - b) (hb fun k => minSize ≤ (k : ℤ)) (hd fun k => minSize ≤ (k : ℤ))

private theorem thresholds_framed (t b l r : ℕ) (img : Arr2 (Option ℝ)) (du : Option BUnit) (o : ThreshArgs) :
    rangeThresholds (flat2 (Spec.framed t b l r img)) du o = rangeThresholds (flat2 img) du o := by
  have h : validVals (flat2 (Spec.framed t b l r img)) = validVals (flat2 img) := C122_values t b l r img
  have e1 : defaultMin (flat2 (Spec.framed t b l r img)) = defaultMin (flat2 img) := by
    funext q
    simp only [defaultMin, nanmin, nanpercentile, h]
  have e2 : defaultMax (flat2 (Spec.framed t b l r img)) = defaultMax (flat2 img) := by
    funext q
    simp only [defaultMax, nanmax, nanpercentile, h]
  simp only [rangeThresholds, rawMin, rawMax, e1, e2]

/-- **Genus curves.** A `Genus` object without smoothing, of an image within a frame: thresholds, unit, genus curves and any exception are those of the
image. Missing: smoothing, of which the routine treats missing values in its own way and whose radii are limited by the size of the map. -/
theorem C122_genus_partial (t b l r : ℕ) (img : Arr2 (Option ℝ)) (du : Option BUnit) (o : ThreshArgs) (given : Option (Arr1 ℝ × Option BUnit)) (rad : RadiiArg)
    (smooth : ℝ → Arr2 (Option ℝ) → Arr2 (Option ℝ)) (c : CurveArgs) (hc : c.conn = 1 ∨ c.conn = 2) :
    (genusInit (Spec.framed t b l r img) du o given false rad).map (fun g => (g.thresholds, g.unit, g.curves smooth c)) =
    (genusInit img du o given false rad).map (fun g => (g.thresholds, g.unit, g.curves smooth c)) := by
  have hv := fun v => C122_genus_value t b l r img v c.removal c.minSize c.conn hc
  unfold genusInit
  rw [thresholds_framed t b l r img du o]
  cases given with
  | some g =>
    simp only [bind, Except.bind, pure, Except.pure]
    cases givenThresholds du g.1 g.2 with
    | error e => rfl
    | ok v => simp [initRadii, Except.map, GenusObj.curves, genusStats, hv]
  | none =>
    simp only [bind, Except.bind, pure, Except.pure]
    cases rangeThresholds (flat2 img) du o with
    | error e => rfl
    | ok v => simp [initRadii, Except.map, GenusObj.curves, genusStats, hv]

/-- VIOLATION: the distance divides the genus by the number of all pixels, missing ones included. One pixel of value 1 has a genus of 1 per pixel at the
threshold 0, and of 1/2 next to a missing pixel. -/
theorem C122_genus_area_violated : ∃ (img : Arr2 (Option ℝ)) (thr : Arr1 ℝ), ∀ smooth,
    ((⟨img, thr, none, [none]⟩ : GenusObj).curve smooth { removal := false }).perArea ((⟨img, thr, none, [none]⟩ : GenusObj).curve smooth { removal := false }).size
      = [1] ∧
    ((⟨Spec.framed 0 0 0 1 img, thr, none, [none]⟩ : GenusObj).curve smooth { removal := false }).perArea
      ((⟨Spec.framed 0 0 0 1 img, thr, none, [none]⟩ : GenusObj).curve smooth { removal := false }).size = [1 / 2] := by
  have g1 : genusValue ⟨1, 1, fun _ _ => some 1⟩ 0 false 4 2 = 1 := by
    rw [C47_value_all _ _ _ _ (Or.inr rfl)]
    have hb : Spec.brighter ⟨1, 1, fun _ _ => some 1⟩ 0 = {(0, 0)} := by
      ext ⟨i, j⟩
      simp [Spec.brighter]
    have hf : Spec.fainter ⟨1, 1, fun _ _ => some 1⟩ 0 = ∅ := by
      ext ⟨i, j⟩
      simp [Spec.fainter]
    rw [hb, hf]
    have e1 : Spec.regions (Spec.corners 2) {((0 : ℕ), (0 : ℕ))} = {Spec.regionOf (Spec.corners 2) {(0, 0)} (0, 0)} := by
      ext R
      simp [Spec.regions, eq_comm]
    have e2 : Spec.regions (Spec.corners 2) (∅ : Set (ℕ × ℕ)) = ∅ := by
      ext R
      simp [Spec.regions]
    rw [e1, e2]
    simp
  refine ⟨⟨1, 1, fun _ _ => some 1⟩, ⟨1, fun _ => 0⟩, fun smooth => ⟨?_, ?_⟩⟩
  · simp [GenusObj.curve, GenusObj.curves, genusStats, GenusCurve.perArea, g1]
  · have g2 := (C122_genus_value 0 0 0 1 ⟨1, 1, fun _ _ => some 1⟩ 0 false 4 2 (Or.inr rfl)).trans g1
    simp [GenusObj.curve, GenusObj.curves, genusStats, GenusCurve.perArea, g2]
    simp [Spec.framed]

/-! ### Moment maps -/

theorem framed_nanExt (t b l r : ℕ) (a : Arr2 (Option ℝ)) (i j : ℤ) :
    Spec.nanExt (Spec.framed t b l r a) i j = Spec.nanExt a (i - t) (j - l) := by
  unfold Spec.nanExt
  by_cases h : 0 ≤ i - t ∧ i - t < a.n ∧ 0 ≤ j - l ∧ j - l < a.m
  · rw [if_pos h, if_pos (by simp only [Spec.framed]; omega)]
    have := framed_in t b l r a (i := (i - t).toNat) (j := (j - l).toNat) (by omega) (by omega)
    rw [show t + (i - t).toNat = i.toNat by omega, show l + (j - l).toNat = j.toNat by omega] at this
    exact this
  · rw [if_neg h]
    split_ifs with h'
    · exact framed_out t b l r a (by omega)
    · rfl

/-- **Moment maps.** Without periodic boundaries the moments at the pixels of an image are the same when the image (and its weights) are put in a frame. -/
theorem C122_moments (junkI junkW junkI' junkW' : ℕ → ℕ → Option ℝ) (minFrac rad : ℝ) (img wgt : Arr2 (Option ℝ)) (hw : wgt.n = img.n ∧ wgt.m = img.m)
    (hrad : 0 < rad) (hf : 0 < minFrac ∧ minFrac ≤ 1) (t b l r : ℕ) :
    ∃ res res', spatialDistrib junkI junkW false minFrac rad img wgt = .ok res ∧
      spatialDistrib junkI' junkW' false minFrac rad (Spec.framed t b l r img) (Spec.framed t b l r wgt) = .ok res' ∧
      (∀ i < img.n, ∀ j < img.m, res'.get (t + i) (l + j) = res.get i j) ∧
      (1 / 2 ≤ minFrac → ∀ f : MomentSet → Option ℝ, f ⟨none, none, none, none⟩ = none → validVals (res'.map f).ravel = validVals (res.map f).ravel) := by
  obtain ⟨res, e, n1, m1, g⟩ := C43_maps_partial junkI junkW false minFrac rad img wgt hw hrad hf
  obtain ⟨res', e', n1', m1', g'⟩ := C43_maps_partial junkI' junkW' false minFrac rad (Spec.framed t b l r img) (Spec.framed t b l r wgt)
    ⟨by simp only [Spec.framed, hw.1], by simp only [Spec.framed, hw.2]⟩ hrad hf
  have cont : ∀ a : Arr2 (Option ℝ), Spec.contExt false (Spec.framed t b l r a) = fun i j => Spec.contExt false a (i - t) (j - l) := by
    intro a
    funext i j
    exact framed_nanExt t b l r a i j
  have cnt : ∀ (z : ℤ → ℤ → Option ℝ) (R : ℕ) (i j : ℤ), Spec.squareCount (fun i j => z (i - t) (j - l)) R i j = Spec.squareCount z R (i - t) (j - l) := by
    intro z R i j
    unfold Spec.squareCount
    congr 1
    refine filter_congr fun p _ => ?_
    beta_reduce
    rw [show i + p.1 - R - t = i - t + p.1 - R by ring, show j + p.2 - R - l = j - l + p.2 - R by ring]
  have pix : ∀ (z w : ℤ → ℤ → Option ℝ) (R : ℕ) (i j : ℤ), Spec.circlePixels (fun i j => z (i - t) (j - l)) (fun i j => w (i - t) (j - l)) R i j =
      Spec.circlePixels z w R (i - t) (j - l) := by
    intro z w R i j
    unfold Spec.circlePixels
    refine List.flatMap_congr fun u _ => List.map_congr_left fun v _ => ?_
    beta_reduce
    rw [show i + (u : ℤ) - R - t = i - t + u - R by ring, show j + (v : ℤ) - R - l = j - l + v - R by ring]
  have at_ : ∀ i < (Spec.framed t b l r img).n, ∀ j < (Spec.framed t b l r img).m, res'.get i j =
      if (Spec.squareCount (Spec.contExt false img) ⌈rad⌉₊ ((i : ℤ) - t) ((j : ℤ) - l) : ℝ) / (((2 * ⌈rad⌉₊ + 1) * (2 * ⌈rad⌉₊ + 1) : ℕ) : ℝ) < minFrac ∨
        (Spec.squareCount (Spec.contExt false wgt) ⌈rad⌉₊ ((i : ℤ) - t) ((j : ℤ) - l) : ℝ) / (((2 * ⌈rad⌉₊ + 1) * (2 * ⌈rad⌉₊ + 1) : ℕ) : ℝ) < minFrac
      then ⟨none, none, none, none⟩
      else computeMoments (Spec.circlePixels (Spec.contExt false img) (Spec.contExt false wgt) ⌈rad⌉₊ ((i : ℤ) - t) ((j : ℤ) - l)) := by
    intro i hi j hj
    have := g' i hi j hj
    simp only [cont, cnt, pix] at this
    exact this
  have inner : ∀ i < img.n, ∀ j < img.m, res'.get (t + i) (l + j) = res.get i j := by
    intro i hi j hj
    rw [at_ (t + i) (by simp only [Spec.framed]; omega) (l + j) (by simp only [Spec.framed]; omega), g i hi j hj]
    rw [show ((t + i : ℕ) : ℤ) - t = i by push_cast; ring, show ((l + j : ℕ) : ℤ) - l = j by push_cast; ring]
  refine ⟨res, res', e, e', inner, fun hmin f hf0 => ?_⟩
  refine framed_ravel (a := res.map f) (a' := res'.map f) (t := t) (b := b) (l := l) (r := r) ?_ ?_ id ?_ ?_
  · show res'.n = t + res.n + b
    rw [n1', n1]
    rfl
  · show res'.m = l + res.m + r
    rw [m1', m1]
    rfl
  · intro i hi j hj
    have hi : i < res.n := hi
    have hj : j < res.m := hj
    show f (res'.get (t + i) (l + j)) = f (res.get i j)
    rw [inner i (by omega) j (by omega)]
  · intro i hi j hj ho
    have hi : i < res'.n := hi
    have hj : j < res'.m := hj
    have ho : ¬(t ≤ i ∧ i < t + res.n ∧ l ≤ j ∧ j < l + res.m) := ho
    rw [n1, m1] at ho
    show f (res'.get i j) = none
    rw [at_ i (by omega) j (by omega), if_pos, hf0]
    left
    -- fewer than half of the square is inside the image
    have hc : Spec.squareCount (Spec.contExt false img) ⌈rad⌉₊ ((i : ℤ) - t) ((j : ℤ) - l) ≤ ⌈rad⌉₊ * (2 * ⌈rad⌉₊ + 1) := by
      have big : ∀ S : Finset (ℕ × ℕ), S.card = ⌈rad⌉₊ * (2 * ⌈rad⌉₊ + 1) → (∀ p ∈ Spec.square ⌈rad⌉₊,
          (0 ≤ (i : ℤ) - t + p.1 - ⌈rad⌉₊ ∧ (i : ℤ) - t + p.1 - ⌈rad⌉₊ < img.n ∧ 0 ≤ (j : ℤ) - l + p.2 - ⌈rad⌉₊ ∧ (j : ℤ) - l + p.2 - ⌈rad⌉₊ < img.m) → p ∈ S) →
          Spec.squareCount (Spec.contExt false img) ⌈rad⌉₊ ((i : ℤ) - t) ((j : ℤ) - l) ≤ ⌈rad⌉₊ * (2 * ⌈rad⌉₊ + 1) := by
        intro S hS hp
        rw [← hS]
        refine card_le_card fun p h => ?_
        obtain ⟨h1, h2⟩ := mem_filter.1 h
        refine hp p h1 ?_
        have h3 : (Spec.nanExt img ((i : ℤ) - t + p.1 - ⌈rad⌉₊) ((j : ℤ) - l + p.2 - ⌈rad⌉₊)).isSome := h2
        unfold Spec.nanExt at h3
        by_contra hcon
        rw [if_neg hcon] at h3
        cases h3
      set R := ⌈rad⌉₊ with hR
      have bounds : ∀ p ∈ Spec.square R, p.1 < 2 * R + 1 ∧ p.2 < 2 * R + 1 := by
        intro p hp
        unfold Spec.square at hp
        simpa using hp
      by_cases c1 : i < t
      · refine big (Finset.Ico (R + 1) (2 * R + 1) ×ˢ range (2 * R + 1)) (by rw [card_product, Nat.card_Ico, card_range]; congr 1; omega) fun p hp h => ?_
        have := bounds p hp
        simp only [mem_product, mem_Ico, mem_range]
        omega
      by_cases c2 : t + img.n ≤ i
      · refine big (range R ×ˢ range (2 * R + 1)) (by rw [card_product, card_range, card_range]) fun p hp h => ?_
        have := bounds p hp
        simp only [mem_product, mem_range]
        omega
      by_cases c3 : j < l
      · refine big (range (2 * R + 1) ×ˢ Finset.Ico (R + 1) (2 * R + 1)) (by rw [card_product, Nat.card_Ico, card_range, Nat.mul_comm]; congr 1; omega) fun p hp h => ?_
        have := bounds p hp
        simp only [mem_product, mem_Ico, mem_range]
        omega
      · refine big (range (2 * R + 1) ×ˢ range R) (by rw [card_product, card_range, card_range, Nat.mul_comm]) fun p hp h => ?_
        have := bounds p hp
        simp only [mem_product, mem_range]
        omega
    have hc' : (Spec.squareCount (Spec.contExt false img) ⌈rad⌉₊ ((i : ℤ) - t) ((j : ℤ) - l) : ℝ) ≤ ⌈rad⌉₊ * (2 * ⌈rad⌉₊ + 1) := by exact_mod_cast hc
    have hpos : (0 : ℝ) < ⌈rad⌉₊ := by exact_mod_cast Nat.ceil_pos.2 hrad
    refine lt_of_lt_of_le ?_ hmin
    push_cast
    rw [div_lt_iff₀ (by positivity)]
    nlinarith

/-- A map in a wide frame, continued periodically: near the map and its frame it is the map continued by missing values. -/
private theorem periodic_framed (t b l r R : ℕ) (h : R ≤ t ∧ R ≤ b ∧ R ≤ l ∧ R ≤ r) (a : Arr2 (Option ℝ)) (i j : ℤ)
    (hi : -(R : ℤ) ≤ i ∧ i < (t + a.n + b : ℕ) + R) (hj : -(R : ℤ) ≤ j ∧ j < (l + a.m + r : ℕ) + R) (hN : 0 < t + a.n + b) (hM : 0 < l + a.m + r) :
    Spec.contExt true (Spec.framed t b l r a) i j = Spec.contExt false (Spec.framed t b l r a) i j := by
  show (Spec.framed t b l r a).get (i % ((t + a.n + b : ℕ) : ℤ)).toNat (j % ((l + a.m + r : ℕ) : ℤ)).toNat =
    if 0 ≤ i ∧ i < ((t + a.n + b : ℕ) : ℤ) ∧ 0 ≤ j ∧ j < ((l + a.m + r : ℕ) : ℤ) then (Spec.framed t b l r a).get i.toNat j.toNat else none
  have wrap : ∀ (N : ℕ) (x : ℤ), -(R : ℤ) ≤ x → x < N + R → R ≤ N → 0 < N → ¬(0 ≤ x ∧ x < N) →
      (x % (N : ℤ)).toNat < R ∨ N - R ≤ (x % (N : ℤ)).toNat := by
    intro N x h1 h2 h3 h4 h5
    by_cases hx : x < 0
    · right
      rw [show x % (N : ℤ) = x + N by rw [← Int.add_emod_right, Int.emod_eq_of_lt (by omega) (by omega)]]
      omega
    · by_cases hR : x - N < N
      · left
        rw [show x % (N : ℤ) = x - N by rw [← Int.sub_emod_right, Int.emod_eq_of_lt (by omega) (by omega)]]
        omega
      · left
        have := Int.emod_lt_of_pos x (show (0 : ℤ) < N by omega)
        have := Int.emod_nonneg x (show (N : ℤ) ≠ 0 by omega)
        omega
  by_cases hin : 0 ≤ i ∧ i < ((t + a.n + b : ℕ) : ℤ)
  · by_cases hjn : 0 ≤ j ∧ j < ((l + a.m + r : ℕ) : ℤ)
    · rw [if_pos ⟨hin.1, hin.2, hjn.1, hjn.2⟩, Int.emod_eq_of_lt hin.1 hin.2, Int.emod_eq_of_lt hjn.1 hjn.2]
    · rw [if_neg fun q => hjn q.2.2, framed_out]
      have := wrap _ j hj.1 hj.2 (by omega) hM hjn
      omega
  · rw [if_neg fun q => hin ⟨q.1, q.2.1⟩, framed_out]
    have := wrap _ i hi.1 hi.2 (by omega) hN hin
    omega

/-- **Moment maps, periodic boundaries.** In a frame at least as wide as the radius the moment maps with periodic boundaries (the default) are those without, to
which `C122_moments` applies. -/
theorem C122_moments_periodic (junkI junkW junkI' junkW' : ℕ → ℕ → Option ℝ) (minFrac rad : ℝ) (img wgt : Arr2 (Option ℝ)) (hw : wgt.n = img.n ∧ wgt.m = img.m)
    (hrad : 0 < rad) (hf : 0 < minFrac ∧ minFrac ≤ 1) (t b l r : ℕ) (h : ⌈rad⌉₊ ≤ t ∧ ⌈rad⌉₊ ≤ b ∧ ⌈rad⌉₊ ≤ l ∧ ⌈rad⌉₊ ≤ r) :
    ∃ res res', spatialDistrib junkI junkW true minFrac rad (Spec.framed t b l r img) (Spec.framed t b l r wgt) = .ok res ∧
      spatialDistrib junkI' junkW' false minFrac rad (Spec.framed t b l r img) (Spec.framed t b l r wgt) = .ok res' ∧ res.Same res' := by
  have hs : (Spec.framed t b l r wgt).n = (Spec.framed t b l r img).n ∧ (Spec.framed t b l r wgt).m = (Spec.framed t b l r img).m :=
    ⟨by simp only [Spec.framed, hw.1], by simp only [Spec.framed, hw.2]⟩
  obtain ⟨res, e, n1, m1, g⟩ := C43_maps_partial junkI junkW true minFrac rad _ _ hs hrad hf
  obtain ⟨res', e', n1', m1', g'⟩ := C43_maps_partial junkI' junkW' false minFrac rad _ _ hs hrad hf
  have hR : 0 < ⌈rad⌉₊ := Nat.ceil_pos.2 hrad
  refine ⟨res, res', e, e', n1.trans n1'.symm, m1.trans m1'.symm, fun i hi j hj => ?_⟩
  rw [n1] at hi
  rw [m1] at hj
  rw [g i hi j hj, g' i hi j hj]
  have hi : i < t + img.n + b := hi
  have hj : j < l + img.m + r := hj
  have near : ∀ a : Arr2 (Option ℝ), a.n = img.n → a.m = img.m → ∀ u < 2 * ⌈rad⌉₊ + 1, ∀ v < 2 * ⌈rad⌉₊ + 1,
      Spec.contExt true (Spec.framed t b l r a) ((i : ℤ) + (u : ℕ) - ⌈rad⌉₊) ((j : ℤ) + (v : ℕ) - ⌈rad⌉₊) =
      Spec.contExt false (Spec.framed t b l r a) ((i : ℤ) + (u : ℕ) - ⌈rad⌉₊) ((j : ℤ) + (v : ℕ) - ⌈rad⌉₊) := by
    intro a ha hb u hu v hv
    exact periodic_framed t b l r ⌈rad⌉₊ h a _ _ (by omega) (by omega) (by omega) (by omega)
  have cnt : ∀ a : Arr2 (Option ℝ), a.n = img.n → a.m = img.m →
      Spec.squareCount (Spec.contExt true (Spec.framed t b l r a)) ⌈rad⌉₊ i j = Spec.squareCount (Spec.contExt false (Spec.framed t b l r a)) ⌈rad⌉₊ i j := by
    intro a ha hb
    unfold Spec.squareCount
    congr 1
    refine filter_congr fun p hp => ?_
    unfold Spec.square at hp
    obtain ⟨h1, h2⟩ := mem_product.1 hp
    rw [near a ha hb p.1 (mem_range.1 h1) p.2 (mem_range.1 h2)]
  have pix : Spec.circlePixels (Spec.contExt true (Spec.framed t b l r img)) (Spec.contExt true (Spec.framed t b l r wgt)) ⌈rad⌉₊ i j =
      Spec.circlePixels (Spec.contExt false (Spec.framed t b l r img)) (Spec.contExt false (Spec.framed t b l r wgt)) ⌈rad⌉₊ i j := by
    unfold Spec.circlePixels
    refine List.flatMap_congr fun u hu => List.map_congr_left fun v hv => ?_
    rw [near img rfl rfl u (List.mem_range.1 hu) v (List.mem_range.1 hv), near wgt hw.1 hw.2 u (List.mem_range.1 hu) v (List.mem_range.1 hv)]
  rw [cnt img rfl rfl, cnt wgt hw.1 hw.2, pix]

/-- The hypotheses of the moment theorems are met with the default fraction, a radius of 5/2 and three blank rows and columns. -/
example : (0 : ℝ) < 5 / 2 ∧ (0 : ℝ) < 0.8 ∧ (0.8 : ℝ) ≤ 1 ∧ (1 : ℝ) / 2 ≤ 0.8 ∧ ⌈(5 / 2 : ℝ)⌉₊ ≤ 3 := by
  refine ⟨by norm_num, by norm_num, by norm_num, by norm_num, Nat.ceil_le.2 (by norm_num)⟩

end TS
