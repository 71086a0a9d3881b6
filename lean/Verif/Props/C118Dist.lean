import Verif.Props.C118
import Verif.Props.C35
import Verif.Props.C89

/-! C118, what is compared: eigenvalues, the values of moment maps, and the genus distance. -/

namespace TS
open Finset

/-- **PCA eigenvalues.** Whatever `eigh` returns for the two cubes, the sorted eigenvalues are the same. -/
theorem C118_pca_eigenvalues (eps : ℝ) (meanSub : Bool) (cube : Arr3 (Option ℝ)) (ms : List DvMove) (lam lam' : ℕ → ℝ) (V V' : ℕ → ℕ → ℝ)
    (ord ord' : ℕ → ℕ) (hE : Spec.IsEigh cube.n (varCovCube eps meanSub cube).get lam V)
    (hE' : Spec.IsEigh cube.n (varCovCube eps meanSub (Spec.movedCube ms cube)).get lam' V')
    (arg arg' : NEigsArg) (me me' : Option ℝ) (cm cm' : CutMethod) (st st' : PcaState)
    (hp : computePca cube.n lam V ord meanSub arg me cm = .ok st) (hp' : computePca cube.n lam' V' ord' meanSub arg' me' cm' = .ok st') :
    st'.eigvals = st.eigvals := by
  rw [C118_pca_covariance] at hE'
  have p1 := eigh_perm cube.n _ _ (fun _ _ _ _ => rfl) lam' lam V' V hE' hE
  obtain ⟨s1, s2, -⟩ := C33_sorted _ _ _ _ _ _ _ _ _ hp
  obtain ⟨s1', s2', -⟩ := C33_sorted _ _ _ _ _ _ _ _ _ hp'
  exact List.Perm.eq_of_pairwise (le := fun a b : ℝ => b ≤ a) (fun a b _ _ h1 h2 => le_antisymm h2 h1) s2' s2 (s1'.trans (p1.trans s1.symm))

/-! ### Values of the moment maps -/

private theorem ravel_same {α : Type} {a b : Arr2 α} (h : a.Same b) : a.ravel = b.ravel := by
  obtain ⟨h1, h2, h3⟩ := h
  unfold Arr2.ravel
  rw [← h1, ← h2]
  refine List.flatMap_congr fun i hi => List.map_congr_left fun j hj => ?_
  exact h3 i (List.mem_range.1 hi) j (List.mem_range.1 hj)

private theorem ravel_moved {α : Type} (ms : List DvMove) (a : Arr2 α) : (Spec.moved ms a).ravel.Perm a.ravel := by
  induction ms with
  | nil => exact List.Perm.refl _
  | cons t ms ih =>
    exact (ravel_perm (dv_move_map t (Spec.moved ms a)) rfl rfl (dv_move_rearranged t _)).trans ih

private theorem ravel_map {α β : Type} (f : α → β) (a : Arr2 α) : (⟨a.n, a.m, fun i j => f (a.get i j)⟩ : Arr2 β).ravel = a.ravel.map f := by
  unfold Arr2.ravel
  rw [List.map_flatMap]
  refine List.flatMap_congr fun i _ => ?_
  rw [List.map_map]
  rfl

/-- **Moments.** The values in each of the four moment maps are the same up to their order, so all histograms, percentiles and distances made
from them are (`C89_rearranged`). -/
theorem C118_moment_values (junkI junkW junkI' junkW' : ℕ → ℕ → Option ℝ) (periodic : Bool) (minFrac rad : ℝ) (img wgt : Arr2 (Option ℝ))
    (hw : wgt.n = img.n ∧ wgt.m = img.m) (hrad : 0 < rad) (hf : 0 < minFrac ∧ minFrac ≤ 1) (ms : List DvMove) (hm : Spec.Allowed periodic ms) :
    ∃ res res', spatialDistrib junkI junkW periodic minFrac rad img wgt = .ok res ∧
      spatialDistrib junkI' junkW' periodic minFrac rad (Spec.moved ms img) (Spec.moved ms wgt) = .ok res' ∧
      (mapsOf res').mean.Perm (mapsOf res).mean ∧ (mapsOf res').variance.Perm (mapsOf res).variance ∧
      (mapsOf res').skewness.Perm (mapsOf res).skewness ∧ (mapsOf res').kurtosis.Perm (mapsOf res).kurtosis := by
  obtain ⟨res, res', e, e', hs⟩ := C118_moment_maps junkI junkW junkI' junkW' periodic minFrac rad img wgt hw hrad hf ms hm
  have hp : res'.ravel.Perm res.ravel := by
    rw [ravel_same hs]
    exact ravel_moved ms res
  have hf' : ∀ f : MomentSet → Option ℝ, (res'.map f).ravel.Perm (res.map f).ravel := by
    intro f
    have h1 : (res'.map f).ravel = res'.ravel.map f := ravel_map f res'
    have h2 : (res.map f).ravel = res.ravel.map f := ravel_map f res
    rw [h1, h2]
    exact hp.map f
  exact ⟨res, res', e, e', hf' _, hf' _, hf' _, hf' _⟩

private theorem moved_min {α : Type} (ms : List DvMove) (a : Arr2 α) : min (Spec.moved ms a).n (Spec.moved ms a).m = min a.n a.m := by
  induction ms with
  | nil => rfl
  | cons t ms ih =>
    cases t with
    | mirror => exact ih
    | swap => exact (min_comm _ _).trans ih
    | roll s => exact ih

private theorem moved_size {α : Type} (ms : List DvMove) (a : Arr2 α) : (Spec.moved ms a).n * (Spec.moved ms a).m = a.n * a.m := by
  induction ms with
  | nil => rfl
  | cons t ms ih =>
    cases t with
    | mirror => exact ih
    | swap => exact (Nat.mul_comm _ _).trans ih
    | roll s => exact ih

/-- **Moment distance.** Moving either of two raw images, each in its own way, changes neither distance. -/
theorem C118_moment_distance (jI jW kI kW jI' jW' kI' kW' : ℕ → ℕ → Option ℝ) (p1 p2 : Bool) (mf r1 r2 : ℝ) (i1 w1 i2 w2 : Arr2 (Option ℝ))
    (hw1 : w1.n = i1.n ∧ w1.m = i1.m) (hw2 : w2.n = i2.n ∧ w2.m = i2.m) (hf : 0 < mf ∧ mf ≤ 1) (nbins nb : Option ℕ)
    (d : MomDist) (hd : momDistInit nbins r1 r2 (rawImage jI jW p1 mf i1 w1) (rawImage kI kW p2 mf i2 w2) = .ok d)
    (hn0 : 0 < d.nbins) (hn : 3 ≤ nb.getD d.nbins)
    (hs : Spec.Comparable d.m1.maps.skewness d.m2.maps.skewness) (hk : Spec.Comparable d.m1.maps.kurtosis d.m2.maps.kurtosis)
    (ms1 ms2 : List DvMove) (hm1 : Spec.Allowed p1 ms1) (hm2 : Spec.Allowed p2 ms2) :
    ∃ d' r r' s k, momDistInit nbins r1 r2 (rawImage jI' jW' p1 mf (Spec.moved ms1 i1) (Spec.moved ms1 w1))
        (rawImage kI' kW' p2 mf (Spec.moved ms2 i2) (Spec.moved ms2 w2)) = .ok d' ∧
      d.metric nb = .ok r ∧ d'.metric nb = .ok r' ∧ r.skewness = some s ∧ r'.skewness = some s ∧ r.kurtosis = some k ∧
      r'.kurtosis = some k := by
  have rad : ∀ (jI jW : ℕ → ℕ → Option ℝ) (p : Bool) (i w : Arr2 (Option ℝ)) (x : ℝ) (m : MomMaps),
      rawMaps jI jW p mf i w x = .ok m →
      checkRadius (min i.n i.m) (.quantity [x] 1) = .ok () ∧ 0 < x ∧
        ∃ res, spatialDistrib jI jW p mf x i w = .ok res ∧ m = mapsOf res := by
    intro jI jW p i w x m h
    unfold rawMaps at h
    cases hc : checkRadius (min i.n i.m) (.quantity [x] 1) with
    | error e => simp only [hc] at h; cases h
    | ok u =>
      have h2 := ((C43_radius (min i.n i.m) x 1).1.1 hc).1
      cases hsd : spatialDistrib jI jW p mf x i w with
      | error e => simp only [hc, hsd] at h; cases h
      | ok res =>
        simp only [hc, hsd] at h
        cases h
        exact ⟨rfl, by linarith, res, rfl, rfl⟩
  unfold momDistInit at hd
  simp only [rawImage, momFirst, momSecond, momAutoBins, MomSource.size, bind, Except.bind, pure, Except.pure] at hd
  cases e1 : rawMaps jI jW p1 mf i1 w1 r1 with
  | error e => simp only [e1] at hd; cases hd
  | ok m1 =>
  cases e2 : rawMaps kI kW p2 mf i2 w2 r2 with
  | error e => simp only [e1, e2] at hd; cases hd
  | ok m2 =>
  simp only [e1, e2] at hd
  cases hd
  obtain ⟨c1, x1, res1, q1, rfl⟩ := rad _ _ _ _ _ _ _ e1
  obtain ⟨c2, x2, res2, q2, rfl⟩ := rad _ _ _ _ _ _ _ e2
  obtain ⟨y1, y1', g1, g1', -, -, ss1, sk1⟩ := C118_moment_values jI jW jI' jW' p1 mf r1 i1 w1 hw1 x1 hf ms1 hm1
  obtain ⟨y2, y2', g2, g2', -, -, ss2, sk2⟩ := C118_moment_values kI kW kI' kW' p2 mf r2 i2 w2 hw2 x2 hf ms2 hm2
  rw [q1] at g1
  rw [q2] at g2
  cases g1
  cases g2
  set N := (match nbins with
    | some k => k
    | none => ⌊Real.sqrt (min (i1.n * i1.m) (i2.n * i2.m) : ℕ)⌋₊) with hN
  obtain ⟨r, r', s, k, hr, hr', h1, h2, h3, h4⟩ := C89_rearranged
    { nbins := N, m1 := { nbins := some N, maps := mapsOf res1 }, m2 := { nbins := some N, maps := mapsOf res2 } }
    { nbins := N, m1 := { nbins := some N, maps := mapsOf y1' }, m2 := { nbins := some N, maps := mapsOf y2' } }
    nb rfl hn N N N N rfl rfl rfl rfl hn0 hn0 hn0 hn0 hs hk ss1.symm ss2.symm sk1.symm sk2.symm
  refine ⟨_, r, r', s, k, ?_, hr, hr', h1, h2, h3, h4⟩
  have t1 : rawMaps jI' jW' p1 mf (Spec.moved ms1 i1) (Spec.moved ms1 w1) r1 = .ok (mapsOf y1') := by
    unfold rawMaps; simp only [moved_min, c1, g1']
  have t2 : rawMaps kI' kW' p2 mf (Spec.moved ms2 i2) (Spec.moved ms2 w2) r2 = .ok (mapsOf y2') := by
    unfold rawMaps; simp only [moved_min, c2, g2']
  unfold momDistInit
  simp only [rawImage, momFirst, momSecond, momAutoBins, MomSource.size, t1, t2, moved_size]
  rfl

/-! ### Genus distance -/

private theorem map_moved {α β : Type} (f : α → β) (ms : List DvMove) (a : Arr2 α) : (Spec.moved ms a).map f = Spec.moved ms (a.map f) := by
  induction ms with
  | nil => rfl
  | cons t ms ih =>
    show (t.on (Spec.moved ms a)).map f = t.on (Spec.moved ms (a.map f))
    rw [← ih]
    cases t <;> rfl

private theorem flat_mean {a b : Arr2 (Option ℝ)} (h : (flat2 b).Perm (flat2 a)) : nanmean (flat2 b) = nanmean (flat2 a) ∧ nanstd (flat2 b) = nanstd (flat2 a) := by
  have hv : (validVals (flat2 b)).Perm (validVals (flat2 a)) := h.filterMap _
  refine ⟨meanO_perm hv, ?_⟩
  unfold nanstd
  rw [varO_perm hv]

private theorem standardize_moved (ms : List DvMove) (a : Arr2 (Option ℝ)) : standardizeImg (Spec.moved ms a) = Spec.moved ms (standardizeImg a) := by
  obtain ⟨h1, h2⟩ := flat_mean (ravel_moved ms a : (flat2 (Spec.moved ms a)).Perm (flat2 a))
  unfold standardizeImg
  rw [h1, h2, map_moved]

private theorem curve_moved (g : GenusObj) (smooth : ℝ → Arr2 (Option ℝ) → Arr2 (Option ℝ)) (c : CurveArgs) (hc : c.conn = 1 ∨ c.conn = 2)
    (ms : List DvMove) (hm : Spec.Rigid ms) (hs : Spec.FollowsMoves smooth ms) :
    GenusObj.curve { g with data := Spec.moved ms g.data } smooth c = g.curve smooth c := by
  unfold GenusObj.curve
  rw [C118_genus_curves g smooth c hc ms hm hs]
  simp only [moved_size]

private theorem distGenus_moved (img : Arr2 (Option ℝ)) (o : GenusDistArgs) (k : ℕ) (ms : List DvMove) :
    distGenus (Spec.moved ms img) o k = (distGenus img o k).map fun g => { g with data := Spec.moved ms g.data } := by
  simp only [distGenus, bind, Except.bind]
  cases o.minValue.get k with
  | error e => rfl
  | ok mn =>
    cases o.maxValue.get k with
    | error e => rfl
    | ok mx =>
      cases o.lowPct.get k with
      | error e => rfl
      | ok lo =>
        cases o.highPct.get k with
        | error e => rfl
        | ok hi =>
          simp only []
          rw [standardize_moved, C118_genus_init]

/-- **Genus distance.** Turning or mirroring either image, each in its own way, leaves the distance (and any exception) as it is. -/
theorem C118_genus_distance (spl : Spline) (smooth : ℝ → Arr2 (Option ℝ) → Arr2 (Option ℝ)) (img1 img2 : Arr2 (Option ℝ)) (w1 w2 : WcsScales) (tol : ℝ)
    (o : GenusDistArgs) (c1 c2 : CurveArgs) (h1 : c1.conn = 1 ∨ c1.conn = 2) (h2 : c2.conn = 1 ∨ c2.conn = 2) (ms1 ms2 : List DvMove)
    (hm1 : Spec.Rigid ms1) (hm2 : Spec.Rigid ms2) (hs1 : Spec.FollowsMoves smooth ms1) (hs2 : Spec.FollowsMoves smooth ms2) :
    genusDistance spl smooth (Spec.moved ms1 img1) (Spec.moved ms2 img2) w1 w2 tol o c1 c2 = genusDistance spl smooth img1 img2 w1 w2 tol o c1 c2 := by
  simp only [genusDistance, bind, Except.bind, distGenus_moved]
  cases distGenus img1 o 0 with
  | error e => rfl
  | ok g1 =>
    cases distGenus img2 o 1 with
    | error e => rfl
    | ok g2 =>
      simp only [Except.map, curve_moved g1 smooth c1 h1 ms1 hm1 hs1, curve_moved g2 smooth c2 h2 ms2 hm2 hs2]

/-! ### Non-vacuity -/

/-- A quarter turn of either image, with Gaussian smoothing. -/
example : Spec.Rigid [.mirror, .swap] ∧ Spec.FollowsMoves (fun w a => ⟨a.n, a.m, fun i j => if (a.get i j).isSome then
    some ((applyK ((coreKernel w).normalised.coef .fill a.n a.m) (a.map fun v => v.getD 0)).get i j) else none⟩) [.mirror, .swap] := by
  have h : Spec.Rigid [.mirror, .swap] := by
    intro t ht
    simp only [List.mem_cons, List.not_mem_nil, or_false] at ht
    exact ht
  exact ⟨h, C118_smoothing (fun w => (coreKernel w).normalised) (fun w => (C86_isotropic w 1 1).1) _ h⟩

/-- A periodic map may also be shifted. -/
example : Spec.Allowed true [.roll 3, .swap, .roll (-2)] ∧ ¬ Spec.Rigid [.roll 3] := by
  refine ⟨Or.inl rfl, fun h => ?_⟩
  rcases h (.roll 3) (by simp) with h | h <;> cases h

end TS
