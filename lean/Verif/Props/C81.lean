import Verif.Model.MomentsIo

/-! C81 — saved moment maps are the maps that are loaded. -/

namespace TS

namespace Spec

/-- Two objects hold the same six maps (units aside). -/
def SameMaps (o o' : MomObj) : Prop :=
  o'.m0.value = o.m0.value ∧ o'.m1.value = o.m1.value ∧ o'.lw.value = o.lw.value ∧
  o'.e0.value = o.e0.value ∧ o'.e1.value = o.e1.value ∧ o'.elw.value = o.elw.value

/-- The three file names belonging to a prefix. -/
def mapFiles (pref : Str) : List Str :=
  [pref ++ "_moment0.fits".toList, pref ++ "_centroid.fits".toList, pref ++ "_linewidth.fits".toList]

/-- An object all of whose maps are `None`. -/
def NoMaps (o : MomObj) : Prop :=
  o.m0 = .none ∧ o.m1 = .none ∧ o.lw = .none ∧ o.e0 = .none ∧ o.e1 = .none ∧ o.elw = .none

end Spec
open Spec

/-! ### names -/

private theorem split_ne (c : Char) (s : Str) : pySplit c s ≠ [] := by
  cases s with
  | nil => simp [pySplit]
  | cons x t =>
    unfold pySplit
    split_ifs
    · simp
    · split <;> simp

private theorem split_none (c : Char) (s : Str) (h : c ∉ s) : pySplit c s = [s] := by
  induction s with
  | nil => rfl
  | cons x t ih =>
    rw [List.mem_cons, not_or] at h
    unfold pySplit
    rw [if_neg (Ne.symm h.1), ih h.2]

private theorem split_append (c : Char) (s t : Str) : pySplit c (s ++ c :: t) = pySplit c s ++ pySplit c t := by
  induction s with
  | nil => simp [pySplit]
  | cons x s ih =>
    rw [List.cons_append, pySplit, pySplit, ih]
    split_ifs
    · rfl
    · cases h : pySplit c s with
      | nil => exact absurd h (split_ne c s)
      | cons a r => rfl

private theorem join_split (c : Char) (s : Str) : pyJoin [c] (pySplit c s) = s := by
  induction s with
  | nil => rfl
  | cons x s ih =>
    rw [pySplit]
    split_ifs with hx
    · subst hx
      cases h : pySplit x s with
      | nil => exact absurd h (split_ne x s)
      | cons a r =>
        rw [h] at ih
        simp only [pyJoin, List.nil_append]
        rw [ih]; rfl
    · cases h : pySplit c s with
      | nil => exact absurd h (split_ne c s)
      | cons a r =>
        rw [h] at ih
        simp only
        cases r with
        | nil => simp only [pyJoin] at ih ⊢; rw [ih]
        | cons b r' => simp only [pyJoin, List.cons_append] at ih ⊢; rw [ih]

private theorem save_root (s ext : Str) (h : '.' ∉ ext) :
    pyJoin ['.'] (pySplit '.' (s ++ '.' :: ext)).dropLast = s := by
  rw [split_append, split_none _ _ h, List.dropLast_concat, join_split]

private theorem base_append (p b : Str) (h : '/' ∉ b) (hp : p = [] ∨ p.getLast? = some '/') : baseName (p ++ b) = b := by
  unfold baseName
  rw [List.reverse_append, List.takeWhile_append_of_pos (by
    intro a ha
    simp only [decide_eq_true_eq]
    intro e
    exact h (by rw [← e]; exact List.mem_reverse.1 ha))]
  have : List.takeWhile (fun x => decide (x ≠ '/')) p.reverse = [] := by
    rcases hp with rfl | hp
    · rfl
    · obtain ⟨q, rfl⟩ : ∃ q, p = q ++ ['/'] := by
        refine ⟨p.dropLast, ?_⟩
        rw [List.dropLast_append_getLast? _ hp]
      simp
  rw [this]; simp

/-- The directory part of a joined path. -/
def dirPart (dir : Str) : Str := if dir = [] ∨ dir.getLast? = some '/' then dir else dir ++ ['/']

private theorem dirPart_end (dir : Str) : dirPart dir = [] ∨ (dirPart dir).getLast? = some '/' := by
  unfold dirPart
  split_ifs with h
  · exact h
  · right; simp

private theorem join_eq (dir b : Str) (h : '/' ∉ b) : pathJoin dir b = dirPart dir ++ b := by
  unfold pathJoin dirPart
  rw [if_neg]
  · split_ifs <;> simp
  · intro hb
    exact h (List.mem_of_mem_head? hb)

private theorem take_ext (s : Str) : dropEnd 5 (s ++ ".fits".toList) = s := by
  unfold dropEnd
  have : (s ++ ".fits".toList).length - 5 = s.length := by simp
  rw [this, List.take_left]

/-! ### the disk -/

private theorem writeAll_other (ow : Bool) (l : List (Str × FitsFile)) (d : Disk) (s : Str) (h : ∀ q ∈ l, q.1 ≠ s) :
    (writeAll ow l d).1 s = d s := by
  induction l generalizing d with
  | nil => rfl
  | cons q t ih =>
    obtain ⟨n, f⟩ := q
    unfold writeAll writeTo
    split_ifs
    · rfl
    · simp only
      rw [ih _ (fun q hq => h q (List.mem_cons_of_mem _ hq))]
      rw [if_neg (Ne.symm (h (n, f) List.mem_cons_self))]

private theorem writeAll_mem (ow : Bool) (l : List (Str × FitsFile)) (d : Disk) (hn : (l.map (·.1)).Nodup)
    (hok : (writeAll ow l d).2 = none) (q : Str × FitsFile) (hq : q ∈ l) : (writeAll ow l d).1 q.1 = some q.2 := by
  induction l generalizing d with
  | nil => simp at hq
  | cons r t ih =>
    obtain ⟨n, f⟩ := r
    rw [List.map_cons, List.nodup_cons] at hn
    unfold writeAll writeTo at hok ⊢
    split_ifs at hok ⊢ with hc
    simp only at hok ⊢
    rcases List.mem_cons.1 hq with rfl | hq
    · rw [writeAll_other]
      · simp
      · intro q hq e
        exact hn.1 (List.mem_map.2 ⟨q, hq, e⟩)
    · exact ih _ hn.2 hok hq

private theorem writeAll_keep (l : List (Str × FitsFile)) (d : Disk) (s : Str) (f : FitsFile) (h : d s = some f) :
    (writeAll false l d).1 s = some f := by
  induction l generalizing d with
  | nil => exact h
  | cons r t ih =>
    obtain ⟨n, g⟩ := r
    unfold writeAll writeTo
    split_ifs with hc
    · exact h
    · simp only
      apply ih
      rw [if_neg]
      · exact h
      · rintro rfl
        exact hc ⟨by rw [h]; rfl, rfl⟩

/-- **C81 (names do not clash).** A file name belongs to one prefix and one map only. -/
theorem C81_no_clash (p p' : Str) (i j : ℕ) (hi : i < 3) (hj : j < 3)
    (h : (mapFiles p).getD i [] = (mapFiles p').getD j []) : i = j ∧ p = p' := by
  have hr := congrArg List.reverse h
  have h3 : ∀ k, k < 3 → k = 0 ∨ k = 1 ∨ k = 2 := by omega
  rcases h3 i hi with rfl | rfl | rfl <;> rcases h3 j hj with rfl | rfl | rfl <;>
    simp [mapFiles] at h hr ⊢ <;> exact h

private theorem files_eq (s : Str) : momLabels.map (momFile s) = mapFiles s := by
  simp [momLabels, momFile, mapFiles]

private theorem mapFiles_nodup (s : Str) : (mapFiles s).Nodup := by
  rw [List.nodup_iff_injective_getElem]
  intro a b h
  have h' := C81_no_clash s s a.1 b.1 a.2 b.2 (by
    rw [List.getD_eq_getElem?_getD, List.getD_eq_getElem?_getD, List.getElem?_eq_getElem a.2, List.getElem?_eq_getElem b.2]
    exact h)
  exact Fin.ext h'.1

/-- The files a successful save has written. -/
private theorem save_files {o o' : MomObj} {arg : Option Str} {ow : Bool} {d d' : Disk} (hh : o.hdrs = none ∨ o.hdrs = some propHdrs)
    (h : o.toFits arg ow d = (o', d', none)) :
    ∃ a b c ea eb ec, o.m0.value = .ok a ∧ o.m1.value = .ok b ∧ o.lw.value = .ok c ∧ o.e0.value = .ok ea ∧
      o.e1.value = .ok eb ∧ o.elw.value = .ok ec ∧
      d' (o.nameFor arg ++ "_moment0.fits".toList) =
        some [(a, propHdrs.1.getD 0 ⟨(0, 0), []⟩), (ea, propHdrs.2.getD 0 ⟨(0, 0), []⟩)] ∧
      d' (o.nameFor arg ++ "_centroid.fits".toList) =
        some [(b, propHdrs.1.getD 1 ⟨(0, 0), []⟩), (eb, propHdrs.2.getD 1 ⟨(0, 0), []⟩)] ∧
      d' (o.nameFor arg ++ "_linewidth.fits".toList) =
        some [(c, propHdrs.1.getD 2 ⟨(0, 0), []⟩), (ec, propHdrs.2.getD 2 ⟨(0, 0), []⟩)] := by
  have hH : o.hdrs.getD propHdrs = propHdrs := by rcases hh with h | h <;> rw [h] <;> rfl
  unfold MomObj.toFits at h
  simp only [hH] at h
  cases hm : o.allMaps with
  | error e => rw [hm] at h; simp at h
  | ok r =>
    rw [hm] at h
    obtain ⟨maps, errs⟩ := r
    unfold MomObj.allMaps at hm
    simp only [bind, Except.bind, pure, Except.pure] at hm
    split at hm; · cases hm
    rename_i a ha
    split at hm; · cases hm
    rename_i b hb
    split at hm; · cases hm
    rename_i c hc
    split at hm; · cases hm
    rename_i ea hea
    split at hm; · cases hm
    rename_i eb heb
    split at hm; · cases hm
    rename_i ec hec
    cases hm
    simp only [Prod.mk.injEq] at h
    obtain ⟨-, h1, h2⟩ := h
    have hn := mapFiles_nodup (o.nameFor arg)
    rw [← files_eq] at hn
    have key := writeAll_mem ow _ d (by simpa [propHdrs, momLabels] using hn) h2
    rw [h1] at key
    refine ⟨a, b, c, ea, eb, ec, ha, hb, hc, hea, heb, hec, ?_, ?_, ?_⟩
    · have := key (momFile (o.nameFor arg) "_moment0".toList,
        [(a, propHdrs.1.getD 0 ⟨(0, 0), []⟩), (ea, propHdrs.2.getD 0 ⟨(0, 0), []⟩)]) (by simp [propHdrs, momLabels])
      simpa [momFile] using this
    · have := key (momFile (o.nameFor arg) "_centroid".toList,
        [(b, propHdrs.1.getD 1 ⟨(0, 0), []⟩), (eb, propHdrs.2.getD 1 ⟨(0, 0), []⟩)]) (by simp [propHdrs, momLabels])
      simpa [momFile] using this
    · have := key (momFile (o.nameFor arg) "_linewidth".toList,
        [(c, propHdrs.1.getD 2 ⟨(0, 0), []⟩), (ec, propHdrs.2.getD 2 ⟨(0, 0), []⟩)]) (by simp [propHdrs, momLabels])
      simpa [momFile] using this

private theorem load_of (d : Disk) (c : CubeArg) (pref path m0 m1 m2 : Option Str) (n0 n1 n2 : Str)
    (h0 : mapName m0 (path.getD []) (rootName c pref) "_moment0".toList = .ok n0)
    (h1 : mapName m1 (path.getD []) (rootName c pref) "_centroid".toList = .ok n1)
    (h2 : mapName m2 (path.getD []) (rootName c pref) "_linewidth".toList = .ok n2)
    {a b e ea eb ee : Option (Arr2 (Option ℝ))} {x0 x1 x2 y0 y1 y2 : MomHdr}
    (k0 : d n0 = some [(a, x0), (ea, y0)]) (k1 : d n1 = some [(b, x1), (eb, y1)]) (k2 : d n2 = some [(e, x2), (ee, y2)]) :
    ∃ o, fromFits d c pref path none m0 m1 m2 = .ok o ∧ o.m0.value = .ok a ∧ o.m1.value = .ok b ∧ o.lw.value = .ok e ∧
      o.e0.value = .ok ea ∧ o.e1.value = .ok eb ∧ o.elw.value = .ok ee := by
  have hv : ∀ t, (readMaps.slotOf t).value = .ok t := by intro t; cases t <;> rfl
  unfold fromFits
  simp only [h0, h1, h2, bind, Except.bind, pure, Except.pure, readMaps, k0, k1, k2]
  exact ⟨_, rfl, hv _, hv _, hv _, hv _, hv _, hv _⟩

/-- An object as the API makes it: headers not generated yet, or generated from the cube. -/
def HdrOk (o : MomObj) : Prop := o.hdrs = none ∨ o.hdrs = some propHdrs

/-- The constructor, loading and saving only make such objects. -/
theorem C81_hdr_invariant (o : MomObj) (arg : Option Str) (ow : Bool) (d : Disk) (c : CubeArg) :
    HdrOk (MomObj.new c) ∧ (HdrOk o → HdrOk (o.toFits arg ow d).1) ∧
    (∀ pref path mask a b e o', fromFits d c pref path mask a b e = .ok o' → HdrOk o') := by
  refine ⟨Or.inl rfl, ?_, ?_⟩
  · intro h
    have hH : o.hdrs.getD propHdrs = propHdrs := by rcases h with h | h <;> rw [h] <;> rfl
    right
    unfold MomObj.toFits
    simp only [hH]
    split <;> rfl
  · intro pref path mask a b e o' h
    unfold fromFits at h
    simp only [bind, Except.bind, pure, Except.pure] at h
    split_ifs at h
    split at h; · cases h
    split at h; · cases h
    split at h; · cases h
    split at h; · cases h
    split at h; · cases h
    split at h; · cases h
    cases h
    exact Or.inl rfl

/-- **C81 (round trip next to the cube).** Moments of a cube read from `dir/name.fits`, saved under the
default name and loaded again with the name of the cube and its directory, are the same maps. -/
theorem C81_round_trip (o o' : MomObj) (ho : HdrOk o) (dir name : Str) (hname : '/' ∉ name) (ow : Bool) (d d' : Disk)
    (hs : o.saveName = (MomObj.new (.file (pathJoin dir (name ++ ".fits".toList)))).saveName)
    (h : o.toFits none ow d = (o', d', none)) :
    ∃ o'', fromFits d' (.file (pathJoin dir (name ++ ".fits".toList))) none (some dir) none none none none = .ok o'' ∧
      SameMaps o o'' := by
  obtain ⟨a, b, c, ea, eb, ec, v1, v2, v3, v4, v5, v6, f0, f1, f2⟩ := save_files ho h
  have hno : ∀ t : Str, '/' ∉ t → '/' ∉ name ++ t := fun t ht hm => by
    rcases List.mem_append.1 hm with h | h
    · exact hname h
    · exact ht h
  have hpath : pathJoin dir (name ++ ".fits".toList) = dirPart dir ++ name ++ ".fits".toList := by
    rw [join_eq _ _ (hno _ (by decide)), List.append_assoc]
  have hroot : o.nameFor none = dirPart dir ++ name := by
    unfold MomObj.nameFor
    rw [hs, hpath]
    show pyJoin ['.'] (pySplit '.' (dirPart dir ++ name ++ '.' :: "fits".toList)).dropLast = _
    exact save_root _ _ (by decide)
  have hbase : rootName (.file (pathJoin dir (name ++ ".fits".toList))) none = some name := by
    simp only [rootName]
    rw [hpath, take_ext, base_append _ _ hname (dirPart_end dir)]
  have hmap : ∀ lab : Str, '/' ∉ lab → mapName none ((some dir : Option Str).getD [])
      (rootName (.file (pathJoin dir (name ++ ".fits".toList))) none) lab =
        .ok (dirPart dir ++ name ++ (lab ++ ".fits".toList)) := by
    intro lab hl
    rw [hbase]
    simp only [mapName, Option.getD_some]
    rw [List.append_assoc name, join_eq _ _ (hno _ (by
      intro hm
      rcases List.mem_append.1 hm with h | h
      · exact hl h
      · revert h; decide)), List.append_assoc]
  rw [hroot] at f0 f1 f2
  obtain ⟨o'', e, w⟩ := load_of d' _ none (some dir) none none none _ _ _ (hmap "_moment0".toList (by decide))
    (hmap "_centroid".toList (by decide)) (hmap "_linewidth".toList (by decide)) f0 f1 f2
  refine ⟨o'', e, ?_⟩
  unfold SameMaps
  rw [v1, v2, v3, v4, v5, v6]
  exact w

/-- **C81 (round trip with a prefix).** Maps saved under a prefix are the ones loaded with that prefix for a
cube object, or by naming the three files. -/
theorem C81_prefix (o o' : MomObj) (ho : HdrOk o) (pref : Str) (ow : Bool) (d d' : Disk)
    (h : o.toFits (some pref) ow d = (o', d', none)) :
    (∃ o'', fromFits d' .object (some pref) none none none none none = .ok o'' ∧ SameMaps o o'') ∧
    (∀ c path, ∃ o'', fromFits d' c none path none (some (pref ++ "_moment0.fits".toList))
      (some (pref ++ "_centroid.fits".toList)) (some (pref ++ "_linewidth.fits".toList)) = .ok o'' ∧ SameMaps o o'') := by
  obtain ⟨a, b, c, ea, eb, ec, v1, v2, v3, v4, v5, v6, f0, f1, f2⟩ := save_files ho h
  have hroot : o.nameFor (some pref) = pref := rfl
  rw [hroot] at f0 f1 f2
  have hj : ∀ s : Str, pathJoin [] s = s := by
    intro s
    unfold pathJoin
    split_ifs with h1 h2
    · rfl
    · rfl
    · exact absurd (Or.inl rfl) h2
  constructor
  · obtain ⟨o'', e, w⟩ := load_of d' .object (some pref) none none none none
      (n0 := pref ++ "_moment0.fits".toList) (h0 := by simp [mapName, rootName, hj])
      (n1 := pref ++ "_centroid.fits".toList) (h1 := by simp [mapName, rootName, hj])
      (n2 := pref ++ "_linewidth.fits".toList) (h2 := by simp [mapName, rootName, hj]) (k0 := f0) (k1 := f1) (k2 := f2)
    refine ⟨o'', e, ?_⟩
    unfold SameMaps
    rw [v1, v2, v3, v4, v5, v6]
    exact w
  · intro cc path
    obtain ⟨o'', e, w⟩ := load_of d' cc none path (some (pref ++ "_moment0.fits".toList))
      (some (pref ++ "_centroid.fits".toList)) (some (pref ++ "_linewidth.fits".toList)) _ _ _ rfl rfl rfl f0 f1 f2
    refine ⟨o'', e, ?_⟩
    unfold SameMaps
    rw [v1, v2, v3, v4, v5, v6]
    exact w

private theorem toFits_other (o : MomObj) (arg : Option Str) (ow : Bool) (d : Disk) (s : Str)
    (hs : s ∉ mapFiles (o.nameFor arg)) : (o.toFits arg ow d).2.1 s = d s := by
  unfold MomObj.toFits
  simp only
  split
  · rfl
  · apply writeAll_other
    rintro q hq rfl
    obtain ⟨r, hr, rfl⟩ := List.mem_map.1 hq
    apply hs
    rw [← files_eq]
    exact List.mem_map.2 ⟨r.1, (List.of_mem_zip hr).1, rfl⟩

/-- **C81 (other files).** Whatever happens, a save only touches its three files; without `overwrite` no
existing file changes at all. -/
theorem C81_other_files (o : MomObj) (arg : Option Str) (ow : Bool) (d : Disk) (s : Str) :
    (s ∉ mapFiles (o.nameFor arg) → (o.toFits arg ow d).2.1 s = d s) ∧
    (∀ f, d s = some f → (o.toFits arg false d).2.1 s = some f) := by
  refine ⟨toFits_other o arg ow d s, ?_⟩
  intro f hf
  unfold MomObj.toFits
  simp only
  split
  · exact hf
  · exact writeAll_keep _ d s f hf

/-- **C81 (history).** Saves of any objects under other prefixes, whether they succeed or not, do not disturb
what was saved under a prefix. -/
theorem C81_history (d : Disk) (pref : Str) (ops : List (MomObj × Str × Bool)) (hops : ∀ q ∈ ops, q.2.1 ≠ pref) :
    fromFits (ops.foldl (fun d q => (q.1.toFits (some q.2.1) q.2.2 d).2.1) d) .object (some pref) none none none none none =
      fromFits d .object (some pref) none none none none none := by
  have key : ∀ s ∈ mapFiles pref, (ops.foldl (fun d q => (q.1.toFits (some q.2.1) q.2.2 d).2.1) d) s = d s := by
    intro s hs
    induction ops generalizing d with
    | nil => rfl
    | cons q t ih =>
      rw [List.foldl_cons, ih _ (fun r hr => hops r (List.mem_cons_of_mem _ hr)), toFits_other]
      intro hq
      obtain ⟨i, hi, ei⟩ := List.mem_iff_getElem.1 hs
      obtain ⟨j, hj, ej⟩ := List.mem_iff_getElem.1 hq
      have := C81_no_clash pref (q.1.nameFor (some q.2.1)) i j hi hj (by
        rw [List.getD_eq_getElem?_getD, List.getD_eq_getElem?_getD, List.getElem?_eq_getElem hi, List.getElem?_eq_getElem hj,
          Option.getD_some, Option.getD_some, ei, ej])
      exact hops q List.mem_cons_self this.2.symm
  have hj : ∀ s : Str, pathJoin [] s = s := by
    intro s
    unfold pathJoin
    split_ifs with h1 h2
    · rfl
    · rfl
    · exact absurd (Or.inl rfl) h2
  have r0 := key (pref ++ "_moment0.fits".toList) (by simp [mapFiles])
  have r1 := key (pref ++ "_centroid.fits".toList) (by simp [mapFiles])
  have r2 := key (pref ++ "_linewidth.fits".toList) (by simp [mapFiles])
  unfold fromFits
  simp only [mapName, rootName, hj, Option.getD_none, bind, Except.bind, pure, Except.pure, List.append_assoc, readMaps]
  have a0 : "_moment0".toList ++ ".fits".toList = "_moment0.fits".toList := by decide
  have a1 : "_centroid".toList ++ ".fits".toList = "_centroid.fits".toList := by decide
  have a2 : "_linewidth".toList ++ ".fits".toList = "_linewidth.fits".toList := by decide
  rw [a0, a1, a2, r0, r1, r2]

/-- **C81 (nothing half-computed is saved).** When a map or an error map has not been computed, AttributeError
is raised and no file is written. -/
theorem C81_incomplete (o : MomObj) (arg : Option Str) (ow : Bool) (d : Disk)
    (h : o.m0 = .unset ∨ o.m1 = .unset ∨ o.lw = .unset ∨ o.e0 = .unset ∨ o.e1 = .unset ∨ o.elw = .unset) :
    (o.toFits arg ow d).2 = (d, some .attributeError) := by
  have hall : o.allMaps = .error .attributeError := by
    have hv : ∀ s : MapSlot, s.value = .error .attributeError ∨ ∃ v, s.value = .ok v := by
      intro s; cases s
      · exact Or.inl rfl
      · exact Or.inr ⟨_, rfl⟩
      · exact Or.inr ⟨_, rfl⟩
    unfold MomObj.allMaps
    simp only [bind, Except.bind, pure, Except.pure]
    rcases hv o.m0 with h0 | ⟨v0, h0⟩
    · rw [h0]
    rw [h0]
    rcases hv o.m1 with h1 | ⟨v1, h1⟩
    · rw [h1]
    rw [h1]
    rcases hv o.lw with h2 | ⟨v2, h2⟩
    · rw [h2]
    rw [h2]
    rcases hv o.e0 with h3 | ⟨v3, h3⟩
    · rw [h3]
    rw [h3]
    rcases hv o.e1 with h4 | ⟨v4, h4⟩
    · rw [h4]
    rw [h4]
    rcases hv o.elw with h5 | ⟨v5, h5⟩
    · rw [h5]
    exfalso
    rcases h with h | h | h | h | h | h
    · rw [h] at h0; cases h0
    · rw [h] at h1; cases h1
    · rw [h] at h2; cases h2
    · rw [h] at h3; cases h3
    · rw [h] at h4; cases h4
    · rw [h] at h5; cases h5
  unfold MomObj.toFits
  simp only [hall]

/-- **C81 (missing files).** Maps whose files do not exist are loaded as `None`, without an exception. -/
theorem C81_missing (d : Disk) (c : CubeArg) (pref path : Option Str) (root : Str) (hr : rootName c pref = some root)
    (hd : ∀ s ∈ mapFiles root, d (pathJoin (path.getD []) s) = none) :
    ∃ o, fromFits d c pref path none none none none = .ok o ∧ NoMaps o := by
  have a0 : "_moment0".toList ++ ".fits".toList = "_moment0.fits".toList := by decide
  have a1 : "_centroid".toList ++ ".fits".toList = "_centroid.fits".toList := by decide
  have a2 : "_linewidth".toList ++ ".fits".toList = "_linewidth.fits".toList := by decide
  have r0 := hd (root ++ "_moment0.fits".toList) (by simp [mapFiles])
  have r1 := hd (root ++ "_centroid.fits".toList) (by simp [mapFiles])
  have r2 := hd (root ++ "_linewidth.fits".toList) (by simp [mapFiles])
  unfold fromFits
  simp only [mapName, hr, bind, Except.bind, pure, Except.pure, List.append_assoc, readMaps, a0, a1, a2, r0, r1, r2]
  exact ⟨_, rfl, rfl, rfl, rfl, rfl, rfl, rfl⟩

private theorem after_save (o o' : MomObj) (d' : Disk) (ow : Bool) (h : o.toFits none ow (fun _ => none) = (o', d', none)) (s : Str)
    (hs : s ∉ mapFiles (o.nameFor none)) : d' s = none := by
  have := toFits_other o none ow (fun _ => none) s hs
  rw [h] at this
  exact this

/-- Loading by the name of a cube in another directory without repeating that directory: the files written
next to the cube are not found and every map is `None`. -/
theorem C81_directory_violated (o o' : MomObj) (dir name : Str) (hdir : dir ≠ []) (hname : '/' ∉ name) (ow : Bool) (d' : Disk)
    (hs : o.saveName = (MomObj.new (.file (pathJoin dir (name ++ ".fits".toList)))).saveName)
    (h : o.toFits none ow (fun _ => none) = (o', d', none)) :
    ∃ o'', fromFits d' (.file (pathJoin dir (name ++ ".fits".toList))) none none none none none none = .ok o'' ∧ NoMaps o'' := by
  have hno : '/' ∉ name ++ ".fits".toList := fun hm => by
    rcases List.mem_append.1 hm with h | h
    · exact hname h
    · revert h; decide
  have hpath : pathJoin dir (name ++ ".fits".toList) = dirPart dir ++ name ++ ".fits".toList := by
    rw [join_eq _ _ hno, List.append_assoc]
  have hroot : o.nameFor none = dirPart dir ++ name := by
    unfold MomObj.nameFor
    rw [hs, hpath]
    show pyJoin ['.'] (pySplit '.' (dirPart dir ++ name ++ '.' :: "fits".toList)).dropLast = _
    exact save_root _ _ (by decide)
  have hd0 : dirPart dir ≠ [] := by
    unfold dirPart
    split_ifs
    · exact hdir
    · simp
  refine C81_missing d' _ none none name ?_ ?_
  · simp only [rootName]
    rw [hpath, take_ext, base_append _ _ hname (dirPart_end dir)]
  · intro s hs'
    have hj : pathJoin ((none : Option Str).getD []) s = s := by
      unfold pathJoin
      split_ifs with h1 h2
      · rfl
      · rfl
      · exact absurd (Or.inl rfl) h2
    rw [hj]
    apply after_save o o' d' ow h
    rw [hroot]
    intro hm
    obtain ⟨i, hi, ei⟩ := List.mem_iff_getElem.1 hs'
    obtain ⟨j, hj', ej⟩ := List.mem_iff_getElem.1 hm
    have := C81_no_clash name (dirPart dir ++ name) i j hi hj' (by
      rw [List.getD_eq_getElem?_getD, List.getD_eq_getElem?_getD, List.getElem?_eq_getElem hi, List.getElem?_eq_getElem hj',
        Option.getD_some, Option.getD_some, ei, ej])
    have hl := congrArg List.length this.2
    rw [List.length_append] at hl
    have : (dirPart dir).length ≠ 0 := by rw [ne_eq, List.length_eq_zero_iff]; exact hd0
    omega

/-- A cube called `name.fit`: `to_fits` drops the suffix, `from_fits` the last five characters, and nothing is
found. -/
theorem C81_suffix_violated (o o' : MomObj) (name : Str) (hname : '/' ∉ name) (hne : name ≠ []) (ow : Bool) (d' : Disk)
    (hs : o.saveName = (MomObj.new (.file (name ++ ".fit".toList))).saveName)
    (h : o.toFits none ow (fun _ => none) = (o', d', none)) :
    ∃ o'', fromFits d' (.file (name ++ ".fit".toList)) none none none none none none = .ok o'' ∧ NoMaps o'' := by
  have hroot : o.nameFor none = name := by
    unfold MomObj.nameFor
    rw [hs]
    show pyJoin ['.'] (pySplit '.' (name ++ '.' :: "fit".toList)).dropLast = _
    exact save_root _ _ (by decide)
  refine C81_missing d' _ none none (baseName (dropEnd 5 (name ++ ".fit".toList))) rfl ?_
  intro s hs'
  have hj : pathJoin ((none : Option Str).getD []) s = s := by
    unfold pathJoin
    split_ifs with h1 h2
    · rfl
    · rfl
    · exact absurd (Or.inl rfl) h2
  rw [hj]
  apply after_save o o' d' ow h
  rw [hroot]
  intro hm
  obtain ⟨i, hi, ei⟩ := List.mem_iff_getElem.1 hs'
  obtain ⟨j, hj', ej⟩ := List.mem_iff_getElem.1 hm
  have := C81_no_clash (baseName (dropEnd 5 (name ++ ".fit".toList))) name i j hi hj' (by
    rw [List.getD_eq_getElem?_getD, List.getD_eq_getElem?_getD, List.getElem?_eq_getElem hi, List.getElem?_eq_getElem hj',
      Option.getD_some, Option.getD_some, ei, ej])
  have hl := congrArg List.length this.2
  have h1 : (baseName (dropEnd 5 (name ++ ".fit".toList))).length ≤ (dropEnd 5 (name ++ ".fit".toList)).length := by
    unfold baseName
    rw [List.length_reverse]
    exact (List.takeWhile_sublist _).length_le.trans (by rw [List.length_reverse])
  have h2 : (dropEnd 5 (name ++ ".fit".toList)).length = name.length - 1 := by
    unfold dropEnd
    simp
    omega
  have h3 : name.length ≠ 0 := by rw [ne_eq, List.length_eq_zero_iff]; exact hne
  omega

/-- A save that fails half-way leaves a mixture: with an old centroid file present, the first map is written,
OSError is raised, and loading combines the new first map with the old centroid. -/
theorem C81_torn_violated (o : MomObj) (ho : HdrOk o) (pref : Str) (d : Disk) (a ea b eb c ec : Option (Arr2 (Option ℝ)))
    (h0 : o.m0.value = .ok a) (h1 : o.e0.value = .ok ea) (h2 : o.m1.value = .ok b) (h3 : o.e1.value = .ok eb)
    (h4 : o.lw.value = .ok c) (h5 : o.elw.value = .ok ec) (old oldE : Option (Arr2 (Option ℝ))) (hd1 hd2 : MomHdr)
    (k0 : d (pref ++ "_moment0.fits".toList) = none)
    (k1 : d (pref ++ "_centroid.fits".toList) = some [(old, hd1), (oldE, hd2)]) :
    (o.toFits (some pref) false d).2.2 = some .oserror ∧
    ((o.toFits (some pref) false d).2.1 (pref ++ "_moment0.fits".toList)).map (fun f => f.map (·.1)) = some [a, ea] ∧
    (o.toFits (some pref) false d).2.1 (pref ++ "_centroid.fits".toList) = some [(old, hd1), (oldE, hd2)] := by
  have hH : o.hdrs.getD propHdrs = propHdrs := by rcases ho with h | h <;> rw [h] <;> rfl
  have hall : o.allMaps = .ok ([a, b, c], [ea, eb, ec]) := by
    unfold MomObj.allMaps
    simp only [h0, h1, h2, h3, h4, h5, bind, Except.bind, pure, Except.pure]
  have hne : pref ++ "_centroid.fits".toList ≠ pref ++ "_moment0.fits".toList := by
    intro h
    have := List.append_cancel_left h
    revert this; decide
  have hne' := hne.symm
  have e0 : momFile pref "_moment0".toList = pref ++ "_moment0.fits".toList := by simp [momFile]
  have e1 : momFile pref "_centroid".toList = pref ++ "_centroid.fits".toList := by simp [momFile]
  unfold MomObj.toFits
  simp only [hall, hH, MomObj.nameFor]
  simp only [propHdrs, momLabels, List.zip_cons_cons, List.map_cons, List.zip_nil_left, writeAll, writeTo]
  rw [e0, e1]
  simp only [k0, Option.isSome_none, Bool.false_eq_true, false_and, if_false, if_neg hne, k1, Option.isSome_some, and_self, if_true]
  simp

/-- The file of the integrated intensity carries the unit of the cube, not cube times spectral axis. -/
theorem C81_bunit_violated (o o' : MomObj) (ho : HdrOk o) (a : Arr2 (Option ℝ)) (pref : Str) (ow : Bool) (d d' : Disk)
    (hm : o.m0 = .arr a (some (1, 1))) (h : o.toFits (some pref) ow d = (o', d', none)) :
    ∃ f, d' (pref ++ "_moment0.fits".toList) = some f ∧ ∀ q ∈ f, q.2.bunit ≠ (1, 1) := by
  obtain ⟨v, b, c, ea, eb, ec, v1, v2, v3, v4, v5, v6, f0, f1, f2⟩ := save_files ho h
  refine ⟨_, f0, ?_⟩
  intro q hq
  simp only [List.mem_cons, List.not_mem_nil, or_false] at hq
  rcases hq with rfl | rfl <;> simp [propHdrs]

/-- **C81 (units in the headers).** The centroid and line width files carry the unit of the spectral axis.
Missing: the zeroth moment (`C81_bunit_violated`). -/
theorem C81_bunit_partial (o o' : MomObj) (ho : HdrOk o) (pref : Str) (ow : Bool) (d d' : Disk)
    (h : o.toFits (some pref) ow d = (o', d', none)) :
    ∀ s, (s = pref ++ "_centroid.fits".toList ∨ s = pref ++ "_linewidth.fits".toList) →
      ∃ f, d' s = some f ∧ f.length = 2 ∧ ∀ q ∈ f, q.2.bunit = (0, 1) := by
  obtain ⟨v, b, c, ea, eb, ec, v1, v2, v3, v4, v5, v6, f0, f1, f2⟩ := save_files ho h
  rintro s (rfl | rfl)
  · refine ⟨_, f1, rfl, ?_⟩
    intro q hq
    simp only [List.mem_cons, List.not_mem_nil, or_false] at hq
    rcases hq with rfl | rfl <;> rfl
  · refine ⟨_, f2, rfl, ?_⟩
    intro q hq
    simp only [List.mem_cons, List.not_mem_nil, or_false] at hq
    rcases hq with rfl | rfl <;> rfl

/-- Loading with a mask always fails: `from_fits` calls a method that does not exist. -/
theorem C81_mask_violated (d : Disk) (c : CubeArg) (pref path a b e : Option Str) (mask : Str) :
    fromFits d c pref path (some mask) a b e = .error .attributeError := rfl

/-- **C81 (the name sticks).** A name given once is used by later saves without a name. -/
theorem C81_name_kept (o : MomObj) (pref : Str) (ow : Bool) (d : Disk) :
    (o.toFits (some pref) ow d).1.nameFor none = pref := by
  unfold MomObj.toFits
  simp only
  split <;> rfl

/-- **C81 (dictionary).** `to_dict` gives each map and its error map under its own key. -/
theorem C81_dict (o : MomObj) (l : List (Str × Option (Arr2 (Option ℝ)) × MomHdr)) (h : o.toDict = .ok l) :
    (l.map (·.1)).Nodup ∧
    (∀ k v hd, (k, v, hd) ∈ l →
      (k = "moment0".toList → o.m0.value = .ok v) ∧ (k = "moment0_error".toList → o.e0.value = .ok v) ∧
      (k = "centroid".toList → o.m1.value = .ok v) ∧ (k = "centroid_error".toList → o.e1.value = .ok v) ∧
      (k = "linewidth".toList → o.lw.value = .ok v) ∧ (k = "linewidth_error".toList → o.elw.value = .ok v)) ∧
    l.map (·.1) = ["moment0".toList, "moment0_error".toList, "centroid".toList, "centroid_error".toList,
      "linewidth".toList, "linewidth_error".toList] := by
  unfold MomObj.toDict at h
  simp only [bind, Except.bind, pure, Except.pure] at h
  split at h; · cases h
  rename_i a ha
  split at h; · cases h
  rename_i ea hea
  split at h; · cases h
  rename_i b hb
  split at h; · cases h
  rename_i eb heb
  split at h; · cases h
  rename_i c hc
  split at h; · cases h
  rename_i ec hec
  cases h
  refine ⟨by simp only [List.map_cons, List.map_nil]; decide, ?_, rfl⟩
  intro k v hd hm
  simp only [List.mem_cons, Prod.mk.injEq, List.not_mem_nil, or_false] at hm
  rcases hm with ⟨rfl, rfl, -⟩ | ⟨rfl, rfl, -⟩ | ⟨rfl, rfl, -⟩ | ⟨rfl, rfl, -⟩ | ⟨rfl, rfl, -⟩ | ⟨rfl, rfl, -⟩ <;>
    refine ⟨fun h => ?_, fun h => ?_, fun h => ?_, fun h => ?_, fun h => ?_, fun h => ?_⟩ <;>
    first | assumption | (exact absurd h (by decide))

/-- A complete object made from `data/cube.fits` is saved on an empty disk without error. -/
example : ∃ o' d', (MomObj.toFits { MomObj.new (.file "data/cube.fits".toList) with
    m0 := .arr ⟨2, 2, fun _ _ => some 1⟩ (some (1, 1)), m1 := .arr ⟨2, 2, fun _ _ => some 3⟩ (some (0, 1)),
    lw := .arr ⟨2, 2, fun _ _ => none⟩ (some (0, 1)), e0 := .arr ⟨2, 2, fun _ _ => some 0⟩ none,
    e1 := .arr ⟨2, 2, fun _ _ => some 0⟩ none, elw := .arr ⟨2, 2, fun _ _ => some 0⟩ none }
    none false (fun _ => none)) = (o', d', none) ∧ o'.saveName = some "data/cube".toList := by
  refine ⟨_, _, rfl, ?_⟩
  decide

end TS
