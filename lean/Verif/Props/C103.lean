import Verif.Model.Constructors
import Verif.Props.C48
import Mathlib.Tactic.Linarith
import Mathlib.Tactic.NormNum
import Mathlib.Tactic.Positivity

/-!
C103.  An object that was constructed holds what the caller gave; bad arguments are refused when the object is made; a saved
dendrogram can be loaded again.
-/

namespace TS

namespace Spec

/-- The arguments `data` and `header` of a constructor supply the array `a` and the header `h`: a cube, projection, HDU or pair with
its own header, or any of these or a bare array together with a separate header. -/
inductive Supplies {H : Type} : InputArg NArr H → Option (Obj NArr H) → NArr → H → Prop
  | cube (i j q a h) : Supplies (.cube (.arr i q a) (.hdr j h)) none a h
  | projection (i j q a h) : Supplies (.lowerDim (.arr i q a) (.hdr j h)) none a h
  | hdu (i j q a h) : Supplies (.hdu (.arr i q a) (.hdr j h)) none a h
  | pair (i j q a h) : Supplies (.seq [.arr i q a, .hdr j h]) none a h
  | array (i j q a h) : Supplies (.obj (.arr i q a)) (some (.hdr j h)) a h
  | hduOther (i j q a x h) : Supplies (.hdu (.arr i q a) x) (some (.hdr j h)) a h
  | cubeOther (i j q a x h) : Supplies (.cube (.arr i q a) x) (some (.hdr j h)) a h

/-- An array that can be read from the argument without a header. -/
inductive SuppliesArray {H : Type} : InputArg NArr H → NArr → Prop
  | cube (i q a x) : SuppliesArray (.cube (.arr i q a) x) a
  | projection (i q a x) : SuppliesArray (.lowerDim (.arr i q a) x) a
  | hdu (i q a x) : SuppliesArray (.hdu (.arr i q a) x) a
  | pair (i q a x) : SuppliesArray (.seq [.arr i q a, x]) a
  | array (i q a) : SuppliesArray (.obj (.arr i q a)) a

/-- The length of every axis is more than one (or zero). -/
def NoSingleton (a : NArr) : Prop := ∀ n ∈ a.shape, n ≠ 1

end Spec

private theorem supplies_ok {H B : Type} {d : InputArg NArr H} {hd : Option (Obj NArr H)} {a : NArr} {h : H}
    (hs : Spec.Supplies d hd a h) (fresh : ℕ) :
    inputDataHeader ⟨true, false⟩ (newStat (B := B)) d hd false fresh = (⟨some (some h), some (some a.squeeze), none⟩, none) := by
  cases hs <;> rfl

private theorem supplies_pair {H : Type} {d : InputArg NArr H} {a : NArr} {h : H}
    (hs : Spec.Supplies d none a h) (fresh : ℕ) : ∃ i j q, inputData d false false fresh = .ok [.arr i q a, .hdr j h] := by
  cases hs with
  | cube i j q => exact ⟨i, j, q, rfl⟩
  | projection i j q => exact ⟨i, j, q, rfl⟩
  | hdu i j q => exact ⟨i, j, q, rfl⟩
  | pair i j q => exact ⟨i, j, q, rfl⟩

private theorem supplies_one {H : Type} {d : InputArg NArr H} {a : NArr} (hs : Spec.SuppliesArray d a) (fresh : ℕ) :
    ∃ i q, inputOne d fresh = .ok (.arr i q a) := by
  cases hs with
  | cube i q => exact ⟨i, q, rfl⟩
  | projection i q => exact ⟨i, q, rfl⟩
  | hdu i q => exact ⟨i, q, rfl⟩
  | pair i q => exact ⟨i, q, rfl⟩
  | array i q => exact ⟨i, q, rfl⟩

private theorem squeeze_eq {a : NArr} (h : Spec.NoSingleton a) : a.squeeze = a := by
  unfold NArr.squeeze
  congr 1
  rw [List.filter_eq_self]
  intro n hn
  simpa using h n hn

/-! ### Dendrograms -/

/-- Data with a header and an increasing array of thresholds (or at most one): the object holds the data, that header, the parameters
(by default 10 pixels, 0.001 and 0.1) and those thresholds.  An array that does not increase, and any text but 'auto', is refused. -/
theorem C103_dendrogram {H B : Type} {d : InputArg NArr H} {hd : Option (Obj NArr H)} {a : NArr} {h : H} (hs : Spec.Supplies d hd a h)
    (ha : Spec.NoSingleton a) (params : Option SavedParams) (num fresh : ℕ) (l : List (Option ℝ)) :
    ((l.length ≤ 1 ∨ Spec.Increasing l) → ∃ o : DendroObj H B,
      dendroStatsInit true d hd (.val (.array l)) params num fresh = .ok o ∧ o.st.header = some (some h) ∧
      o.st.data = some (some a) ∧ o.deltas = some (.vector l) ∧ (∀ p, params = some p → o.params = p) ∧
      (params = none → o.params = ⟨some 10, ⟨some (1 / 1000), some (1 / 10)⟩⟩)) ∧
    (¬ (l.length ≤ 1 ∨ Spec.Increasing l) →
      dendroStatsInit (B := B) true d hd (.val (.array l)) params num fresh = .error .valueError) ∧
    (∀ s, s ≠ "auto" → dendroStatsInit (B := B) true d hd (.str s) params num fresh = .error .valueError) ∧
    (∀ md, dendroStatsInit (B := B) false d hd md params num fresh = .error .importError) := by
  refine ⟨?_, ?_, ?_, ?_⟩
  · intro hl
    refine ⟨⟨⟨some (some h), some (some a.squeeze), none⟩, params.getD ⟨some 10, ⟨some (1 / 1000), some (1 / 10)⟩⟩,
      some (.vector l)⟩, ?_, rfl, by rw [squeeze_eq ha], rfl, ?_, ?_⟩
    · simp only [dendroStatsInit, supplies_ok hs, Bool.true_eq_false, if_false, (C48_array _ _ _).1 hl]
    · rintro p rfl; rfl
    · rintro rfl; rfl
  · intro hl
    simp only [dendroStatsInit, supplies_ok hs, Bool.true_eq_false, if_false, (C48_array _ _ _).2 hl]
  · intro s hne
    simp only [dendroStatsInit, supplies_ok hs, Bool.true_eq_false, if_false, if_neg hne]
  · intro md
    simp only [dendroStatsInit, if_true]

/-- The default 'auto': the first threshold is the minimum delta of the parameters, and there are as many as asked for, all from the
data's own range. -/
theorem C103_dendrogram_auto {H B : Type} {d : InputArg NArr H} {hd : Option (Obj NArr H)} {a : NArr} {h : H}
    (hs : Spec.Supplies d hd a h) (params : Option SavedParams) (num fresh : ℕ) (o : DendroObj H B)
    (ho : dendroStatsInit true d hd (.str "auto") params num fresh = .ok o) :
    ∃ ds, o.deltas = some (.vector ds) ∧ ds.length = num ∧ (0 < num → ∀ p, params = some p → ∀ m v, p.thr.minDelta = some m →
      p.thr.minValue = some v → ds[0]? = some (some m)) := by
  simp only [dendroStatsInit, supplies_ok hs, Bool.true_eq_false, if_false, if_true] at ho
  generalize hp : params.getD ⟨some 10, ⟨some (1 / 1000), some (1 / 10)⟩⟩ = p at ho
  have hlen : ∀ x y, (deltaGrid x y num).length = num := by
    intro x y; unfold deltaGrid; cases y <;> simp
  have hset : ∀ l, ∀ o' : DendroObj H B, (match setMinDeltas p.thr none (.array l) with
      | (_, some e) => (.error e : Py (DendroObj H B))
      | (ds, none) => .ok ⟨⟨some (some h), some (some a.squeeze), none⟩, p, ds⟩) = .ok o' → o'.deltas = some (.vector l) := by
    intro l o' hl
    unfold setMinDeltas at hl
    by_cases hi : allIncreasing l = true
    · simp only [hi, if_true] at hl
      rw [← Except.ok.inj hl]
    · simp only [hi] at hl
      cases hl
  cases hv : p.thr.minValue with
  | none =>
    cases hmx : maxO (validVals (StatSt.arr (⟨some (some h), some (some a.squeeze), none⟩ : StatSt H B)).flat) with
    | none => simp only [autosetMinDeltas, hv, hmx] at ho; cases ho
    | some mx =>
      simp only [autosetMinDeltas, hv, hmx] at ho
      refine ⟨_, hset _ o ho, hlen _ _, ?_⟩
      rintro _ p' rfl m v _ hv'
      rw [Option.getD_some] at hp
      subst hp
      rw [hv] at hv'; cases hv'
  | some mv =>
    cases hmx : maxO ((validVals (StatSt.arr (⟨some (some h), some (some a.squeeze), none⟩ : StatSt H B)).flat).filter
        (fun x => decide (mv < x))) with
    | none => simp only [autosetMinDeltas, hv, hmx] at ho; cases ho
    | some mx =>
      simp only [autosetMinDeltas, hv, hmx] at ho
      refine ⟨_, hset _ o ho, hlen _ _, ?_⟩
      rintro hn p' rfl m v hm _
      rw [Option.getD_some] at hp
      subst hp
      unfold deltaGrid
      simp only [hm, Option.getD_some]
      rw [List.getElem?_map, List.getElem?_range hn]
      simp [linspace]

/-- VIOLATION: a saved dendrogram can never be loaded.  Whatever is in the file and whatever thresholds are asked for, the data reach
the constructor as a bare array without a header, which it refuses. -/
theorem C103_load_violated {H B : Type} (file : SavedDendro) (md : DeltaArg) (fresh : ℕ) :
    loadDendrogram (H := H) (B := B) true file md fresh = .error .valueError := rfl

/-- The same file content with a header is accepted: it is the missing header that makes loading fail. -/
theorem C103_load_content {H B : Type} (file : SavedDendro) (hn : Spec.NoSingleton file.data) (j : ℕ) (h : H) (fresh : ℕ) (m : ℝ)
    (hm : file.params.thr.minDelta = some m) :
    ∃ o : DendroObj H B, dendroStatsInit true (.obj (.arr file.ident false file.data)) (some (.hdr j h)) (.val .none)
      (some file.params) 10 fresh = .ok o ∧ o.st.data = some (some file.data) ∧ o.params = file.params ∧
      o.deltas = some (.vector [some m]) := by
  refine ⟨⟨⟨some (some h), some (some file.data.squeeze), none⟩, file.params, some (.vector [some m])⟩, ?_, by rw [squeeze_eq hn], rfl, rfl⟩
  simp only [dendroStatsInit, supplies_ok (Spec.Supplies.array file.ident j false file.data h), Bool.true_eq_false, if_false,
    Option.getD_some, setMinDeltas, hm]

example : ∃ o : DendroObj ℕ ℕ, dendroStatsInit true (.obj (.arr 0 false ⟨[2, 3], fun k => k⟩)) (some (.hdr 1 7))
    (.val (.array [some 1, some 2])) none 10 5 = .ok o ∧ o.st.header = some (some 7) := by
  obtain ⟨o, h1, h2, _⟩ := (C103_dendrogram (B := ℕ) (Spec.Supplies.array 0 1 false ⟨[2, 3], fun k => k⟩ 7)
    (by intro n hn; simp at hn; omega) none 10 5 [some 1, some 2]).1 (Or.inr ⟨[1, 2], rfl, by norm_num⟩)
  exact ⟨o, h1, h2⟩

/-- The default thresholds exist for data that rise above the minimum value. -/
example : ∃ o : DendroObj ℕ ℕ, dendroStatsInit true (.hdu (.arr 0 false ⟨[1], fun _ => 3⟩) (.hdr 1 7)) none (.str "auto")
    (some ⟨none, ⟨some 1, some 1⟩⟩) 1 5 = .ok o := by
  refine ⟨⟨⟨some (some 7), some (some (NArr.squeeze ⟨[1], fun _ => 3⟩)), none⟩, ⟨none, ⟨some 1, some 1⟩⟩,
    some (.vector (deltaGrid 1 (some (3 - 1)) 1))⟩, ?_⟩
  have hf : (StatSt.arr (B := ℕ) (H := ℕ) ⟨some (some 7), some (some (NArr.squeeze ⟨[1], fun _ => 3⟩)), none⟩).flat = [some 3] := by
    simp [StatSt.arr, NArr.squeeze, NArr.flat, List.range_succ]
  simp only [dendroStatsInit, supplies_ok (Spec.Supplies.hdu 0 1 false ⟨[1], fun _ => 3⟩ 7), Bool.true_eq_false, if_false, if_true,
    hf, Option.getD_some, autosetMinDeltas]
  have : maxO ((validVals [some (3 : ℝ)]).filter (fun x => decide ((1 : ℝ) < x))) = some 3 := by
    have h1 : (1 : ℝ) < 3 := by norm_num
    have h2 : (validVals [some (3 : ℝ)]).filter (fun x => decide ((1 : ℝ) < x)) = [3] := by
      show List.filter (fun x => decide ((1 : ℝ) < x)) [3] = [3]
      simp [h1]
    rw [h2]; rfl
  simp only [this]
  rw [(C48_array _ _ _).1 (Or.inl (by simp [deltaGrid]))]

/-! ### PCA -/

/-- A cube none of whose axes has length one, with a velocity axis, gives an object with its data and header, and the number of its
channels is that of the cube. Missing: cubes with one channel (`C103_pca_single_channel_violated`). -/
theorem C103_pca_partial {H B : Type} (spec : H → SpecHeader) {d : InputArg NArr H} {a : NArr} {h : H} (hs : Spec.Supplies d none a h)
    (ha : Spec.NoSingleton a) (n : ℕ) (rest : List ℕ) (hsh : a.shape = n :: rest) (ax : ChanAxis) (hax : spec h = some (some ax))
    (hv : ax.kind = .velocity) (fresh : ℕ) :
    ∃ o : PcaObj H B, pcaNew spec d none none fresh = .ok o ∧ o.st.header = some (some h) ∧ o.st.data = some (some a) ∧
      o.spectralShape = n ∧ o.dist = none := by
  obtain ⟨i, j, q, hp⟩ := supplies_pair hs fresh
  refine ⟨⟨⟨some (some h), some (some a.squeeze), none⟩, n, none⟩, ?_, rfl, by rw [squeeze_eq ha], rfl, rfl⟩
  simp only [pcaNew, hp, setBoth, setData, setHeader, newStat, Bool.false_eq_true, Bool.true_eq_false, if_false, hax,
    enforceVelocity, spectralSize, bind, Except.bind, hv, if_true, pure, Except.pure, StatSt.arr, squeeze_eq ha, hsh, Option.isSome_none,
    initDistance]

/-- A distance given to the constructor is the distance the object holds: a scalar length of `x` units of `pc` parsecs is kept as such,
anything else is refused. -/
theorem C103_pca_distance {H B : Type} (spec : H → SpecHeader) {d : InputArg NArr H} {a : NArr} {h : H} (hs : Spec.Supplies d none a h)
    (ha : Spec.NoSingleton a) (n : ℕ) (rest : List ℕ) (hsh : a.shape = n :: rest) (ax : ChanAxis) (hax : spec h = some (some ax))
    (hv : ax.kind = .velocity) (fresh : ℕ) :
    (∀ x pc, ∃ o : PcaObj H B, pcaNew spec d none (some (.quantity ⟨x, .length pc⟩ true)) fresh = .ok o ∧ o.dist = some (x, pc)) ∧
    (∀ arg, (∀ x pc, arg ≠ .quantity ⟨x, .length pc⟩ true) → ∃ e, pcaNew (B := B) spec d none (some arg) fresh = .error e) := by
  obtain ⟨i, j, q, hp⟩ := supplies_pair hs fresh
  constructor
  · intro x pc
    refine ⟨⟨⟨some (some h), some (some a.squeeze), none⟩, n, some (x, pc)⟩, ?_, rfl⟩
    simp only [pcaNew, hp, setBoth, setData, setHeader, newStat, Bool.false_eq_true, Bool.true_eq_false, if_false, hax,
      enforceVelocity, spectralSize, bind, Except.bind, hv, if_true, pure, Except.pure, StatSt.arr, squeeze_eq ha, hsh, Option.isSome_none,
      initDistance, setDistance]
  · intro arg harg
    have hbad : ∃ e, initDistance (some arg) = .error e := by
      unfold initDistance
      cases arg with
      | other => exact ⟨_, rfl⟩
      | quantity z sc =>
        obtain ⟨x, un⟩ := z
        cases un <;> cases sc <;> first | exact ⟨_, rfl⟩ | exact absurd rfl (harg _ _)
    obtain ⟨e, he⟩ := hbad
    refine ⟨e, ?_⟩
    simp only [pcaNew, hp, setBoth, setData, setHeader, newStat, Bool.false_eq_true, Bool.true_eq_false, if_false, hax,
      enforceVelocity, spectralSize, bind, Except.bind, hv, if_true, pure, Except.pure, StatSt.arr, squeeze_eq ha, hsh, Option.isSome_none, he]

/-- A number of eigenvalues given to the constructor is always refused, and so is a spectral axis that is not a velocity, and a bare
array. -/
theorem C103_pca_refused {H B : Type} (spec : H → SpecHeader) (d : InputArg NArr H) (dist : Option DistArg) (fresh : ℕ) :
    (∀ k, ∃ e, pcaNew (B := B) spec d (some k) dist fresh = .error e) ∧
    (∀ a h ax ne, Spec.Supplies d none a h → spec h = some (some ax) → ax.kind ≠ .velocity →
      pcaNew (B := B) spec d ne dist fresh = .error .warningRaised) ∧
    (∀ i q a ne, d = .obj (.arr i q a) → pcaNew (B := B) spec d ne dist fresh = .error .typeError) := by
  refine ⟨?_, ?_, ?_⟩
  · intro k
    unfold pcaNew
    split
    · exact ⟨_, rfl⟩
    · split
      · exact ⟨_, rfl⟩
      · simp only [bind, Except.bind, Option.isSome_some, if_true]
        split
        · exact ⟨_, rfl⟩
        · split
          · exact ⟨_, rfl⟩
          · exact ⟨_, rfl⟩
    · exact ⟨_, rfl⟩
  · intro a h ax ne hs hax hk
    obtain ⟨i, j, q, hp⟩ := supplies_pair hs fresh
    simp only [pcaNew, hp, setBoth, setData, setHeader, newStat, Bool.false_eq_true, Bool.true_eq_false, if_false, hax,
      enforceVelocity, spectralSize, bind, Except.bind, hk, if_false]
  · rintro i q a ne rfl
    rfl

/-- VIOLATION: a cube with a single channel is taken for one with as many channels as it has rows. -/
theorem C103_pca_single_channel_violated {H B : Type} (spec : H → SpecHeader) {d : InputArg NArr H} {a : NArr} {h : H}
    (hs : Spec.Supplies d none a h) (ny nx : ℕ) (hy : ny ≠ 1) (hsh : a.shape = [1, ny, nx]) (ax : ChanAxis)
    (hax : spec h = some (some ax)) (hv : ax.kind = .velocity) (fresh : ℕ) :
    ∃ o : PcaObj H B, pcaNew spec d none none fresh = .ok o ∧ o.spectralShape = ny := by
  obtain ⟨i, j, q, hp⟩ := supplies_pair hs fresh
  refine ⟨⟨⟨some (some h), some (some a.squeeze), none⟩, ny, none⟩, ?_, rfl⟩
  have hsq : a.squeeze.shape = ny :: ([nx].filter (fun n => n != 1)) := by
    unfold NArr.squeeze
    simp [hsh, List.filter_cons, hy]
  simp only [pcaNew, hp, setBoth, setData, setHeader, newStat, Bool.false_eq_true, Bool.true_eq_false, if_false, hax,
    enforceVelocity, spectralSize, bind, Except.bind, hv, if_true, pure, Except.pure, StatSt.arr, hsq, Option.isSome_none, initDistance]

example : (∃ o : PcaObj ℕ ℕ, pcaNew (fun _ => some (some ⟨-1, .velocity, 1⟩)) (.cube (.arr 0 true ⟨[5, 4, 3], fun k => k⟩) (.hdr 1 7))
      none none 9 = .ok o ∧ o.spectralShape = 5) ∧
    (∃ o : PcaObj ℕ ℕ, pcaNew (fun _ => some (some ⟨-1, .velocity, 1⟩)) (.cube (.arr 0 true ⟨[1, 4, 3], fun k => k⟩) (.hdr 1 7))
      none none 9 = .ok o ∧ o.spectralShape = 4) := by
  constructor
  · obtain ⟨o, h1, _, _, h2, _⟩ := C103_pca_partial (B := ℕ) (fun _ => some (some ⟨-1, .velocity, 1⟩))
      (Spec.Supplies.cube 0 1 true ⟨[5, 4, 3], fun k => k⟩ 7) (by intro n hn; simp at hn; omega) 5 [4, 3] rfl _ rfl rfl 9
    exact ⟨o, h1, h2⟩
  · exact C103_pca_single_channel_violated (fun _ => some (some ⟨-1, .velocity, 1⟩))
      (Spec.Supplies.cube 0 1 true ⟨[1, 4, 3], fun k => k⟩ 7) 4 3 (by norm_num) rfl _ rfl rfl 9

/-! ### StatMoments -/

private theorem nbins_sqrt (size : ℕ) : ∃ b : ℕ, pyInt (Real.sqrt size) = b ∧ b ^ 2 ≤ size ∧ size < (b + 1) ^ 2 := by
  refine ⟨⌊Real.sqrt (size : ℝ)⌋₊, ?_, ?_, ?_⟩
  · unfold pyInt
    rw [if_pos (Real.sqrt_nonneg _), ← Int.natCast_floor_eq_floor (Real.sqrt_nonneg _)]
  · have h := Nat.floor_le (Real.sqrt_nonneg (size : ℝ))
    have h2 : (⌊Real.sqrt (size : ℝ)⌋₊ : ℝ) ^ 2 ≤ size := by
      calc (⌊Real.sqrt (size : ℝ)⌋₊ : ℝ) ^ 2 ≤ Real.sqrt (size : ℝ) ^ 2 := by
            apply pow_le_pow_left₀ (by positivity) h
        _ = (size : ℝ) := Real.sq_sqrt (by positivity)
    exact_mod_cast h2
  · have h := Nat.lt_floor_add_one (Real.sqrt (size : ℝ))
    have h2 : (size : ℝ) < ((⌊Real.sqrt (size : ℝ)⌋₊ : ℝ) + 1) ^ 2 := by
      calc (size : ℝ) = Real.sqrt size ^ 2 := (Real.sq_sqrt (by positivity)).symm
        _ < _ := by apply pow_lt_pow_left₀ h (Real.sqrt_nonneg _) (by norm_num)
    exact_mod_cast h2

/-- An image without axes of length one: the object is made exactly when the radius, in pixels, is at least 2 and at most half the
shorter side; it then holds the image, header and radius as given, weights of one everywhere, and as many bins as the root of the number
of pixels, rounded down. -/
theorem C103_moments {B : Type} {d : InputArg NArr Wcs} {hd : Option (Obj NArr Wcs)} {a : NArr} {w : Wcs} (hs : Spec.Supplies d hd a w)
    (n m : ℕ) (hsh : a.shape = [n, m]) (hn : n ≠ 1) (hm : m ≠ 1) (dist : Option DistArg) (s : Option (ℝ × ℝ))
    (hdist : initDistance dist = .ok s) (q : SQ) (fresh ident : ℕ) :
    (∀ e, toPixelW (some w) s q = .error e →
      statMomentsNew (B := B) d hd none (.quantity q) .none dist fresh ident = .error e) ∧
    (∀ p, toPixelW (some w) s q = .ok p → 2 ≤ p ∧ p ≤ (min n m : ℕ) / 2 →
      ∃ o : MomentsObj B, statMomentsNew d hd none (.quantity q) .none dist fresh ident = .ok o ∧ o.radius = q ∧
        o.st.data = some (some a) ∧ o.st.header = some (some w) ∧ o.dist = s ∧
        o.weights = .arr ident false ⟨[n, m], fun _ => 1⟩ ∧ ∃ b : ℕ, o.nbins = b ∧ b ^ 2 ≤ n * m ∧ n * m < (b + 1) ^ 2) ∧
    (∀ p, toPixelW (some w) s q = .ok p → ¬ (2 ≤ p ∧ p ≤ (min n m : ℕ) / 2) →
      statMomentsNew (B := B) d hd none (.quantity q) .none dist fresh ident = .error .valueError) := by
  have ha : Spec.NoSingleton a := by
    intro k hk
    rw [hsh] at hk
    simp only [List.mem_cons, List.not_mem_nil, or_false] at hk
    rcases hk with rfl | rfl <;> assumption
  have hmin : [n, m].min? = some (min n m) := by simp [List.min?]
  obtain ⟨b, hb1, hb2, hb3⟩ := nbins_sqrt ([n, m].prod)
  refine ⟨?_, ?_, ?_⟩
  · intro e he
    simp only [statMomentsNew, supplies_ok hs, squeeze_eq ha, hdist, bind, Except.bind, momentsRadius, he]
  · intro p hp hr
    refine ⟨⟨⟨some (some w), some (some a), none⟩, .arr ident false ⟨a.shape, fun _ => 1⟩, s, q, b⟩, ?_, rfl, rfl, rfl, rfl, by rw [hsh],
      b, rfl, ?_, ?_⟩
    · simp only [statMomentsNew, supplies_ok hs, squeeze_eq ha, hdist, bind, Except.bind, momentsRadius, hp, not_lt.2 hr.1, if_false,
        StatSt.arr, hsh, hmin, not_lt.2 hr.2, pure, Except.pure, momentsNbins, hb1]
    · simpa using hb2
    · simpa using hb3
  · intro p hp hr
    simp only [statMomentsNew, supplies_ok hs, squeeze_eq ha, hdist, bind, Except.bind, momentsRadius, hp, StatSt.arr, hsh, hmin]
    by_cases h2 : p < 2
    · simp only [h2, if_true]
    · have : ((min n m : ℕ) : ℝ) / 2 < p := by
        by_contra hc
        exact hr ⟨not_lt.1 h2, not_lt.1 hc⟩
      simp only [h2, if_false, this, if_true]

/-- With the default radius of 5 pixels an object is made exactly for images of at least 10 by 10 pixels. -/
theorem C103_moments_default {B : Type} {d : InputArg NArr Wcs} {hd : Option (Obj NArr Wcs)} {a : NArr} {w : Wcs}
    (hs : Spec.Supplies d hd a w) (n m : ℕ) (hsh : a.shape = [n, m]) (hn : n ≠ 1) (hm : m ≠ 1) (fresh ident : ℕ) :
    (∃ o : MomentsObj B, statMomentsNew d hd none defaultRadius .none none fresh ident = .ok o) ↔ 10 ≤ n ∧ 10 ≤ m := by
  have key := C103_moments (B := B) hs n m hsh hn hm none none rfl ⟨5, .pix⟩ fresh ident
  have hp : toPixelW (some w) none ⟨5, .pix⟩ = .ok 5 := rfl
  have hle : ((5 : ℝ) ≤ (min n m : ℕ) / 2) ↔ 10 ≤ n ∧ 10 ≤ m := by
    rw [le_div_iff₀ (by norm_num), show (5 : ℝ) * 2 = ((10 : ℕ) : ℝ) by norm_num, Nat.cast_le, le_min_iff]
  constructor
  · rintro ⟨o, ho⟩
    by_contra hc
    have := key.2.2 5 hp (fun h => hc (hle.1 h.2))
    unfold defaultRadius at ho
    rw [this] at ho
    cases ho
  · intro h
    obtain ⟨o, ho, _⟩ := key.2.1 5 hp ⟨by norm_num, hle.2 h⟩
    exact ⟨o, ho⟩

/-- VIOLATION: bins given as an array, which the documentation allows, make the constructor raise TypeError (unless the array has one
element). -/
theorem C103_nbins_violated {B : Type} {d : InputArg NArr Wcs} {hd : Option (Obj NArr Wcs)} {a : NArr} {w : Wcs}
    (hs : Spec.Supplies d hd a w) (n m : ℕ) (hsh : a.shape = [n, m]) (hn : 10 ≤ n) (hm : 10 ≤ m) (l : List ℝ) (hl : l.length ≠ 1)
    (fresh ident : ℕ) : statMomentsNew (B := B) d hd none defaultRadius (.array l) none fresh ident = .error .typeError := by
  have ha : Spec.NoSingleton a := by
    intro k hk
    rw [hsh] at hk
    simp only [List.mem_cons, List.not_mem_nil, or_false] at hk
    rcases hk with rfl | rfl <;> omega
  have hmin : [n, m].min? = some (min n m) := by simp [List.min?]
  have hle : ¬ (((min n m : ℕ) : ℝ) / 2 < 5) := by
    rw [not_lt, le_div_iff₀ (by norm_num), show (5 : ℝ) * 2 = ((10 : ℕ) : ℝ) by norm_num, Nat.cast_le, le_min_iff]
    exact ⟨hn, hm⟩
  have hnb : momentsNbins [n, m].prod (.array l) = .error .typeError := by
    match l, hl with
    | [], _ => rfl
    | _ :: _ :: _, _ => rfl
  simp only [statMomentsNew, supplies_ok hs, squeeze_eq ha, initDistance, bind, Except.bind, momentsRadius, defaultRadius, toPixelW,
    StatSt.arr, hsh, hmin, hle, if_false, pure, Except.pure, hnb]
  norm_num

/-- VIOLATION: weights of any shape are accepted for any image. -/
theorem C103_weights_violated {B : Type} {d : InputArg NArr Wcs} {hd : Option (Obj NArr Wcs)} {a : NArr} {w : Wcs}
    (hs : Spec.Supplies d hd a w) (n m : ℕ) (hsh : a.shape = [n, m]) (hn : 10 ≤ n) (hm : 10 ≤ m) (b : NArr) (i fresh ident : ℕ) :
    ∃ o : MomentsObj B, statMomentsNew d hd (some (.obj (.arr i false b))) defaultRadius .none none fresh ident = .ok o ∧
      o.weights = .arr i false b := by
  have ha : Spec.NoSingleton a := by
    intro k hk
    rw [hsh] at hk
    simp only [List.mem_cons, List.not_mem_nil, or_false] at hk
    rcases hk with rfl | rfl <;> omega
  have hmin : [n, m].min? = some (min n m) := by simp [List.min?]
  have hle : ¬ (((min n m : ℕ) : ℝ) / 2 < 5) := by
    rw [not_lt, le_div_iff₀ (by norm_num), show (5 : ℝ) * 2 = ((10 : ℕ) : ℝ) by norm_num, Nat.cast_le, le_min_iff]
    exact ⟨hn, hm⟩
  have hin : inputData (.obj (.arr i false b) : InputArg NArr Wcs) true false fresh = .ok [.arr i false b] := rfl
  refine ⟨⟨⟨some (some w), some (some a), none⟩, .arr i false b, none, ⟨5, .pix⟩, pyInt (Real.sqrt ([n, m].prod : ℕ))⟩, ?_, rfl⟩
  simp only [statMomentsNew, supplies_ok hs, squeeze_eq ha, initDistance, bind, Except.bind, momentsRadius, defaultRadius, toPixelW,
    StatSt.arr, hsh, hmin, hle, if_false, pure, Except.pure, momentsNbins, hin]
  norm_num

/-- Other numbers of bins are truncated to whole numbers. -/
theorem C103_nbins (size : ℕ) (v : ℝ) (hv : 0 ≤ v) : ∃ b : ℕ, momentsNbins size (.number v) = .ok (b : ℤ) ∧ (b : ℝ) ≤ v ∧ v < b + 1 := by
  refine ⟨⌊v⌋₊, ?_, Nat.floor_le hv, Nat.lt_floor_add_one v⟩
  simp only [momentsNbins, pyInt, if_pos hv, Int.natCast_floor_eq_floor hv]

example : (∃ o : MomentsObj ℕ, statMomentsNew (.hdu (.arr 0 false ⟨[12, 10], fun k => k⟩) (.hdr 1 ⟨[.lon, .lat], fun _ _ => 0, false⟩)) none
      none defaultRadius .none none 5 6 = .ok o) ∧
    ¬ (∃ o : MomentsObj ℕ, statMomentsNew (.hdu (.arr 0 false ⟨[12, 9], fun k => k⟩) (.hdr 1 ⟨[.lon, .lat], fun _ _ => 0, false⟩)) none
      none defaultRadius .none none 5 6 = .ok o) := by
  constructor
  · exact (C103_moments_default (Spec.Supplies.hdu _ _ _ _ _) 12 10 rfl (by norm_num) (by norm_num) 5 6).2 (by norm_num)
  · rw [C103_moments_default (Spec.Supplies.hdu _ _ _ _ _) 12 9 rfl (by norm_num) (by norm_num) 5 6]
    norm_num

/-! ### MVC -/

/-- The three maps are kept as given, and an object is made exactly when their shapes agree.  Its header is the one given, or else the
one that comes with the centroid map, or else there is none. -/
theorem C103_mvc {H B : Type} {c m0 lw : InputArg NArr H} {a b l : NArr} (hc : Spec.SuppliesArray c a) (hm : Spec.SuppliesArray m0 b)
    (hl : Spec.SuppliesArray lw l) (fresh : ℕ) :
    (∀ j h, (a.shape = b.shape ∧ a.shape = l.shape → ∃ o : MvcObj H B, mvcNew c m0 lw (some (.hdr j h)) fresh = .ok o ∧
        o.centroid = a ∧ o.moment0 = b ∧ o.linewidth = l ∧ o.st.header = some (some h)) ∧
      (¬ (a.shape = b.shape ∧ a.shape = l.shape) → mvcNew (B := B) c m0 lw (some (.hdr j h)) fresh = .error .indexError)) ∧
    (∀ h, Spec.Supplies c none a h → (a.shape = b.shape ∧ a.shape = l.shape → ∃ o : MvcObj H B, mvcNew c m0 lw none fresh = .ok o ∧
        o.centroid = a ∧ o.moment0 = b ∧ o.linewidth = l ∧ o.st.header = some (some h)) ∧
      (¬ (a.shape = b.shape ∧ a.shape = l.shape) → mvcNew (B := B) c m0 lw none fresh = .error .indexError)) ∧
    (∀ i q, c = .obj (.arr i q a) → a.shape = b.shape → a.shape = l.shape → ∃ o : MvcObj H B, mvcNew c m0 lw none fresh = .ok o ∧
        o.centroid = a ∧ o.moment0 = b ∧ o.linewidth = l ∧ o.st.header = none) := by
  obtain ⟨i1, q1, h1⟩ := supplies_one hc fresh
  obtain ⟨i2, q2, h2⟩ := supplies_one hm fresh
  obtain ⟨i3, q3, h3⟩ := supplies_one hl fresh
  refine ⟨fun j h => ⟨?_, ?_⟩, fun h hs => ⟨?_, ?_⟩, ?_⟩
  · rintro ⟨e1, e2⟩
    refine ⟨⟨⟨some (some h), some (some a.squeeze), none⟩, a, b, l⟩, ?_, rfl, rfl, rfl, rfl⟩
    have hno : ¬ (a.shape ≠ b.shape ∨ a.shape ≠ l.shape) := by rintro (h | h); exacts [h e1, h e2]
    simp only [mvcNew, mvcHeader, h1, h2, h3, setHeader, setData, newStat, Bool.true_eq_false, Bool.false_eq_true, if_false, bind,
      Except.bind, asMap, hno, pure, Except.pure]
  · intro hne
    have hno : (a.shape ≠ b.shape ∨ a.shape ≠ l.shape) := by
      by_contra hcon; rw [not_or, not_not, not_not] at hcon; exact hne hcon
    simp only [mvcNew, mvcHeader, h1, h2, h3, setHeader, setData, newStat, Bool.true_eq_false, Bool.false_eq_true, if_false, bind,
      Except.bind, asMap]
    rw [if_pos hno]
  · rintro ⟨e1, e2⟩
    obtain ⟨i, j, q, hp⟩ := supplies_pair hs fresh
    refine ⟨⟨⟨some (some h), some (some a.squeeze), none⟩, a, b, l⟩, ?_, rfl, rfl, rfl, rfl⟩
    have hno : ¬ (a.shape ≠ b.shape ∨ a.shape ≠ l.shape) := by rintro (h | h); exacts [h e1, h e2]
    simp only [mvcNew, mvcHeader, hp, h2, h3, setHeader, setData, newStat, Bool.true_eq_false, Bool.false_eq_true, if_false, bind,
      Except.bind, asMap, hno, pure, Except.pure]
  · intro hne
    obtain ⟨i, j, q, hp⟩ := supplies_pair hs fresh
    have hno : (a.shape ≠ b.shape ∨ a.shape ≠ l.shape) := by
      by_contra hcon; rw [not_or, not_not, not_not] at hcon; exact hne hcon
    simp only [mvcNew, mvcHeader, hp, h2, h3, setHeader, setData, newStat, Bool.true_eq_false, Bool.false_eq_true, if_false, bind,
      Except.bind, asMap]
    rw [if_pos hno]
  · rintro i q rfl e1 e2
    refine ⟨⟨⟨none, some (some a.squeeze), none⟩, a, b, l⟩, ?_, rfl, rfl, rfl, rfl⟩
    have hno : ¬ (a.shape ≠ b.shape ∨ a.shape ≠ l.shape) := by rintro (h | h); exacts [h e1, h e2]
    have hin : inputData (.obj (.arr i q a) : InputArg NArr H) false false fresh = .error .typeError := rfl
    have ho : inputOne (.obj (.arr i q a) : InputArg NArr H) fresh = .ok (.arr i q a) := rfl
    simp only [mvcNew, mvcHeader, hin, ho, h2, h3, setData, newStat, Bool.false_eq_true, if_false, bind, Except.bind, Except.map,
      asMap, hno, pure, Except.pure]

/-- Without a header the object exists, but no angle or length can be converted. -/
theorem C103_no_header (v deg pc : ℝ) (dist : Option (ℝ × ℝ)) :
    toPixelW none dist ⟨v, .angle deg⟩ = .error .attributeError ∧ toPixelW none dist ⟨v, .length pc⟩ = .error .attributeError := by
  constructor
  · rfl
  · cases dist <;> rfl

example : ∃ o : MvcObj ℕ ℕ, mvcNew (.obj (.arr 0 false ⟨[2, 1], fun k => k⟩)) (.obj (.arr 1 false ⟨[2, 1], fun _ => 1⟩))
    (.obj (.arr 2 false ⟨[2, 1], fun _ => 2⟩)) none 9 = .ok o ∧ o.st.header = none := by
  obtain ⟨o, h1, _, _, _, h2⟩ := (C103_mvc (B := ℕ) (H := ℕ) (Spec.SuppliesArray.array 0 false ⟨[2, 1], fun k => k⟩)
    (Spec.SuppliesArray.array 1 false ⟨[2, 1], fun _ => 1⟩) (Spec.SuppliesArray.array 2 false ⟨[2, 1], fun _ => 2⟩) 9).2.2 0 false rfl rfl rfl
  exact ⟨o, h1, h2⟩

end TS
