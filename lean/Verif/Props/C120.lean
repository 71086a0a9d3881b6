import Verif.Lemmas.Scf
import Verif.Props.C22
import Mathlib.Tactic.IntervalCases

/-!
C120.  The SCF surface at lags of a fraction of a pixel.
-/

namespace TS
open Finset

namespace Spec

/-- The cube mirrored along its first sky axis. -/
def flippedRows {α : Type} (c : Arr3 α) : Arr3 α := ⟨c.n, c.m, c.p, fun v i j => c.get v (c.m - 1 - i) j⟩

/-- The cube mirrored along its second sky axis. -/
def flippedCols {α : Type} (c : Arr3 α) : Arr3 α := ⟨c.n, c.m, c.p, fun v i j => c.get v i (c.p - 1 - j)⟩

/-- The cube with its sky axes exchanged. -/
def exchanged {α : Type} (c : Arr3 α) : Arr3 α := ⟨c.n, c.p, c.m, fun v i j => c.get v j i⟩

/-- No voxel is missing. -/
def NoGaps (c : Arr3 (Option ℝ)) : Prop := ∀ v < c.n, ∀ i < c.m, ∀ j < c.p, (c.get v i j).isSome

end Spec

/-! ### Shifted lines -/

/-- The weight of entry `i` in entry `j` of a line shifted by `s`. -/
private noncomputable def ker (n : ℕ) (s : ℝ) (j i : ℕ) : ℝ :=
  (∑ k ∈ range n, Real.cos (2 * Real.pi * (((j : ℝ) - i) * k / n - (fftfreq n).get k * s))) / n

private theorem shifter_ker (n : ℕ) (x : ℕ → ℝ) (s : ℝ) (j : ℕ) : shifter n x s j = ∑ i ∈ range n, x i * ker n s j i := by
  have key : ∀ k i : ℕ, ((x i : ℂ) * om n ((i : ℤ) * (k : ℤ)) * Complex.exp (-2 * Real.pi * ((fftfreq n).get k : ℝ) * Complex.I * s) *
      om n (-((j : ℤ) * (k : ℤ)))).re = x i * Real.cos (2 * Real.pi * (((j : ℝ) - i) * k / n - (fftfreq n).get k * s)) := by
    intro k i
    unfold om
    rw [mul_assoc, mul_assoc, ← Complex.exp_add, ← Complex.exp_add, Complex.re_ofReal_mul, ← Complex.exp_ofReal_mul_I_re]
    congr 3
    push_cast
    ring
  unfold shifter idft1 dft1 ker
  rw [show (1 / (n : ℂ)) = ((1 / (n : ℝ) : ℝ) : ℂ) by push_cast; rfl, Complex.re_ofReal_mul, Complex.re_sum]
  have e : ∀ k ∈ range n, ((∑ i ∈ range n, (x i : ℂ) * om n ((i : ℤ) * (k : ℤ))) *
      Complex.exp (-2 * Real.pi * ((fftfreq n).get k : ℝ) * Complex.I * s) * om n (-((j : ℤ) * (k : ℤ)))).re =
      ∑ i ∈ range n, x i * Real.cos (2 * Real.pi * (((j : ℝ) - i) * k / n - (fftfreq n).get k * s)) := by
    intro k _
    rw [sum_mul, sum_mul, Complex.re_sum]
    exact sum_congr rfl fun i _ => key k i
  rw [sum_congr rfl e, sum_comm, mul_sum]
  refine sum_congr rfl fun i _ => ?_
  rw [← mul_sum]
  ring

private theorem ker_flip {n : ℕ} (s : ℝ) {j i : ℕ} (hj : j < n) (hi : i < n) : ker n s (n - 1 - j) (n - 1 - i) = ker n (-s) j i := by
  unfold ker
  congr 1
  refine sum_congr rfl fun k _ => ?_
  rw [← Real.cos_neg]
  congr 1
  rw [show ((n - 1 - j : ℕ) : ℝ) = (n : ℝ) - 1 - j by rw [Nat.cast_sub (by omega), Nat.cast_sub (by omega)]; simp,
    show ((n - 1 - i : ℕ) : ℝ) = (n : ℝ) - 1 - i by rw [Nat.cast_sub (by omega), Nat.cast_sub (by omega)]; simp]
  ring

private theorem shifter_flip {n : ℕ} (x : ℕ → ℝ) (s : ℝ) {j : ℕ} (hj : j < n) :
    shifter n (fun i => x (n - 1 - i)) s j = shifter n x (-s) (n - 1 - j) := by
  rw [shifter_ker, shifter_ker, ← sum_range_reflect]
  refine sum_congr rfl fun i hi => ?_
  have hi := mem_range.1 hi
  rw [show n - 1 - (n - 1 - i) = i by omega, ← ker_flip s (j := n - 1 - j) (i := i) (by omega) hi, show n - 1 - (n - 1 - j) = j by omega]

private theorem shifter_congr {n : ℕ} {x y : ℕ → ℝ} (h : ∀ i < n, x i = y i) (s : ℝ) (j : ℕ) : shifter n x s j = shifter n y s j := by
  rw [shifter_ker, shifter_ker]
  exact sum_congr rfl fun i hi => by rw [h i (mem_range.1 hi)]

private theorem line_congr {x y : Arr1 (Option ℝ)} (hn : x.n = y.n) (h : ∀ i < x.n, x.get i = y.get i) (s : ℝ) (j : ℕ) :
    (fourierShift x s).get j = (fourierShift y s).get j := by
  obtain ⟨n, f⟩ := x
  obtain ⟨m, g⟩ := y
  cases hn
  simp only at h
  unfold fourierShift
  simp only
  rw [shifter_congr (fun i hi => by rw [h i hi]) (x := fun i => if (f i).isSome then 0 else 1) (y := fun i => if (g i).isSome then 0 else 1),
    shifter_congr (fun i hi => by rw [h i hi]) (x := fun i => (f i).getD 0) (y := fun i => (g i).getD 0)]

private theorem line_flip {n : ℕ} (f : ℕ → Option ℝ) (s : ℝ) {j : ℕ} (hj : j < n) :
    (fourierShift ⟨n, fun i => f (n - 1 - i)⟩ s).get j = (fourierShift ⟨n, f⟩ (-s)).get (n - 1 - j) := by
  unfold fourierShift
  simp only
  rw [shifter_flip (fun i => if (f i).isSome then 0 else 1) s hj, shifter_flip (fun i => (f i).getD 0) s hj]

private theorem shifter_roll {n : ℕ} (x : ℕ → ℝ) (r : ℤ) (s : ℝ) {j : ℕ} (hj : j < n) :
    shifter n (fun i => x (rollIx n r i)) s j = shifter n x s (rollIx n r j) := by
  have hn : 0 < n := by omega
  unfold shifter idft1
  congr 2
  refine sum_congr rfl fun k _ => ?_
  beta_reduce
  rw [dft1_roll hn r fun i => (x i : ℂ)]
  have : om n (-(((rollIx n r j : ℕ) : ℤ) * k)) = om n (r * k) * om n (-((j : ℤ) * k)) := by
    rw [← om_add]
    apply om_congr
    rw [rollIx_cast hn]
    obtain ⟨q, hq⟩ := Int.dvd_emod_sub_self (x := (j : ℤ) - r) (m := n)
    exact ⟨-(q * k), by linear_combination (-(k : ℤ)) * hq⟩
  rw [this]
  ring

private theorem line_roll {n : ℕ} (f : ℕ → Option ℝ) (r : ℤ) (s : ℝ) {j : ℕ} (hj : j < n) :
    (fourierShift ⟨n, fun i => f (rollIx n r i)⟩ s).get j = (fourierShift ⟨n, f⟩ s).get (rollIx n r j) := by
  unfold fourierShift
  simp only
  rw [shifter_roll (fun i => if (f i).isSome then 0 else 1) r s hj, shifter_roll (fun i => (f i).getD 0) r s hj]

/-! ### Shifted cubes -/

private noncomputable def sh (c : Arr3 (Option ℝ)) (x y : ℝ) : Arr3 (Option ℝ) := fourierShift2 (fourierShift1 c x) y

private theorem floor_line {f : Arr1 (Option ℝ)} {x : ℝ} (h : x = (⌊x⌋ : ℝ)) {i : ℕ} (hi : i < f.n) :
    (f.roll (ShiftArg.float x).toInt).get i = (fourierShift f x).get i := by
  have := (C22_integer_shift_is_roll f ⌊x⌋).1.2 i hi
  rw [← h] at this
  rw [this]
  have : (ShiftArg.float x).toInt = ⌊x⌋ := by
    show pyInt x = _
    rw [h, pyInt_intCast, Int.floor_intCast]
  rw [this]

private theorem shX (c : Arr3 (Option ℝ)) (x : ℝ) : ∃ t, scfShiftX c x = .ok t ∧ (t.n = c.n ∧ t.m = c.m ∧ t.p = c.p) ∧
    ∀ v i j, i < c.m → t.get v i j = (fourierShift1 c x).get v i j := by
  unfold scfShiftX
  split_ifs with h1 h2
  · refine ⟨c, rfl, ⟨rfl, rfl, rfl⟩, fun v i j hi => ?_⟩
    rw [h1]
    exact ((C22_integer_shift_is_roll ⟨c.m, fun i' => c.get v i' j⟩ 0).2.2 i hi).symm
  · exact ⟨_, rfl, ⟨rfl, rfl, rfl⟩, fun v i j hi => floor_line (f := ⟨c.m, fun i' => c.get v i' j⟩) h2 hi⟩
  · exact ⟨_, rfl, ⟨rfl, rfl, rfl⟩, fun v i j hi => rfl⟩

private theorem shY (c : Arr3 (Option ℝ)) (x : ℝ) : ∃ t, scfShiftY c x = .ok t ∧ (t.n = c.n ∧ t.m = c.m ∧ t.p = c.p) ∧
    ∀ v i j, j < c.p → t.get v i j = (fourierShift2 c x).get v i j := by
  unfold scfShiftY
  split_ifs with h1 h2
  · exact ⟨_, rfl, ⟨rfl, rfl, rfl⟩, fun v i j hj => floor_line (f := ⟨c.p, fun j' => c.get v i j'⟩) h2 hj⟩
  · exact ⟨_, rfl, ⟨rfl, rfl, rfl⟩, fun v i j hj => rfl⟩
  · refine ⟨c, rfl, ⟨rfl, rfl, rfl⟩, fun v i j hj => ?_⟩
    rw [not_not.1 h1]
    exact ((C22_integer_shift_is_roll ⟨c.p, fun j' => c.get v i j'⟩ 0).2.2 j hj).symm

/-- Both shifts, at the pixels of the map. -/
private theorem shXY (c : Arr3 (Option ℝ)) (x y : ℝ) : ∃ t u, scfShiftX c x = .ok t ∧ scfShiftY t y = .ok u ∧
    (u.n = c.n ∧ u.m = c.m ∧ u.p = c.p) ∧ ∀ v, ∀ i < c.m, ∀ j < c.p, u.get v i j = (sh c x y).get v i j := by
  obtain ⟨t, e, ⟨t1, t2, t3⟩, tg⟩ := shX c x
  obtain ⟨u, f, ⟨u1, u2, u3⟩, ug⟩ := shY t y
  refine ⟨t, u, e, f, ⟨u1.trans t1, u2.trans t2, u3.trans t3⟩, fun v i hi j hj => ?_⟩
  rw [ug v i j (by omega)]
  exact line_congr (x := ⟨t.p, fun j' => t.get v i j'⟩) (y := ⟨c.p, fun j' => (fourierShift1 c x).get v i j'⟩) t3 (fun j' _ => tg v i j' hi) y j

/-- The entry of one pixel. -/
private noncomputable def ent (a b : Arr3 (Option ℝ)) (i j : ℕ) : Option ℝ :=
  if scfDen a b i j = 0 then none else some (scfNum a b i j / scfDen a b i j)

private theorem ent_congr {a b a' b' : Arr3 (Option ℝ)} {i j i' j' : ℕ} (hn : a.n = a'.n) (hb : b.n = a.n) (hb' : b'.n = a'.n)
    (h1 : ∀ v < a.n, a.get v i j = a'.get v i' j') (h2 : ∀ v < a.n, b.get v i j = b'.get v i' j') : ent a b i j = ent a' b' i' j' := by
  have e1 : scfNum a b i j = scfNum a' b' i' j' := by
    unfold scfNum
    rw [← hn]
    exact sum_congr rfl fun v hv => by rw [h1 v (mem_range.1 hv), h2 v (mem_range.1 hv)]
  have e2 : scfDen a b i j = scfDen a' b' i' j' := by
    unfold scfDen
    rw [hb, hb', ← hn]
    congr 1
    · exact sum_congr rfl fun v hv => by rw [h1 v (mem_range.1 hv)]
    · exact sum_congr rfl fun v hv => by rw [h2 v (mem_range.1 hv)]
  unfold ent
  rw [e1, e2]

private theorem reduce_congr {w w' : Arr2 (Option ℝ)} (h1 : w.nansum = w'.nansum) (h2 : w.nFinite = w'.nFinite) : scfReduce w = scfReduce w' := by
  unfold scfReduce
  rw [h1, h2]

private theorem value_eq (c : Arr3 (Option ℝ)) (x y : ℝ) :
    scfValue "continuous" c x y = .ok (scfReduce ⟨c.m, c.p, fun i j => ent c (sh c x y) i j⟩) := by
  obtain ⟨t, u, e, f, ⟨u1, u2, u3⟩, ug⟩ := shXY c x y
  unfold scfValue scfParts
  simp only [e, f, bind, Except.bind, if_neg (show ¬ "continuous" = "cut" by decide), scfValues_eq (a := c) (b := u) ⟨u1.symm, u2.symm, u3.symm⟩,
    pure, Except.pure]
  congr 1
  have h : ∀ i < c.m, ∀ j < c.p, ent c u i j = ent c (sh c x y) i j := fun i hi j hj => ent_congr rfl u1 rfl (fun _ _ => rfl) fun v _ => ug v i hi j hj
  apply reduce_congr
  · exact sum_congr rfl fun i hi => sum_congr rfl fun j hj => congrArg (Option.getD · 0) (h i (mem_range.1 hi) j (mem_range.1 hj))
  · exact sum_congr rfl fun i hi => sum_congr rfl fun j hj => by
      show (if (ent c u i j).isSome then 1 else 0) = if (ent c (sh c x y) i j).isSome then 1 else 0
      rw [h i (mem_range.1 hi) j (mem_range.1 hj)]

/-- A rearrangement of the pixels that takes one pair of cubes to another. -/
private theorem value_rows {c c' : Arr3 (Option ℝ)} {x y x' y' : ℝ} (hn : c'.n = c.n) (hm : c'.m = c.m) (hp : c'.p = c.p) (ρ τ : ℕ → ℕ)
    (hρ : ∀ f : ℕ → ℕ → ℝ, ∑ i ∈ range c.m, ∑ j ∈ range c.p, f (ρ i) (τ j) = ∑ i ∈ range c.m, ∑ j ∈ range c.p, f i j)
    (h1 : ∀ v, ∀ i < c.m, ∀ j < c.p, c'.get v i j = c.get v (ρ i) (τ j))
    (h2 : ∀ v, ∀ i < c.m, ∀ j < c.p, (sh c' x' y').get v i j = (sh c x y).get v (ρ i) (τ j)) :
    scfValue "continuous" c' x' y' = scfValue "continuous" c x y := by
  rw [value_eq, value_eq]
  congr 1
  have h : ∀ i < c.m, ∀ j < c.p, ent c' (sh c' x' y') i j = ent c (sh c x y) (ρ i) (τ j) := fun i hi j hj =>
    ent_congr hn rfl rfl (fun v _ => h1 v i hi j hj) fun v _ => h2 v i hi j hj
  apply reduce_congr
  · rw [show Arr2.nansum ⟨c.m, c.p, fun i j => ent c (sh c x y) i j⟩ = ∑ i ∈ range c.m, ∑ j ∈ range c.p, (ent c (sh c x y) i j).getD 0 from rfl,
      ← hρ fun i j => (ent c (sh c x y) i j).getD 0]
    unfold Arr2.nansum
    simp only [hm, hp]
    exact sum_congr rfl fun i hi => sum_congr rfl fun j hj => by rw [h i (mem_range.1 hi) j (mem_range.1 hj)]
  · have : ((Arr2.nFinite ⟨c'.m, c'.p, fun i j => ent c' (sh c' x' y') i j⟩ : ℕ) : ℝ) = (Arr2.nFinite ⟨c.m, c.p, fun i j => ent c (sh c x y) i j⟩ : ℕ) := by
      unfold Arr2.nFinite
      push_cast
      rw [← hρ fun i j => if (ent c (sh c x y) i j).isSome then 1 else 0]
      simp only [hm, hp]
      exact sum_congr rfl fun i hi => sum_congr rfl fun j hj => by rw [h i (mem_range.1 hi) j (mem_range.1 hj)]
    exact_mod_cast this

private theorem value_flip1 (c : Arr3 (Option ℝ)) (x y : ℝ) : scfValue "continuous" (Spec.flippedRows c) x y = scfValue "continuous" c (-x) y := by
  refine value_rows rfl rfl rfl (fun i => c.m - 1 - i) id (fun f => ?_) (fun _ _ _ _ _ => rfl) fun v i hi j hj => ?_
  · exact sum_range_reflect (fun i => ∑ j ∈ range c.p, f i j) c.m
  · have e : ∀ j', (fourierShift1 (Spec.flippedRows c) x).get v i j' = (fourierShift1 c (-x)).get v (c.m - 1 - i) j' := fun j' =>
      line_flip (n := c.m) (fun i' => c.get v i' j') x hi
    show (fourierShift ⟨c.p, fun j' => (fourierShift1 (Spec.flippedRows c) x).get v i j'⟩ y).get j =
      (fourierShift ⟨c.p, fun j' => (fourierShift1 c (-x)).get v (c.m - 1 - i) j'⟩ y).get j
    simp only [e]

private theorem value_flip2 (c : Arr3 (Option ℝ)) (x y : ℝ) : scfValue "continuous" (Spec.flippedCols c) x y = scfValue "continuous" c x (-y) := by
  refine value_rows rfl rfl rfl id (fun j => c.p - 1 - j) (fun f => ?_) (fun _ _ _ _ _ => rfl) fun v i hi j hj => ?_
  · exact sum_congr rfl fun i _ => sum_range_reflect (fun j => f i j) c.p
  · exact line_flip (fun j' => (fourierShift1 c x).get v i j') y hj

private theorem sum_roll {n : ℕ} (r : ℤ) (f : ℕ → ℝ) : ∑ i ∈ range n, f (rollIx n r i) = ∑ i ∈ range n, f i := by
  rcases Nat.eq_zero_or_pos n with rfl | hn
  · simp
  have := dft1_roll hn r (fun i => (f i : ℂ)) 0
  unfold dft1 at this
  simp only [mul_zero] at this
  rw [show om n 0 = 1 by simp [om]] at this
  simp only [mul_one, one_mul] at this
  exact_mod_cast this

private theorem value_roll (c : Arr3 (Option ℝ)) (r q : ℤ) (x y : ℝ) : scfValue "continuous" ((c.roll1 r).roll2 q) x y = scfValue "continuous" c x y := by
  refine value_rows rfl rfl rfl (rollIx c.m r) (rollIx c.p q) (fun f => ?_) (fun _ _ _ _ _ => rfl) fun v i hi j hj => ?_
  · rw [sum_roll r fun i => ∑ j ∈ range c.p, f i (rollIx c.p q j)]
    exact sum_congr rfl fun i _ => sum_roll q fun j => f i j
  · refine Eq.trans ?_ (line_roll (fun j' => (fourierShift1 c x).get v (rollIx c.m r i) j') q y hj)
    exact line_congr (x := ⟨c.p, fun j' => (fourierShift1 ((c.roll1 r).roll2 q) x).get v i j'⟩)
      (y := ⟨c.p, fun j' => (fourierShift1 c x).get v (rollIx c.m r i) (rollIx c.p q j')⟩) rfl
      (fun j' _ => line_roll (fun i' => c.get v i' (rollIx c.p q j')) r x hi) y j

private theorem line_full {n : ℕ} {f : ℕ → Option ℝ} (h : ∀ i < n, (f i).isSome) (s : ℝ) (j : ℕ) :
    (fourierShift ⟨n, f⟩ s).get j = some (∑ i ∈ range n, (f i).getD 0 * ker n s j i) := by
  unfold fourierShift
  simp only
  rw [shifter_ker, shifter_ker, sum_eq_zero fun i hi => by rw [if_pos (h i (mem_range.1 hi)), zero_mul], if_neg (by norm_num)]

private theorem sh_full {c : Arr3 (Option ℝ)} (h : Spec.NoGaps c) (x y : ℝ) {v i j : ℕ} (hv : v < c.n) :
    (sh c x y).get v i j = some (∑ b ∈ range c.p, (∑ a ∈ range c.m, (c.get v a b).getD 0 * ker c.m x i a) * ker c.p y j b) := by
  have e : ∀ b < c.p, (fourierShift1 c x).get v i b = some (∑ a ∈ range c.m, (c.get v a b).getD 0 * ker c.m x i a) :=
    fun b hb => line_full (fun a ha => h v hv a ha b hb) x i
  show (fourierShift ⟨c.p, fun b => (fourierShift1 c x).get v i b⟩ y).get j = _
  rw [line_full (fun b hb => by rw [e b hb]; rfl)]
  congr 1
  exact sum_congr rfl fun b hb => by rw [e b (mem_range.1 hb)]; rfl

private theorem value_swap {c : Arr3 (Option ℝ)} (h : Spec.NoGaps c) (x y : ℝ) :
    scfValue "continuous" (Spec.exchanged c) x y = scfValue "continuous" c y x := by
  have h' : Spec.NoGaps (Spec.exchanged c) := fun v hv i hi j hj => h v hv j hj i hi
  rw [value_eq, value_eq]
  congr 1
  have he : ∀ i j, ent (Spec.exchanged c) (sh (Spec.exchanged c) x y) i j = ent c (sh c y x) j i := by
    intro i j
    refine ent_congr rfl rfl rfl (fun _ _ => rfl) fun v hv => ?_
    rw [sh_full h' x y hv, sh_full h y x hv]
    congr 1
    show ∑ b ∈ range c.m, (∑ a ∈ range c.p, (c.get v b a).getD 0 * ker c.p x i a) * ker c.m y j b = _
    simp only [sum_mul]
    rw [sum_comm]
    exact sum_congr rfl fun a _ => sum_congr rfl fun b _ => by ring
  apply reduce_congr
  · unfold Arr2.nansum
    simp only [he]
    exact sum_comm
  · unfold Arr2.nFinite
    simp only [he]
    exact sum_comm

/-- A whole shift of one axis and any shift of the other can be done in either order, missing voxels included. -/
private theorem sh_swap_whole (c : Arr3 (Option ℝ)) {x y : ℝ} (h : y = (⌊y⌋ : ℝ)) {v i j : ℕ} (hi : i < c.m) (hj : j < c.p) :
    (sh c x y).get v i j = (sh (Spec.exchanged c) y x).get v j i := by
  have e1 : (sh c x y).get v i j = (fourierShift1 c x).get v i (rollIx c.p (ShiftArg.float y).toInt j) :=
    (floor_line (f := ⟨c.p, fun j' => (fourierShift1 c x).get v i j'⟩) h hj).symm
  rw [e1]
  exact line_congr (x := ⟨c.m, fun i' => c.get v i' (rollIx c.p (ShiftArg.float y).toInt j)⟩)
    (y := ⟨c.m, fun i' => (fourierShift1 (Spec.exchanged c) y).get v j i'⟩) rfl
    (fun i' _ => floor_line (f := ⟨c.p, fun j' => c.get v i' j'⟩) h hj) x i

private theorem value_swap_of {c : Arr3 (Option ℝ)} {x y : ℝ}
    (h : ∀ v, ∀ i < c.p, ∀ j < c.m, (sh (Spec.exchanged c) x y).get v i j = (sh c y x).get v j i) :
    scfValue "continuous" (Spec.exchanged c) x y = scfValue "continuous" c y x := by
  rw [value_eq, value_eq]
  congr 1
  have he : ∀ i < c.p, ∀ j < c.m, ent (Spec.exchanged c) (sh (Spec.exchanged c) x y) i j = ent c (sh c y x) j i := fun i hi j hj =>
    ent_congr rfl rfl rfl (fun _ _ => rfl) fun v _ => h v i hi j hj
  apply reduce_congr
  · unfold Arr2.nansum
    show ∑ i ∈ range c.p, ∑ j ∈ range c.m, _ = ∑ i ∈ range c.m, ∑ j ∈ range c.p, _
    rw [sum_comm]
    exact sum_congr rfl fun j hj => sum_congr rfl fun i hi => by simp only [he i (mem_range.1 hi) j (mem_range.1 hj)]
  · unfold Arr2.nFinite
    show ∑ i ∈ range c.p, ∑ j ∈ range c.m, _ = ∑ i ∈ range c.m, ∑ j ∈ range c.p, _
    rw [sum_comm]
    exact sum_congr rfl fun j hj => sum_congr rfl fun i hi => by simp only [he i (mem_range.1 hi) j (mem_range.1 hj)]

private theorem value_swap_whole (c : Arr3 (Option ℝ)) {x y : ℝ} (h : x = (⌊x⌋ : ℝ) ∨ y = (⌊y⌋ : ℝ)) :
    scfValue "continuous" (Spec.exchanged c) x y = scfValue "continuous" c y x := by
  refine value_swap_of fun v i hi j hj => ?_
  rcases h with h | h
  · exact (sh_swap_whole c h hj hi).symm
  · exact sh_swap_whole (Spec.exchanged c) h hi hj

/-! ### Surfaces -/

private theorem surf {b : String} (hb : b = "continuous" ∨ b = "cut") (c : Arr3 (Option ℝ)) (lags : Arr1 ℝ)
    (hfit : ∀ k < lags.n, CutFits b c (lags.get k)) :
    ∃ s, scfSurface b c lags = .ok s ∧ s.n = lags.n ∧ s.m = lags.n ∧
      ∀ j < lags.n, ∀ i < lags.n, scfValue b c (lags.get i) (lags.get j) = .ok (s.get j i) := by
  have h : ∀ i j, i < lags.n → j < lags.n → ∃ v, scfValue b c (lags.get i) (lags.get j) = .ok v ∧ ∀ r, v = some r → r ≤ 1 := by
    intro i j hi hj
    obtain ⟨v, e, hv⟩ := scfValue_bounds (hfit i hi) (hfit j hj)
    exact ⟨v, e, fun r hr => (hv r hr).2⟩
  choose! val hval using h
  obtain ⟨s, e, hn, hm, hg⟩ := scfSurface_eq hb (data := c) (lags := lags) (val := val) fun i hi j hj => hval i j hi hj
  exact ⟨s, e, hn, hm, fun j hj i hi => by rw [hg j hj i hi]; exact (hval i j hi hj).1⟩

private theorem pair {c c' : Arr3 (Option ℝ)} (lags lags' : Arr1 ℝ) : ∃ s s', scfSurface "continuous" c lags = .ok s ∧ scfSurface "continuous" c' lags' = .ok s' ∧
    ∀ i < lags.n, ∀ j < lags.n, ∀ i' < lags'.n, ∀ j' < lags'.n,
      scfValue "continuous" c' (lags'.get i') (lags'.get j') = scfValue "continuous" c (lags.get i) (lags.get j) → s'.get j' i' = s.get j i := by
  obtain ⟨s, e, _, _, g⟩ := surf (Or.inl rfl) c lags fun k _ h => absurd h (by decide)
  obtain ⟨s', e', _, _, g'⟩ := surf (Or.inl rfl) c' lags' fun k _ h => absurd h (by decide)
  refine ⟨s, s', e, e', fun i hi j hj i' hi' j' hj' h => ?_⟩
  rw [g j hj i hi, g' j' hj' i' hi'] at h
  exact Except.ok.inj h

/-- With continuous boundaries there is a surface for all lags, with one value for every pair of lags. -/
theorem scfSurface_lags (c : Arr3 (Option ℝ)) (lags : Arr1 ℝ) : ∃ s, scfSurface "continuous" c lags = .ok s ∧ s.n = lags.n ∧ s.m = lags.n ∧
    ∀ j < lags.n, ∀ i < lags.n, scfValue "continuous" c (lags.get i) (lags.get j) = .ok (s.get j i) :=
  surf (Or.inl rfl) c lags fun _ _ h => absurd h (by decide)

/-- The value of a cube that is mirrored, rolled, or has its sky axes exchanged. -/
theorem scfValue_turned (c : Arr3 (Option ℝ)) (x y : ℝ) : scfValue "continuous" (Spec.flippedRows c) x y = scfValue "continuous" c (-x) y ∧
    (∀ r, scfValue "continuous" (c.roll1 r) x y = scfValue "continuous" c x y) ∧
    (Spec.NoGaps c → scfValue "continuous" (Spec.exchanged c) x y = scfValue "continuous" c y x) := by
  refine ⟨value_flip1 c x y, fun r => ?_, fun h => value_swap h x y⟩
  refine value_rows rfl rfl rfl (rollIx c.m r) (fun j => j) (fun f => sum_roll r fun i => ∑ j ∈ range c.p, f i j) (fun _ _ _ _ _ => rfl)
    fun v i hi j hj => ?_
  exact line_congr (x := ⟨c.p, fun j' => (fourierShift1 (c.roll1 r) x).get v i j'⟩)
    (y := ⟨c.p, fun j' => (fourierShift1 c x).get v (rollIx c.m r i) j'⟩) rfl (fun j' _ => line_roll (fun i' => c.get v i' j') r x hi) y j

/-- **Mirrored cubes.** With continuous boundaries and any lags, whole or not, symmetric or not, with or without missing voxels: the value of the cube mirrored
along one sky axis is the value of the cube at the lag with that component reversed. -/
theorem C120_mirror (c : Arr3 (Option ℝ)) (lags lags' : Arr1 ℝ) :
    (∃ s s', scfSurface "continuous" c lags = .ok s ∧ scfSurface "continuous" (Spec.flippedRows c) lags' = .ok s' ∧
      ∀ i < lags.n, ∀ j < lags.n, ∀ i' < lags'.n, ∀ j' < lags'.n, lags'.get i' = -lags.get i → lags'.get j' = lags.get j → s'.get j' i' = s.get j i) ∧
    ∃ s s', scfSurface "continuous" c lags = .ok s ∧ scfSurface "continuous" (Spec.flippedCols c) lags' = .ok s' ∧
      ∀ i < lags.n, ∀ j < lags.n, ∀ i' < lags'.n, ∀ j' < lags'.n, lags'.get i' = lags.get i → lags'.get j' = -lags.get j → s'.get j' i' = s.get j i := by
  constructor
  · obtain ⟨s, s', e, e', h⟩ := pair (c := c) (c' := Spec.flippedRows c) lags lags'
    refine ⟨s, s', e, e', fun i hi j hj i' hi' j' hj' h1 h2 => h i hi j hj i' hi' j' hj' ?_⟩
    rw [value_flip1, h1, h2, neg_neg]
  · obtain ⟨s, s', e, e', h⟩ := pair (c := c) (c' := Spec.flippedCols c) lags lags'
    refine ⟨s, s', e, e', fun i hi j hj i' hi' j' hj' h1 h2 => h i hi j hj i' hi' j' hj' ?_⟩
    rw [value_flip2, h1, h2, neg_neg]

/-- **Half turns.** The symmetry that does hold at all lags: the value at the opposite lag is the value of the cube turned by half a turn. -/
theorem C120_half_turn (c : Arr3 (Option ℝ)) (lags lags' : Arr1 ℝ) :
    ∃ s s', scfSurface "continuous" c lags = .ok s ∧ scfSurface "continuous" (Spec.flippedRows (Spec.flippedCols c)) lags' = .ok s' ∧
      ∀ i < lags.n, ∀ j < lags.n, ∀ i' < lags'.n, ∀ j' < lags'.n, lags'.get i' = -lags.get i → lags'.get j' = -lags.get j → s'.get j' i' = s.get j i := by
  obtain ⟨s, s', e, e', h⟩ := pair (c := c) (c' := Spec.flippedRows (Spec.flippedCols c)) lags lags'
  refine ⟨s, s', e, e', fun i hi j hj i' hi' j' hj' h1 h2 => h i hi j hj i' hi' j' hj' ?_⟩
  rw [value_flip1, value_flip2, h1, h2, neg_neg, neg_neg]

/-- **Shifted cubes.** Rolling the cube around either boundary changes no value, at any lags. -/
theorem C120_roll (c : Arr3 (Option ℝ)) (r q : ℤ) (lags : Arr1 ℝ) :
    ∃ s s', scfSurface "continuous" c lags = .ok s ∧ scfSurface "continuous" ((c.roll1 r).roll2 q) lags = .ok s' ∧
      ∀ i < lags.n, ∀ j < lags.n, s'.get j i = s.get j i := by
  obtain ⟨s, s', e, e', h⟩ := pair (c := c) (c' := (c.roll1 r).roll2 q) lags lags
  exact ⟨s, s', e, e', fun i hi j hj => h i hi j hj i hi j hj (value_roll c r q _ _)⟩

/-- **Exchanged axes.** Exchanging the sky axes of a cube without missing voxels transposes the surface, at any lags. Missing: cubes with missing voxels, for
which it holds where one lag is whole (`C120_exchange_whole`) and not elsewhere (`C120_exchange_violated`). -/
theorem C120_exchange_partial (c : Arr3 (Option ℝ)) (hc : Spec.NoGaps c) (lags : Arr1 ℝ) :
    ∃ s s', scfSurface "continuous" c lags = .ok s ∧ scfSurface "continuous" (Spec.exchanged c) lags = .ok s' ∧
      ∀ i < lags.n, ∀ j < lags.n, s'.get j i = s.get i j := by
  obtain ⟨s, s', e, e', h⟩ := pair (c := c) (c' := Spec.exchanged c) lags lags
  exact ⟨s, s', e, e', fun i hi j hj => h j hj i hi i hi j hj (value_swap hc _ _)⟩

/-- **Exchanged axes, missing voxels.** With missing voxels the same holds at the lags that are whole along one axis at least. -/
theorem C120_exchange_whole (c : Arr3 (Option ℝ)) (lags : Arr1 ℝ) :
    ∃ s s', scfSurface "continuous" c lags = .ok s ∧ scfSurface "continuous" (Spec.exchanged c) lags = .ok s' ∧
      ∀ i < lags.n, ∀ j < lags.n, (lags.get i = (⌊lags.get i⌋ : ℝ) ∨ lags.get j = (⌊lags.get j⌋ : ℝ)) → s'.get j i = s.get i j := by
  obtain ⟨s, s', e, e', h⟩ := pair (c := c) (c' := Spec.exchanged c) lags lags
  exact ⟨s, s', e, e', fun i hi j hj hw => h j hj i hi i hi j hj (value_swap_whole c hw)⟩

/-! ### What fails -/

/-- Two equal channels of 3 × 2 pixels, the rows 1, 2 and 0. -/
def rampCube : Arr3 (Option ℝ) := ⟨2, 3, 2, fun _ i _ => some (if i = 0 then 1 else if i = 1 then 2 else 0)⟩

/-- The lags -1/2, 0, 1/2. -/
noncomputable def halfLags : Arr1 ℝ := ⟨3, fun k => ((k : ℝ) - 1) / 2⟩

private theorem ker3 (s : ℝ) (j i : ℕ) : ker 3 s j i = (1 + 2 * Real.cos (2 * Real.pi * (((j : ℝ) - i) - s) / 3)) / 3 := by
  unfold ker fftfreq
  simp only [sum_range_succ, sum_range_zero]
  norm_num
  have : Real.cos (2 * Real.pi * (((j : ℝ) - i) * 2 / 3 - ((2 : ℝ) - 3) / 3 * s)) = Real.cos (2 * Real.pi * (((j : ℝ) - i) - s) / 3) := by
    rw [← Real.cos_neg (2 * Real.pi * (((j : ℝ) - i) - s) / 3), ← Real.cos_add_int_mul_two_pi (-(2 * Real.pi * (((j : ℝ) - i) - s) / 3)) ((j : ℤ) - i)]
    congr 1
    push_cast
    ring
  norm_num at this
  rw [this]
  have e2 : Real.cos (2 * Real.pi * (((j : ℝ) - i) / 3 - 1 / 3 * s)) = Real.cos (2 * Real.pi * (((j : ℝ) - i) - s) / 3) := by
    congr 1; ring
  norm_num at e2
  rw [e2]
  ring

private theorem third (d : ℤ) (t : ℝ) (h : t = (6 * d + 1 : ℤ) * (Real.pi / 3) ∨ t = (6 * d - 1 : ℤ) * (Real.pi / 3)) : Real.cos t = 1 / 2 := by
  rcases h with rfl | rfl
  · rw [show ((6 * d + 1 : ℤ) : ℝ) * (Real.pi / 3) = Real.pi / 3 + d * (2 * Real.pi) by push_cast; ring, Real.cos_add_int_mul_two_pi, Real.cos_pi_div_three]
  · rw [show ((6 * d - 1 : ℤ) : ℝ) * (Real.pi / 3) = -(Real.pi / 3) + d * (2 * Real.pi) by push_cast; ring, Real.cos_add_int_mul_two_pi, Real.cos_neg,
      Real.cos_pi_div_three]

private theorem whole (d : ℤ) (t : ℝ) (h : t = (6 * d + 3 : ℤ) * (Real.pi / 3)) : Real.cos t = -1 := by
  rw [h, show ((6 * d + 3 : ℤ) : ℝ) * (Real.pi / 3) = Real.pi + d * (2 * Real.pi) by push_cast; ring, Real.cos_add_int_mul_two_pi, Real.cos_pi]

private theorem kerTable : (ker 3 (1 / 2) 0 0 = 2 / 3 ∧ ker 3 (1 / 2) 0 1 = -1 / 3 ∧ ker 3 (1 / 2) 0 2 = 2 / 3) ∧
    (ker 3 (1 / 2) 1 0 = 2 / 3 ∧ ker 3 (1 / 2) 1 1 = 2 / 3 ∧ ker 3 (1 / 2) 1 2 = -1 / 3) ∧
    (ker 3 (1 / 2) 2 0 = -1 / 3 ∧ ker 3 (1 / 2) 2 1 = 2 / 3 ∧ ker 3 (1 / 2) 2 2 = 2 / 3) := by
  simp only [ker3]
  refine ⟨⟨?_, ?_, ?_⟩, ⟨?_, ?_, ?_⟩, ?_, ?_, ?_⟩
  · rw [third 0 _ (Or.inr (by push_cast; ring))]; norm_num
  · rw [whole (-1) _ (by push_cast; ring)]; norm_num
  · rw [third (-1) _ (Or.inl (by push_cast; ring))]; norm_num
  · rw [third 0 _ (Or.inl (by push_cast; ring))]; norm_num
  · rw [third 0 _ (Or.inr (by push_cast; ring))]; norm_num
  · rw [whole (-1) _ (by push_cast; ring)]; norm_num
  · rw [whole 0 _ (by push_cast; ring)]; norm_num
  · rw [third 0 _ (Or.inl (by push_cast; ring))]; norm_num
  · rw [third 0 _ (Or.inr (by push_cast; ring))]; norm_num

private theorem kerTable' : (ker 3 (-(1 / 2)) 0 0 = 2 / 3 ∧ ker 3 (-(1 / 2)) 0 1 = 2 / 3 ∧ ker 3 (-(1 / 2)) 0 2 = -1 / 3) ∧
    (ker 3 (-(1 / 2)) 1 0 = -1 / 3 ∧ ker 3 (-(1 / 2)) 1 1 = 2 / 3 ∧ ker 3 (-(1 / 2)) 1 2 = 2 / 3) ∧
    (ker 3 (-(1 / 2)) 2 0 = 2 / 3 ∧ ker 3 (-(1 / 2)) 2 1 = -1 / 3 ∧ ker 3 (-(1 / 2)) 2 2 = 2 / 3) := by
  obtain ⟨⟨a, b, c⟩, ⟨d, e, f⟩, g, h, i⟩ := kerTable
  refine ⟨⟨?_, ?_, ?_⟩, ⟨?_, ?_, ?_⟩, ?_, ?_, ?_⟩ <;> rw [← ker_flip (n := 3) (1 / 2) (by norm_num) (by norm_num)] <;> assumption

/-- Row `i` of the shifted ramp. -/
private theorem ramp_half (v i j : ℕ) : (fourierShift1 rampCube (1 / 2)).get v i j = some (ker 3 (1 / 2) i 0 + 2 * ker 3 (1 / 2) i 1) ∧
    (fourierShift1 rampCube (-(1 / 2))).get v i j = some (ker 3 (-(1 / 2)) i 0 + 2 * ker 3 (-(1 / 2)) i 1) := by
  constructor <;>
  · show (fourierShift ⟨3, fun i' => rampCube.get v i' j⟩ _).get i = _
    rw [line_full (fun i' _ => rfl)]
    simp [sum_range_succ, rampCube]

/-- **Opposite lags.** At lags of a fraction of a pixel the surface is not symmetric about its centre, even with continuous boundaries and a complete cube: the
shifted cube is interpolated, so the pairs compared at a lag are not those compared at the opposite lag. -/
theorem C120_symmetric_violated : Spec.NoGaps rampCube ∧ ∃ s, scfSurface "continuous" rampCube halfLags = .ok s ∧
    s.get 1 2 = some (1 - Real.sqrt (2 / 3)) ∧ s.get 1 0 = some (1 - Real.sqrt (1 / 5)) ∧ s.get 1 2 ≠ s.get 1 0 := by
  obtain ⟨s, e, _, _, g⟩ := surf (Or.inl rfl) rampCube halfLags fun k _ h => absurd h (by decide)
  obtain ⟨⟨a, b, -⟩, ⟨c, d, -⟩, f, h, -⟩ := kerTable
  obtain ⟨⟨a', b', -⟩, ⟨c', d', -⟩, f', h', -⟩ := kerTable'
  have row : ∀ (x : ℝ) (v i j : ℕ), j < 2 → (sh rampCube x 0).get v i j = (fourierShift1 rampCube x).get v i j := fun x v i j hj =>
    (C22_integer_shift_is_roll ⟨2, fun j' => (fourierShift1 rampCube x).get v i j'⟩ 0).2.2 j hj
  have p1 : scfValue "continuous" rampCube (1 / 2) 0 = .ok (some (1 - Real.sqrt (2 / 3))) := by
    have q : ∀ i < 3, ∀ j < 2, ent rampCube (sh rampCube (1 / 2) 0) i j = some (if i = 1 then 0 else 1) := by
      intro i hi j hj
      unfold ent scfDen scfNum
      rw [show (sh rampCube (1 / 2) 0).n = 2 from rfl, show rampCube.n = 2 from rfl]
      simp only [sum_range_succ, sum_range_zero, row _ _ _ _ hj, (ramp_half _ _ _).1]
      interval_cases i <;> simp only [a, b, c, d, f, h] <;> norm_num [rampCube, sqO, subO]
    rw [value_eq]
    unfold scfReduce Arr2.nFinite Arr2.nansum
    simp only [show rampCube.m = 3 from rfl, show rampCube.p = 2 from rfl, sum_range_succ, sum_range_zero, q 0 (by norm_num) 0 (by norm_num),
      q 0 (by norm_num) 1 (by norm_num), q 1 (by norm_num) 0 (by norm_num), q 1 (by norm_num) 1 (by norm_num), q 2 (by norm_num) 0 (by norm_num),
      q 2 (by norm_num) 1 (by norm_num)]
    norm_num
  have p2 : scfValue "continuous" rampCube (-(1 / 2)) 0 = .ok (some (1 - Real.sqrt (1 / 5))) := by
    have q : ∀ i < 3, ∀ j < 2, ent rampCube (sh rampCube (-(1 / 2)) 0) i j = if i = 2 then none else some (1 / 5) := by
      intro i hi j hj
      unfold ent scfDen scfNum
      rw [show (sh rampCube (-(1 / 2)) 0).n = 2 from rfl, show rampCube.n = 2 from rfl]
      simp only [sum_range_succ, sum_range_zero, row _ _ _ _ hj, (ramp_half _ _ _).2]
      interval_cases i <;> simp only [a', b', c', d', f', h'] <;> norm_num [rampCube, sqO, subO]
    rw [value_eq]
    unfold scfReduce Arr2.nFinite Arr2.nansum
    simp only [show rampCube.m = 3 from rfl, show rampCube.p = 2 from rfl, sum_range_succ, sum_range_zero, q 0 (by norm_num) 0 (by norm_num),
      q 0 (by norm_num) 1 (by norm_num), q 1 (by norm_num) 0 (by norm_num), q 1 (by norm_num) 1 (by norm_num), q 2 (by norm_num) 0 (by norm_num),
      q 2 (by norm_num) 1 (by norm_num)]
    norm_num
  have g1 := g 1 (by show 1 < 3; norm_num) 2 (by show 2 < 3; norm_num)
  have g2 := g 1 (by show 1 < 3; norm_num) 0 (by show 0 < 3; norm_num)
  have l0 : halfLags.get 0 = -(1 / 2) := by norm_num [halfLags]
  have l1 : halfLags.get 1 = 0 := by norm_num [halfLags]
  have l2 : halfLags.get 2 = 1 / 2 := by norm_num [halfLags]
  rw [l2, l1, p1] at g1
  rw [l0, l1, p2] at g2
  have g1 := (Except.ok.inj g1).symm
  have g2 := (Except.ok.inj g2).symm
  refine ⟨fun _ _ _ _ _ _ => rfl, s, e, g1, g2, ?_⟩
  rw [g1, g2]
  intro hh
  have := Option.some.inj hh
  have h3 : Real.sqrt (2 / 3) = Real.sqrt (1 / 5) := by linarith
  have := Real.sqrt_inj (by norm_num) (by norm_num) |>.1 h3
  norm_num at this

/-- One channel of 3 × 3 pixels: the first is missing, the one below it is 3, all others are 0. -/
def cornerGap : Arr3 (Option ℝ) := ⟨1, 3, 3, fun _ i j => if j = 0 then (if i = 0 then none else if i = 1 then some 3 else some 0) else some 0⟩

private theorem line_half (f : ℕ → Option ℝ) (M V : ℕ → ℝ) (hM : ∀ i < 3, (if (f i).isSome then (0 : ℝ) else 1) = M i) (hV : ∀ i < 3, (f i).getD 0 = V i) :
    (fourierShift ⟨3, f⟩ (1 / 2)).get 0 = (if 1 / 2 < (2 * M 0 - M 1 + 2 * M 2) / 3 then none else some ((2 * V 0 - V 1 + 2 * V 2) / 3)) ∧
    (fourierShift ⟨3, f⟩ (1 / 2)).get 1 = (if 1 / 2 < (2 * M 0 + 2 * M 1 - M 2) / 3 then none else some ((2 * V 0 + 2 * V 1 - V 2) / 3)) ∧
    (fourierShift ⟨3, f⟩ (1 / 2)).get 2 = (if 1 / 2 < (-M 0 + 2 * M 1 + 2 * M 2) / 3 then none else some ((-V 0 + 2 * V 1 + 2 * V 2) / 3)) := by
  obtain ⟨⟨a, b, c⟩, ⟨d, e, g⟩, h, k, l⟩ := kerTable
  unfold fourierShift
  simp only [shifter_ker, sum_range_succ, sum_range_zero, zero_add, a, b, c, d, e, g, h, k, l, hM 0 (by norm_num), hM 1 (by norm_num),
    hM 2 (by norm_num), hV 0 (by norm_num), hV 1 (by norm_num), hV 2 (by norm_num)]
  refine ⟨?_, ?_, ?_⟩ <;> · congr 2 <;> ring

/-- VIOLATION: with missing voxels, and lags that are fractions of a pixel along both axes, exchanging the sky axes does not transpose the surface: the mask is
rounded after the shift along the first axis, and what was masked is lost for the shift along the second. -/
theorem C120_exchange_violated : ∃ s s', scfSurface "continuous" cornerGap halfLags = .ok s ∧
    scfSurface "continuous" (Spec.exchanged cornerGap) halfLags = .ok s' ∧
    s.get 2 2 = some (1 - Real.sqrt (3 / 4)) ∧ s'.get 2 2 = some (1 - Real.sqrt (5 / 6)) ∧ s'.get 2 2 ≠ s.get 2 2 := by
  obtain ⟨s, e, _, _, g⟩ := surf (Or.inl rfl) cornerGap halfLags fun k _ h => absurd h (by decide)
  obtain ⟨s', e', _, _, g'⟩ := surf (Or.inl rfl) (Spec.exchanged cornerGap) halfLags fun k _ h => absurd h (by decide)
  have L : ∀ (f : ℕ → Option ℝ) (o0 o1 o2 : Option ℝ), f 0 = o0 → f 1 = o1 → f 2 = o2 → _ := fun f o0 o1 o2 h0 h1 h2 =>
    line_half f (fun i => if i = 0 then (if o0.isSome then 0 else 1) else if i = 1 then (if o1.isSome then 0 else 1) else if o2.isSome then 0 else 1)
      (fun i => if i = 0 then o0.getD 0 else if i = 1 then o1.getD 0 else o2.getD 0)
      (by intro i hi; interval_cases i <;> simp [h0, h1, h2]) (by intro i hi; interval_cases i <;> simp [h0, h1, h2])
  -- along the first axis, then along the second
  have x0 := L (fun i' => cornerGap.get 0 i' 0) none (some 3) (some 0) rfl rfl rfl
  have x1 := L (fun i' => cornerGap.get 0 i' 1) (some 0) (some 0) (some 0) rfl rfl rfl
  have x2 := L (fun i' => cornerGap.get 0 i' 2) (some 0) (some 0) (some 0) rfl rfl rfl
  norm_num at x0 x1 x2
  have y0 := L (fun j' => (fourierShift1 cornerGap (1 / 2)).get 0 0 j') _ _ _ (by norm_num; exact x0.1) (by norm_num; exact x1.1) (by norm_num; exact x2.1)
  have y1 := L (fun j' => (fourierShift1 cornerGap (1 / 2)).get 0 1 j') _ _ _ (by norm_num; exact x0.2.1) (by norm_num; exact x1.2.1) (by norm_num; exact x2.2.1)
  have y2 := L (fun j' => (fourierShift1 cornerGap (1 / 2)).get 0 2 j') _ _ _ (by norm_num; exact x0.2.2) (by norm_num; exact x1.2.2) (by norm_num; exact x2.2.2)
  norm_num at y0 y1 y2
  -- the same for the exchanged cube
  have u0 := L (fun i' => (Spec.exchanged cornerGap).get 0 i' 0) none (some 0) (some 0) rfl rfl rfl
  have u1 := L (fun i' => (Spec.exchanged cornerGap).get 0 i' 1) (some 3) (some 0) (some 0) rfl rfl rfl
  have u2 := L (fun i' => (Spec.exchanged cornerGap).get 0 i' 2) (some 0) (some 0) (some 0) rfl rfl rfl
  norm_num at u0 u1 u2
  have w0 := L (fun j' => (fourierShift1 (Spec.exchanged cornerGap) (1 / 2)).get 0 0 j') _ _ _ (by norm_num; exact u0.1) (by norm_num; exact u1.1)
    (by norm_num; exact u2.1)
  have w1 := L (fun j' => (fourierShift1 (Spec.exchanged cornerGap) (1 / 2)).get 0 1 j') _ _ _ (by norm_num; exact u0.2.1) (by norm_num; exact u1.2.1)
    (by norm_num; exact u2.2.1)
  have w2 := L (fun j' => (fourierShift1 (Spec.exchanged cornerGap) (1 / 2)).get 0 2 j') _ _ _ (by norm_num; exact u0.2.2) (by norm_num; exact u1.2.2)
    (by norm_num; exact u2.2.2)
  norm_num at w0 w1 w2
  have E : ∀ (a b : Arr3 (Option ℝ)) (i j : ℕ) (p q : Option ℝ), a.n = 1 → b.n = 1 → a.get 0 i j = p → b.get 0 i j = q →
      ent a b i j = if (sqO p).getD 0 + (sqO q).getD 0 = 0 then none else some ((sqO (subO p q)).getD 0 / ((sqO p).getD 0 + (sqO q).getD 0)) := by
    intro a b i j p q ha hb hp hq
    unfold ent scfDen scfNum
    rw [ha, hb]
    simp only [sum_range_one, hp, hq]
  have p1 : scfValue "continuous" cornerGap (1 / 2) (1 / 2) = .ok (some (1 - Real.sqrt (3 / 4))) := by
    have q := fun i j p q h1 h2 => E cornerGap (sh cornerGap (1 / 2) (1 / 2)) i j p q rfl rfl h1 h2
    rw [value_eq]
    unfold scfReduce Arr2.nFinite Arr2.nansum
    simp only [show cornerGap.m = 3 from rfl, show cornerGap.p = 3 from rfl, sum_range_succ, sum_range_zero,
      q 0 0 none none rfl y0.1, q 0 1 (some 0) none rfl y0.2.1, q 0 2 (some 0) (some 0) rfl y0.2.2,
      q 1 0 (some 3) none rfl y1.1, q 1 1 (some 0) none rfl y1.2.1, q 1 2 (some 0) (some 0) rfl y1.2.2,
      q 2 0 (some 0) (some (4 / 3)) rfl y2.1, q 2 1 (some 0) (some (4 / 3)) rfl y2.2.1, q 2 2 (some 0) (some (-(2 / 3))) rfl y2.2.2, sqO, subO]
    norm_num
  have p2 : scfValue "continuous" (Spec.exchanged cornerGap) (1 / 2) (1 / 2) = .ok (some (1 - Real.sqrt (5 / 6))) := by
    have q := fun i j p q h1 h2 => E (Spec.exchanged cornerGap) (sh (Spec.exchanged cornerGap) (1 / 2) (1 / 2)) i j p q rfl rfl h1 h2
    rw [value_eq]
    unfold scfReduce Arr2.nFinite Arr2.nansum
    simp only [show (Spec.exchanged cornerGap).m = 3 from rfl, show (Spec.exchanged cornerGap).p = 3 from rfl, sum_range_succ, sum_range_zero,
      q 0 0 none none rfl w0.1, q 0 1 (some 3) none rfl w0.2.1, q 0 2 (some 0) (some (4 / 3)) rfl w0.2.2,
      q 1 0 (some 0) none rfl w1.1, q 1 1 (some 0) none rfl w1.2.1, q 1 2 (some 0) (some (4 / 3)) rfl w1.2.2,
      q 2 0 (some 0) (some (1 / 3)) rfl w2.1, q 2 1 (some 0) (some (-(2 / 3))) rfl w2.2.1, q 2 2 (some 0) (some (-(2 / 3))) rfl w2.2.2, sqO, subO]
    norm_num
  have g1 := g 2 (by show 2 < 3; norm_num) 2 (by show 2 < 3; norm_num)
  have g2 := g' 2 (by show 2 < 3; norm_num) 2 (by show 2 < 3; norm_num)
  have l2 : halfLags.get 2 = 1 / 2 := by norm_num [halfLags]
  rw [l2, p1] at g1
  rw [l2, p2] at g2
  have g1 := (Except.ok.inj g1).symm
  have g2 := (Except.ok.inj g2).symm
  refine ⟨s, s', e, e', g1, g2, ?_⟩
  rw [g1, g2]
  intro hh
  have := Option.some.inj hh
  have h3 : Real.sqrt (5 / 6) = Real.sqrt (3 / 4) := by linarith
  have := Real.sqrt_inj (by norm_num) (by norm_num) |>.1 h3
  norm_num at this

/-! ### The cut boundary -/

private noncomputable def part (c : Arr3 (Option ℝ)) (x y o : ℤ) : Arr3 (Option ℝ) :=
  ⟨c.n, ((c.m : ℤ) - |x|).toNat, ((c.p : ℤ) - |y|).toNat, fun v i j => c.get v (max (o * x) 0 + i).toNat (max (o * y) 0 + j).toNat⟩

private theorem cut_value {c : Arr3 (Option ℝ)} {x y : ℝ} (hx : |⌈x⌉| ≤ c.m) (hy : |⌈y⌉| ≤ c.p) : ∃ u, (u.n = c.n ∧ u.m = c.m ∧ u.p = c.p) ∧
    (∀ v, ∀ i < c.m, ∀ j < c.p, u.get v i j = (sh c x y).get v i j) ∧
    scfValue "cut" c x y = .ok (scfReduce ⟨((c.m : ℤ) - |⌈x⌉|).toNat, ((c.p : ℤ) - |⌈y⌉|).toNat,
      fun i j => ent (part c ⌈x⌉ ⌈y⌉ 1) (part u ⌈x⌉ ⌈y⌉ (-1)) i j⟩) := by
  obtain ⟨t, u, e, f, ⟨u1, u2, u3⟩, ug⟩ := shXY c x y
  refine ⟨u, ⟨u1, u2, u3⟩, ug, ?_⟩
  obtain ⟨h1, h2⟩ := cutSlices_resolve hx
  obtain ⟨h3, h4⟩ := cutSlices_resolve hy
  have hp : scfParts "cut" c u x y = (part c ⌈x⌉ ⌈y⌉ 1, part u ⌈x⌉ ⌈y⌉ (-1)) := by
    unfold scfParts
    rw [if_pos rfl]
    simp only [Arr3.slice1, Arr3.slice2, u2, u3, h1, h2, h3, h4, part, one_mul, neg_one_mul, SliceIx.ix]
  unfold scfValue
  simp only [e, f, bind, Except.bind, hp, pure, Except.pure, scfValues_eq (a := part c ⌈x⌉ ⌈y⌉ 1) (b := part u ⌈x⌉ ⌈y⌉ (-1))
    ⟨u1.symm, by show Int.toNat _ = Int.toNat _; rw [u2], by show Int.toNat _ = Int.toNat _; rw [u3]⟩]
  rfl

/-- **The cut boundary.** With cut boundaries the surface at fractional lags does not follow a mirrored cube: the lag is rounded up, so a lag of 1/2 cuts one row
of pixels off and a lag of -1/2 none. -/
theorem C120_cut_violated : Spec.NoGaps rampCube ∧ ∃ s s', scfSurface "cut" rampCube halfLags = .ok s ∧
    scfSurface "cut" (Spec.flippedRows rampCube) halfLags = .ok s' ∧ s.get 1 2 = some 0 ∧ s'.get 1 0 = some (1 - Real.sqrt (2 / 3)) ∧
    s'.get 1 0 ≠ s.get 1 2 := by
  have l0 : halfLags.get 0 = -(1 / 2) := by norm_num [halfLags]
  have l1 : halfLags.get 1 = 0 := by norm_num [halfLags]
  have l2 : halfLags.get 2 = 1 / 2 := by norm_num [halfLags]
  have c0 : ⌈(-(1 / 2) : ℝ)⌉ = 0 := by rw [Int.ceil_eq_iff]; norm_num
  have c1 : ⌈(0 : ℝ)⌉ = 0 := Int.ceil_zero
  have c2 : ⌈(1 / 2 : ℝ)⌉ = 1 := by rw [Int.ceil_eq_iff]; norm_num
  have fit : ∀ k < halfLags.n, |⌈halfLags.get k⌉| ≤ (3 : ℕ) ∧ |⌈halfLags.get k⌉| ≤ (2 : ℕ) := by
    intro k hk
    have hk : k < 3 := hk
    interval_cases k
    · rw [l0, c0]; norm_num
    · rw [l1, c1]; norm_num
    · rw [l2, c2]; norm_num
  obtain ⟨s, e, _, _, g⟩ := surf (Or.inr rfl) rampCube halfLags fun k hk _ => fit k hk
  obtain ⟨s', e', _, _, g'⟩ := surf (Or.inr rfl) (Spec.flippedRows rampCube) halfLags fun k hk _ => fit k hk
  obtain ⟨⟨a, b, -⟩, ⟨c, d, -⟩, f, h, -⟩ := kerTable
  have row : ∀ (x : ℝ) (v i j : ℕ), j < 2 → (sh rampCube x 0).get v i j = (fourierShift1 rampCube x).get v i j := fun x v i j hj =>
    (C22_integer_shift_is_roll ⟨2, fun j' => (fourierShift1 rampCube x).get v i j'⟩ 0).2.2 j hj
  have row' : ∀ (x : ℝ) (v i j : ℕ), i < 3 → j < 2 → (sh (Spec.flippedRows rampCube) x 0).get v i j = (fourierShift1 rampCube (-x)).get v (2 - i) j :=
    fun x v i j hi hj =>
    ((C22_integer_shift_is_roll ⟨2, fun j' => (fourierShift1 (Spec.flippedRows rampCube) x).get v i j'⟩ 0).2.2 j hj).trans
      (line_flip (n := 3) (fun i' => rampCube.get v i' j) x hi)
  have p1 : scfValue "cut" rampCube (1 / 2) 0 = .ok (some 0) := by
    obtain ⟨u, ⟨u1, u2, u3⟩, ug, hv⟩ := cut_value (c := rampCube) (x := 1 / 2) (y := 0) (by rw [c2]; norm_num [rampCube]) (by rw [c1]; norm_num)
    rw [hv, c1, c2]
    have q : ∀ i < 2, ∀ j < 2, ent (part rampCube 1 0 1) (part u 1 0 (-1)) i j = some 1 := by
      intro i hi j hj
      have hu : ∀ v, (part u 1 0 (-1)).get v i j = some (ker 3 (1 / 2) i 0 + 2 * ker 3 (1 / 2) i 1) := by
        intro v
        show u.get v (max (-1 * 1) 0 + (i : ℤ)).toNat (max (-1 * 0) 0 + (j : ℤ)).toNat = _
        rw [show (max (-1 * 1) 0 + (i : ℤ)).toNat = i by norm_num, show (max (-1 * 0) 0 + (j : ℤ)).toNat = j by norm_num,
          ug v i (by show i < 3; omega) j hj, row _ _ _ _ hj, (ramp_half _ _ _).1]
      have hd : ∀ v, (part rampCube 1 0 1).get v i j = some (if i = 0 then 2 else 0) := by
        intro v
        show rampCube.get v (max (1 * 1) 0 + (i : ℤ)).toNat (max (1 * 0) 0 + (j : ℤ)).toNat = _
        rw [show (max (1 * 1) 0 + (i : ℤ)).toNat = 1 + i by norm_num; omega]
        interval_cases i <;> simp [rampCube]
      unfold ent scfDen scfNum
      rw [show (part u 1 0 (-1)).n = 2 from u1, show (part rampCube 1 0 1).n = 2 from rfl]
      simp only [sum_range_succ, sum_range_zero, hu, hd]
      interval_cases i <;> simp only [a, b, c, d] <;> norm_num [sqO, subO]
    unfold scfReduce Arr2.nFinite Arr2.nansum
    rw [show ((rampCube.m : ℤ) - |1|).toNat = 2 from rfl, show ((rampCube.p : ℤ) - |0|).toNat = 2 from rfl]
    simp only [sum_range_succ, sum_range_zero, q 0 (by norm_num) 0 (by norm_num), q 0 (by norm_num) 1 (by norm_num), q 1 (by norm_num) 0 (by norm_num),
      q 1 (by norm_num) 1 (by norm_num)]
    norm_num
  have p2 : scfValue "cut" (Spec.flippedRows rampCube) (-(1 / 2)) 0 = .ok (some (1 - Real.sqrt (2 / 3))) := by
    obtain ⟨u, ⟨u1, u2, u3⟩, ug, hv⟩ := cut_value (c := Spec.flippedRows rampCube) (x := -(1 / 2)) (y := 0) (by rw [c0]; norm_num) (by rw [c1]; norm_num)
    rw [hv, c1, c0]
    have q : ∀ i < 3, ∀ j < 2, ent (part (Spec.flippedRows rampCube) 0 0 1) (part u 0 0 (-1)) i j = some (if i = 1 then 0 else 1) := by
      intro i hi j hj
      have hu : ∀ v, (part u 0 0 (-1)).get v i j = some (ker 3 (1 / 2) (2 - i) 0 + 2 * ker 3 (1 / 2) (2 - i) 1) := by
        intro v
        show u.get v (max (-1 * 0) 0 + (i : ℤ)).toNat (max (-1 * 0) 0 + (j : ℤ)).toNat = _
        rw [show (max (-1 * 0) 0 + (i : ℤ)).toNat = i by norm_num, show (max (-1 * 0) 0 + (j : ℤ)).toNat = j by norm_num,
          ug v i hi j hj, row' _ _ _ _ hi hj, neg_neg, (ramp_half _ _ _).1]
      have hd : ∀ v, (part (Spec.flippedRows rampCube) 0 0 1).get v i j = some (if i = 2 then 1 else if i = 1 then 2 else 0) := by
        intro v
        show rampCube.get v (3 - 1 - (max (1 * 0) 0 + (i : ℤ)).toNat) (max (1 * 0) 0 + (j : ℤ)).toNat = _
        rw [show (max (1 * 0) 0 + (i : ℤ)).toNat = i by norm_num]
        interval_cases i <;> simp [rampCube]
      unfold ent scfDen scfNum
      rw [show (part u 0 0 (-1)).n = 2 from u1, show (part (Spec.flippedRows rampCube) 0 0 1).n = 2 from rfl]
      simp only [sum_range_succ, sum_range_zero, hu, hd]
      interval_cases i <;> norm_num [a, b, c, d, f, h, sqO, subO] <;> simp only [one_div] at a b c d f h <;> norm_num [a, b, c, d, f, h]
    unfold scfReduce Arr2.nFinite Arr2.nansum
    rw [show (((Spec.flippedRows rampCube).m : ℤ) - |0|).toNat = 3 from rfl,
      show (((Spec.flippedRows rampCube).p : ℤ) - |0|).toNat = 2 from rfl]
    simp only [sum_range_succ, sum_range_zero, q 0 (by norm_num) 0 (by norm_num),
      q 0 (by norm_num) 1 (by norm_num), q 1 (by norm_num) 0 (by norm_num), q 1 (by norm_num) 1 (by norm_num), q 2 (by norm_num) 0 (by norm_num),
      q 2 (by norm_num) 1 (by norm_num)]
    norm_num
  have g1 := g 1 (by show 1 < 3; norm_num) 2 (by show 2 < 3; norm_num)
  have g2 := g' 1 (by show 1 < 3; norm_num) 0 (by show 0 < 3; norm_num)
  rw [l2, l1, p1] at g1
  rw [l0, l1, p2] at g2
  have g1 := (Except.ok.inj g1).symm
  have g2 := (Except.ok.inj g2).symm
  refine ⟨fun _ _ _ _ _ _ => rfl, s, s', e, e', g1, g2, ?_⟩
  rw [g1, g2]
  intro hh
  have := Option.some.inj hh
  have h3 : Real.sqrt (2 / 3) = 1 := by linarith
  rw [Real.sqrt_eq_one] at h3
  norm_num at h3

/-- Non-vacuity: lags that are neither whole nor symmetric, and a pair of lag lists matched by `C120_mirror`. -/
example : (⟨3, fun k => (k : ℝ) + 1 / 3⟩ : Arr1 ℝ).get 1 = -(⟨3, fun k => -(k : ℝ) - 1 / 3⟩ : Arr1 ℝ).get 1 := by
  norm_num

/-- `C120_exchange_partial` applies to the ramp; its exchange is another cube. -/
example : Spec.NoGaps rampCube ∧ (Spec.exchanged rampCube).get 0 0 1 = some 2 ∧ rampCube.get 0 0 1 = some 1 :=
  ⟨fun _ _ _ _ _ _ => rfl, by simp [Spec.exchanged, rampCube], by simp [rampCube]⟩

end TS
