import Verif.Props.C86
import Verif.Props.C41
import Verif.Props.C43
import Verif.Props.C47
import Verif.Props.C74
import Verif.Model.GenusInit

/-! C118: SCF, Tsallis, moment, genus and PCA results do not depend on the position or orientation of the map. -/

namespace TS
open Finset

namespace Spec

/-- A map after several moves, the last of the list first. -/
def moved {α : Type} (ms : List DvMove) (a : Arr2 α) : Arr2 α := ms.foldr (fun t b => t.on b) a

/-- One move applied to every channel of a cube. -/
def moveCube {α : Type} (t : DvMove) (c : Arr3 α) : Arr3 α :=
  match t with
  | .mirror => ⟨c.n, c.m, c.p, fun v i j => c.get v (c.m - 1 - i) j⟩
  | .swap => ⟨c.n, c.p, c.m, fun v i j => c.get v j i⟩
  | .roll s => c.roll1 s

/-- A cube after several moves on the sky, the last of the list first. -/
def movedCube {α : Type} (ms : List DvMove) (c : Arr3 α) : Arr3 α := ms.foldr moveCube c

/-- Only mirrors and exchanges of the axes, no cyclic shift. -/
def Rigid (ms : List DvMove) : Prop := ∀ t ∈ ms, t = .mirror ∨ t = .swap

/-- Cyclic shifts only where the map is periodic. -/
def Allowed (periodic : Bool) (ms : List DvMove) : Prop := periodic = true ∨ Rigid ms

end Spec

/-- All eight orientations of a map are reached: left and right exchanged, the quarter turns (`numpy.rot90`), the half turn; and shifts along
both axes. -/
theorem C118_orientations {α : Type} (a : Arr2 α) (s : ℤ) :
    Spec.moved [.swap, .mirror, .swap] a = Spec.mirror1 a ∧
    Spec.moved [.mirror, .swap] a = ⟨a.m, a.n, fun i j => a.get j (a.m - 1 - i)⟩ ∧
    Spec.moved [.swap, .mirror] a = ⟨a.m, a.n, fun i j => a.get (a.n - 1 - j) i⟩ ∧
    Spec.moved [.mirror, .swap, .mirror, .swap] a = ⟨a.n, a.m, fun i j => a.get (a.n - 1 - i) (a.m - 1 - j)⟩ ∧
    Spec.moved [.swap, .roll s, .swap] a = a.roll1 s := ⟨rfl, rfl, rfl, rfl, rfl⟩

private theorem allowed_cons {periodic : Bool} {t : DvMove} {ms : List DvMove} (h : Spec.Allowed periodic (t :: ms)) :
    (periodic = true ∨ t = .mirror ∨ t = .swap) ∧ Spec.Allowed periodic ms := by
  rcases h with h | h
  · exact ⟨Or.inl h, Or.inl h⟩
  · exact ⟨Or.inr (h t (by simp)), Or.inr fun u hu => h u (by simp [hu])⟩

/-- The move as a map of the plane. -/
private def DvMove.τ (t : DvMove) (n : ℕ) : ℤ × ℤ → ℤ × ℤ :=
  match t with
  | .mirror => fun p => ((n : ℤ) - 1 - p.1, p.2)
  | .swap => fun p => (p.2, p.1)
  | .roll s => fun p => (p.1 - s, p.2)

private theorem emod_mirror {n : ℕ} (hn : 0 < n) (i : ℤ) : n - 1 - (i % n).toNat = (((n : ℤ) - 1 - i) % n).toNat := by
  have h0 : (n : ℤ) ≠ 0 := by omega
  have h1 := Int.emod_nonneg i h0
  have h2 := Int.emod_lt_of_pos i (by omega : (0 : ℤ) < n)
  have h3 : ((n : ℤ) - 1 - i) % n = (n : ℤ) - 1 - i % n := by
    have e : (n : ℤ) - 1 - i = ((n : ℤ) - 1 - i % n) + n * (-(i / n)) := by
      have := Int.emod_add_mul_ediv i n
      linarith
    rw [e, Int.add_mul_emod_self_left]
    exact Int.emod_eq_of_lt (by omega) (by omega)
  rw [h3]
  omega

private theorem emod_roll {n : ℕ} (hn : 0 < n) (s i : ℤ) : rollIx n s (i % n).toNat = ((i - s) % n).toNat := by
  have h1 := Int.emod_nonneg i (by omega : (n : ℤ) ≠ 0)
  unfold rollIx
  rw [Int.toNat_of_nonneg h1, Int.emod_sub_emod]

/-- The continued map moves with the map. -/
private theorem periodicExt_moved (t : DvMove) (a : Arr2 (Option ℝ)) (hn : 0 < a.n) (i j : ℤ) :
    Spec.periodicExt (t.on a) i j = Spec.periodicExt a (t.τ a.n (i, j)).1 (t.τ a.n (i, j)).2 := by
  cases t with
  | mirror => simp only [Spec.periodicExt, DvMove.on, Spec.mirror0, DvMove.τ, emod_mirror hn]
  | swap => rfl
  | roll s => simp only [Spec.periodicExt, DvMove.on, Arr2.roll0, DvMove.τ, emod_roll hn]

private theorem fillExt_moved {f : Option ℝ} {t : DvMove} (ht : t = .mirror ∨ t = .swap) (a : Arr2 (Option ℝ)) (i j : ℤ) :
    (if 0 ≤ i ∧ i < (t.on a).n ∧ 0 ≤ j ∧ j < (t.on a).m then (t.on a).get i.toNat j.toNat else f) =
    (if 0 ≤ (t.τ a.n (i, j)).1 ∧ (t.τ a.n (i, j)).1 < a.n ∧ 0 ≤ (t.τ a.n (i, j)).2 ∧ (t.τ a.n (i, j)).2 < a.m then
      a.get (t.τ a.n (i, j)).1.toNat (t.τ a.n (i, j)).2.toNat else f) := by
  rcases ht with rfl | rfl
  · change (if 0 ≤ i ∧ i < (a.n : ℤ) ∧ 0 ≤ j ∧ j < (a.m : ℤ) then a.get (a.n - 1 - i.toNat) j.toNat else f) =
      (if 0 ≤ (a.n : ℤ) - 1 - i ∧ (a.n : ℤ) - 1 - i < (a.n : ℤ) ∧ 0 ≤ j ∧ j < (a.m : ℤ) then
        a.get ((a.n : ℤ) - 1 - i).toNat j.toNat else f)
    by_cases h : 0 ≤ i ∧ i < a.n ∧ 0 ≤ j ∧ j < a.m
    · rw [if_pos h, if_pos (by omega)]
      congr 1
      omega
    · rw [if_neg h, if_neg (by omega)]
  · change (if 0 ≤ i ∧ i < (a.m : ℤ) ∧ 0 ≤ j ∧ j < (a.n : ℤ) then a.get j.toNat i.toNat else f) =
      (if 0 ≤ j ∧ j < (a.n : ℤ) ∧ 0 ≤ i ∧ i < (a.m : ℤ) then a.get j.toNat i.toNat else f)
    by_cases h : 0 ≤ i ∧ i < (a.m : ℤ) ∧ 0 ≤ j ∧ j < (a.n : ℤ)
    · rw [if_pos h, if_pos (by omega)]
    · rw [if_neg h, if_neg (by omega)]

/-! ### Tsallis -/

private theorem increment_moved {t : DvMove} {n : ℕ} {z z' : ℤ → ℤ → Option ℝ} (h : ∀ i j, z' i j = z (t.τ n (i, j)).1 (t.τ n (i, j)).2) (l i j : ℤ) :
    Spec.increment z' l i j = Spec.increment z l (t.τ n (i, j)).1 (t.τ n (i, j)).2 := by
  cases t with
  | mirror =>
    simp only [Spec.increment, h, DvMove.τ]
    rw [show (n : ℤ) - 1 - (i - l) = n - 1 - i + l by ring, show (n : ℤ) - 1 - (i + l) = n - 1 - i - l by ring]
    cases z (n - 1 - i + l) j <;> cases z (n - 1 - i - l) j <;> simp [bind, Option.bind, pure, add_comm]
  | swap =>
    simp only [Spec.increment, h, DvMove.τ]
    cases z (j - l) i <;> cases z (j + l) i <;> cases z j (i - l) <;> cases z j (i + l) <;> simp [bind, Option.bind, pure]
    ring_nf
  | roll s =>
    simp only [Spec.increment, h, DvMove.τ]
    rw [show i - l - s = i - s - l by ring, show i + l - s = i - s + l by ring]

private theorem increment_period (a : Arr2 (Option ℝ)) (l i i' j : ℤ) (h : i' % a.n = i % a.n) :
    Spec.increment (Spec.periodicExt a) l i' j = Spec.increment (Spec.periodicExt a) l i j := by
  have e : ∀ d k, Spec.periodicExt a (i' + d) k = Spec.periodicExt a (i + d) k := by
    intro d k
    unfold Spec.periodicExt
    rw [Int.add_emod, h, ← Int.add_emod]
  have e0 : ∀ k, Spec.periodicExt a i' k = Spec.periodicExt a i k := by
    intro k
    simpa using e 0 k
  simp only [Spec.increment, e, e0, sub_eq_add_neg]

private theorem tsallisMap_move (junk junk' : ℕ → ℕ → Option ℝ) {periodic : Bool} {t : DvMove} (ht : periodic = true ∨ t = .mirror ∨ t = .swap) {lag : ℕ}
    (hl : periodic = true ∨ 0 < lag) (a : Arr2 (Option ℝ)) :
    (tsallisMap junk' periodic lag (t.on a)).n = (t.on a).n ∧ (tsallisMap junk' periodic lag (t.on a)).m = (t.on a).m ∧
    (tsallisMap junk periodic lag a).n = a.n ∧ (tsallisMap junk periodic lag a).m = a.m ∧
    Rearranged (t.σ a.n) (tsallisMap junk' periodic lag (t.on a)) (tsallisMap junk periodic lag a) := by
  cases periodic with
  | true =>
    obtain ⟨h1, h2, h3⟩ := C41_periodic junk lag a
    obtain ⟨h1', h2', h3'⟩ := C41_periodic junk' lag (t.on a)
    refine ⟨h1', h2', h1, h2, fun i hi j hj => ?_⟩
    rw [h1'] at hi
    rw [h2'] at hj
    obtain ⟨k1, k2⟩ := (dv_move_map t a).lt hi hj
    have hn : 0 < a.n := by omega
    rw [h3' i hi j hj, h3 _ k1 _ k2, increment_moved (periodicExt_moved t a hn)]
    cases t with
    | mirror =>
      have hi' : i < a.n := hi
      simp only [DvMove.τ, DvMove.σ]
      congr 1
      omega
    | swap => rfl
    | roll s =>
      simp only [DvMove.τ, DvMove.σ]
      refine increment_period a lag _ _ j ?_
      rw [rollIx_cast hn, Int.emod_emod]
  | false =>
    have ht' : t = .mirror ∨ t = .swap := by simpa using ht
    have hl' : 0 < lag := by simpa using hl
    obtain ⟨h1, h2, h3⟩ := C41_zero_padded junk lag hl' a
    obtain ⟨h1', h2', h3'⟩ := C41_zero_padded junk' lag hl' (t.on a)
    refine ⟨h1', h2', h1, h2, fun i hi j hj => ?_⟩
    rw [h1'] at hi
    rw [h2'] at hj
    obtain ⟨k1, k2⟩ := (dv_move_map t a).lt hi hj
    rw [h3' i hi j hj, h3 _ k1 _ k2, increment_moved (t := t) (n := a.n) (z := Spec.zeroExt a) (z' := Spec.zeroExt (t.on a)) (fun i j => fillExt_moved ht' a i j)]
    rcases ht' with rfl | rfl
    · have hi' : i < a.n := hi
      simp only [DvMove.τ, DvMove.σ]
      congr 1
      omega
    · rfl

private theorem minO_cons (x : ℝ) (l : List ℝ) : minO (x :: l) = some (match minO l with | none => x | some y => min x y) := by
  cases l with
  | nil => rfl
  | cons y l =>
    show some ((y :: l).foldl min x) = some (min x (l.foldl min y))
    congr 1
    rw [List.foldl_cons]
    exact List.foldl_assoc (op := (min : ℝ → ℝ → ℝ))

private theorem maxO_cons (x : ℝ) (l : List ℝ) : maxO (x :: l) = some (match maxO l with | none => x | some y => max x y) := by
  cases l with
  | nil => rfl
  | cons y l =>
    show some ((y :: l).foldl max x) = some (max x (l.foldl max y))
    congr 1
    rw [List.foldl_cons]
    exact List.foldl_assoc (op := (max : ℝ → ℝ → ℝ))

theorem minO_perm {l l' : List ℝ} (h : l.Perm l') : minO l = minO l' := by
  induction h with
  | nil => rfl
  | cons x _ ih => rw [minO_cons, minO_cons, ih]
  | swap x y l =>
    simp only [minO_cons]
    cases minO l with
    | none => simp [min_comm]
    | some z => simp [min_left_comm]
  | trans _ _ h1 h2 => exact h1.trans h2

theorem maxO_perm {l l' : List ℝ} (h : l.Perm l') : maxO l = maxO l' := by
  induction h with
  | nil => rfl
  | cons x _ ih => rw [maxO_cons, maxO_cons, ih]
  | swap x y l =>
    simp only [maxO_cons]
    cases maxO l with
    | none => simp [max_comm]
    | some z => simp [max_left_comm]
  | trans _ _ h1 h2 => exact h1.trans h2

private theorem valid_perm {x y : List (Option ℝ)} (h : x.Perm y) : (validVals x).Perm (validVals y) := h.filterMap _

private theorem nanmean_perm {x y : List (Option ℝ)} (h : x.Perm y) : nanmean x = nanmean y := meanO_perm (valid_perm h)

private theorem nanstd_perm {x y : List (Option ℝ)} (h : x.Perm y) : nanstd x = nanstd y := by
  unfold nanstd
  rw [varO_perm (valid_perm h)]

private theorem standardize_perm {x y : List (Option ℝ)} (h : x.Perm y) : (standardize x).Perm (standardize y) := by
  unfold standardize
  rw [nanmean_perm h, nanstd_perm h]
  exact h.map _

private theorem histEdges_perm (nb : ℕ) {x y : List ℝ} (h : x.Perm y) : histEdges nb x = histEdges nb y := by
  unfold histEdges
  rw [minO_perm h, maxO_perm h]

private theorem histCounts_perm (e : Arr1 ℝ) {x y : List ℝ} (h : x.Perm y) : histCounts e x = histCounts e y := by
  unfold histCounts
  congr 1
  funext k
  exact (h.filter _).length_eq

private theorem tsallisDist_perm (nb : ℕ) {x y : List (Option ℝ)} (h : x.Perm y) : tsallisDist nb x = tsallisDist nb y := by
  simp only [tsallisDist, histEdges_perm nb (valid_perm h), histCounts_perm _ (valid_perm h)]

private theorem tsallis_move (junk junk' : ℕ → ℕ → Option ℝ) {periodic : Bool} (num : Option ℕ) {t : DvMove}
    (ht : periodic = true ∨ t = .mirror ∨ t = .swap) {lag : ℕ} (hl : periodic = true ∨ 0 < lag) (a : Arr2 (Option ℝ)) :
    (standardize (tsallisMap junk' periodic lag (t.on a)).ravel).Perm (standardize (tsallisMap junk periodic lag a).ravel) ∧
    tsallisBins num (t.on a) = tsallisBins num a := by
  obtain ⟨h1, h2, h3, h4, hr⟩ := tsallisMap_move junk junk' ht hl a
  refine ⟨standardize_perm (ravel_perm (σ := t.σ a.n) ?_ h1 h2 hr), ?_⟩
  · rw [h3, h4]; exact dv_move_map t a
  · unfold tsallisBins
    rw [nFinite_rearranged (dv_move_map t a) rfl rfl (dv_move_rearranged t a)]

private theorem tsallis_moves (junk : ℕ → ℕ → Option ℝ) {periodic : Bool} (num : Option ℕ) {lag : ℕ} (hl : periodic = true ∨ 0 < lag)
    (a : Arr2 (Option ℝ)) (ms : List DvMove) (junk' : ℕ → ℕ → Option ℝ) (hm : Spec.Allowed periodic ms) :
    (standardize (tsallisMap junk' periodic lag (Spec.moved ms a)).ravel).Perm (standardize (tsallisMap junk periodic lag a).ravel) ∧
    tsallisBins num (Spec.moved ms a) = tsallisBins num a := by
  induction ms generalizing junk' with
  | nil =>
    refine ⟨?_, rfl⟩
    exact (tsallis_move junk' junk' num (t := .swap) (Or.inr (Or.inr rfl)) hl a).1.symm.trans
      (tsallis_move junk junk' num (t := .swap) (Or.inr (Or.inr rfl)) hl a).1
  | cons t ms ih =>
    obtain ⟨h1, h2⟩ := allowed_cons hm
    obtain ⟨e1, e2⟩ := ih junk h2
    obtain ⟨f1, f2⟩ := tsallis_move junk junk' num h1 hl (Spec.moved ms a)
    exact ⟨f1.trans e1, f2.trans e2⟩

/-- **Tsallis.** Moving the map (cyclic shifts for periodic boundaries only) permutes the standardised increments of every lag and leaves
their distribution, and any exception, as it is. -/
theorem C118_tsallis (junk junk' : ℕ → ℕ → Option ℝ) (periodic : Bool) (num : Option ℕ) (lag : ℕ) (hl : periodic = true ∨ 0 < lag)
    (img : Arr2 (Option ℝ)) (ms : List DvMove) (hm : Spec.Allowed periodic ms) :
    (makeTsallisAt junk' periodic num lag (Spec.moved ms img)).map Prod.snd = (makeTsallisAt junk periodic num lag img).map Prod.snd ∧
    ∀ r r', makeTsallisAt junk periodic num lag img = .ok r → makeTsallisAt junk' periodic num lag (Spec.moved ms img) = .ok r' →
      r'.1.Perm r.1 := by
  obtain ⟨h1, h2⟩ := tsallis_moves junk num hl img ms junk' hm
  unfold makeTsallisAt
  simp only [bind, Except.bind, pure, Except.pure]
  rw [h2, tsallisDist_perm _ h1]
  cases tsallisDist (tsallisBins num img) (standardize (tsallisMap junk periodic lag img).ravel) with
  | error e => exact ⟨rfl, fun r r' h => by cases h⟩
  | ok d =>
    refine ⟨rfl, fun r r' h h' => ?_⟩
    cases h
    cases h'
    exact h1

/-! ### Moment maps -/

private theorem nansum_perm {x y : List (Option ℝ)} (h : x.Perm y) : nansum x = nansum y := (valid_perm h).sum_eq

private theorem computeMoments_perm {x y : List (Option ℝ × Option ℝ)} (h : x.Perm y) : computeMoments x = computeMoments y := by
  have e : ∀ f : Option ℝ × Option ℝ → Option ℝ, nansum (x.map f) = nansum (y.map f) := fun f => nansum_perm (h.map f)
  simp only [computeMoments, e]

/-- The values of a continued map in the square around a pixel. -/
private def around {β : Type} (f : ℤ → ℤ → ℤ → ℤ → β) (r : ℕ) (i j : ℤ) : Arr2 β :=
  ⟨2 * r + 1, 2 * r + 1, fun u v => f ((u : ℤ) - r) ((v : ℤ) - r) (i + u - r) (j + v - r)⟩

private theorem around_moved {β : Type} {t : DvMove} {n : ℕ} {f f' : ℤ → ℤ → ℤ → ℤ → β} (hm : ∀ a b x y, f (-a) b x y = f a b x y)
    (hs : ∀ a b x y, f a b x y = f b a x y) (h : ∀ a b i j, f' a b i j = f a b (t.τ n (i, j)).1 (t.τ n (i, j)).2) (r : ℕ) (i j : ℤ) :
    ∃ σ, PixelMap (2 * r + 1) (2 * r + 1) (2 * r + 1) (2 * r + 1) σ ∧
      Rearranged σ (around f' r i j) (around f r (t.τ n (i, j)).1 (t.τ n (i, j)).2) := by
  cases t with
  | mirror =>
    refine ⟨DvMove.mirror.σ (2 * r + 1), dv_move_map .mirror (around f r i j), fun u hu v _ => ?_⟩
    have hu' : u < 2 * r + 1 := hu
    simp only [around, h, DvMove.τ, DvMove.σ]
    have e : ((2 * r + 1 - 1 - u : ℕ) : ℤ) = 2 * r - u := by omega
    rw [e, ← hm]
    congr 1 <;> ring
  | swap =>
    refine ⟨DvMove.swap.σ (2 * r + 1), dv_move_map .swap (around f r i j), fun u _ v _ => ?_⟩
    simp only [around, h, DvMove.τ, DvMove.σ]
    rw [hs]
  | roll s =>
    refine ⟨fun p => p, ?_, fun u _ v _ => ?_⟩
    · exact Set.bijOn_id _
    · simp only [around, h, DvMove.τ]
      congr 1
      ring

private theorem squareCount_moved {t : DvMove} {n : ℕ} {z z' : ℤ → ℤ → Option ℝ} (h : ∀ i j, z' i j = z (t.τ n (i, j)).1 (t.τ n (i, j)).2)
    (r : ℕ) (i j : ℤ) : Spec.squareCount z' r i j = Spec.squareCount z r (t.τ n (i, j)).1 (t.τ n (i, j)).2 := by
  have key : ∀ (w : ℤ → ℤ → Option ℝ) (x y : ℤ), Spec.squareCount w r x y = (around (fun _ _ => w) r x y).nFinite := by
    intro w x y
    unfold Spec.squareCount Spec.square Arr2.nFinite
    rw [card_filter, sum_product]
    rfl
  obtain ⟨σ, h1, h2⟩ := around_moved (t := t) (n := n) (f := fun _ _ => z) (f' := fun _ _ => z') (fun _ _ _ _ => rfl) (fun _ _ _ _ => rfl) (fun _ _ => h) r i j
  rw [key, key]
  exact nFinite_rearranged h1 rfl rfl h2

private theorem circlePixels_moved {t : DvMove} {n : ℕ} {z z' w w' : ℤ → ℤ → Option ℝ} (h : ∀ i j, z' i j = z (t.τ n (i, j)).1 (t.τ n (i, j)).2)
    (hw : ∀ i j, w' i j = w (t.τ n (i, j)).1 (t.τ n (i, j)).2) (r : ℕ) (i j : ℤ) :
    (Spec.circlePixels z' w' r i j).Perm (Spec.circlePixels z w r (t.τ n (i, j)).1 (t.τ n (i, j)).2) := by
  let F : (ℤ → ℤ → Option ℝ) → (ℤ → ℤ → Option ℝ) → ℤ → ℤ → ℤ → ℤ → Option ℝ × Option ℝ :=
    fun z w a b x y => if Spec.InCircle r a b then (z x y, w x y) else (none, none)
  have key : ∀ (z w : ℤ → ℤ → Option ℝ) (x y : ℤ), Spec.circlePixels z w r x y = (around (F z w) r x y).ravel := fun _ _ _ _ => rfl
  obtain ⟨σ, h1, h2⟩ := around_moved (t := t) (n := n) (f := F z w) (f' := F z' w') (fun a b x y => by simp only [F, Spec.InCircle, neg_sq])
    (fun a b x y => by simp only [F, Spec.InCircle, add_comm]) (fun a b i j => by simp only [F, h, hw]) r i j
  rw [key, key]
  exact ravel_perm h1 rfl rfl h2

private theorem contExt_moved {periodic : Bool} {t : DvMove} (ht : periodic = true ∨ t = .mirror ∨ t = .swap) (a : Arr2 (Option ℝ)) (hn : 0 < a.n)
    (i j : ℤ) : Spec.contExt periodic (t.on a) i j = Spec.contExt periodic a (t.τ a.n (i, j)).1 (t.τ a.n (i, j)).2 := by
  cases periodic with
  | true => exact periodicExt_moved t a hn i j
  | false => exact fillExt_moved (by simpa using ht) a i j

private theorem contExt_period (a : Arr2 (Option ℝ)) (i i' j : ℤ) (h : i' % a.n = i % a.n) :
    Spec.contExt true a i' j = Spec.contExt true a i j := by
  show Spec.periodicExt a i' j = Spec.periodicExt a i j
  unfold Spec.periodicExt
  rw [h]

/-- What `C43_maps_partial` says about a pixel, at any position of the plane. -/
private noncomputable def momentsAt (periodic : Bool) (minFrac rad : ℝ) (img wgt : Arr2 (Option ℝ)) (i j : ℤ) : MomentSet :=
  if (Spec.squareCount (Spec.contExt periodic img) ⌈rad⌉₊ i j : ℝ) / (((2 * ⌈rad⌉₊ + 1) * (2 * ⌈rad⌉₊ + 1) : ℕ) : ℝ) < minFrac ∨
      (Spec.squareCount (Spec.contExt periodic wgt) ⌈rad⌉₊ i j : ℝ) / (((2 * ⌈rad⌉₊ + 1) * (2 * ⌈rad⌉₊ + 1) : ℕ) : ℝ) < minFrac then
    ⟨none, none, none, none⟩
  else computeMoments (Spec.circlePixels (Spec.contExt periodic img) (Spec.contExt periodic wgt) ⌈rad⌉₊ i j)

private theorem momentsAt_period (minFrac rad : ℝ) (img wgt : Arr2 (Option ℝ)) (hw : wgt.n = img.n) (i i' j : ℤ) (h : i' % img.n = i % img.n) :
    momentsAt true minFrac rad img wgt i' j = momentsAt true minFrac rad img wgt i j := by
  have e : ∀ (a : Arr2 (Option ℝ)), a.n = img.n → ∀ d k, Spec.contExt true a (i' + d) k = Spec.contExt true a (i + d) k := by
    intro a ha d k
    refine contExt_period a _ _ k ?_
    rw [ha, Int.add_emod, h, ← Int.add_emod]
  have e1 : ∀ (a : Arr2 (Option ℝ)), a.n = img.n → Spec.squareCount (Spec.contExt true a) ⌈rad⌉₊ i' j = Spec.squareCount (Spec.contExt true a) ⌈rad⌉₊ i j := by
    intro a ha
    unfold Spec.squareCount
    simp only [add_sub_assoc, e a ha]
  have e2 : Spec.circlePixels (Spec.contExt true img) (Spec.contExt true wgt) ⌈rad⌉₊ i' j
      = Spec.circlePixels (Spec.contExt true img) (Spec.contExt true wgt) ⌈rad⌉₊ i j := by
    unfold Spec.circlePixels
    simp only [add_sub_assoc, e img rfl, e wgt hw]
  unfold momentsAt
  rw [e1 img rfl, e1 wgt hw, e2]

private theorem momentsAt_moved {periodic : Bool} {t : DvMove} (ht : periodic = true ∨ t = .mirror ∨ t = .swap) (minFrac rad : ℝ)
    (img wgt : Arr2 (Option ℝ)) (hw : wgt.n = img.n) (hn : 0 < img.n) (i j : ℤ) :
    momentsAt periodic minFrac rad (t.on img) (t.on wgt) i j = momentsAt periodic minFrac rad img wgt (t.τ img.n (i, j)).1 (t.τ img.n (i, j)).2 := by
  have h1 : ∀ i j, Spec.contExt periodic (t.on img) i j = Spec.contExt periodic img (t.τ img.n (i, j)).1 (t.τ img.n (i, j)).2 := contExt_moved ht img hn
  have h2 : ∀ i j, Spec.contExt periodic (t.on wgt) i j = Spec.contExt periodic wgt (t.τ img.n (i, j)).1 (t.τ img.n (i, j)).2 := by
    rw [← hw]
    exact contExt_moved ht wgt (by omega)
  unfold momentsAt
  rw [squareCount_moved h1, squareCount_moved h2, computeMoments_perm (circlePixels_moved h1 h2 _ i j)]

private theorem on_shape {α β : Type} (t : DvMove) {a : Arr2 α} {b : Arr2 β} (h : b.n = a.n ∧ b.m = a.m) : (t.on b).n = (t.on a).n ∧ (t.on b).m = (t.on a).m := by
  cases t <;> simp only [DvMove.on, Spec.mirror0, Spec.transposed, Arr2.roll0] <;> omega

private theorem moved_shape {α β : Type} (ms : List DvMove) {a : Arr2 α} {b : Arr2 β} (h : b.n = a.n ∧ b.m = a.m) :
    (Spec.moved ms b).n = (Spec.moved ms a).n ∧ (Spec.moved ms b).m = (Spec.moved ms a).m := by
  induction ms with
  | nil => exact h
  | cons t ms ih => exact on_shape t ih

private theorem on_same {α : Type} (t : DvMove) {a b : Arr2 α} (h : b.Same a) : (t.on b).Same (t.on a) := by
  obtain ⟨h1, h2, h3⟩ := h
  obtain ⟨e1, e2⟩ := on_shape t ⟨h1, h2⟩
  refine ⟨e1, e2, fun i hi j hj => ?_⟩
  have hl := (dv_move_map t b).lt hi hj
  rw [dv_move_rearranged t b i hi j hj, dv_move_rearranged t a i (e1 ▸ hi) j (e2 ▸ hj), ← h1]
  exact h3 _ hl.1 _ hl.2

private theorem moments_move (junkI junkW junkI' junkW' : ℕ → ℕ → Option ℝ) {periodic : Bool} {t : DvMove}
    (ht : periodic = true ∨ t = .mirror ∨ t = .swap) {minFrac rad : ℝ} (img wgt : Arr2 (Option ℝ)) (hw : wgt.n = img.n ∧ wgt.m = img.m)
    (hrad : 0 < rad) (hf : 0 < minFrac ∧ minFrac ≤ 1) :
    ∃ res res', spatialDistrib junkI junkW periodic minFrac rad img wgt = .ok res ∧
      spatialDistrib junkI' junkW' periodic minFrac rad (t.on img) (t.on wgt) = .ok res' ∧ res'.Same (t.on res) := by
  obtain ⟨res, e, hn, hm, hg⟩ := C43_maps_partial junkI junkW periodic minFrac rad img wgt hw hrad hf
  obtain ⟨res', e', hn', hm', hg'⟩ := C43_maps_partial junkI' junkW' periodic minFrac rad (t.on img) (t.on wgt) (on_shape t hw) hrad hf
  obtain ⟨s1, s2⟩ := on_shape t (b := res) (a := img) ⟨hn, hm⟩
  refine ⟨res, res', e, e', hn'.trans s1.symm, hm'.trans s2.symm, fun i hi j hj => ?_⟩
  rw [hn'] at hi
  rw [hm'] at hj
  obtain ⟨k1, k2⟩ := (dv_move_map t img).lt hi hj
  rw [dv_move_rearranged t res i (by omega) j (by omega), hn]
  have e1 : res'.get i j = momentsAt periodic minFrac rad (t.on img) (t.on wgt) i j := hg' i hi j hj
  have e2 : res.get (t.σ img.n (i, j)).1 (t.σ img.n (i, j)).2 = momentsAt periodic minFrac rad img wgt (t.σ img.n (i, j)).1 (t.σ img.n (i, j)).2 :=
    hg _ k1 _ k2
  have hpos : 0 < img.n := by omega
  rw [e1, e2, momentsAt_moved ht minFrac rad img wgt hw.1 hpos]
  cases t with
  | mirror =>
    have hi' : i < img.n := hi
    simp only [DvMove.τ, DvMove.σ]
    congr 1
    omega
  | swap => rfl
  | roll s =>
    have hp : periodic = true := by simpa using ht
    subst hp
    simp only [DvMove.τ, DvMove.σ]
    refine momentsAt_period minFrac rad img wgt hw.1 _ _ j ?_
    rw [rollIx_cast hpos, Int.emod_emod]

/-- **Moment maps.** The maps of mean, variance, skewness and kurtosis move with the image (and its weights). -/
theorem C118_moment_maps (junkI junkW junkI' junkW' : ℕ → ℕ → Option ℝ) (periodic : Bool) (minFrac rad : ℝ) (img wgt : Arr2 (Option ℝ))
    (hw : wgt.n = img.n ∧ wgt.m = img.m) (hrad : 0 < rad) (hf : 0 < minFrac ∧ minFrac ≤ 1) (ms : List DvMove) (hm : Spec.Allowed periodic ms) :
    ∃ res res', spatialDistrib junkI junkW periodic minFrac rad img wgt = .ok res ∧
      spatialDistrib junkI' junkW' periodic minFrac rad (Spec.moved ms img) (Spec.moved ms wgt) = .ok res' ∧ res'.Same (Spec.moved ms res) := by
  induction ms generalizing junkI' junkW' with
  | nil =>
    obtain ⟨res, e, hn, hm', hg⟩ := C43_maps_partial junkI junkW periodic minFrac rad img wgt hw hrad hf
    obtain ⟨res', e', hn', hm'', hg'⟩ := C43_maps_partial junkI' junkW' periodic minFrac rad img wgt hw hrad hf
    refine ⟨res, res', e, e', hn'.trans hn.symm, hm''.trans hm'.symm, fun i hi j hj => ?_⟩
    rw [hn'] at hi
    rw [hm''] at hj
    exact (hg' i hi j hj).trans (hg i hi j hj).symm
  | cons t ms ih =>
    obtain ⟨h1, h2⟩ := allowed_cons hm
    obtain ⟨res, res₁, e, e₁, hs⟩ := ih junkI junkW h2
    obtain ⟨r₁, res', f, f', hs'⟩ := moments_move junkI junkW junkI' junkW' h1 (Spec.moved ms img) (Spec.moved ms wgt) (moved_shape ms hw) hrad hf
    rw [e₁] at f
    cases f
    obtain ⟨a1, a2, a3⟩ := hs'
    obtain ⟨b1, b2, b3⟩ := on_same t hs
    exact ⟨res, res', e, f', a1.trans b1, a2.trans b2, fun i hi j hj => (a3 i hi j hj).trans (b3 i (a1 ▸ hi) j (a2 ▸ hj))⟩

/-! ### Genus -/

/-- Regions of a set of pixels and of its image under a map of the pixels that keeps which pixels touch. -/
private theorem regionOf_image {c : Bool} {σ : ℕ × ℕ → ℕ × ℕ} {s s' : Set (ℕ × ℕ)} (hsurj : s = σ '' s')
    (ht : ∀ p ∈ s', ∀ q ∈ s', Spec.Touch c (σ p) (σ q) ↔ Spec.Touch c p q) {p : ℕ × ℕ} (hp : p ∈ s') :
    Spec.regionOf c s (σ p) = σ '' Spec.regionOf c s' p := by
  apply Set.Subset.antisymm
  · intro y hy'
    have hy : Relation.ReflTransGen (fun x y => x ∈ s ∧ y ∈ s ∧ Spec.Touch c x y) (σ p) y := hy'
    clear hy'
    have : ∃ x ∈ s', σ x = y ∧ Relation.ReflTransGen (fun x y => x ∈ s' ∧ y ∈ s' ∧ Spec.Touch c x y) p x := by
      induction hy with
      | refl => exact ⟨p, hp, rfl, .refl⟩
      | tail _ h ih =>
        obtain ⟨x, hx, rfl, hr⟩ := ih
        obtain ⟨-, h2, h3⟩ := h
        rw [hsurj] at h2
        obtain ⟨z, hz, rfl⟩ := h2
        exact ⟨z, hz, rfl, hr.tail ⟨hx, hz, (ht x hx z hz).1 h3⟩⟩
    obtain ⟨x, -, rfl, hr⟩ := this
    exact ⟨x, hr, rfl⟩
  · rintro _ ⟨x, hx, rfl⟩
    have hx : Relation.ReflTransGen (fun x y => x ∈ s' ∧ y ∈ s' ∧ Spec.Touch c x y) p x := hx
    have hl : ∀ a b, (a ∈ s' ∧ b ∈ s' ∧ Spec.Touch c a b) → (σ a ∈ s ∧ σ b ∈ s ∧ Spec.Touch c (σ a) (σ b)) := by
      rintro a b ⟨h1, h2, h3⟩
      rw [hsurj]
      exact ⟨⟨a, h1, rfl⟩, ⟨b, h2, rfl⟩, (ht a h1 b h2).2 h3⟩
    exact Relation.ReflTransGen.lift (p := fun x y => x ∈ s ∧ y ∈ s ∧ Spec.Touch c x y) σ hl _ _ hx

private theorem regionOf_sub {c : Bool} {s : Set (ℕ × ℕ)} {p : ℕ × ℕ} (hp : p ∈ s) : Spec.regionOf c s p ⊆ s := by
  intro y hy
  have hy : Relation.ReflTransGen (fun x y => x ∈ s ∧ y ∈ s ∧ Spec.Touch c x y) p y := hy
  cases hy with
  | refl => exact hp
  | tail _ h => exact h.2.1

theorem regions_card_image {c : Bool} {σ : ℕ × ℕ → ℕ × ℕ} {s s' : Set (ℕ × ℕ)} (hsurj : s = σ '' s') (hinj : Set.InjOn σ s')
    (ht : ∀ p ∈ s', ∀ q ∈ s', Spec.Touch c (σ p) (σ q) ↔ Spec.Touch c p q) (Q : ℕ → Prop) :
    {R ∈ Spec.regions c s' | Q R.ncard}.ncard = {R ∈ Spec.regions c s | Q R.ncard}.ncard := by
  have hsub : ∀ R ∈ Spec.regions c s', R ⊆ s' := by
    rintro R ⟨p, hp, rfl⟩
    exact regionOf_sub hp
  have himg : {R ∈ Spec.regions c s | Q R.ncard} = (fun R => σ '' R) '' {R ∈ Spec.regions c s' | Q R.ncard} := by
    ext R
    constructor
    · rintro ⟨⟨q, hq, rfl⟩, hQ⟩
      rw [hsurj] at hq
      obtain ⟨p, hp, rfl⟩ := hq
      rw [regionOf_image hsurj ht hp] at hQ ⊢
      refine ⟨_, ⟨⟨p, hp, rfl⟩, ?_⟩, rfl⟩
      rwa [Set.ncard_image_of_injOn (hinj.mono (regionOf_sub hp))] at hQ
    · rintro ⟨R, ⟨⟨p, hp, rfl⟩, hQ⟩, rfl⟩
      refine ⟨⟨σ p, by rw [hsurj]; exact ⟨p, hp, rfl⟩, (regionOf_image hsurj ht hp).symm⟩, ?_⟩
      show Q (σ '' _).ncard
      rwa [Set.ncard_image_of_injOn (hinj.mono (regionOf_sub hp))]
  rw [himg]
  refine (Set.ncard_image_of_injOn ?_).symm
  intro R hR R' hR' h
  exact (hinj.image_eq_image_iff (hsub R hR.1) (hsub R' hR'.1)).1 h

private theorem touch_moved {t : DvMove} (ht : t = .mirror ∨ t = .swap) (c : Bool) {n : ℕ} {p q : ℕ × ℕ} (hp : t = .mirror → p.1 < n)
    (hq : t = .mirror → q.1 < n) : Spec.Touch c (t.σ n p) (t.σ n q) ↔ Spec.Touch c p q := by
  rcases ht with rfl | rfl
  · have h1 := hp rfl
    have h2 := hq rfl
    cases c <;> simp only [Spec.Touch, DvMove.σ, Bool.false_eq_true, false_and, true_and, or_false] <;> constructor <;> (intro h; omega)
  · cases c <;> simp only [Spec.Touch, DvMove.σ, Bool.false_eq_true, false_and, true_and, or_false] <;> constructor <;> (intro h; omega)

/-- Bright or faint pixels of the moved image. -/
private def pixelsWith (img : Arr2 (Option ℝ)) (P : ℝ → Prop) : Set (ℕ × ℕ) :=
  {p | p.1 < img.n ∧ p.2 < img.m ∧ ∃ v, img.get p.1 p.2 = some v ∧ P v}

private theorem pixels_moved (t : DvMove) (img : Arr2 (Option ℝ)) (P : ℝ → Prop) :
    pixelsWith img P = t.σ img.n '' pixelsWith (t.on img) P := by
  have hm := dv_move_map t img
  ext ⟨a, b⟩
  constructor
  · rintro ⟨h1, h2, h3⟩
    obtain ⟨⟨i, j⟩, hq, he⟩ := hm.surjOn (show (a, b) ∈ (↑(range img.n ×ˢ range img.m) : Set (ℕ × ℕ)) by simp [show a < img.n from h1, show b < img.m from h2])
    simp only [coe_product, coe_range, Set.mem_prod, Set.mem_Iio] at hq
    refine ⟨(i, j), ⟨hq.1, hq.2, ?_⟩, he⟩
    rw [dv_move_rearranged t img i hq.1 j hq.2, he]
    exact h3
  · rintro ⟨⟨i, j⟩, ⟨h1, h2, h3⟩, he⟩
    obtain ⟨k1, k2⟩ := hm.lt h1 h2
    have h3' : ∃ v, (t.on img).get i j = some v ∧ P v := h3
    rw [dv_move_rearranged t img i h1 j h2] at h3'
    rw [← he]
    exact ⟨k1, k2, h3'⟩

private theorem regions_moved {t : DvMove} (ht : t = .mirror ∨ t = .swap) (c : Bool) (img : Arr2 (Option ℝ)) (P : ℝ → Prop) (Q : ℕ → Prop) :
    {R ∈ Spec.regions c (pixelsWith (t.on img) P) | Q R.ncard}.ncard = {R ∈ Spec.regions c (pixelsWith img P) | Q R.ncard}.ncard := by
  refine regions_card_image (pixels_moved t img P) ?_ ?_ Q
  · refine (dv_move_map t img).injOn.mono ?_
    rintro ⟨i, j⟩ ⟨h1, h2, -⟩
    simp only [coe_product, coe_range, Set.mem_prod, Set.mem_Iio]
    exact ⟨h1, h2⟩
  · intro p hp q hq
    refine touch_moved ht c ?_ ?_
    · rintro rfl; exact hp.1
    · rintro rfl; exact hq.1

private theorem genus_move {t : DvMove} (ht : t = .mirror ∨ t = .swap) (img : Arr2 (Option ℝ)) (v : ℝ) (removal : Bool) (minSize : ℤ) {conn : ℕ}
    (hc : conn = 1 ∨ conn = 2) : genusValue (t.on img) v removal minSize conn = genusValue img v removal minSize conn := by
  have hb := regions_moved ht (Spec.corners conn) img (fun x => v < x)
  have hd := regions_moved ht (Spec.corners conn) img (fun x => x < v)
  cases removal with
  | false =>
    rw [C47_value_all _ v minSize conn hc, C47_value_all _ v minSize conn hc]
    have h1 := hb fun _ => True
    have h2 := hd fun _ => True
    simp only [and_true, Set.setOf_mem_eq] at h1 h2
    exact congrArg₂ (fun a b : ℕ => (a : ℤ) - b) h1 h2
  | true =>
    rw [C47_value_removal _ v minSize conn hc, C47_value_removal _ v minSize conn hc]
    exact congrArg₂ (fun a b : ℕ => (a : ℤ) - b) (hb fun k => minSize ≤ (k : ℤ)) (hd fun k => minSize ≤ (k : ℤ))

/-- **Genus.** The value of the genus of an image at a threshold does not depend on the orientation of the image. -/
theorem C118_genus_value (img : Arr2 (Option ℝ)) (v : ℝ) (removal : Bool) (minSize : ℤ) (conn : ℕ) (hc : conn = 1 ∨ conn = 2)
    (ms : List DvMove) (hm : Spec.Rigid ms) :
    genusValue (Spec.moved ms img) v removal minSize conn = genusValue img v removal minSize conn := by
  induction ms with
  | nil => rfl
  | cons t ms ih =>
    exact (genus_move (hm t (by simp)) (Spec.moved ms img) v removal minSize hc).trans (ih fun u hu => hm u (by simp [hu]))

private theorem genusValue_same {a b : Arr2 (Option ℝ)} (h : a.Same b) (v : ℝ) (removal : Bool) (minSize : ℤ) {conn : ℕ} (hc : conn = 1 ∨ conn = 2) :
    genusValue a v removal minSize conn = genusValue b v removal minSize conn := by
  obtain ⟨h1, h2, h3⟩ := h
  have e : ∀ P : ℝ → Prop, pixelsWith a P = pixelsWith b P := by
    intro P
    ext ⟨i, j⟩
    simp only [pixelsWith, Set.mem_setOf_eq, ← h1, ← h2]
    refine and_congr_right fun hi => and_congr_right fun hj => ?_
    rw [h3 i hi j hj]
  have hb : Spec.brighter a v = Spec.brighter b v := e fun x => v < x
  have hd : Spec.fainter a v = Spec.fainter b v := e fun x => x < v
  cases removal with
  | false => rw [C47_value_all _ v minSize conn hc, C47_value_all _ v minSize conn hc, hb, hd]
  | true => rw [C47_value_removal _ v minSize conn hc, C47_value_removal _ v minSize conn hc, hb, hd]

private theorem flat2_moved {α : Type} (ms : List DvMove) (a : Arr2 α) : (flat2 (Spec.moved ms a)).Perm (flat2 a) := by
  induction ms with
  | nil => exact List.Perm.refl _
  | cons t ms ih =>
    exact (ravel_perm (dv_move_map t (Spec.moved ms a)) rfl rfl (dv_move_rearranged t _)).trans ih

private theorem nanpercentile_perm {x y : List (Option ℝ)} (h : x.Perm y) (q : ℝ) : nanpercentile x q = nanpercentile y q := by
  have e : (validVals x).insertionSort (· ≤ ·) = (validVals y).insertionSort (· ≤ ·) :=
    List.Perm.eq_of_pairwise (fun a b _ _ h1 h2 => le_antisymm h1 h2) (List.pairwise_insertionSort _ _) (List.pairwise_insertionSort _ _)
      ((List.perm_insertionSort _ _).trans ((valid_perm h).trans (List.perm_insertionSort _ _).symm))
  simp only [nanpercentile, e]

private theorem rangeThresholds_perm {x y : List (Option ℝ)} (h : x.Perm y) (du : Option BUnit) (o : ThreshArgs) :
    rangeThresholds x du o = rangeThresholds y du o := by
  have e1 : defaultMin x = defaultMin y := by
    funext q
    simp only [defaultMin, nanmin, minO_perm (valid_perm h), nanpercentile_perm h]
  have e2 : defaultMax x = defaultMax y := by
    funext q
    simp only [defaultMax, nanmax, maxO_perm (valid_perm h), nanpercentile_perm h]
  simp only [rangeThresholds, rawMin, rawMax, e1, e2]

private theorem moved_side {α : Type} (ms : List DvMove) (a : Arr2 α) :
    min (Spec.moved ms a).n (Spec.moved ms a).m = min a.n a.m ∧ (Spec.moved ms a).n * (Spec.moved ms a).m = a.n * a.m := by
  induction ms with
  | nil => exact ⟨rfl, rfl⟩
  | cons t ms ih =>
    cases t with
    | mirror => exact ih
    | swap => exact ⟨(min_comm _ _).trans ih.1, (Nat.mul_comm _ _).trans ih.2⟩
    | roll s => exact ih

/-- The thresholds, the smoothing radii and any exception of a `Genus` object do not depend on the position or orientation of the image. -/
theorem C118_genus_init (data : Arr2 (Option ℝ)) (du : Option BUnit) (o : ThreshArgs) (given : Option (Arr1 ℝ × Option BUnit)) (enable : Bool)
    (r : RadiiArg) (ms : List DvMove) :
    genusInit (Spec.moved ms data) du o given enable r = (genusInit data du o given enable r).map fun g => { g with data := Spec.moved ms g.data } := by
  unfold genusInit
  rw [(moved_side ms data).1]
  cases given with
  | some t =>
    simp only [bind, Except.bind, pure, Except.pure]
    cases givenThresholds du t.1 t.2 with
    | error e => rfl
    | ok v =>
      cases initRadii enable (min data.n data.m) r <;> rfl
  | none =>
    simp only [bind, Except.bind, pure, Except.pure]
    rw [rangeThresholds_perm (flat2_moved ms data)]
    cases rangeThresholds (flat2 data) du o with
    | error e => rfl
    | ok v =>
      cases initRadii enable (min data.n data.m) r <;> rfl

namespace Spec

/-- A smoothing that follows the orientation of the image. -/
def FollowsMoves (smooth : ℝ → Arr2 (Option ℝ) → Arr2 (Option ℝ)) (ms : List DvMove) : Prop :=
  ∀ w a, (smooth w (moved ms a)).Same (moved ms (smooth w a))

end Spec

/-- The genus curves of an object, for a smoothing that follows the orientation (see `C118_smoothing`). -/
theorem C118_genus_curves (g : GenusObj) (smooth : ℝ → Arr2 (Option ℝ) → Arr2 (Option ℝ)) (c : CurveArgs) (hc : c.conn = 1 ∨ c.conn = 2)
    (ms : List DvMove) (hm : Spec.Rigid ms) (hs : Spec.FollowsMoves smooth ms) :
    GenusObj.curves { g with data := Spec.moved ms g.data } smooth c = g.curves smooth c := by
  unfold GenusObj.curves genusStats
  rw [List.map_map, List.map_map]
  refine List.map_congr_left fun r _ => List.map_congr_left fun v _ => ?_
  cases r with
  | none => exact C118_genus_value g.data v c.removal c.minSize c.conn hc ms hm
  | some w => exact (genusValue_same (hs w g.data) v c.removal c.minSize hc).trans (C118_genus_value _ v c.removal c.minSize c.conn hc ms hm)

/-- Convolution with an isotropic kernel follows the orientation; missing pixels stay missing. -/
theorem C118_smoothing (k : ℝ → Kern) (hk : ∀ w, Spec.Isotropic (k w)) (ms : List DvMove) (hm : Spec.Rigid ms) :
    Spec.FollowsMoves (fun w a => ⟨a.n, a.m, fun i j => if (a.get i j).isSome then
      some ((applyK ((k w).coef .fill a.n a.m) (a.map fun v => v.getD 0)).get i j) else none⟩) ms := by
  intro w a
  induction ms with
  | nil => exact ⟨rfl, rfl, fun _ _ _ _ => rfl⟩
  | cons t ms ih =>
    obtain ⟨b1, b2, b3⟩ := on_same t (ih fun u hu => hm u (by simp [hu]))
    set b := Spec.moved ms a with hb
    have hfit : t.fits .fill (k w) b.n := by rcases hm t (by simp) with rfl | rfl <;> trivial
    obtain ⟨s1, s2⟩ := on_shape t (a := b) (b := b.map fun v => v.getD 0) ⟨rfl, rfl⟩
    have hr : Rearranged (t.σ b.n) ((t.on b).map fun v => v.getD 0) (b.map fun v => v.getD 0) := by
      intro i hi j hj
      show ((t.on b).get i j).getD 0 = _
      rw [dv_move_rearranged t b i hi j hj]
      rfl
    have hf := applyK_rearranged (a := b.map fun v => v.getD 0) (b := (t.on b).map fun v => v.getD 0) (dv_move_map t b) rfl rfl hr
      (dv_follows_coef t .fill (hk w) b hfit)
    have key : (⟨(t.on b).n, (t.on b).m, fun i j => if ((t.on b).get i j).isSome then
        some ((applyK ((k w).coef .fill (t.on b).n (t.on b).m) ((t.on b).map fun v => v.getD 0)).get i j) else none⟩ : Arr2 (Option ℝ)).Same
        (t.on ⟨b.n, b.m, fun i j => if (b.get i j).isSome then
          some ((applyK ((k w).coef .fill b.n b.m) (b.map fun v => v.getD 0)).get i j) else none⟩) := by
      obtain ⟨u1, u2⟩ := on_shape t (a := b) (b := (⟨b.n, b.m, fun i j => if (b.get i j).isSome then
          some ((applyK ((k w).coef .fill b.n b.m) (b.map fun v => v.getD 0)).get i j) else none⟩ : Arr2 (Option ℝ))) ⟨rfl, rfl⟩
      refine ⟨u1.symm, u2.symm, fun i hi j hj => ?_⟩
      have hi : i < (t.on b).n := hi
      have hj : j < (t.on b).m := hj
      rw [dv_move_rearranged t _ i (by rw [u1]; exact hi) j (by rw [u2]; exact hj)]
      show (if ((t.on b).get i j).isSome then _ else none) = (if (b.get _ _).isSome then _ else none)
      rw [dv_move_rearranged t b i hi j hj, hf i hi j hj]
    obtain ⟨a1, a2, a3⟩ := key
    exact ⟨a1.trans b1, a2.trans b2, fun i hi j hj => (a3 i hi j hj).trans (b3 i (a1 ▸ hi) j (a2 ▸ hj))⟩

/-! ### PCA -/

private theorem vec_split {M : Type*} [AddCommMonoid M] (m p : ℕ) (f : ℕ → ℕ → M) :
    ∑ k ∈ range (m * p), f (k / p) (k % p) = ∑ i ∈ range m, ∑ j ∈ range p, f i j := by
  induction m with
  | zero => simp
  | succ m ih =>
    rw [Nat.succ_mul, sum_range_add, ih, sum_range_succ]
    congr 1
    refine sum_congr rfl fun j hj => ?_
    have hj := mem_range.1 hj
    rw [Nat.mul_comm m p, Nat.mul_add_div (by omega), Nat.mul_add_mod, Nat.div_eq_of_lt hj, Nat.mod_eq_of_lt hj, Nat.add_zero]

/-- A function of the pixels along the flattened map. -/
private def flatOf {β : Type} (p : ℕ) (g : ℕ → ℕ → β) : ℕ → β := fun k => g (k / p) (k % p)

private theorem flat_sum {M β : Type} [AddCommMonoid M] {m p m' p' : ℕ} {σ : ℕ × ℕ → ℕ × ℕ} (hσ : PixelMap m' p' m p σ) {g g' : ℕ → ℕ → β}
    (hg : ∀ i < m', ∀ j < p', g' i j = g (σ (i, j)).1 (σ (i, j)).2) (φ : β → M) :
    ∑ k ∈ range (m' * p'), φ (flatOf p' g' k) = ∑ k ∈ range (m * p), φ (flatOf p g k) := by
  unfold flatOf
  rw [vec_split m' p' fun i j => φ (g' i j), vec_split m p fun i j => φ (g i j), ← hσ.sum]
  refine sum_congr rfl fun i hi => sum_congr rfl fun j hj => ?_
  rw [hg i (mem_range.1 hi) j (mem_range.1 hj)]

/-- The slice of a channel. -/
private def chanMap (c : Arr3 (Option ℝ)) (v : ℕ) : Arr2 (Option ℝ) := ⟨c.m, c.p, fun i j => c.get v i j⟩

private theorem moveCube_chan (t : DvMove) (c : Arr3 (Option ℝ)) (v : ℕ) : chanMap (Spec.moveCube t c) v = t.on (chanMap c v) := by
  cases t <;> rfl

private theorem vc_move (eps : ℝ) (meanSub : Bool) (t : DvMove) (c : Arr3 (Option ℝ)) : varCovCube eps meanSub (Spec.moveCube t c) = varCovCube eps meanSub c := by
  set c' := Spec.moveCube t c with hc'
  have hn : c'.n = c.n := by cases t <;> rfl
  have hσ : PixelMap c'.m c'.p c.m c.p (t.σ c.m) := by
    have h := dv_move_map t (chanMap c 0)
    rw [← moveCube_chan] at h
    exact h
  have hg : ∀ v, ∀ i < c'.m, ∀ j < c'.p, c'.get v i j = c.get v (t.σ c.m (i, j)).1 (t.σ c.m (i, j)).2 := by
    intro v i hi j hj
    have h := dv_move_rearranged t (chanMap c v)
    rw [← moveCube_chan] at h
    exact h i hi j hj
  -- everything is a sum over the pixels of a function of pairs of channel values
  have key : ∀ {M : Type} [AddCommMonoid M] (i j : ℕ) (φ : Option ℝ × Option ℝ → M),
      ∑ k ∈ range (c'.m * c'.p), φ (chanVec c' i k, chanVec c' j k) = ∑ k ∈ range (c.m * c.p), φ (chanVec c i k, chanVec c j k) := by
    intro M _ i j φ
    exact flat_sum (β := Option ℝ × Option ℝ) hσ (g := fun a b => (c.get i a b, c.get j a b)) (g' := fun a b => (c'.get i a b, c'.get j a b))
      (fun a ha b hb => by simp only [hg _ a ha b hb]) φ
  -- the mean of a channel, filled or not
  have hmean : ∀ (i : ℕ) (ψ : Option ℝ → Option ℝ),
      divO (some (vecNansum (c'.m * c'.p) fun k => ψ (chanVec c' i k))) (some ((vecCount (c'.m * c'.p) fun k => ψ (chanVec c' i k) : ℕ) : ℝ)) =
      divO (some (vecNansum (c.m * c.p) fun k => ψ (chanVec c i k))) (some ((vecCount (c.m * c.p) fun k => ψ (chanVec c i k) : ℕ) : ℝ)) := by
    intro i ψ
    have h1 := key (M := ℝ) i i fun x => (ψ x.1).getD 0
    have h2 := key (M := ℕ) i i fun x => if (ψ x.1).isSome then 1 else 0
    unfold vecNansum vecCount
    rw [h1, h2]
  have hcent : ∀ (i : ℕ) (ψ : Option ℝ → Option ℝ), ∃ χ : Option ℝ → Option ℝ,
      (vcCenter meanSub (c'.m * c'.p) fun k => ψ (chanVec c' i k)) = (fun k => χ (chanVec c' i k)) ∧
      (vcCenter meanSub (c.m * c.p) fun k => ψ (chanVec c i k)) = (fun k => χ (chanVec c i k)) := by
    intro i ψ
    cases meanSub with
    | false => exact ⟨ψ, rfl, rfl⟩
    | true =>
      refine ⟨fun x => subO (ψ x) (divO (some (vecNansum (c.m * c.p) fun k => ψ (chanVec c i k)))
        (some ((vecCount (c.m * c.p) fun k => ψ (chanVec c i k) : ℕ) : ℝ))), ?_, rfl⟩
      rw [← hmean]
      rfl
  have hentry : ∀ (i j : ℕ) (χ χ' : Option ℝ → Option ℝ),
      vcEntry meanSub (c'.m * c'.p) (fun k => χ (chanVec c' i k)) (fun k => χ' (chanVec c' j k)) =
      vcEntry meanSub (c.m * c.p) (fun k => χ (chanVec c i k)) (fun k => χ' (chanVec c j k)) := by
    intro i j χ χ'
    have h1 := key (M := ℝ) i j fun x => (mulO (χ x.1) (χ' x.2)).getD 0
    have h2 := key (M := ℕ) i j fun x => if (mulO (χ x.1) (χ' x.2)).isSome then 1 else 0
    unfold vcEntry vecNansum vecCount
    simp only [h1, h2]
  have hlow : ∀ i j, vcLower eps meanSub c' i j = vcLower eps meanSub c i j := by
    intro i j
    obtain ⟨χ, e1, e2⟩ := hcent i fun x => some (x.getD eps)
    obtain ⟨χ', f1, f2⟩ := hcent j fun x => x
    have e1' : vcCenter meanSub (c'.m * c'.p) (vcFill eps (chanVec c' i)) = fun k => χ (chanVec c' i k) := e1
    have e2' : vcCenter meanSub (c.m * c.p) (vcFill eps (chanVec c i)) = fun k => χ (chanVec c i k) := e2
    have f1' : vcCenter meanSub (c'.m * c'.p) (chanVec c' j) = fun k => χ' (chanVec c' j k) := f1
    have f2' : vcCenter meanSub (c.m * c.p) (chanVec c j) = fun k => χ' (chanVec c j k) := f2
    simp only [vcLower, e1', e2', f1', f2', hentry]
  simp only [varCovCube, hn, hlow]

/-- **PCA.** The covariance matrix of the channels, hence everything decomposed from it, does not depend on the position or orientation of the
cube on the sky. -/
theorem C118_pca_covariance (eps : ℝ) (meanSub : Bool) (cube : Arr3 (Option ℝ)) (ms : List DvMove) :
    varCovCube eps meanSub (Spec.movedCube ms cube) = varCovCube eps meanSub cube := by
  induction ms with
  | nil => rfl
  | cons t ms ih => exact (vc_move eps meanSub t (Spec.movedCube ms cube)).trans ih

end TS
