import Verif.Props.C118
import Verif.Props.C26
import Verif.Props.C87

/-! C118, spectral correlation function: the surface moves with the cube, its spectrum and the distance do not change. -/

namespace TS
open Finset

namespace Spec

/-- What a move of the cube does to the correlation surface, whose first axis belongs to the second axis of the sky: a shift does nothing. -/
def moveSurface {α : Type} (t : DvMove) (s : Arr2 α) : Arr2 α :=
  match t with
  | .mirror => mirror1 s
  | .swap => transposed s
  | .roll _ => s

/-- The surface after several moves, the last of the list first. -/
def movedSurface {α : Type} (ms : List DvMove) (s : Arr2 α) : Arr2 α := ms.foldr moveSurface s

/-- Lags that are the same in both directions. -/
def SymmetricLags (lag : Arr1 ℤ) : Prop := ∀ k < lag.n, lag.get (lag.n - 1 - k) = -lag.get k

end Spec

/-! ### The pairs of pixels -/

private theorem cube_map (t : DvMove) (c : Arr3 (Option ℝ)) : PixelMap (Spec.moveCube t c).m (Spec.moveCube t c).p c.m c.p (t.σ c.m) := by
  have h := dv_move_map t (⟨c.m, c.p, fun i j => c.get 0 i j⟩ : Arr2 (Option ℝ))
  cases t <;> exact h

private theorem cube_get (t : DvMove) (c : Arr3 (Option ℝ)) (v : ℕ) (p : ℕ × ℕ) :
    (Spec.moveCube t c).get v p.1 p.2 = c.get v (t.σ c.m p).1 (t.σ c.m p).2 := by
  cases t <;> rfl

private theorem cube_chan (t : DvMove) (c : Arr3 (Option ℝ)) : (Spec.moveCube t c).n = c.n := by
  cases t <;> rfl

private theorem scf_moved (t : DvMove) (c : Arr3 (Option ℝ)) {P P' : Finset (Spec.Pix × Spec.Pix)}
    (hP : P ⊆ (range c.m ×ˢ range c.p) ×ˢ (range c.m ×ˢ range c.p))
    (hP' : P' ⊆ (range (Spec.moveCube t c).m ×ˢ range (Spec.moveCube t c).p) ×ˢ (range (Spec.moveCube t c).m ×ˢ range (Spec.moveCube t c).p))
    (h : ∀ p ∈ range (Spec.moveCube t c).m ×ˢ range (Spec.moveCube t c).p, ∀ q ∈ range (Spec.moveCube t c).m ×ˢ range (Spec.moveCube t c).p,
      ((p, q) ∈ P' ↔ (t.σ c.m p, t.σ c.m q) ∈ P)) : Spec.scf (Spec.moveCube t c) P' = Spec.scf c P := by
  classical
  have hσ := cube_map t c
  have hpow : ∀ p, Spec.power (Spec.moveCube t c) p = Spec.power c (t.σ c.m p) := by
    intro p
    unfold Spec.power
    rw [cube_chan]
    simp only [cube_get]
  have hsq : ∀ p q, Spec.sqDiff (Spec.moveCube t c) p q = Spec.sqDiff c (t.σ c.m p) (t.σ c.m q) := by
    intro p q
    unfold Spec.sqDiff
    rw [cube_chan]
    simp only [cube_get]
  set G' := P'.filter (fun pq => Spec.power (Spec.moveCube t c) pq.1 + Spec.power (Spec.moveCube t c) pq.2 ≠ 0) with hG'
  set G := P.filter (fun pq => Spec.power c pq.1 + Spec.power c pq.2 ≠ 0) with hG
  let e : Spec.Pix × Spec.Pix → Spec.Pix × Spec.Pix := fun pq => (t.σ c.m pq.1, t.σ c.m pq.2)
  have maps : ∀ pq ∈ G', e pq ∈ G := by
    rintro ⟨p, q⟩ hpq
    rw [hG', mem_filter] at hpq
    have hin := mem_product.1 (hP' hpq.1)
    rw [hG, mem_filter]
    refine ⟨(h p hin.1 q hin.2).1 hpq.1, ?_⟩
    rw [← hpow, ← hpow]
    exact hpq.2
  have inj : Set.InjOn e G' := by
    rintro ⟨p, q⟩ hpq ⟨p', q'⟩ hpq' he
    have h1 := mem_product.1 (hP' (mem_filter.1 hpq).1)
    have h2 := mem_product.1 (hP' (mem_filter.1 hpq').1)
    have he' := Prod.mk.inj he
    exact Prod.ext (hσ.injOn h1.1 h2.1 he'.1) (hσ.injOn h1.2 h2.2 he'.2)
  have surj : Set.SurjOn e G' G := by
    rintro ⟨p, q⟩ hpq
    have hpq := mem_filter.1 hpq
    have h1 := mem_product.1 (hP hpq.1)
    obtain ⟨p', hp', rfl⟩ := hσ.surjOn h1.1
    obtain ⟨q', hq', rfl⟩ := hσ.surjOn h1.2
    refine ⟨(p', q'), mem_filter.2 ⟨(h p' hp' q' hq').2 hpq.1, ?_⟩, rfl⟩
    simp only [hpow]
    exact hpq.2
  have hcard : G'.card = G.card := card_nbij e maps inj surj
  have hsum : ∑ pq ∈ G', Spec.sqDiff (Spec.moveCube t c) pq.1 pq.2 / (Spec.power (Spec.moveCube t c) pq.1 + Spec.power (Spec.moveCube t c) pq.2)
      = ∑ pq ∈ G, Spec.sqDiff c pq.1 pq.2 / (Spec.power c pq.1 + Spec.power c pq.2) := by
    refine sum_nbij e maps inj surj fun pq _ => ?_
    rw [hsq, hpow, hpow]
  have hemp : G' = ∅ ↔ G = ∅ := by rw [← card_eq_zero, hcard, card_eq_zero]
  show (if G' = ∅ then none else some (1 - Real.sqrt (_ / (G'.card : ℝ)))) = (if G = ∅ then none else some (1 - Real.sqrt (_ / (G.card : ℝ))))
  rw [hsum, hcard]
  by_cases hz : G = ∅
  · rw [if_pos hz, if_pos (hemp.2 hz)]
  · rw [if_neg hz, if_neg fun hh => hz (hemp.1 hh)]

/-- What a move does to a lag. -/
private def lagMove (t : DvMove) (k l : ℤ) : ℤ × ℤ :=
  match t with
  | .mirror => (-k, l)
  | .swap => (l, k)
  | .roll _ => (k, l)

private theorem dvd_flip {n x y : ℤ} (h : y = -x) : n ∣ x ↔ n ∣ y := by rw [h, dvd_neg]

private theorem roll_sub {n : ℕ} (s : ℤ) {i j : ℕ} (hn : 0 < n) (d : ℤ) :
    (n : ℤ) ∣ (i : ℤ) - (j + d) ↔ (n : ℤ) ∣ ((rollIx n s i : ℕ) : ℤ) - (((rollIx n s j : ℕ) : ℤ) + d) := by
  obtain ⟨x, hx⟩ : (n : ℤ) ∣ ((rollIx n s i : ℕ) : ℤ) - ((i : ℤ) - s) := by
    rw [rollIx_cast hn]
    exact Int.dvd_emod_sub_self
  obtain ⟨y, hy⟩ : (n : ℤ) ∣ ((rollIx n s j : ℕ) : ℤ) - ((j : ℤ) - s) := by
    rw [rollIx_cast hn]
    exact Int.dvd_emod_sub_self
  have e : ((rollIx n s i : ℕ) : ℤ) - (((rollIx n s j : ℕ) : ℤ) + d) = (i : ℤ) - (j + d) + n * (x - y) := by
    rw [mul_sub, ← hx, ← hy]
    ring
  rw [e]
  exact (dvd_add_left (Dvd.intro _ rfl)).symm

private theorem periodic_moved (t : DvMove) (c : Arr3 (Option ℝ)) (k l : ℤ) :
    Spec.scf (Spec.moveCube t c) (Spec.periodicPairs (Spec.moveCube t c).m (Spec.moveCube t c).p k l) =
    Spec.scf c (Spec.periodicPairs c.m c.p (lagMove t k l).1 (lagMove t k l).2) := by
  refine scf_moved t c (filter_subset _ _) (filter_subset _ _) ?_
  rintro ⟨i, j⟩ hp ⟨i', j'⟩ hq
  obtain ⟨a1, a2⟩ := (cube_map t c).lt (mem_range.1 (mem_product.1 hp).1) (mem_range.1 (mem_product.1 hp).2)
  obtain ⟨b1, b2⟩ := (cube_map t c).lt (mem_range.1 (mem_product.1 hq).1) (mem_range.1 (mem_product.1 hq).2)
  have hp1 := mem_range.1 (mem_product.1 hp).1
  have hq1 := mem_range.1 (mem_product.1 hq).1
  unfold Spec.periodicPairs
  rw [mem_filter, mem_filter, and_iff_right (mem_product.2 ⟨hp, hq⟩),
    and_iff_right (mem_product.2 ⟨mem_product.2 ⟨mem_range.2 a1, mem_range.2 a2⟩, mem_product.2 ⟨mem_range.2 b1, mem_range.2 b2⟩⟩)]
  cases t with
  | mirror =>
    have hp1 : i < c.m := hp1
    have hq1 : i' < c.m := hq1
    refine and_congr (dvd_flip ?_) Iff.rfl
    show ((c.m - 1 - i : ℕ) : ℤ) - (((c.m - 1 - i' : ℕ) : ℤ) + -k) = -((i : ℤ) - (i' + k))
    omega
  | swap => exact and_comm
  | roll s => exact and_congr (roll_sub s (by omega) k) Iff.rfl

private theorem cut_moved {t : DvMove} (ht : t = .mirror ∨ t = .swap) (c : Arr3 (Option ℝ)) (k l : ℤ) :
    Spec.scf (Spec.moveCube t c) (Spec.doubledWrappedPairs (Spec.moveCube t c).m (Spec.moveCube t c).p k l) =
    Spec.scf c (Spec.doubledWrappedPairs c.m c.p (lagMove t k l).1 (lagMove t k l).2) := by
  refine scf_moved t c (filter_subset _ _) (filter_subset _ _) ?_
  rintro ⟨i, j⟩ hp ⟨i', j'⟩ hq
  obtain ⟨a1, a2⟩ := (cube_map t c).lt (mem_range.1 (mem_product.1 hp).1) (mem_range.1 (mem_product.1 hp).2)
  obtain ⟨b1, b2⟩ := (cube_map t c).lt (mem_range.1 (mem_product.1 hq).1) (mem_range.1 (mem_product.1 hq).2)
  have hp1 := mem_range.1 (mem_product.1 hp).1
  have hq1 := mem_range.1 (mem_product.1 hq).1
  unfold Spec.doubledWrappedPairs
  rw [mem_filter, mem_filter, and_iff_right (mem_product.2 ⟨hp, hq⟩),
    and_iff_right (mem_product.2 ⟨mem_product.2 ⟨mem_range.2 a1, mem_range.2 a2⟩, mem_product.2 ⟨mem_range.2 b1, mem_range.2 b2⟩⟩)]
  rcases ht with rfl | rfl
  · have hp1 : i < c.m := hp1
    have hq1 : i' < c.m := hq1
    refine and_congr ?_ (and_congr Iff.rfl (and_congr (dvd_flip ?_) Iff.rfl))
    · show (0 ≤ (i : ℤ) - k ∧ (i : ℤ) - k < c.m) ↔ (0 ≤ ((c.m - 1 - i : ℕ) : ℤ) - -k ∧ ((c.m - 1 - i : ℕ) : ℤ) - -k < c.m)
      omega
    · show ((c.m - 1 - i : ℕ) : ℤ) - (((c.m - 1 - i' : ℕ) : ℤ) + 2 * -k) = -((i : ℤ) - (i' + 2 * k))
      omega
  · constructor
    · rintro ⟨h1, h2, h3, h4⟩; exact ⟨h2, h1, h4, h3⟩
    · rintro ⟨h1, h2, h3, h4⟩; exact ⟨h2, h1, h4, h3⟩

/-! ### The surface -/

private theorem moveSurface_same {α : Type} (t : DvMove) {a b : Arr2 α} (h : a.Same b) : (Spec.moveSurface t a).Same (Spec.moveSurface t b) := by
  obtain ⟨h1, h2, h3⟩ := h
  cases t with
  | mirror =>
    refine ⟨h1, h2, fun i hi j hj => ?_⟩
    have hj : j < a.m := hj
    show a.get i (a.m - 1 - j) = b.get i (b.m - 1 - j)
    rw [← h2]
    exact h3 i hi _ (by omega)
  | swap => exact ⟨h2, h1, fun i hi j hj => h3 j hj i hi⟩
  | roll s => exact ⟨h1, h2, h3⟩

/-- The pairs compared for a boundary treatment. -/
private def pairsFor (b : String) (m p : ℕ) (k l : ℤ) : Finset (Spec.Pix × Spec.Pix) :=
  if b = "continuous" then Spec.periodicPairs m p k l else Spec.doubledWrappedPairs m p k l

private theorem surface_val {b : String} (hb : b = "continuous" ∨ b = "cut") (c : Arr3 (Option ℝ)) (lag : Arr1 ℤ)
    (hfit : b = "cut" → ∀ k < lag.n, |lag.get k| ≤ (min c.m c.p : ℕ)) :
    ∃ s, scfSurface b c (lag.map fun k : ℤ => (k : ℝ)) = .ok s ∧ s.n = lag.n ∧ s.m = lag.n ∧ ∀ j < lag.n, ∀ i < lag.n,
      s.get j i = Spec.scf c (pairsFor b c.m c.p (lag.get i) (lag.get j)) := by
  rcases hb with rfl | rfl
  · exact C25_surface_values c lag
  · obtain ⟨s, hs, hn, hm, hg⟩ := scfSurface_eq (boundary := "cut") (Or.inr rfl) (data := c) (lags := lag.map fun k : ℤ => (k : ℝ))
      (val := fun i j => Spec.scf c (Spec.doubledWrappedPairs c.m c.p (lag.get i) (lag.get j)))
      (fun i hi j hj => ⟨C26_compared_pairs_partial c (lag.get i) (lag.get j) (by have := hfit rfl i hi; omega) (by have := hfit rfl j hj; omega),
        fun r => spec_scf_le _ _ r⟩)
    exact ⟨s, hs, hn, hm, hg⟩

private theorem surface_move {b : String} (hb : b = "continuous" ∨ b = "cut") (c : Arr3 (Option ℝ)) (lag : Arr1 ℤ) (hsym : Spec.SymmetricLags lag)
    (hfit : b = "cut" → ∀ k < lag.n, |lag.get k| ≤ (min c.m c.p : ℕ)) {t : DvMove} (ht : b = "continuous" ∨ t = .mirror ∨ t = .swap) :
    ∃ s s', scfSurface b c (lag.map fun k : ℤ => (k : ℝ)) = .ok s ∧ scfSurface b (Spec.moveCube t c) (lag.map fun k : ℤ => (k : ℝ)) = .ok s' ∧
      s'.Same (Spec.moveSurface t s) := by
  obtain ⟨s, e, hn, hm, hg⟩ := surface_val hb c lag hfit
  have hfit' : b = "cut" → ∀ k < lag.n, |lag.get k| ≤ (min (Spec.moveCube t c).m (Spec.moveCube t c).p : ℕ) := by
    intro hbc k hk
    have := hfit hbc k hk
    cases t <;> simp only [Spec.moveCube, Arr3.roll1] <;> omega
  obtain ⟨s', e', hn', hm', hg'⟩ := surface_val hb (Spec.moveCube t c) lag hfit'
  have hval : ∀ k l, Spec.scf (Spec.moveCube t c) (pairsFor b (Spec.moveCube t c).m (Spec.moveCube t c).p k l) =
      Spec.scf c (pairsFor b c.m c.p (lagMove t k l).1 (lagMove t k l).2) := by
    intro k l
    unfold pairsFor
    rcases hb with rfl | rfl
    · rw [if_pos rfl, if_pos rfl]
      exact periodic_moved t c k l
    · rw [if_neg (by decide), if_neg (by decide)]
      exact cut_moved (ht.resolve_left (by decide)) c k l
  refine ⟨s, s', e, e', ?_⟩
  cases t with
  | mirror =>
    refine ⟨hn'.trans hn.symm, hm'.trans hm.symm, fun j hj i hi => ?_⟩
    rw [hn'] at hj
    rw [hm'] at hi
    show s'.get j i = s.get j (s.m - 1 - i)
    rw [hg' j hj i hi, hval, hm, hg j hj _ (by omega), hsym i hi]
    rfl
  | swap =>
    refine ⟨hn'.trans hm.symm, hm'.trans hn.symm, fun j hj i hi => ?_⟩
    rw [hn'] at hj
    rw [hm'] at hi
    show s'.get j i = s.get i j
    rw [hg' j hj i hi, hval, hg i hi j hj]
    rfl
  | roll x =>
    refine ⟨hn'.trans hn.symm, hm'.trans hm.symm, fun j hj i hi => ?_⟩
    rw [hn'] at hj
    rw [hm'] at hi
    show s'.get j i = s.get j i
    rw [hg' j hj i hi, hval, hg j hj i hi]
    rfl

private theorem moved_fit (ms : List DvMove) (c : Arr3 (Option ℝ)) : min (Spec.movedCube ms c).m (Spec.movedCube ms c).p = min c.m c.p := by
  induction ms with
  | nil => rfl
  | cons t ms ih =>
    cases t with
    | mirror => exact ih
    | swap => exact (min_comm _ _).trans ih
    | roll s => exact ih

/-- **SCF surface.** For whole-pixel lags that are the same in both directions, the correlation surface of the moved cube is the moved surface:
mirrored and with its axes exchanged like the cube, and unchanged by cyclic shifts (these for continuous boundaries only). -/
theorem C118_scf_surface (b : String) (hb : b = "continuous" ∨ b = "cut") (c : Arr3 (Option ℝ)) (lag : Arr1 ℤ) (hsym : Spec.SymmetricLags lag)
    (hfit : b = "cut" → ∀ k < lag.n, |lag.get k| ≤ (min c.m c.p : ℕ)) (ms : List DvMove) (hm : b = "continuous" ∨ Spec.Rigid ms) :
    ∃ s s', scfSurface b c (lag.map fun k : ℤ => (k : ℝ)) = .ok s ∧ scfSurface b (Spec.movedCube ms c) (lag.map fun k : ℤ => (k : ℝ)) = .ok s' ∧
      s'.Same (Spec.movedSurface ms s) := by
  induction ms with
  | nil =>
    obtain ⟨s, e, -⟩ := surface_val hb c lag hfit
    exact ⟨s, s, e, e, rfl, rfl, fun _ _ _ _ => rfl⟩
  | cons t ms ih =>
    obtain ⟨s, s₁, e, e₁, hs⟩ := ih (hm.imp_right fun h u hu => h u (by simp [hu]))
    obtain ⟨s₂, s', f, f', hs'⟩ := surface_move hb (Spec.movedCube ms c) lag hsym (by rw [moved_fit]; exact hfit)
      (t := t) (hm.imp_right fun h => h t (by simp))
    rw [e₁] at f
    cases f
    obtain ⟨a1, a2, a3⟩ := hs'
    obtain ⟨b1, b2, b3⟩ := moveSurface_same t hs
    exact ⟨s, s', e, f', a1.trans b1, a2.trans b2, fun i hi j hj => (a3 i hi j hj).trans (b3 i (a1 ▸ hi) j (a2 ▸ hj))⟩

/-! ### Spectrum and distance -/

/-- A rearrangement of a square surface that keeps the distance from the centre. -/
private structure Around (s' s : Arr2 (Option ℝ)) (N : ℕ) where
  σ : ℕ × ℕ → ℕ × ℕ
  n : s.n = N
  m : s.m = N
  n' : s'.n = N
  m' : s'.m = N
  map : PixelMap N N N N σ
  get : Rearranged σ s' s
  side : ∀ p : ℕ × ℕ, p.1 < N → p.2 < N →
    (((σ p).1 : ℤ) - (N / 2 : ℕ)) ^ 2 + (((σ p).2 : ℤ) - (N / 2 : ℕ)) ^ 2 = ((p.1 : ℤ) - (N / 2 : ℕ)) ^ 2 + ((p.2 : ℤ) - (N / 2 : ℕ)) ^ 2

private theorem around_refl {s : Arr2 (Option ℝ)} {N : ℕ} (hn : s.n = N) (hm : s.m = N) : Nonempty (Around s s N) :=
  ⟨⟨fun p => p, hn, hm, hn, hm, Set.bijOn_id _, fun _ _ _ _ => rfl, fun _ _ _ => rfl⟩⟩

private theorem around_move {s s' : Arr2 (Option ℝ)} {N : ℕ} (hN : N % 2 = 1) (h : Nonempty (Around s' s N)) (t : DvMove) :
    Nonempty (Around (Spec.moveSurface t s') s N) := by
  obtain ⟨⟨σ, hn, hm, hn', hm', hmap, hget, hside⟩⟩ := h
  cases t with
  | roll x => exact ⟨⟨σ, hn, hm, hn', hm', hmap, hget, hside⟩⟩
  | mirror =>
    have hmir : PixelMap N N N N fun p => (p.2, p.1) := dv_move_map .swap (⟨N, N, fun _ _ => 0⟩ : Arr2 ℕ)
    have hflip : PixelMap N N N N fun p => (N - 1 - p.1, p.2) := dv_move_map .mirror (⟨N, N, fun _ _ => 0⟩ : Arr2 ℕ)
    have hm1 : PixelMap N N N N fun p => (p.1, N - 1 - p.2) := hmir.comp (hflip.comp hmir)
    refine ⟨⟨fun p => σ (p.1, N - 1 - p.2), hn, hm, hn', hm', hmap.comp hm1, ?_, ?_⟩⟩
    · intro i hi j hj
      have hi : i < s'.n := hi
      have hj : j < s'.m := hj
      show s'.get i (s'.m - 1 - j) = _
      rw [hget i hi _ (by omega), hm']
    · intro p h1 h2
      rw [hside (p.1, N - 1 - p.2) h1 (by show N - 1 - p.2 < N; omega)]
      have : (((N - 1 - p.2 : ℕ) : ℤ) - (N / 2 : ℕ)) = -((p.2 : ℤ) - (N / 2 : ℕ)) := by omega
      show _ + (((N - 1 - p.2 : ℕ) : ℤ) - (N / 2 : ℕ)) ^ 2 = _
      rw [this, neg_sq]
  | swap =>
    have hmir : PixelMap N N N N fun p => (p.2, p.1) := dv_move_map .swap (⟨N, N, fun _ _ => 0⟩ : Arr2 ℕ)
    refine ⟨⟨fun p => σ (p.2, p.1), hn, hm, hm', hn', hmap.comp hmir, ?_, ?_⟩⟩
    · intro i hi j hj
      exact hget j hj i hi
    · intro p h1 h2
      rw [hside (p.2, p.1) h2 h1]
      ring

private theorem around_same {s s' s'' : Arr2 (Option ℝ)} {N : ℕ} (h : Nonempty (Around s' s N)) (hs : s''.Same s') : Nonempty (Around s'' s N) := by
  obtain ⟨⟨σ, hn, hm, hn', hm', hmap, hget, hside⟩⟩ := h
  obtain ⟨h1, h2, h3⟩ := hs
  exact ⟨⟨σ, hn, hm, h1.trans hn', h2.trans hm', hmap, fun i hi j hj => (h3 i hi j hj).trans (hget i (h1 ▸ hi) j (h2 ▸ hj)), hside⟩⟩

private theorem around_moved {s : Arr2 (Option ℝ)} {N : ℕ} (hN : N % 2 = 1) (hn : s.n = N) (hm : s.m = N) (ms : List DvMove) :
    Nonempty (Around (Spec.movedSurface ms s) s N) := by
  induction ms with
  | nil => exact around_refl hn hm
  | cons t ms ih => exact around_move hN ih t

private theorem samples_flat (s : Arr2 (Option ℝ)) (d : Arr2 ℝ) :
    pspecSamples s d none = (⟨s.n, s.m, fun i j => (s.get i j).map fun v => (d.get i j, v)⟩ : Arr2 (Option (ℝ × ℝ))).ravel.filterMap id := by
  unfold pspecSamples Arr2.ravel
  rw [List.filterMap_flatMap]
  refine List.flatMap_congr fun i _ => ?_
  rw [List.filterMap_map]
  refine List.filterMap_congr fun j _ => ?_
  show _ = (s.get i j).map fun v => (d.get i j, v)
  cases s.get i j <;> rfl

private theorem radius_get {n m : ℕ} (i j : ℕ) : (pspecDists n m).get i j = Spec.pixRadius n m i j := by
  simp only [pspecDists, hypotArr, makeRadialArrays, axisCentre, Arr2.map, Spec.pixRadius]
  rw [Int.cast_add, Int.cast_add, Int.cast_neg, Int.cast_neg, Int.cast_natCast, Int.cast_natCast, Int.cast_natCast, Int.cast_natCast]
  congr 2 <;> ring

private theorem around_output {s s' : Arr2 (Option ℝ)} {N : ℕ} (h : Nonempty (Around s' s N)) (e : Arr1 ℝ) (b : Bool) :
    pspecOutput s' (pspecDists N N) none e b = pspecOutput s (pspecDists N N) none e b := by
  obtain ⟨⟨σ, hn, hm, hn', hm', hmap, hget, hside⟩⟩ := h
  have hp : (pspecSamples s' (pspecDists N N) none).Perm (pspecSamples s (pspecDists N N) none) := by
    rw [samples_flat, samples_flat]
    refine (ravel_perm (σ := σ) (a := (⟨s.n, s.m, fun i j => (s.get i j).map fun v => ((pspecDists N N).get i j, v)⟩ : Arr2 (Option (ℝ × ℝ))))
      (n' := s'.n) (m' := s'.m) ?_ rfl rfl ?_).filterMap _
    · show PixelMap s'.n s'.m s.n s.m σ
      rw [hn, hm, hn', hm']
      exact hmap
    · intro i hi j hj
      have hi : i < s'.n := hi
      have hj : j < s'.m := hj
      show (s'.get i j).map _ = (s.get _ _).map _
      rw [hget i hi j hj]
      have hd : (pspecDists N N).get i j = (pspecDists N N).get (σ (i, j)).1 (σ (i, j)).2 := by
        rw [radius_get, radius_get]
        have := hside (i, j) (by omega) (by omega)
        have h' : (((σ (i, j)).1 : ℝ) - (N / 2 : ℕ)) ^ 2 + (((σ (i, j)).2 : ℝ) - (N / 2 : ℕ)) ^ 2
            = ((i : ℝ) - (N / 2 : ℕ)) ^ 2 + ((j : ℝ) - (N / 2 : ℕ)) ^ 2 := by exact_mod_cast this
        unfold Spec.pixRadius
        rw [h']
      rw [hd]
  have hbin : ∀ {β : Type} (f : List ℝ → β), (∀ l l' : List ℝ, l.Perm l' → f l = f l') →
      binnedStatistic (pspecSamples s' (pspecDists N N) none) e f = binnedStatistic (pspecSamples s (pspecDists N N) none) e f := by
    intro β f hf
    unfold binnedStatistic
    congr 1
    funext k
    exact hf _ _ ((hp.filter _).map _)
  have h1 := hbin npMean fun l l' hl => by
    unfold npMean
    rw [hl.length_eq, hl.sum_eq]
  have h2 := hbin List.length fun l l' hl => hl.length_eq
  simp only [pspecOutput, h1, h2]

private theorem around_pspec {s s' : Arr2 (Option ℝ)} {N : ℕ} (h : Nonempty (Around s' s N)) {a : PspecArgs} (hf : a.returnFreqs = false)
    (ht : a.theta0 = none) : pspecFn s' a = pspecFn s a := by
  have ho := around_output h
  obtain ⟨⟨σ, hn, hm, hn', hm', -⟩⟩ := h
  unfold pspecFn
  rw [hn, hm, hn', hm', hf, ht]
  simp only [pspecAzim, bind, Except.bind, pure, Except.pure, Bool.false_eq_true, if_false, ho]

/-- Lags, spectrum and mask of an `SCF` object, or the exception. -/
private noncomputable def spectrumOf (r : Py ScfObj) : Py (Arr1 ℝ × Arr1 (Option ℝ) × Option (Arr2 Bool)) := r.map fun o => (o.lags, o.spectrum, o.azim)

private theorem spectrum_surface {o : ScfObj} {s s' : Arr2 (Option ℝ)} {N : ℕ} (h : Nonempty (Around s' s N)) (data data' : Arr3 (Option ℝ)) {kw : ScfSpecKw}
    (ht : kw.theta0.join = none) :
    spectrumOf (({ o with surface := some s' } : ScfObj).computeSpectrum data' kw) = spectrumOf (({ o with surface := some s } : ScfObj).computeSpectrum data kw) := by
  have hp : pspecFn s' kw.args = pspecFn s kw.args := around_pspec h rfl ht
  simp only [ScfObj.computeSpectrum, ScfObj.ensureSurface, bind, Except.bind, pure, Except.pure, Option.getD_some, hp, spectrumOf]
  cases pspecFn s kw.args with
  | error e => rfl
  | ok out =>
    simp only []
    cases scfUnpack kw out with
    | error e => rfl
    | ok out' =>
      simp only [ScfObj.lagDiff]
      split_ifs <;> rfl

/-- The spectrum, when the surfaces of two cubes differ by the moves. -/
theorem scfSpectrum_moved (o : ScfObj) {b : String} {c c' : Arr3 (Option ℝ)} {kw : ScfSpecKw} {s s' : Arr2 (Option ℝ)} {N : ℕ} (hsize : o.size = o.rollLags.n)
    (hodd : N % 2 = 1) (e : scfSurface b c o.pixLags = .ok s) (e' : scfSurface b c' o.pixLags = .ok s') (hn : s.n = N ∧ s.m = N) (ms : List DvMove)
    (hs : s'.Same (Spec.movedSurface ms s)) (ht : kw.theta0.join = none) :
    ((do let o' ← o.computeSurface b c'
         o'.computeSpectrum c' kw : Py ScfObj).map fun o => (o.lags, o.spectrum, o.azim)) =
    ((do let o' ← o.computeSurface b c
         o'.computeSpectrum c kw : Py ScfObj).map fun o => (o.lags, o.spectrum, o.azim)) := by
  have hlen : o.rollLags.n = o.pixLags.n := rfl
  have har := around_same (around_moved hodd hn.1 hn.2 ms) hs
  have hsur : ∀ (d : Arr3 (Option ℝ)) (u : Arr2 (Option ℝ)), scfSurface b d o.pixLags = .ok u →
      o.computeSurface b d = .ok { o with surface := some u } := by
    intro d u hu
    unfold ScfObj.computeSurface
    rw [hsize, hlen, surfaceIn_eq, hu]
    rfl
  rw [hsur _ _ e, hsur _ _ e']
  exact spectrum_surface (o := o) har c c' ht

/-- `compute_spectrum` on an object without a surface computes the surface with continuous boundaries first. -/
theorem scfSpectrum_default {o : ScfObj} (hnew : o.surface = none) (d : Arr3 (Option ℝ)) (kw : ScfSpecKw) :
    (do let o' ← o.computeSurface "continuous" d
        o'.computeSpectrum d kw : Py ScfObj) = o.computeSpectrum d kw := by
  conv_rhs => unfold ScfObj.computeSpectrum ScfObj.ensureSurface
  rw [hnew]
  simp only [ScfObj.computeSurface, bind, Except.bind, pure, Except.pure]
  cases scfSurfaceIn "continuous" o.size d o.pixLags with
  | error e => rfl
  | ok s => rfl

/-- **SCF spectrum.** After the surface was computed, with either boundary, the spectrum without azimuthal limits does not depend on the orientation
of the cube, for whole-pixel lags that are the same in both directions. Missing: lags of a fraction of a pixel or different in the two directions,
and azimuthal limits (which should be turned with the cube). -/
theorem C118_scf_spectrum_partial (o : ScfObj) (b : String) (hb : b = "continuous" ∨ b = "cut") (c : Arr3 (Option ℝ)) (kw : ScfSpecKw) (lag : Arr1 ℤ)
    (hpix : o.pixLags = lag.map fun k : ℤ => (k : ℝ)) (hsize : o.size = o.rollLags.n) (hodd : lag.n % 2 = 1) (hsym : Spec.SymmetricLags lag)
    (hfit : b = "cut" → ∀ k < lag.n, |lag.get k| ≤ (min c.m c.p : ℕ)) (ht : kw.theta0.join = none) (ms : List DvMove)
    (hm : b = "continuous" ∨ Spec.Rigid ms) :
    ((do let o' ← o.computeSurface b (Spec.movedCube ms c)
         o'.computeSpectrum (Spec.movedCube ms c) kw : Py ScfObj).map fun o => (o.lags, o.spectrum, o.azim)) =
    ((do let o' ← o.computeSurface b c
         o'.computeSpectrum c kw : Py ScfObj).map fun o => (o.lags, o.spectrum, o.azim)) := by
  obtain ⟨s, s', e, e', hs⟩ := C118_scf_surface b hb c lag hsym hfit ms hm
  have hn : s.n = lag.n ∧ s.m = lag.n := by
    obtain ⟨u, f, h1, h2, -⟩ := surface_val hb c lag hfit
    rw [e] at f
    cases f
    exact ⟨h1, h2⟩
  rw [← hpix] at e e'
  exact scfSpectrum_moved o hsize hodd e e' hn ms hs ht

/-- The same for `compute_spectrum` alone on an object that has no surface yet. Missing: as in `C118_scf_spectrum_partial`. -/
theorem C118_scf_spectrum_default_partial (o : ScfObj) (c : Arr3 (Option ℝ)) (kw : ScfSpecKw) (lag : Arr1 ℤ) (hnew : o.surface = none)
    (hpix : o.pixLags = lag.map fun k : ℤ => (k : ℝ)) (hsize : o.size = o.rollLags.n) (hodd : lag.n % 2 = 1) (hsym : Spec.SymmetricLags lag)
    (ht : kw.theta0.join = none) (ms : List DvMove) :
    ((o.computeSpectrum (Spec.movedCube ms c) kw).map fun o => (o.lags, o.spectrum, o.azim)) =
    ((o.computeSpectrum c kw).map fun o => (o.lags, o.spectrum, o.azim)) := by
  have h := C118_scf_spectrum_partial o "continuous" (Or.inl rfl) c kw lag hpix hsize hodd hsym (by intro h; exact absurd h (by decide)) ht ms (Or.inl rfl)
  rw [scfSpectrum_default hnew, scfSpectrum_default hnew] at h
  exact h

/-- The distance, when the surfaces of two pairs of cubes differ by the same moves. -/
theorem scfDistance_moved (weighted : Bool) {N : ℕ} (hodd : N % 2 = 1) (ms : List DvMove) {s₁ s₂ s₁' s₂' : Arr2 (Option ℝ)} (a1 : s₁.n = N) (a2 : s₁.m = N)
    (b1 : s₂.n = N) (b2 : s₂.m = N) (hs1 : s₁'.Same (Spec.movedSurface ms s₁)) (hs2 : s₂'.Same (Spec.movedSurface ms s₂)) :
    scfDistance weighted N s₁' s₂' = scfDistance weighted N s₁ s₂ := by
  -- one rearrangement for both surfaces
  have both : ∃ σ, PixelMap N N N N σ ∧ (∀ s : Arr2 (Option ℝ), s.n = N → s.m = N →
      (Spec.movedSurface ms s).n = N ∧ (Spec.movedSurface ms s).m = N ∧
      ∀ i < N, ∀ j < N, (Spec.movedSurface ms s).get i j = s.get (σ (i, j)).1 (σ (i, j)).2) ∧
      ∀ j < N, ∀ i < N, scfWeight weighted N (σ (j, i)).1 (σ (j, i)).2 = scfWeight weighted N j i := by
    clear hs1 hs2
    induction ms with
    | nil => exact ⟨fun p => p, Set.bijOn_id _, fun s h1 h2 => ⟨h1, h2, fun _ _ _ _ => rfl⟩, fun _ _ _ _ => rfl⟩
    | cons t ms ih =>
      obtain ⟨σ, h1, h2, h3⟩ := ih
      have hsw : PixelMap N N N N fun p => (p.2, p.1) := dv_move_map .swap (⟨N, N, fun _ _ => 0⟩ : Arr2 ℕ)
      have hfl : PixelMap N N N N fun p => (N - 1 - p.1, p.2) := dv_move_map .mirror (⟨N, N, fun _ _ => 0⟩ : Arr2 ℕ)
      cases t with
      | roll x => exact ⟨σ, h1, h2, h3⟩
      | mirror =>
        have hm1 : PixelMap N N N N fun p => (p.1, N - 1 - p.2) := hsw.comp (hfl.comp hsw)
        refine ⟨fun p => σ (p.1, N - 1 - p.2), h1.comp hm1, fun s k1 k2 => ?_, fun j hj i hi => ?_⟩
        · obtain ⟨l1, l2, l3⟩ := h2 s k1 k2
          refine ⟨l1, l2, fun i hi j hj => ?_⟩
          show (Spec.movedSurface ms s).get i ((Spec.movedSurface ms s).m - 1 - j) = _
          rw [l2]
          exact l3 i hi _ (by omega)
        · show scfWeight weighted N (σ (j, N - 1 - i)).1 (σ (j, N - 1 - i)).2 = _
          rw [h3 j hj _ (by omega)]
          have hi' : (((N - 1 - i : ℕ) : ℤ) - (N / 2 : ℕ)) = -((i : ℤ) - (N / 2 : ℕ)) := by omega
          simp only [scfWeight, hi', neg_eq_zero, Int.cast_neg, neg_sq]
      | swap =>
        refine ⟨fun p => σ (p.2, p.1), h1.comp hsw, fun s k1 k2 => ?_, fun j hj i hi => ?_⟩
        · obtain ⟨l1, l2, l3⟩ := h2 s k1 k2
          exact ⟨l2, l1, fun i hi j hj => l3 j hj i hi⟩
        · show scfWeight weighted N (σ (i, j)).1 (σ (i, j)).2 = _
          rw [h3 i hi j hj]
          simp only [scfWeight, and_comm, add_comm]
  obtain ⟨σ, hσ, hmv, hwt⟩ := both
  obtain ⟨p1, p2, p3⟩ := hs1
  obtain ⟨q1, q2, q3⟩ := hs2
  obtain ⟨m1, m2, m3⟩ := hmv s₁ a1 a2
  obtain ⟨n1, n2, n3⟩ := hmv s₂ b1 b2
  have g1 : ∀ j < N, ∀ i < N, s₁'.get j i = s₁.get (σ (j, i)).1 (σ (j, i)).2 := fun j hj i hi =>
    (p3 j (by omega) i (by omega)).trans (m3 j hj i hi)
  have g2 : ∀ j < N, ∀ i < N, s₂'.get j i = s₂.get (σ (j, i)).1 (σ (j, i)).2 := fun j hj i hi =>
    (q3 j (by omega) i (by omega)).trans (n3 j hj i hi)
  have hex : (∃ j < N, ∃ i < N, s₁'.get j i = none ∨ s₂'.get j i = none) ↔ ∃ j < N, ∃ i < N, s₁.get j i = none ∨ s₂.get j i = none := by
    constructor
    · rintro ⟨j, hj, i, hi, h⟩
      rw [g1 j hj i hi, g2 j hj i hi] at h
      exact ⟨_, (hσ.lt hj hi).1, _, (hσ.lt hj hi).2, h⟩
    · rintro ⟨j, hj, i, hi, h⟩
      obtain ⟨⟨j', i'⟩, hp, he⟩ := hσ.surjOn (show (j, i) ∈ (↑(range N ×ˢ range N) : Set (ℕ × ℕ)) by simp [hj, hi])
      simp only [coe_product, coe_range, Set.mem_prod, Set.mem_Iio] at hp
      refine ⟨j', hp.1, i', hp.2, ?_⟩
      rw [g1 j' hp.1 i' hp.2, g2 j' hp.1 i' hp.2, he]
      exact h
  have hnum : ∑ j ∈ range N, ∑ i ∈ range N, ((s₁'.get j i).getD 0 - (s₂'.get j i).getD 0) ^ 2 * scfWeight weighted N j i
      = ∑ j ∈ range N, ∑ i ∈ range N, ((s₁.get j i).getD 0 - (s₂.get j i).getD 0) ^ 2 * scfWeight weighted N j i := by
    rw [← hσ.sum fun j i => ((s₁.get j i).getD 0 - (s₂.get j i).getD 0) ^ 2 * scfWeight weighted N j i]
    refine sum_congr rfl fun j hj => sum_congr rfl fun i hi => ?_
    rw [g1 j (mem_range.1 hj) i (mem_range.1 hi), g2 j (mem_range.1 hj) i (mem_range.1 hi), hwt j (mem_range.1 hj) i (mem_range.1 hi)]
  unfold scfDistance
  rw [if_pos (show s₁'.n = N ∧ s₁'.m = N ∧ s₂'.n = N ∧ s₂'.m = N from ⟨p1.trans m1, p2.trans m2, q1.trans n1, q2.trans n2⟩),
    if_pos (show s₁.n = N ∧ s₁.m = N ∧ s₂.n = N ∧ s₂.m = N from ⟨a1, a2, b1, b2⟩), hnum]
  by_cases h : ∃ j < N, ∃ i < N, s₁.get j i = none ∨ s₂.get j i = none
  · rw [if_pos h, if_pos (hex.2 h)]
  · rw [if_neg h, if_neg fun hh => h (hex.1 hh)]
/-- **SCF distance.** Moving both cubes alike leaves the distance of their surfaces as it is. -/
theorem C118_scf_distance (weighted : Bool) (b : String) (hb : b = "continuous" ∨ b = "cut") (c₁ c₂ : Arr3 (Option ℝ)) (lag : Arr1 ℤ)
    (hodd : lag.n % 2 = 1) (hsym : Spec.SymmetricLags lag) (hfit : b = "cut" → ∀ k < lag.n, |lag.get k| ≤ (min c₁.m c₁.p : ℕ) ∧ |lag.get k| ≤ (min c₂.m c₂.p : ℕ))
    (ms : List DvMove) (hm : b = "continuous" ∨ Spec.Rigid ms) (s₁ s₂ s₁' s₂' : Arr2 (Option ℝ))
    (e₁ : scfSurface b c₁ (lag.map fun k : ℤ => (k : ℝ)) = .ok s₁) (e₂ : scfSurface b c₂ (lag.map fun k : ℤ => (k : ℝ)) = .ok s₂)
    (e₁' : scfSurface b (Spec.movedCube ms c₁) (lag.map fun k : ℤ => (k : ℝ)) = .ok s₁')
    (e₂' : scfSurface b (Spec.movedCube ms c₂) (lag.map fun k : ℤ => (k : ℝ)) = .ok s₂') :
    scfDistance weighted lag.n s₁' s₂' = scfDistance weighted lag.n s₁ s₂ := by
  have shape : ∀ (c : Arr3 (Option ℝ)) (s : Arr2 (Option ℝ)), (b = "cut" → ∀ k < lag.n, |lag.get k| ≤ (min c.m c.p : ℕ)) →
      scfSurface b c (lag.map fun k : ℤ => (k : ℝ)) = .ok s → s.n = lag.n ∧ s.m = lag.n := by
    intro c s hf e
    obtain ⟨u, f, h1, h2, -⟩ := surface_val hb c lag hf
    rw [e] at f
    cases f
    exact ⟨h1, h2⟩
  have f₁ : b = "cut" → ∀ k < lag.n, |lag.get k| ≤ (min c₁.m c₁.p : ℕ) := fun h k hk => (hfit h k hk).1
  have f₂ : b = "cut" → ∀ k < lag.n, |lag.get k| ≤ (min c₂.m c₂.p : ℕ) := fun h k hk => (hfit h k hk).2
  obtain ⟨u, u', g1, g2, hs1⟩ := C118_scf_surface b hb c₁ lag hsym f₁ ms hm
  rw [e₁] at g1
  rw [e₁'] at g2
  cases g1
  cases g2
  obtain ⟨u, u', g1, g2, hs2⟩ := C118_scf_surface b hb c₂ lag hsym f₂ ms hm
  rw [e₂] at g1
  rw [e₂'] at g2
  cases g1
  cases g2
  obtain ⟨a1, a2⟩ := shape c₁ s₁ f₁ e₁
  obtain ⟨b1, b2⟩ := shape c₂ s₂ f₂ e₂
  exact scfDistance_moved weighted hodd ms a1 a2 b1 b2 hs1 hs2

/-- The lags of a new `SCF` object without `roll_lags` meet the conditions, whatever its size. -/
theorem C118_default_lags (size : ℕ) (hs : 1 ≤ size) :
    Spec.SymmetricLags (scfDefaultLags size) ∧ (scfDefaultLags size).n % 2 = 1 ∧ (scfObjInit size none).surface = none ∧
    (scfObjInit size none).pixLags = (scfDefaultLags size).map (fun k : ℤ => (k : ℝ)) ∧
    (scfObjInit size none).size = (scfObjInit size none).rollLags.n := by
  have hn : (scfDefaultLags size).n % 2 = 1 := by
    simp only [scfDefaultLags]
    split_ifs <;> omega
  refine ⟨fun k hk => ?_, hn, rfl, ?_, rfl⟩
  · simp only [scfDefaultLags] at hk hn ⊢
    omega
  · simp only [ScfObj.pixLags, scfObjInit, Arr1.map, one_mul]

end TS
