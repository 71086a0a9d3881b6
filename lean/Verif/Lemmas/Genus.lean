import Verif.Model.Genus
import Mathlib.Data.Set.Card
import Mathlib.Tactic.Linarith

/-! Facts about connected regions and their labels. -/

namespace TS
open Finset

theorem Neighbours.symm {conn : ℕ} {p q : ℕ × ℕ} (h : Neighbours conn p q) : Neighbours conn q p := by
  obtain ⟨a, b, c, d, e⟩ := h
  refine ⟨b, a, d, c, ?_⟩
  simp only [eq_comm (a := q.1), eq_comm (a := q.2)]
  exact e

theorem Linked.symm {a : Arr2 Bool} {conn : ℕ} {p q : ℕ × ℕ} (h : Linked a conn p q) : Linked a conn q p := by
  induction h with
  | refl => exact Relation.ReflTransGen.refl
  | tail _ hs ih => exact Relation.ReflTransGen.head ⟨hs.2.1, hs.1, hs.2.2.symm⟩ ih

theorem Linked.trans {a : Arr2 Bool} {conn : ℕ} {p q r : ℕ × ℕ} (h : Linked a conn p q) (h2 : Linked a conn q r) :
    Linked a conn p r := Relation.ReflTransGen.trans h h2

theorem Linked.on {a : Arr2 Bool} {conn : ℕ} {p q : ℕ × ℕ} (h : Linked a conn p q) (hp : a.On p) : a.On q := by
  induction h with
  | refl => exact hp
  | tail _ hs _ => exact hs.2.1

theorem raster_inj {a : Arr2 Bool} {p q : ℕ × ℕ} (hp : a.On p) (hq : a.On q) (h : raster a p = raster a q) : p = q := by
  unfold raster at h
  have h1 := hp.2.1
  have h2 := hq.2.1
  have hm : 0 < a.m := by omega
  have e1 : (p.1 * a.m + p.2) / a.m = p.1 := by
    rw [Nat.add_comm, Nat.add_mul_div_right _ _ hm, Nat.div_eq_of_lt h1, Nat.zero_add]
  have e2 : (q.1 * a.m + q.2) / a.m = q.1 := by
    rw [Nat.add_comm, Nat.add_mul_div_right _ _ hm, Nat.div_eq_of_lt h2, Nat.zero_add]
  have h3 : p.1 = q.1 := by rw [← e1, ← e2, h]
  refine Prod.ext h3 ?_
  rw [h3] at h
  omega

theorem raster_lt {a : Arr2 Bool} {p : ℕ × ℕ} (hp : a.On p) : raster a p < a.n * a.m := by
  unfold raster
  have h1 := hp.1
  have h2 := hp.2.1
  calc p.1 * a.m + p.2 < p.1 * a.m + a.m := by omega
    _ = (p.1 + 1) * a.m := by ring
    _ ≤ a.n * a.m := Nat.mul_le_mul_right _ h1

theorem regionRoot_spec (a : Arr2 Bool) (conn : ℕ) (p : ℕ × ℕ) :
    ∃ q, Linked a conn p q ∧ raster a q = regionRoot a conn p :=
  Nat.sInf_mem (s := {r | ∃ q, Linked a conn p q ∧ raster a q = r}) ⟨raster a p, p, Relation.ReflTransGen.refl, rfl⟩

theorem regionRoot_congr {a : Arr2 Bool} {conn : ℕ} {p q : ℕ × ℕ} (h : Linked a conn p q) :
    regionRoot a conn p = regionRoot a conn q := by
  unfold regionRoot
  congr 1
  ext r
  constructor
  · rintro ⟨s, hs, hr⟩
    exact ⟨s, h.symm.trans hs, hr⟩
  · rintro ⟨s, hs, hr⟩
    exact ⟨s, h.trans hs, hr⟩

theorem regionRoot_eq_iff {a : Arr2 Bool} {conn : ℕ} {p q : ℕ × ℕ} (hp : a.On p) (hq : a.On q) :
    regionRoot a conn p = regionRoot a conn q ↔ Linked a conn p q := by
  refine ⟨fun h => ?_, regionRoot_congr⟩
  obtain ⟨s, hs, es⟩ := regionRoot_spec a conn p
  obtain ⟨t, ht, et⟩ := regionRoot_spec a conn q
  have : s = t := raster_inj (hs.on hp) (ht.on hq) (by rw [es, et, h])
  subst this
  exact hs.trans ht.symm

theorem regionRoot_mem {a : Arr2 Bool} {conn : ℕ} {p : ℕ × ℕ} (hp : a.On p) : regionRoot a conn p ∈ regionRoots a conn := by
  classical
  obtain ⟨s, hs, es⟩ := regionRoot_spec a conn p
  unfold regionRoots
  rw [mem_filter, mem_range, ← es]
  exact ⟨raster_lt (hs.on hp), s, hs.on hp, rfl, by rw [← regionRoot_congr hs, es]⟩

/-- Off pixels have label 0, on pixels a label from 1 to the number of regions. -/
theorem ndLabel_range {a : Arr2 Bool} {conn : ℕ} {p : ℕ × ℕ} (hp : a.On p) :
    1 ≤ ndLabel a conn p ∧ ndLabel a conn p ≤ ndLabelNum a conn := by
  unfold ndLabel ndLabelNum
  rw [if_pos hp]
  refine ⟨Finset.card_pos.2 ⟨regionRoot a conn p, ?_⟩, card_le_card (filter_subset _ _)⟩
  rw [mem_filter]
  exact ⟨regionRoot_mem hp, le_refl _⟩

theorem ndLabel_off {a : Arr2 Bool} {conn : ℕ} {p : ℕ × ℕ} (hp : ¬ a.On p) : ndLabel a conn p = 0 := by
  unfold ndLabel
  rw [if_neg hp]

theorem ndLabel_lt {a : Arr2 Bool} {conn : ℕ} {p q : ℕ × ℕ} (hp : a.On p) (hq : a.On q)
    (h : regionRoot a conn p < regionRoot a conn q) : ndLabel a conn p < ndLabel a conn q := by
  unfold ndLabel
  rw [if_pos hp, if_pos hq]
  apply card_lt_card
  rw [Finset.ssubset_iff_of_subset]
  · refine ⟨regionRoot a conn q, ?_, ?_⟩
    · rw [mem_filter]; exact ⟨regionRoot_mem hq, le_refl _⟩
    · rw [mem_filter]; intro hh; omega
  · intro r hr
    rw [mem_filter] at hr ⊢
    exact ⟨hr.1, by omega⟩

theorem ndLabel_eq_iff {a : Arr2 Bool} {conn : ℕ} {p q : ℕ × ℕ} (hp : a.On p) (hq : a.On q) :
    ndLabel a conn p = ndLabel a conn q ↔ Linked a conn p q := by
  rw [← regionRoot_eq_iff hp hq]
  constructor
  · intro h
    rcases lt_trichotomy (regionRoot a conn p) (regionRoot a conn q) with h1 | h1 | h1
    · exact absurd h (ne_of_lt (ndLabel_lt hp hq h1))
    · exact h1
    · exact absurd h.symm (ne_of_lt (ndLabel_lt hq hp h1))
  · intro h
    unfold ndLabel
    rw [if_pos hp, if_pos hq, h]

/-- The region of a pixel. -/
def linkedSet (a : Arr2 Bool) (conn : ℕ) (p : ℕ × ℕ) : Set (ℕ × ℕ) := {q | Linked a conn p q}

/-- All regions. -/
def regionSets (a : Arr2 Bool) (conn : ℕ) : Set (Set (ℕ × ℕ)) := {R | ∃ p, a.On p ∧ R = linkedSet a conn p}

theorem linkedSet_eq_iff {a : Arr2 Bool} {conn : ℕ} {p q : ℕ × ℕ} : linkedSet a conn p = linkedSet a conn q ↔ Linked a conn p q := by
  constructor
  · intro h
    have : q ∈ linkedSet a conn q := Relation.ReflTransGen.refl
    rw [← h] at this
    exact this
  · intro h
    ext r
    exact ⟨fun hr => h.symm.trans hr, fun hr => h.trans hr⟩

theorem ndLabelNum_eq (a : Arr2 Bool) (conn : ℕ) : ndLabelNum a conn = (regionSets a conn).ncard := by
  classical
  unfold ndLabelNum
  symm
  have : regionSets a conn = (fun r => {q | a.On q ∧ regionRoot a conn q = r}) '' (regionRoots a conn : Set ℕ) := by
    ext R
    constructor
    · rintro ⟨p, hp, rfl⟩
      refine ⟨regionRoot a conn p, regionRoot_mem hp, ?_⟩
      ext q
      constructor
      · rintro ⟨hq, e⟩
        exact (regionRoot_eq_iff hp hq).1 e.symm
      · intro hq
        exact ⟨Linked.on hq hp, ((regionRoot_eq_iff hp (Linked.on hq hp)).2 hq).symm⟩
    · rintro ⟨r, hr, rfl⟩
      rw [regionRoots, coe_filter, Set.mem_setOf_eq] at hr
      obtain ⟨_, p, hp, _, e⟩ := hr
      refine ⟨p, hp, ?_⟩
      ext q
      constructor
      · rintro ⟨hq, e2⟩
        exact (regionRoot_eq_iff hp hq).1 (by rw [e, e2])
      · intro hq
        exact ⟨Linked.on hq hp, by rw [← (regionRoot_eq_iff hp (Linked.on hq hp)).2 hq, e]⟩
  rw [this, Set.ncard_image_of_injOn, Set.ncard_coe_finset]
  intro r hr s hs h
  rw [regionRoots, coe_filter, Set.mem_setOf_eq] at hr
  obtain ⟨_, p, hp, _, e⟩ := hr
  have : p ∈ {q | a.On q ∧ regionRoot a conn q = r} := ⟨hp, e⟩
  simp only at h
  rw [h] at this
  rw [← e, this.2]

theorem linkedSet_finite {a : Arr2 Bool} {conn : ℕ} {p : ℕ × ℕ} (hp : a.On p) : (linkedSet a conn p).Finite := by
  refine Set.Finite.subset ((range a.n ×ˢ range a.m).finite_toSet) ?_
  intro q hq
  have := Linked.on hq hp
  rw [mem_coe, mem_product, mem_range, mem_range]
  exact ⟨this.1, this.2.1⟩

theorem labelSize_eq {a : Arr2 Bool} {conn : ℕ} {p : ℕ × ℕ} {i : ℕ} (hp : a.On p) (h : ndLabel a conn p = i + 1) :
    labelSize a conn i = (linkedSet a conn p).ncard := by
  classical
  unfold labelSize
  rw [← Set.ncard_coe_finset]
  congr 1
  ext q
  rw [mem_coe, mem_filter, mem_product, mem_range, mem_range]
  constructor
  · rintro ⟨_, e⟩
    have hq : a.On q := by
      by_contra hc
      rw [ndLabel_off hc] at e
      omega
    exact (ndLabel_eq_iff hp hq).1 (by rw [h, e])
  · intro hq
    have ho := Linked.on hq hp
    exact ⟨⟨ho.1, ho.2.1⟩, by rw [← h]; exact ((ndLabel_eq_iff hp ho).2 hq).symm⟩

theorem removeFold (a : Arr2 Bool) (minSize : ℤ) (conn : ℕ) (k : ℕ) :
    let b := (List.range k).foldl (fun (b : Arr2 Bool) i =>
      if (labelSize a conn i : ℤ) ≥ minSize then b
      else ⟨b.n, b.m, fun y x => if ndLabel a conn (y, x) = i + 1 then false else b.get y x⟩) a
    b.n = a.n ∧ b.m = a.m ∧ ∀ y x, (b.get y x = true ↔ a.get y x = true ∧
      ∀ i < k, ndLabel a conn (y, x) = i + 1 → minSize ≤ (labelSize a conn i : ℤ)) := by
  induction k with
  | zero => exact ⟨rfl, rfl, fun y x => by simp⟩
  | succ k ih =>
    rw [List.range_succ, List.foldl_append, List.foldl_cons, List.foldl_nil]
    obtain ⟨h1, h2, h3⟩ := ih
    simp only at h1 h2 h3 ⊢
    by_cases hs : (labelSize a conn k : ℤ) ≥ minSize
    · simp only [if_pos hs]
      refine ⟨h1, h2, fun y x => ?_⟩
      rw [h3]
      constructor
      · rintro ⟨e, h⟩
        refine ⟨e, fun i hi hl => ?_⟩
        rcases Nat.lt_succ_iff_lt_or_eq.1 hi with hi | hi
        · exact h i hi hl
        · rw [hi]; exact hs
      · rintro ⟨e, h⟩
        exact ⟨e, fun i hi hl => h i (by omega) hl⟩
    · simp only [if_neg hs]
      refine ⟨h1, h2, fun y x => ?_⟩
      by_cases hl : ndLabel a conn (y, x) = k + 1
      · rw [if_pos hl]
        constructor
        · intro h; exact absurd h (by simp)
        · rintro ⟨_, h⟩
          exact absurd (h k (by omega) hl) hs
      · rw [if_neg hl, h3]
        constructor
        · rintro ⟨e, h⟩
          refine ⟨e, fun i hi hl2 => ?_⟩
          rcases Nat.lt_succ_iff_lt_or_eq.1 hi with hi | hi
          · exact h i hi hl2
          · rw [hi] at hl2; exact absurd hl2 hl
        · rintro ⟨e, h⟩
          exact ⟨e, fun i hi hl2 => h i (by omega) hl2⟩

theorem remove_shape (a : Arr2 Bool) (minSize : ℤ) (conn : ℕ) :
    (removeSmallObjects a minSize conn).n = a.n ∧ (removeSmallObjects a minSize conn).m = a.m :=
  ⟨(removeFold a minSize conn _).1, (removeFold a minSize conn _).2.1⟩

theorem remove_on (a : Arr2 Bool) (minSize : ℤ) (conn : ℕ) (p : ℕ × ℕ) :
    (removeSmallObjects a minSize conn).On p ↔ a.On p ∧ minSize ≤ ((linkedSet a conn p).ncard : ℤ) := by
  obtain ⟨h1, h2, h3⟩ := removeFold a minSize conn (ndLabelNum a conn)
  unfold Arr2.On
  rw [(remove_shape a minSize conn).1, (remove_shape a minSize conn).2]
  have h4 := h3 p.1 p.2
  change (removeSmallObjects a minSize conn).get p.1 p.2 = true ↔ _ at h4
  rw [h4]
  constructor
  · rintro ⟨b1, b2, b3, b4⟩
    have hp : a.On p := ⟨b1, b2, b3⟩
    refine ⟨⟨b1, b2, b3⟩, ?_⟩
    obtain ⟨r1, r2⟩ := ndLabel_range (conn := conn) hp
    have hl : ndLabel a conn p = (ndLabel a conn p - 1) + 1 := by omega
    rw [← labelSize_eq hp hl]
    exact b4 _ (by omega) hl
  · rintro ⟨⟨b1, b2, b3⟩, b4⟩
    refine ⟨b1, b2, b3, fun i hi hl => ?_⟩
    rw [labelSize_eq (p := p) ⟨b1, b2, b3⟩ hl]
    exact b4

/-- Regions that survive are unchanged. -/
theorem remove_linked (a : Arr2 Bool) (minSize : ℤ) (conn : ℕ) (p : ℕ × ℕ) (hp : (removeSmallObjects a minSize conn).On p) :
    linkedSet (removeSmallObjects a minSize conn) conn p = linkedSet a conn p := by
  obtain ⟨hp1, hp2⟩ := (remove_on a minSize conn p).1 hp
  ext q
  constructor
  · intro h
    refine Relation.ReflTransGen.mono (r := fun x y => (removeSmallObjects a minSize conn).On x ∧ (removeSmallObjects a minSize conn).On y ∧ Neighbours conn x y) ?_ p q h
    rintro x y ⟨h1, h2, h3⟩
    exact ⟨((remove_on _ _ _ _).1 h1).1, ((remove_on _ _ _ _).1 h2).1, h3⟩
  · intro h
    have key : ∀ r, Linked a conn p r → (removeSmallObjects a minSize conn).On r := by
      intro r hr
      rw [remove_on]
      exact ⟨Linked.on hr hp1, by rw [← linkedSet_eq_iff.2 hr]; exact hp2⟩
    change Linked a conn p q at h
    change Linked _ conn p q
    induction h with
    | refl => exact Relation.ReflTransGen.refl
    | tail h1 h2 ih =>
      exact Relation.ReflTransGen.tail ih ⟨key _ h1, key _ (Relation.ReflTransGen.tail h1 h2), h2.2.2⟩

theorem remove_regions (a : Arr2 Bool) (minSize : ℤ) (conn : ℕ) :
    regionSets (removeSmallObjects a minSize conn) conn = {R ∈ regionSets a conn | minSize ≤ (R.ncard : ℤ)} := by
  ext R
  constructor
  · rintro ⟨p, hp, rfl⟩
    have h := (remove_on a minSize conn p).1 hp
    rw [remove_linked a minSize conn p hp]
    exact ⟨⟨p, h.1, rfl⟩, h.2⟩
  · rintro ⟨⟨p, hp, rfl⟩, hs⟩
    have h := (remove_on a minSize conn p).2 ⟨hp, hs⟩
    exact ⟨p, h, (remove_linked a minSize conn p h).symm⟩

end TS
