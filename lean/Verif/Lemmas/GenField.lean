import Verif.Model.GenField
import Verif.Lemmas.Hermite
import Verif.Lemmas.Slices

/-! The symmetry assignments of gen_field.py. -/

namespace TS
open Finset Classical

theorem SliceIx.find_step_neg {start : ℤ} {len : ℕ} (h : (len : ℤ) ≤ start + 1) (i : ℕ) :
    (⟨start, -1, len⟩ : SliceIx).find i =
      if start - len < i ∧ (i : ℤ) ≤ start then some (start - i).toNat else none := by
  unfold SliceIx.find
  split
  · rename_i h
    rw [List.find?_range_eq_some]
    refine ⟨?_, ?_, ?_⟩
    · simp [SliceIx.ix]; omega
    · simp; omega
    · intro j hj
      simp [SliceIx.ix]; omega
  · rename_i h
    rw [List.find?_eq_none]
    intro k hk
    simp [SliceIx.ix] at hk ⊢
    omega

theorem np1_eq (n : ℕ) : np1 n = n / 2 := by unfold np1; split_ifs <;> omega

/-- Destination `d` and source `s` on an axis of length `n` are mirror images, `P` being the destination. -/
def Mirrored (n : ℕ) (d s : PySel) (P : ℕ → Prop) : Prop :=
  (d.resolve n).len = (s.resolve n).len ∧ ∀ i < n,
    ((d.resolve n).find i = none ∧ ¬ P i) ∨
    (∃ k, (d.resolve n).find i = some k ∧ P i ∧ (s.resolve n).ix k = negIx n i)

theorem upTo_resolve {n : ℕ} {b : ℤ} (h1 : 1 ≤ b) (h2 : b ≤ n) : (upTo b).resolve n = ⟨1, 1, (b - 1).toNat⟩ :=
  resolve_range (by norm_num) h1 h2

theorem downTo_resolve {n : ℕ} (hn : 0 < n) : (downTo n).resolve n = ⟨(n : ℤ) - 1, -1, n - 1 - np1 n⟩ := by
  have h : np1 n = n / 2 := np1_eq n
  have h1 : adjustIx n true (n : ℤ) = (n : ℤ) - 1 := by
    unfold adjustIx; rw [if_neg (by omega), if_pos (le_refl _)]; rfl
  have h2 : adjustIx n true ((np1 n : ℕ) : ℤ) = (np1 n : ℕ) := by
    unfold adjustIx; rw [if_neg (by omega), if_neg (by omega)]
  unfold downTo PySel.resolve PySlice.resolve
  have hd : decide ((-1 : ℤ) < 0) = true := by decide
  simp only [hd, h1, h2, if_true, neg_neg, Int.ediv_one, SliceIx.mk.injEq, true_and]
  split_ifs <;> omega

/-- The upper bound used for either parity. -/
def upB (n : ℕ) : ℤ := if n % 2 = 0 then np1 n else np1 n + 1

theorem up_len {n : ℕ} (hn : 0 < n) : (upTo (upB n)).resolve n = ⟨1, 1, n - 1 - np1 n⟩ := by
  have h : np1 n = n / 2 := np1_eq n
  unfold upB
  split_ifs with h2
  · rw [upTo_resolve (by omega) (by omega)]
    congr 1; omega
  · rw [upTo_resolve (by omega) (by omega)]
    congr 1; omega

theorem up_down {n : ℕ} (hn : 0 < n) : Mirrored n (upTo (upB n)) (downTo n) (fun i => i ≠ 0 ∧ 2 * i < n) := by
  have h : np1 n = n / 2 := np1_eq n
  unfold Mirrored
  rw [up_len hn, downTo_resolve hn]
  refine ⟨rfl, ?_⟩
  intro i hi
  rw [SliceIx.find_step_one rfl (by norm_num)]
  split_ifs with h1
  · right
    simp only at h1
    refine ⟨_, rfl, by omega, ?_⟩
    unfold SliceIx.ix negIx
    simp only
    split_ifs <;> omega
  · left
    simp only at h1
    exact ⟨rfl, by omega⟩

theorem down_up {n : ℕ} (hn : 0 < n) : Mirrored n (downTo n) (upTo (upB n)) (fun i => n < 2 * i) := by
  have h : np1 n = n / 2 := np1_eq n
  unfold Mirrored
  rw [up_len hn, downTo_resolve hn]
  refine ⟨rfl, ?_⟩
  intro i hi
  rw [SliceIx.find_step_neg (by omega)]
  split_ifs with h1
  · right
    refine ⟨_, rfl, by omega, ?_⟩
    unfold SliceIx.ix negIx
    simp only
    split_ifs <;> omega
  · left
    exact ⟨rfl, by omega⟩

theorem at_find {n : ℕ} {c : ℤ} {c' : ℕ} (h : (c' : ℤ) = if c < 0 then n + c else c) (i : ℕ) :
    ((PySel.at c).resolve n).find i = if i = c' then some 0 else none := by
  have hr : (PySel.at c).resolve n = ⟨(c' : ℤ), 1, 1⟩ := by simp only [PySel.resolve, h]
  rw [hr, SliceIx.find_step_one rfl (Int.natCast_nonneg _)]
  simp only
  split_ifs with h1 h2 h2
  · congr 1; omega
  · omega
  · omega
  · rfl

theorem at_ix {n : ℕ} {c : ℤ} {c' : ℕ} (h : (c' : ℤ) = if c < 0 then n + c else c) :
    ((PySel.at c).resolve n).ix 0 = c' := by
  simp only [PySel.resolve, SliceIx.ix, ← h]
  omega

theorem at_self {n : ℕ} (c : ℕ) (hs : negIx n c = c) :
    Mirrored n (.at c) (.at c) (fun i => i = c) := by
  refine ⟨rfl, ?_⟩
  intro i hi
  have h : (c : ℤ) = if (c : ℤ) < 0 then n + (c : ℤ) else c := by rw [if_neg (by omega)]
  rw [at_find h]
  split_ifs with h1
  · right
    exact ⟨0, rfl, h1, by rw [at_ix h, h1, hs]⟩
  · left; exact ⟨rfl, h1⟩

/-! ### 2D -/

/-- `a` is `o` with the entries of `D` replaced by the conjugates of their mirror images. -/
def Desc2 (o a : Arr2 ℂ) (D : ℕ → ℕ → Prop) : Prop :=
  a.n = o.n ∧ a.m = o.m ∧ ∀ i < o.n, ∀ j < o.m,
    a.get i j = if D i j then cconj (o.get (negIx o.n i) j) else o.get i j

theorem step2 {o a : Arr2 ℂ} {D : ℕ → ℕ → Prop} (h : Desc2 o a D) {d s : PySel} {P : ℕ → Prop} {c : ℤ} {c' : ℕ}
    (hm : Mirrored o.n d s P) (hc : (c' : ℤ) = if c < 0 then o.m + c else c) (hc' : c' < o.m)
    (hfree : ∀ i < o.n, P i → ¬ D (negIx o.n i) c') :
    ∃ b, a.assignSel cconj d (.at c) s (.at c) = .ok b ∧ Desc2 o b (fun i j => D i j ∨ (P i ∧ j = c')) := by
  obtain ⟨h1, h2, h3⟩ := h
  unfold Arr2.assignSel
  simp only
  rw [h1, h2, if_pos ⟨hm.1, trivial⟩]
  refine ⟨_, rfl, rfl, rfl, ?_⟩
  intro i hi j hj
  simp only
  rw [at_find hc]
  rcases hm.2 i hi with ⟨e, hP⟩ | ⟨k, e, hP, hk⟩
  · rw [e]
    simp only
    rw [h3 i hi j hj]
    congr 1
    simp [hP]
  · rw [e]
    by_cases hj' : j = c'
    · rw [if_pos hj']
      simp only
      rw [hk, at_ix hc, h3 _ (negIx_lt hi) _ hc', if_neg (hfree i hi hP), if_pos (Or.inr ⟨hP, hj'⟩), hj']
    · rw [if_neg hj']
      simp only
      rw [h3 i hi j hj]
      congr 1
      simp [hj']

theorem realPart_realPart (z : ℂ) : realPart (realPart z) = realPart z := by simp [realPart]

/-- Index meant by an integer on an axis of length `n`. -/
def wrapIx (n : ℕ) (x : ℤ) : ℤ := if x < 0 then n + x else x

theorem realFold2 (pts : List (ℤ × ℤ)) (n m : ℕ) (g : ℕ → ℕ → ℂ)
    (hp : ∀ p ∈ pts, 0 ≤ wrapIx n p.1 ∧ 0 ≤ wrapIx m p.2) :
    pts.foldlM (fun a p => Arr2.assignSel realPart a (.at p.1) (.at p.2) (.at p.1) (.at p.2)) (⟨n, m, g⟩ : Arr2 ℂ) =
      .ok ⟨n, m, fun i j => if ∃ p ∈ pts, (i : ℤ) = wrapIx n p.1 ∧ (j : ℤ) = wrapIx m p.2 then realPart (g i j) else g i j⟩ := by
  induction pts generalizing g with
  | nil => simp; rfl
  | cons p pts ih =>
    obtain ⟨h1, h2⟩ := hp p (by simp)
    have hx : ((wrapIx n p.1).toNat : ℤ) = if p.1 < 0 then n + p.1 else p.1 := Int.toNat_of_nonneg h1
    have hy : ((wrapIx m p.2).toNat : ℤ) = if p.2 < 0 then m + p.2 else p.2 := Int.toNat_of_nonneg h2
    have hstep : Arr2.assignSel realPart ⟨n, m, g⟩ (.at p.1) (.at p.2) (.at p.1) (.at p.2) =
        .ok ⟨n, m, fun i j => if (i : ℤ) = wrapIx n p.1 ∧ (j : ℤ) = wrapIx m p.2 then realPart (g i j) else g i j⟩ := by
      unfold Arr2.assignSel
      simp only [and_self, if_true]
      congr 2
      funext i j
      rw [at_find hx, at_find hy]
      by_cases c1 : i = (wrapIx n p.1).toNat <;> by_cases c2 : j = (wrapIx m p.2).toNat
      · simp only [c1, c2, if_true, at_ix hx, at_ix hy]
        rw [if_pos (by omega)]
      · simp only [c1, c2, if_true, if_false]; rw [if_neg (by omega)]
      · simp only [c1, c2, if_true, if_false]; rw [if_neg (by omega)]
      · simp only [c1, c2, if_false]; rw [if_neg (by omega)]
    rw [List.foldlM_cons, hstep]
    simp only [bind, Except.bind]
    rw [ih _ (fun q hq => hp q (List.mem_cons_of_mem _ hq))]
    congr 2
    funext i j
    by_cases c1 : (i : ℤ) = wrapIx n p.1 ∧ (j : ℤ) = wrapIx m p.2
    · have hex : ∃ q ∈ p :: pts, (i : ℤ) = wrapIx n q.1 ∧ (j : ℤ) = wrapIx m q.2 := ⟨p, by simp, c1⟩
      rw [if_pos c1, if_pos hex]
      split_ifs
      · exact realPart_realPart _
      · rfl
    · rw [if_neg c1]
      congr 1
      simp only [List.mem_cons, exists_eq_or_imp, c1, false_or]

theorem symSteps2_eq (n : ℕ) : symSteps2 n = [⟨upTo (upB n), downTo n, 0⟩, ⟨upTo (upB n), downTo n, -1⟩] := by
  unfold symSteps2 upB; split_ifs <;> rfl

/-- What the symmetry assignments of `make_extended` do to a half-plane map. -/
theorem imposeSym2_spec (n : ℕ) (hn : 0 < n) (f : ℕ → ℕ → ℂ) :
    ∃ b, imposeSym2 n ⟨n, np1 n + 1, f⟩ = .ok b ∧ b.n = n ∧ b.m = np1 n + 1 ∧
      ∀ i < n, ∀ j < np1 n + 1, b.get i j =
        if j ≠ 0 ∧ j ≠ np1 n then f i j
        else if negIx n i = i then realPart (f i j)
        else if 2 * i < n then cconj (f (negIx n i) j) else f i j := by
  have hnp := np1_eq n
  set o : Arr2 ℂ := ⟨n, np1 n + 1, f⟩ with ho
  have d0 : Desc2 o o (fun _ _ => False) := ⟨rfl, rfl, fun i _ j _ => by simp⟩
  have e0 : ((0 : ℕ) : ℤ) = if (0 : ℤ) < 0 then ((o.m : ℕ) : ℤ) + 0 else 0 := by simp
  have e1 : ((np1 n : ℕ) : ℤ) = if (-1 : ℤ) < 0 then ((o.m : ℕ) : ℤ) + (-1) else -1 := by simp [ho]
  have hfree : ∀ i < n, (i ≠ 0 ∧ 2 * i < n) → ¬ (negIx n i ≠ 0 ∧ 2 * negIx n i < n) := by
    intro i hi h; unfold negIx; split_ifs <;> omega
  obtain ⟨b1, hb1, D1⟩ : ∃ b, o.assignSel cconj (upTo (upB n)) (.at 0) (downTo n) (.at 0) = .ok b ∧ Desc2 o b _ :=
    step2 d0 (up_down hn) e0 (by simp [ho]) (fun i hi _ => by simp)
  obtain ⟨b2, hb2, D2⟩ : ∃ b, b1.assignSel cconj (upTo (upB n)) (.at (-1)) (downTo n) (.at (-1)) = .ok b ∧ Desc2 o b _ :=
    step2 D1 (up_down hn) e1 (by simp [ho]) (fun i hi hP => by
    have := hfree i hi hP
    simp only [false_or]
    rintro ⟨h, _⟩; exact this h)
  have hshape1 : b2.n = n := D2.1
  have hshape2 : b2.m = np1 n + 1 := D2.2.1
  unfold imposeSym2
  rw [symSteps2_eq]
  simp only [List.foldlM_cons, List.foldlM_nil, hb1, hb2, bind, Except.bind, pure, Except.pure]
  have hval : ∀ i < n, ∀ j < np1 n + 1, b2.get i j = if (j = 0 ∨ j = np1 n) ∧ i ≠ 0 ∧ 2 * i < n then cconj (f (negIx n i) j) else f i j := by
    intro i hi j hj
    rw [D2.2.2 i hi j hj]
    by_cases h : (j = 0 ∨ j = np1 n) ∧ i ≠ 0 ∧ 2 * i < n
    · rw [if_pos h, if_pos (by tauto)]
    · rw [if_neg h, if_neg (by tauto)]
  obtain ⟨bn, bm, bg⟩ := b2
  simp only at hshape1 hshape2 hval
  subst hshape1 hshape2
  have hmem : ∀ i j : ℕ, i < bn → j < np1 bn + 1 →
      ((∃ p ∈ realSteps2 bn, (i : ℤ) = wrapIx bn p.1 ∧ (j : ℤ) = wrapIx (np1 bn + 1) p.2) ↔
        (negIx bn i = i ∧ (j = 0 ∨ j = np1 bn))) := by
    intro i j hi hj
    unfold realSteps2
    rcases Nat.mod_two_eq_zero_or_one bn with hpar | hpar
    · have hneg : negIx bn i = i ↔ (i = 0 ∨ i = np1 bn) := by unfold negIx; split_ifs <;> omega
      rw [if_pos hpar, hneg]
      simp [wrapIx]
      omega
    · have hneg : negIx bn i = i ↔ i = 0 := by unfold negIx; split_ifs <;> omega
      rw [if_neg (by omega), hneg]
      simp [wrapIx]
      omega
  rw [realFold2 _ _ _ _ (by
    intro p hp
    unfold realSteps2 at hp
    rcases Nat.mod_two_eq_zero_or_one bn with hpar | hpar
    · rw [if_pos hpar] at hp
      simp at hp
      rcases hp with rfl | rfl | rfl | rfl <;> simp [wrapIx] <;> split_ifs <;> omega
    · rw [if_neg (by omega)] at hp
      simp at hp
      rcases hp with rfl | rfl <;> simp [wrapIx])]
  refine ⟨_, rfl, rfl, rfl, ?_⟩
  intro i hi j hj
  simp only [hmem i j hi hj]
  rw [hval i hi j hj]
  have hself : negIx bn i = i → ¬ (i ≠ 0 ∧ 2 * i < bn) := by
    intro h; unfold negIx at h; split_ifs at h <;> omega
  by_cases hj0 : j = 0 ∨ j = np1 bn
  · rw [if_neg (by tauto : ¬ (j ≠ 0 ∧ j ≠ np1 bn))]
    by_cases hs : negIx bn i = i
    · rw [if_pos ⟨hs, hj0⟩, if_pos hs, if_neg (fun h => hself hs h.2)]
    · rw [if_neg (fun h => hs h.1), if_neg hs]
      have hi0 : i ≠ 0 := by rintro rfl; exact hs (by simp [negIx])
      by_cases h2 : 2 * i < bn
      · rw [if_pos ⟨hj0, hi0, h2⟩, if_pos h2]
      · rw [if_neg (fun h => h2 h.2.2), if_neg h2]
  · rw [if_neg (fun h => hj0 h.2), if_neg (fun h => hj0 h.1), if_pos (by tauto)]

/-! ### Inverse transforms -/

private theorem hermExt_herm {N : ℕ} (F : ℕ → ℂ) {k : ℕ} (hk : k < N) :
    (starRingEnd ℂ) (hermExt N F (negIx N k)) = hermExt N F k := by
  unfold hermExt negIx
  by_cases h0 : k = 0
  · simp [h0, realPart]
  · rw [if_neg h0]
    by_cases h1 : 2 * k = N
    · have : N - k = k := by omega
      rw [this, if_pos (Or.inr h1), if_pos (Or.inr h1)]
      simp [realPart]
    · by_cases h2 : 2 * k < N
      · rw [if_neg (by omega), if_neg (by omega), if_neg (by omega), if_pos h2]
        unfold cconj
        rw [Complex.conj_conj]
        congr 1; omega
      · rw [if_neg (by omega), if_pos (by omega), if_neg (by omega), if_neg h2]
        rfl

/-- `rfft(irfft(F)) = F` when the first and last entries are real. -/
theorem dft1_irfft1 {N : ℕ} (hN : 0 < N) (hev : N % 2 = 0) (F : ℕ → ℂ) (h0 : (F 0).im = 0) (hh : (F (N / 2)).im = 0)
    {l : ℕ} (hl : l ≤ N / 2) : dft1 N (fun j => (irfft1 N F j : ℂ)) l = F l := by
  have hreal : ∀ j : ℕ, (irfft1 N F j : ℂ) = idft1 N (hermExt N F) j := by
    intro j
    have := idft1_im_zero (F := hermExt N F) (fun k hk => hermExt_herm F hk) (j : ℤ)
    apply Complex.ext
    · simp [irfft1]
    · simp [this]
  simp only [hreal]
  rw [dft1_idft1 _ (by omega)]
  unfold hermExt
  split_ifs with c1 c2
  · rcases c1 with c1 | c1
    · subst c1
      apply Complex.ext <;> simp [realPart, h0]
    · have : l = N / 2 := by omega
      subst this
      apply Complex.ext <;> simp [realPart, hh]
  · rfl
  · omega

/-- `rfft2(irfft2(a)) = a` for half planes whose first and last columns are Hermitian. -/
theorem dft2_irfft2 {n N : ℕ} (hN : 0 < N) (hev : N % 2 = 0) (g : ℕ → ℕ → ℂ)
    (hs : ∀ l, l = 0 ∨ l = N / 2 → ∀ k < n, (starRingEnd ℂ) (g (negIx n k) l) = g k l)
    {k l : ℕ} (hk : k < n) (hl : l ≤ N / 2) :
    dft2 n N (fun i j => (irfft1 N (fun l => idft1 n (fun k => g k l) i) j : ℂ)) k l = g k l := by
  rw [dft2_eq_dft1]
  have : (fun i : ℕ => dft1 N (fun j => (irfft1 N (fun l => idft1 n (fun k => g k l) i) j : ℂ)) l) =
      fun i : ℕ => idft1 n (fun k => g k l) i := by
    funext i
    exact dft1_irfft1 hN hev _ (idft1_im_zero (hs 0 (Or.inl rfl)) i) (idft1_im_zero (hs _ (Or.inr rfl)) i) hl
  rw [this, dft1_idft1 _ hk]

theorem fullPowermap_spec (n : ℕ) (hn : 0 < n) (f : ℕ → ℕ → ℂ) :
    ∃ b, fullPowermap n ⟨n, np1 n + 1, f⟩ = .ok b ∧ b.n = n ∧ b.m = n ∧
      ∀ i < n, ∀ j < n, b.get i j = if j < n / 2 + 1 then f i j else cconj (f (negIx n i) (n - j)) := by
  have hc := mirrorCols n hn
  have hstar : ∀ g : Arr2 ℂ, (if n % 2 = 0 then (g.slice1 ⟨some (-2), some 0, -1⟩).map cconj
      else (g.slice1 ⟨some (-1), some 0, -1⟩).map cconj) = (g.slice1 (if n % 2 = 0 then
        (⟨some (-2), some 0, -1⟩ : PySlice) else ⟨some (-1), some 0, -1⟩)).map cconj := by
    intro g; split <;> rfl
  unfold fullPowermap
  rw [hstar, np1_eq]
  have hlen : n / 2 + 1 + (n - (n / 2 + 1)) = n := by omega
  simp only [Arr2.slice1, Arr2.map, hc, Arr2.slice0, Arr2.setSlice0, resolve_tail n hn, resolve_rev n hn,
    Arr2.concat1, bind, Except.bind, and_self, if_true, pure, Except.pure, hlen, ne_eq, not_true_eq_false, if_false]
  refine ⟨_, rfl, rfl, rfl, ?_⟩
  intro i hi j hj
  simp only
  split
  · rfl
  · rename_i hj2
    rw [find_tail n i hn hi]
    by_cases h1 : 1 ≤ i
    · simp only [if_pos h1, SliceIx.ix, negIx]
      rw [if_neg (by omega : ¬ i = 0)]
      congr 2
      · omega
      · omega
    · simp only [if_neg h1, SliceIx.ix, negIx]
      rw [if_pos (by omega : i = 0)]
      congr 2
      · omega
      · omega

end TS
