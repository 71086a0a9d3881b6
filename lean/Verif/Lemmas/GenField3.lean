import Verif.Lemmas.GenField
import Verif.Lemmas.Fourier

/-! The symmetry assignments of `make_3dfield`. -/

namespace TS
open Finset Classical

/-- `a` is `o` with the entries of `D` replaced by the conjugates of their mirror images. -/
def Desc3 (o a : Arr3 ℂ) (D : ℕ → ℕ → ℕ → Prop) : Prop :=
  a.n = o.n ∧ a.m = o.m ∧ a.p = o.p ∧ ∀ i < o.n, ∀ j < o.m, ∀ t < o.p,
    a.get i j t = if D i j t then cconj (o.get (negIx o.n i) (negIx o.m j) t) else o.get i j t

theorem step3 {o a : Arr3 ℂ} {D : ℕ → ℕ → ℕ → Prop} (h : Desc3 o a D) {d0 d1 s0 s1 : PySel} {P Q : ℕ → Prop} {c : ℤ} {c' : ℕ}
    (h0 : Mirrored o.n d0 s0 P) (h1 : Mirrored o.m d1 s1 Q) (hc : (c' : ℤ) = if c < 0 then o.p + c else c) (hc' : c' < o.p)
    (hfree : ∀ i < o.n, ∀ j < o.m, P i → Q j → ¬ D (negIx o.n i) (negIx o.m j) c') :
    ∃ b, a.assignSel cconj d0 d1 (.at c) s0 s1 (.at c) = .ok b ∧
      Desc3 o b (fun i j t => D i j t ∨ (P i ∧ Q j ∧ t = c')) := by
  obtain ⟨e1, e2, e3, hv⟩ := h
  unfold Arr3.assignSel
  simp only
  rw [e1, e2, e3, if_pos ⟨h0.1, h1.1, trivial⟩]
  refine ⟨_, rfl, rfl, rfl, rfl, ?_⟩
  intro i hi j hj t ht
  simp only
  rw [at_find hc]
  rcases h0.2 i hi with ⟨e, hP⟩ | ⟨k, e, hP, hk⟩
  · rw [e]
    simp only
    rw [hv i hi j hj t ht]
    congr 1
    simp [hP]
  · rcases h1.2 j hj with ⟨e', hQ⟩ | ⟨l, e', hQ, hl⟩
    · rw [e, e']
      simp only
      rw [hv i hi j hj t ht]
      congr 1
      simp [hQ]
    · rw [e, e']
      by_cases ht' : t = c'
      · rw [if_pos ht']
        simp only
        rw [hk, hl, at_ix hc, hv _ (negIx_lt hi) _ (negIx_lt hj) _ hc', if_neg (hfree i hi j hj hP hQ),
          if_pos (Or.inr ⟨hP, hQ, ht'⟩), ht']
      · rw [if_neg ht']
        simp only
        rw [hv i hi j hj t ht]
        congr 1
        simp [ht']

/-- A step together with the sets it writes. -/
structure SymInfo where
  st : SymStep3
  P : ℕ → Prop
  Q : ℕ → Prop
  c' : ℕ

theorem foldSym3 (infos : List SymInfo) (o : Arr3 ℂ) (U : ℕ → ℕ → Prop)
    (hU : ∀ i < o.n, ∀ j < o.m, U i j → ¬ U (negIx o.n i) (negIx o.m j))
    (hi : ∀ x ∈ infos, Mirrored o.n x.st.d0 x.st.s0 x.P ∧ Mirrored o.m x.st.d1 x.st.s1 x.Q ∧
      ((x.c' : ℕ) : ℤ) = (if x.st.c < 0 then o.p + x.st.c else x.st.c) ∧ x.c' < o.p ∧
      ∀ i < o.n, ∀ j < o.m, x.P i → x.Q j → U i j) :
    ∀ (a : Arr3 ℂ) (D : ℕ → ℕ → ℕ → Prop), Desc3 o a D → (∀ i < o.n, ∀ j < o.m, ∀ t, D i j t → U i j) →
    ∃ b, (infos.map (·.st)).foldlM (fun a st => Arr3.assignSel cconj a st.d0 st.d1 (.at st.c) st.s0 st.s1 (.at st.c)) a = .ok b ∧
      Desc3 o b (fun i j t => D i j t ∨ ∃ x ∈ infos, x.P i ∧ x.Q j ∧ t = x.c') := by
  induction infos with
  | nil =>
    intro a D hD _
    refine ⟨a, rfl, ?_⟩
    simpa using hD
  | cons x xs ih =>
    intro a D hD hDU
    obtain ⟨m0, m1, hc, hc', hPU⟩ := hi x (by simp)
    obtain ⟨b, hb, Db⟩ := step3 hD m0 m1 hc hc' (fun i hi' j hj' hP hQ hd =>
      hU i hi' j hj' (hPU i hi' j hj' hP hQ) (hDU _ (negIx_lt hi') _ (negIx_lt hj') _ hd))
    obtain ⟨b', hb', Db'⟩ := ih (fun y hy => hi y (List.mem_cons_of_mem _ hy)) b _ Db (by
      rintro i hi' j hj' t (h | ⟨hP, hQ, _⟩)
      · exact hDU i hi' j hj' t h
      · exact hPU i hi' j hj' hP hQ)
    refine ⟨b', ?_, ?_⟩
    · rw [List.map_cons, List.foldlM_cons, hb]
      simp only [bind, Except.bind]
      exact hb'
    · obtain ⟨q1, q2, q3, q4⟩ := Db'
      refine ⟨q1, q2, q3, ?_⟩
      intro i hi' j hj' t ht
      rw [q4 i hi' j hj' t ht]
      congr 1
      simp only [List.mem_cons, exists_eq_or_imp, or_assoc]

/-- Entries strictly between 0 and half way. -/
def LowIx (n i : ℕ) : Prop := i ≠ 0 ∧ 2 * i < n

/-- Entries past half way. -/
def HighIx (n i : ℕ) : Prop := n < 2 * i

/-- The half of a self-conjugate plane that is overwritten. -/
def HalfPlane (n i j : ℕ) : Prop := LowIx n i ∨ ((i = 0 ∨ 2 * i = n) ∧ LowIx n j)

theorem halfPlane_neg {n i j : ℕ} (hi : i < n) (hj : j < n) (h : HalfPlane n i j) : ¬ HalfPlane n (negIx n i) (negIx n j) := by
  unfold HalfPlane LowIx negIx at *
  split_ifs <;> omega

/-- The other half is the mirror image. -/
theorem halfPlane_or {n i j : ℕ} (hi : i < n) (hj : j < n) (h : ¬ HalfPlane n i j) (hs : ¬ (negIx n i = i ∧ negIx n j = j)) :
    HalfPlane n (negIx n i) (negIx n j) := by
  unfold HalfPlane LowIx negIx at *
  split_ifs at * <;> omega

private theorem sym3_list (n : ℕ) (hn : 0 < n) : ∃ infos : List SymInfo, symSteps3 n = infos.map (·.st) ∧
    (∀ x ∈ infos, Mirrored n x.st.d0 x.st.s0 x.P ∧ Mirrored n x.st.d1 x.st.s1 x.Q ∧
      ((x.c' : ℕ) : ℤ) = (if x.st.c < 0 then ((np1 n + 1 : ℕ) : ℤ) + x.st.c else x.st.c) ∧ x.c' < np1 n + 1 ∧
      ∀ i < n, ∀ j < n, x.P i → x.Q j → HalfPlane n i j) ∧
    (∀ i < n, ∀ j < n, ∀ t, (∃ x ∈ infos, x.P i ∧ x.Q j ∧ t = x.c') ↔ (HalfPlane n i j ∧ (t = 0 ∨ t = np1 n))) := by
  have hnp := np1_eq n
  have mu : Mirrored n (upTo (upB n)) (downTo n) (LowIx n) := up_down hn
  have md : Mirrored n (downTo n) (upTo (upB n)) (HighIx n) := down_up hn
  have mz : Mirrored n (.at 0) (.at 0) (fun i => i = 0) := at_self 0 (by simp [negIx])
  rcases Nat.mod_two_eq_zero_or_one n with hpar | hpar
  · have mh : Mirrored n (.at (np1 n : ℤ)) (.at (np1 n : ℤ)) (fun i => i = np1 n) :=
      at_self (np1 n) (by unfold negIx; split_ifs <;> omega)
    have hu : upB n = np1 n := by unfold upB; rw [if_pos hpar]
    rw [hu] at mu md
    let u := upTo (np1 n)
    let d := downTo n
    let z := PySel.at 0
    let h := PySel.at (np1 n)
    refine ⟨[⟨⟨u, u, d, d, 0⟩, LowIx n, LowIx n, 0⟩, ⟨⟨u, u, d, d, -1⟩, LowIx n, LowIx n, np1 n⟩,
      ⟨⟨u, d, d, u, 0⟩, LowIx n, HighIx n, 0⟩, ⟨⟨u, d, d, u, -1⟩, LowIx n, HighIx n, np1 n⟩,
      ⟨⟨u, d, d, u, 0⟩, LowIx n, HighIx n, 0⟩, ⟨⟨u, d, d, u, -1⟩, LowIx n, HighIx n, np1 n⟩,
      ⟨⟨u, h, d, h, 0⟩, LowIx n, fun i => i = np1 n, 0⟩, ⟨⟨u, h, d, h, -1⟩, LowIx n, fun i => i = np1 n, np1 n⟩,
      ⟨⟨h, u, h, d, 0⟩, fun i => i = np1 n, LowIx n, 0⟩, ⟨⟨h, u, h, d, -1⟩, fun i => i = np1 n, LowIx n, np1 n⟩,
      ⟨⟨u, z, d, z, 0⟩, LowIx n, fun i => i = 0, 0⟩, ⟨⟨u, z, d, z, -1⟩, LowIx n, fun i => i = 0, np1 n⟩,
      ⟨⟨z, u, z, d, 0⟩, fun i => i = 0, LowIx n, 0⟩, ⟨⟨z, u, z, d, -1⟩, fun i => i = 0, LowIx n, np1 n⟩], ?_, ?_, ?_⟩
    · unfold symSteps3; rw [if_pos hpar]; rfl
    · intro x hx
      simp only [List.mem_cons, List.not_mem_nil, or_false] at hx
      rcases hx with rfl | rfl | rfl | rfl | rfl | rfl | rfl | rfl | rfl | rfl | rfl | rfl | rfl | rfl <;>
        refine ⟨by first | exact mu | exact md | exact mz | exact mh, by first | exact mu | exact md | exact mz | exact mh,
          by simp, by simp, ?_⟩ <;>
        (intro i hi j hj hP hQ; unfold HalfPlane; unfold LowIx at *; simp only at *; omega)
    · intro i hi j hj t
      simp only [List.mem_cons, List.not_mem_nil, or_false, exists_eq_or_imp, exists_eq_left]
      have tj : (j = 0 ∨ LowIx n j ∨ HighIx n j ∨ j = np1 n) := by unfold LowIx HighIx; omega
      have ti : (i = 0 ∨ 2 * i = n) → (i = 0 ∨ i = np1 n) := by omega
      constructor
      · rintro (⟨a, b, c⟩ | ⟨a, b, c⟩ | ⟨a, b, c⟩ | ⟨a, b, c⟩ | ⟨a, b, c⟩ | ⟨a, b, c⟩ | ⟨a, b, c⟩ | ⟨a, b, c⟩ | ⟨a, b, c⟩ | ⟨a, b, c⟩ | ⟨a, b, c⟩ | ⟨a, b, c⟩ | ⟨a, b, c⟩ | ⟨a, b, c⟩) <;>
          refine ⟨?_, by first | exact Or.inl c | exact Or.inr c⟩ <;>
          first | exact Or.inl a | exact Or.inr ⟨by omega, b⟩
      · rintro ⟨a | ⟨a, b⟩, c | c⟩
        · rcases tj with b | b | b | b <;> repeat first | exact Or.inl ⟨a, b, c⟩ | exact ⟨a, b, c⟩ | apply Or.inr
        · rcases tj with b | b | b | b <;> repeat first | exact Or.inl ⟨a, b, c⟩ | exact ⟨a, b, c⟩ | apply Or.inr
        · rcases ti a with (a | a) <;> repeat first | exact Or.inl ⟨a, b, c⟩ | exact ⟨a, b, c⟩ | apply Or.inr
        · rcases ti a with (a | a) <;> repeat first | exact Or.inl ⟨a, b, c⟩ | exact ⟨a, b, c⟩ | apply Or.inr
  · have hu : upB n = np1 n + 1 := by unfold upB; rw [if_neg (by omega)]
    rw [hu] at mu md
    let u := upTo (np1 n + 1)
    let d := downTo n
    let z := PySel.at 0
    refine ⟨[⟨⟨u, u, d, d, 0⟩, LowIx n, LowIx n, 0⟩, ⟨⟨u, u, d, d, -1⟩, LowIx n, LowIx n, np1 n⟩,
      ⟨⟨u, d, d, u, 0⟩, LowIx n, HighIx n, 0⟩, ⟨⟨u, d, d, u, -1⟩, LowIx n, HighIx n, np1 n⟩,
      ⟨⟨u, d, d, u, 0⟩, LowIx n, HighIx n, 0⟩, ⟨⟨u, d, d, u, -1⟩, LowIx n, HighIx n, np1 n⟩,
      ⟨⟨u, z, d, z, 0⟩, LowIx n, fun i => i = 0, 0⟩, ⟨⟨u, z, d, z, -1⟩, LowIx n, fun i => i = 0, np1 n⟩,
      ⟨⟨z, u, z, d, 0⟩, fun i => i = 0, LowIx n, 0⟩, ⟨⟨z, u, z, d, -1⟩, fun i => i = 0, LowIx n, np1 n⟩], ?_, ?_, ?_⟩
    · unfold symSteps3; rw [if_neg (by omega)]; rfl
    · intro x hx
      simp only [List.mem_cons, List.not_mem_nil, or_false] at hx
      rcases hx with rfl | rfl | rfl | rfl | rfl | rfl | rfl | rfl | rfl | rfl <;>
        refine ⟨by first | exact mu | exact md | exact mz, by first | exact mu | exact md | exact mz,
          by simp, by simp, ?_⟩ <;>
        (intro i hi j hj hP hQ; unfold HalfPlane; unfold LowIx at *; simp only at *; omega)
    · intro i hi j hj t
      simp only [List.mem_cons, List.not_mem_nil, or_false, exists_eq_or_imp, exists_eq_left]
      have tj : (j = 0 ∨ LowIx n j ∨ HighIx n j) := by unfold LowIx HighIx; omega
      have ti : (i = 0 ∨ 2 * i = n) → (i = 0) := by omega
      constructor
      · rintro (⟨a, b, c⟩ | ⟨a, b, c⟩ | ⟨a, b, c⟩ | ⟨a, b, c⟩ | ⟨a, b, c⟩ | ⟨a, b, c⟩ | ⟨a, b, c⟩ | ⟨a, b, c⟩ | ⟨a, b, c⟩ | ⟨a, b, c⟩) <;>
          refine ⟨?_, by first | exact Or.inl c | exact Or.inr c⟩ <;>
          first | exact Or.inl a | exact Or.inr ⟨by omega, b⟩
      · rintro ⟨a | ⟨a, b⟩, c | c⟩
        · rcases tj with b | b | b <;> repeat first | exact Or.inl ⟨a, b, c⟩ | exact ⟨a, b, c⟩ | apply Or.inr
        · rcases tj with b | b | b <;> repeat first | exact Or.inl ⟨a, b, c⟩ | exact ⟨a, b, c⟩ | apply Or.inr
        · rcases ti a with a <;> repeat first | exact Or.inl ⟨a, b, c⟩ | exact ⟨a, b, c⟩ | apply Or.inr
        · rcases ti a with a <;> repeat first | exact Or.inl ⟨a, b, c⟩ | exact ⟨a, b, c⟩ | apply Or.inr

theorem realFold3 (pts : List (ℤ × ℤ × ℤ)) (n m p : ℕ) (g : ℕ → ℕ → ℕ → ℂ)
    (hp : ∀ q ∈ pts, 0 ≤ wrapIx n q.1 ∧ 0 ≤ wrapIx m q.2.1 ∧ 0 ≤ wrapIx p q.2.2) :
    pts.foldlM (fun a q => Arr3.assignSel realPart a (.at q.1) (.at q.2.1) (.at q.2.2) (.at q.1) (.at q.2.1) (.at q.2.2))
        (⟨n, m, p, g⟩ : Arr3 ℂ) =
      .ok ⟨n, m, p, fun i j t => if ∃ q ∈ pts, (i : ℤ) = wrapIx n q.1 ∧ (j : ℤ) = wrapIx m q.2.1 ∧ (t : ℤ) = wrapIx p q.2.2
        then realPart (g i j t) else g i j t⟩ := by
  induction pts generalizing g with
  | nil => simp; rfl
  | cons q pts ih =>
    obtain ⟨h1, h2, h3⟩ := hp q (by simp)
    have hx : ((wrapIx n q.1).toNat : ℤ) = if q.1 < 0 then n + q.1 else q.1 := Int.toNat_of_nonneg h1
    have hy : ((wrapIx m q.2.1).toNat : ℤ) = if q.2.1 < 0 then m + q.2.1 else q.2.1 := Int.toNat_of_nonneg h2
    have hz : ((wrapIx p q.2.2).toNat : ℤ) = if q.2.2 < 0 then p + q.2.2 else q.2.2 := Int.toNat_of_nonneg h3
    have hstep : Arr3.assignSel realPart ⟨n, m, p, g⟩ (.at q.1) (.at q.2.1) (.at q.2.2) (.at q.1) (.at q.2.1) (.at q.2.2) =
        .ok ⟨n, m, p, fun i j t => if (i : ℤ) = wrapIx n q.1 ∧ (j : ℤ) = wrapIx m q.2.1 ∧ (t : ℤ) = wrapIx p q.2.2
          then realPart (g i j t) else g i j t⟩ := by
      unfold Arr3.assignSel
      simp only [and_self, if_true]
      congr 2
      funext i j t
      rw [at_find hx, at_find hy, at_find hz]
      by_cases c1 : i = (wrapIx n q.1).toNat
      · by_cases c2 : j = (wrapIx m q.2.1).toNat
        · by_cases c3 : t = (wrapIx p q.2.2).toNat
          · simp only [c1, c2, c3, if_true, at_ix hx, at_ix hy, at_ix hz]
            rw [if_pos (by omega)]
          · simp only [c1, c2, c3, if_true, if_false]; rw [if_neg (by omega)]
        · simp only [c1, c2, if_true, if_false]; rw [if_neg (by omega)]
      · simp only [c1, if_false]; rw [if_neg (by omega)]
    rw [List.foldlM_cons, hstep]
    simp only [bind, Except.bind]
    rw [ih _ (fun r hr => hp r (List.mem_cons_of_mem _ hr))]
    congr 2
    funext i j t
    by_cases c1 : (i : ℤ) = wrapIx n q.1 ∧ (j : ℤ) = wrapIx m q.2.1 ∧ (t : ℤ) = wrapIx p q.2.2
    · have hex : ∃ r ∈ q :: pts, (i : ℤ) = wrapIx n r.1 ∧ (j : ℤ) = wrapIx m r.2.1 ∧ (t : ℤ) = wrapIx p r.2.2 := ⟨q, by simp, c1⟩
      rw [if_pos c1, if_pos hex]
      split_ifs
      · exact realPart_realPart _
      · rfl
    · rw [if_neg c1]
      congr 1
      simp only [List.mem_cons, exists_eq_or_imp, c1, false_or]

theorem realSteps3_even {n : ℕ} (h : n % 2 = 0) : realSteps3 n = [((np1 n : ℤ), 0, 0), ((np1 n : ℤ), 0, -1), (0, (np1 n : ℤ), 0),
    (0, (np1 n : ℤ), -1), ((np1 n : ℤ), (np1 n : ℤ), 0), ((np1 n : ℤ), (np1 n : ℤ), -1), (0, 0, 0), (0, 0, -1)] := by
  simp [realSteps3, h]

theorem realSteps3_odd {n : ℕ} (h : n % 2 = 1) : realSteps3 n = [(0, 0, 0), (0, 0, -1)] := by
  simp [realSteps3, h]

/-- What the symmetry assignments of `make_3dfield` do to a half-space map. -/
theorem imposeSym3_spec (n : ℕ) (hn : 0 < n) (f : ℕ → ℕ → ℕ → ℂ) :
    ∃ g : ℕ → ℕ → ℕ → ℂ, imposeSym3 n ⟨n, n, np1 n + 1, f⟩ = .ok ⟨n, n, np1 n + 1, g⟩ ∧
      ∀ i < n, ∀ j < n, ∀ t < np1 n + 1, g i j t =
        if t ≠ 0 ∧ t ≠ np1 n then f i j t
        else if negIx n i = i ∧ negIx n j = j then realPart (f i j t)
        else if HalfPlane n i j then cconj (f (negIx n i) (negIx n j) t) else f i j t := by
  have hnp := np1_eq n
  obtain ⟨infos, hlist, hinfo, hcov⟩ := sym3_list n hn
  obtain ⟨b, hb, D⟩ : ∃ b, (infos.map (·.st)).foldlM (fun a st => Arr3.assignSel cconj a st.d0 st.d1 (.at st.c) st.s0 st.s1 (.at st.c))
      (⟨n, n, np1 n + 1, f⟩ : Arr3 ℂ) = .ok b ∧ Desc3 ⟨n, n, np1 n + 1, f⟩ b _ :=
    foldSym3 infos ⟨n, n, np1 n + 1, f⟩ (HalfPlane n) (fun i hi j hj h => halfPlane_neg hi hj h) hinfo
      ⟨n, n, np1 n + 1, f⟩ (fun _ _ _ => False) ⟨rfl, rfl, rfl, fun i _ j _ t _ => by simp⟩ (fun _ _ _ _ _ h => h.elim)
  obtain ⟨bn, bm, bp, bg⟩ := b
  obtain ⟨s1, s2, s3, hv⟩ := D
  simp only at s1 s2 s3 hv
  subst s1 s2 s3
  unfold imposeSym3
  rw [hlist]
  simp only [hb, bind, Except.bind]
  have hreal : ∀ i < bm, ∀ j < bm, ∀ t < np1 bm + 1,
      ((∃ q ∈ realSteps3 bm, (i : ℤ) = wrapIx bm q.1 ∧ (j : ℤ) = wrapIx bm q.2.1 ∧ (t : ℤ) = wrapIx (np1 bm + 1) q.2.2) ↔
        ((negIx bm i = i ∧ negIx bm j = j) ∧ (t = 0 ∨ t = np1 bm))) := by
    intro i hi j hj t ht
    have hw0 : wrapIx bm 0 = 0 := by simp [wrapIx]
    have hwh : wrapIx bm (np1 bm : ℤ) = np1 bm := by unfold wrapIx; rw [if_neg (by omega)]
    have hw0' : wrapIx (np1 bm + 1) 0 = 0 := by simp [wrapIx]
    have hwm : wrapIx (np1 bm + 1) (-1) = np1 bm := by simp [wrapIx]
    rcases Nat.mod_two_eq_zero_or_one bm with hpar | hpar
    · have hneg : ∀ i < bm, (negIx bm i = i ↔ (i = 0 ∨ i = np1 bm)) := by
        intro i hi; unfold negIx; split_ifs <;> omega
      rw [realSteps3_even hpar, hneg i hi, hneg j hj]
      simp only [List.mem_cons, List.not_mem_nil, or_false, exists_eq_or_imp,
        exists_eq_left, hw0, hwh, hw0', hwm]
      omega
    · have hneg : ∀ i < bm, (negIx bm i = i ↔ i = 0) := by
        intro i hi; unfold negIx; split_ifs <;> omega
      rw [realSteps3_odd hpar, hneg i hi, hneg j hj]
      simp only [List.mem_cons, List.not_mem_nil, or_false, exists_eq_or_imp,
        exists_eq_left, hw0, hw0', hwm]
      omega
  rw [realFold3 _ _ _ _ _ (by
    intro q hq
    have hw0 : wrapIx bm 0 = 0 := by simp [wrapIx]
    have hwh : wrapIx bm (np1 bm : ℤ) = np1 bm := by unfold wrapIx; rw [if_neg (by omega)]
    have hw0' : wrapIx (np1 bm + 1) 0 = 0 := by simp [wrapIx]
    have hwm : wrapIx (np1 bm + 1) (-1) = np1 bm := by simp [wrapIx]
    rcases Nat.mod_two_eq_zero_or_one bm with hpar | hpar
    · rw [realSteps3_even hpar] at hq
      simp only [List.mem_cons, List.not_mem_nil, or_false] at hq
      rcases hq with rfl | rfl | rfl | rfl | rfl | rfl | rfl | rfl <;>
        simp only [hw0, hwh, hw0', hwm] <;> omega
    · rw [realSteps3_odd hpar] at hq
      simp only [List.mem_cons, List.not_mem_nil, or_false] at hq
      rcases hq with rfl | rfl <;> simp only [hw0, hw0', hwm] <;> omega)]
  refine ⟨_, rfl, ?_⟩
  intro i hi j hj t ht
  simp only [hreal i hi j hj t ht]
  rw [hv i hi j hj t ht]
  simp only [false_or, hcov i hi j hj t]
  have hself : negIx bm i = i ∧ negIx bm j = j → ¬ HalfPlane bm i j := by
    rintro ⟨a, b⟩ h
    have := halfPlane_neg hi hj h
    rw [a, b] at this
    exact this h
  by_cases ht0 : t = 0 ∨ t = np1 bm
  · rw [if_neg (by tauto : ¬ (t ≠ 0 ∧ t ≠ np1 bm))]
    by_cases hs : negIx bm i = i ∧ negIx bm j = j
    · rw [if_pos ⟨hs, ht0⟩, if_pos hs, if_neg (fun h => hself hs h.1)]
    · rw [if_neg (fun h => hs h.1), if_neg hs]
      by_cases h2 : HalfPlane bm i j
      · rw [if_pos ⟨h2, ht0⟩, if_pos h2]
      · rw [if_neg (fun h => h2 h.1), if_neg h2]
  · rw [if_neg (fun h => ht0 h.2), if_neg (fun h => ht0 h.2), if_pos (by tauto)]

private theorem idft1_congr' {n : ℕ} {F G : ℕ → ℂ} (h : ∀ k < n, F k = G k) (j : ℤ) : idft1 n F j = idft1 n G j := by
  unfold idft1
  congr 1
  apply sum_congr rfl; intro k hk
  rw [h k (mem_range.1 hk)]

private theorem idft2_im_zero {n m : ℕ} {G : ℕ → ℕ → ℂ}
    (h : ∀ k < n, ∀ l < m, (starRingEnd ℂ) (G (negIx n k) (negIx m l)) = G k l) (i j : ℤ) :
    (idft1 n (fun k1 => idft1 m (fun k2 => G k1 k2) j) i).im = 0 := by
  apply idft1_im_zero
  intro k hk
  rw [conj_idft1]
  exact idft1_congr' (fun l hl => h k hk l hl) j

/-- `rfftn(irfftn(a)) = a` for half spaces whose first and last planes are Hermitian. -/
theorem dft3_irfft3 {n m N : ℕ} (hN : 0 < N) (hev : N % 2 = 0) (g : ℕ → ℕ → ℕ → ℂ)
    (hs : ∀ q, q = 0 ∨ q = N / 2 → ∀ k < n, ∀ l < m, (starRingEnd ℂ) (g (negIx n k) (negIx m l) q) = g k l q)
    {k l q : ℕ} (hk : k < n) (hl : l < m) (hq : q ≤ N / 2) :
    dft3 n m N (fun i j t => (irfft1 N (fun q => idft1 n (fun k1 => idft1 m (fun k2 => g k1 k2 q) j) i) t : ℂ)) k l q = g k l q := by
  rw [dft3_eq_dft1]
  simp only [dft2_eq_dft1]
  have h1 : ∀ i j : ℕ, dft1 N (fun t => (irfft1 N (fun q => idft1 n (fun k1 => idft1 m (fun k2 => g k1 k2 q) j) i) t : ℂ)) q =
      idft1 n (fun k1 => idft1 m (fun k2 => g k1 k2 q) j) i := by
    intro i j
    exact dft1_irfft1 hN hev _ (idft2_im_zero (hs 0 (Or.inl rfl)) i j) (idft2_im_zero (hs _ (Or.inr rfl)) i j) hq
  have h2 : ∀ i : ℕ, dft1 m (fun j => idft1 n (fun k1 => idft1 m (fun k2 => g k1 k2 q) j) i) l = idft1 n (fun k1 => g k1 l q) i := by
    intro i
    unfold idft1
    have : ∀ j : ℕ, (1 / (n : ℂ) * ∑ k1 ∈ range n, (1 / (m : ℂ) * ∑ k2 ∈ range m, g k1 k2 q * om m (-((j : ℤ) * k2))) * om n (-((i : ℤ) * k1))) =
        ∑ k1 ∈ range n, (1 / (n : ℂ) * om n (-((i : ℤ) * k1))) * idft1 m (fun k2 => g k1 k2 q) j := by
      intro j
      rw [mul_sum]
      apply sum_congr rfl; intro k1 _
      unfold idft1
      ring
    simp only [this]
    have h3 : dft1 m (fun j : ℕ => ∑ k1 ∈ range n, (1 / (n : ℂ) * om n (-((i : ℤ) * k1))) * idft1 m (fun k2 => g k1 k2 q) j) l =
        ∑ k1 ∈ range n, (1 / (n : ℂ) * om n (-((i : ℤ) * k1))) * dft1 m (fun j : ℕ => idft1 m (fun k2 => g k1 k2 q) j) l := by
      unfold dft1
      simp only [sum_mul, mul_sum]
      rw [sum_comm]
      apply sum_congr rfl; intro k1 _
      apply sum_congr rfl; intro j _
      ring
    rw [h3, mul_sum]
    apply sum_congr rfl; intro k1 _
    rw [dft1_idft1 _ hl]
    ring
  simp only [h1, h2]
  rw [dft1_idft1 _ hk]

end TS
