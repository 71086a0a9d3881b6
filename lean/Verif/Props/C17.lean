import Verif.Model.StatsUtils
import Mathlib.Analysis.SpecialFunctions.Log.Deriv

/-! C17 — the Kullback–Leibler divergence. -/

namespace TS

private theorem kl_pairs (p q : List ℝ) (hlen : p.length = q.length) :
    klDivergence (p.map some) (q.map some) = .ok (((p.zip q).map (fun t => klTerm t.1 t.2)).sum) := by
  unfold klDivergence
  rw [validVals_some, validVals_some]
  simp only [bcast, if_pos hlen]
  rfl

private theorem term_ge {a b : ℝ} (ha : 0 ≤ a) (hb : 0 < b) : a - b ≤ klTerm a b := by
  unfold klTerm
  rw [if_neg hb.ne']
  rcases eq_or_lt_of_le ha with h | h
  · rw [← h]; simp; exact hb.le
  · rw [if_neg (not_le.2 (div_pos h hb))]
    have h1 := Real.one_sub_inv_le_log_of_pos (div_pos h hb)
    rw [inv_div] at h1
    have := mul_le_mul_of_nonneg_left h1 ha
    have e : a * (1 - b / a) = a - b := by field_simp
    linarith

private theorem term_eq {a b : ℝ} (ha : 0 ≤ a) (hb : 0 < b) (h : klTerm a b = a - b) : a = b := by
  unfold klTerm at h
  rw [if_neg hb.ne'] at h
  rcases eq_or_lt_of_le ha with h0 | h0
  · rw [← h0] at h; simp at h; linarith
  · rw [if_neg (not_le.2 (div_pos h0 hb))] at h
    by_contra hne
    have hr : b / a ≠ 1 := by
      intro h1; rw [div_eq_one_iff_eq h0.ne'] at h1; exact hne h1.symm
    have h1 := Real.log_lt_sub_one_of_pos (div_pos hb h0) hr
    have h2 : Real.log (a / b) = - Real.log (b / a) := by rw [← Real.log_inv, inv_div]
    rw [h2] at h
    have := mul_lt_mul_of_pos_left h1 h0
    have e : a * (b / a - 1) = b - a := by field_simp
    linarith

private theorem zip_bound : ∀ (p q : List ℝ), p.length = q.length → (∀ v ∈ p, 0 ≤ v) → (∀ v ∈ q, 0 < v) →
    p.sum - q.sum ≤ ((p.zip q).map (fun t => klTerm t.1 t.2)).sum := by
  intro p
  induction p with
  | nil => intro q h _ _; cases q with
    | nil => simp
    | cons _ _ => simp at h
  | cons a p ih =>
    intro q h hp hq
    cases q with
    | nil => simp at h
    | cons b q =>
      have := ih q (by simpa using h) (fun v hv => hp v (List.mem_cons_of_mem _ hv))
        (fun v hv => hq v (List.mem_cons_of_mem _ hv))
      have h1 := term_ge (hp a (by simp)) (hq b (by simp))
      simp only [List.zip_cons_cons, List.map_cons, List.sum_cons]
      linarith

private theorem zip_eq : ∀ (p q : List ℝ), p.length = q.length → (∀ v ∈ p, 0 ≤ v) → (∀ v ∈ q, 0 < v) →
    ((p.zip q).map (fun t => klTerm t.1 t.2)).sum ≤ p.sum - q.sum → p = q := by
  intro p
  induction p with
  | nil => intro q h _ _ _; cases q with
    | nil => rfl
    | cons _ _ => simp at h
  | cons a p ih =>
    intro q h hp hq hle
    cases q with
    | nil => simp at h
    | cons b q =>
      have hp' : ∀ v ∈ p, 0 ≤ v := fun v hv => hp v (List.mem_cons_of_mem _ hv)
      have hq' : ∀ v ∈ q, 0 < v := fun v hv => hq v (List.mem_cons_of_mem _ hv)
      have hb := zip_bound p q (by simpa using h) hp' hq'
      have h1 := term_ge (hp a (by simp)) (hq b (by simp))
      simp only [List.zip_cons_cons, List.map_cons, List.sum_cons] at hle
      have e1 : a = b := term_eq (hp a (by simp)) (hq b (by simp)) (by linarith)
      have e2 : p = q := ih q (by simpa using h) hp' hq' (by linarith)
      rw [e1, e2]

/-- For complete distributions of equal length (`P` may contain zeros, `Q` is positive) the
divergence is non-negative, and it is zero exactly when the distributions coincide. -/
theorem C17_gibbs (p q : List ℝ) (hlen : p.length = q.length) (hp : ∀ v ∈ p, 0 ≤ v)
    (hq : ∀ v ∈ q, 0 < v) (sp : p.sum = 1) (sq : q.sum = 1) :
    ∃ d, klDivergence (p.map some) (q.map some) = .ok d ∧ 0 ≤ d ∧ (d = 0 ↔ p = q) := by
  refine ⟨_, kl_pairs p q hlen, ?_, ?_⟩
  · have := zip_bound p q hlen hp hq; linarith
  · constructor
    · intro h
      exact zip_eq p q hlen hp hq (by rw [h, sp, sq]; simp)
    · rintro rfl
      have : ∀ l : List ℝ, ((l.zip l).map (fun t => klTerm t.1 t.2)).sum = 0 := by
        intro l
        induction l with
        | nil => simp
        | cons a l ih =>
          simp only [List.zip_cons_cons, List.map_cons, List.sum_cons, ih, add_zero]
          unfold klTerm
          by_cases h0 : a = 0
          · simp [h0]
          · simp [h0]
      exact this p

example : ([1/2, 1/2] : List ℝ).sum = 1 ∧ ([1/4, 3/4] : List ℝ).sum = 1 ∧
    (∀ v ∈ ([1/4, 3/4] : List ℝ), 0 < v) := by
  refine ⟨by norm_num, by norm_num, ?_⟩
  intro v hv
  simp only [List.mem_cons, List.not_mem_nil, or_false] at hv
  rcases hv with rfl | rfl <;> norm_num

/-- Bins where only `Q` vanishes are dropped instead of giving infinity, so the value can be
negative for two genuine distributions. -/
theorem C17_negative_when_Q_has_zero :
    ∃ p q : List ℝ, p.length = q.length ∧ (∀ v ∈ p, 0 ≤ v) ∧ (∀ v ∈ q, 0 ≤ v) ∧ p.sum = 1 ∧
      q.sum = 1 ∧ ∃ d, klDivergence (p.map some) (q.map some) = .ok d ∧ d < 0 := by
  refine ⟨[1/2, 1/2], [0, 1], rfl, ?_, ?_, by norm_num, by norm_num, _, kl_pairs _ _ rfl, ?_⟩
  · intro v hv
    simp only [List.mem_cons, List.not_mem_nil, or_false] at hv
    rcases hv with rfl | rfl <;> norm_num
  · intro v hv
    simp only [List.mem_cons, List.not_mem_nil, or_false] at hv
    rcases hv with rfl | rfl <;> norm_num
  · have hlog : Real.log (1 / 2) < 0 := Real.log_neg (by norm_num) (by norm_num)
    simp only [List.zip_cons_cons, List.zip_nil_right, List.map_cons, List.map_nil,
      List.sum_cons, List.sum_nil]
    unfold klTerm
    norm_num
    linarith

/-- Missing values are removed from the two inputs separately, so bins that do not belong together
are paired: two different distributions get divergence 0. -/
theorem C17_missing_values_mispair :
    ∃ P Q : List (Option ℝ), P.length = Q.length ∧ klDivergence P Q = .ok 0 ∧
      (∃ i : ℕ, ∃ a b : ℝ, P[i]? = some (some a) ∧ Q[i]? = some (some b) ∧ a ≠ b) := by
  refine ⟨[none, some (1/4), some (3/4)], [some (1/4), some (3/4), none], rfl, ?_, 1, 1/4, 3/4, rfl, rfl,
    by norm_num⟩
  have h1 : validVals [none, some (1/4), some (3/4)] = [1/4, 3/4] := rfl
  have h2 : validVals [some (1/4), some (3/4), none] = [1/4, 3/4] := rfl
  unfold klDivergence
  rw [h1, h2]
  show Except.ok _ = _
  congr 1
  simp [klTerm]

/-- With missing values in the same bins of both inputs, the divergence is that of the remaining
bins. Missing: values missing in different bins (`C17_missing_values_mispair`). -/
theorem C17_common_missing_partial (P Q : List (Option ℝ)) (h : P.map Option.isSome = Q.map Option.isSome) :
    klDivergence P Q = .ok (((P.zip Q).filterMap
      (fun t => match t with | (some a, some b) => some (klTerm a b) | _ => none)).sum) := by
  have key : ∀ (P Q : List (Option ℝ)), P.map Option.isSome = Q.map Option.isSome →
      (validVals P).length = (validVals Q).length ∧
      ((validVals P).zip (validVals Q)).map (fun t => klTerm t.1 t.2) = (P.zip Q).filterMap
        (fun t => match t with | (some a, some b) => some (klTerm a b) | _ => none) := by
    intro P
    induction P with
    | nil =>
      intro Q h
      cases Q with
      | nil => simp [validVals]
      | cons _ _ => simp at h
    | cons a P ih =>
      intro Q h
      cases Q with
      | nil => simp at h
      | cons b Q =>
        simp only [List.map_cons, List.cons.injEq] at h
        obtain ⟨h1, h2⟩ := ih Q h.2
        cases a with
        | none =>
          cases b with
          | none =>
            constructor
            · simpa [validVals] using h1
            · simpa [validVals] using h2
          | some _ => simp at h
        | some a =>
          cases b with
          | none => simp at h
          | some b =>
            constructor
            · simpa [validVals] using h1
            · simpa [validVals] using h2
  obtain ⟨h1, h2⟩ := key P Q h
  unfold klDivergence
  rw [← h2]
  simp only [bcast, if_pos h1]
  rfl

end TS
