import Verif.Np.Reduce

/-! A loop that fills a 2D array entry by entry. -/

namespace TS

/-- If pass `n` writes `f n` at `(r n, c n)` and different passes write different entries, then after
`N` passes every written entry holds its value. -/
theorem foldlM_fill {α : Type*} (f : ℕ → α) (r c : ℕ → ℕ) (step : Arr2 α → ℕ → Py (Arr2 α)) (N : ℕ)
    (h : ∀ s, ∀ n < N, step s n = .ok (s.set (r n) (c n) (f n)))
    (hinj : ∀ n < N, ∀ k < N, r n = r k → c n = c k → n = k) (s0 : Arr2 α) :
    ∃ s, (List.range N).foldlM step s0 = .ok s ∧ s.n = s0.n ∧ s.m = s0.m ∧
      ∀ n < N, s.get (r n) (c n) = f n := by
  induction N with
  | zero => exact ⟨s0, rfl, rfl, rfl, by simp⟩
  | succ N ih =>
    obtain ⟨s, hs, hn, hm, hg⟩ := ih (fun s n hn => h s n (by omega))
      (fun n hn k hk => hinj n (by omega) k (by omega))
    refine ⟨s.set (r N) (c N) (f N), ?_, hn, hm, ?_⟩
    · rw [List.range_succ, List.foldlM_append, hs]
      show (List.foldlM step s [N]) = _
      simp only [List.foldlM_cons, List.foldlM_nil, h s N (by omega)]
      rfl
    · intro n hn'
      show (if r n = r N ∧ c n = c N then f N else s.get (r n) (c n)) = f n
      split_ifs with hc
      · rw [hinj n hn' N (by omega) hc.1 hc.2]
      · refine hg n ?_
        by_contra hlt
        have : n = N := by omega
        subst this
        exact hc ⟨rfl, rfl⟩

/-- The flat index `i * L + j` runs over every pair below `L`. -/
theorem unravel_div {L i j : ℕ} (hj : j < L) : (i * L + j) / L = i := by
  rw [Nat.mul_comm, Nat.mul_add_div (by omega), Nat.div_eq_of_lt hj, Nat.add_zero]

theorem unravel_mod {L i j : ℕ} (hj : j < L) : (i * L + j) % L = j := by
  rw [Nat.mul_comm, Nat.mul_add_mod, Nat.mod_eq_of_lt hj]

theorem ravel_lt {L i j : ℕ} (hi : i < L) (hj : j < L) : i * L + j < L * L := by
  calc i * L + j < i * L + L := by omega
    _ = (i + 1) * L := by ring
    _ ≤ L * L := Nat.mul_le_mul_right L (by omega)

theorem unravel_inj {L n k : ℕ} (h1 : n / L = k / L) (h2 : n % L = k % L) : n = k := by
  rw [← Nat.div_add_mod n L, ← Nat.div_add_mod k L, h1, h2]

end TS
