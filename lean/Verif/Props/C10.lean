import Verif.Model.FittingUtils
import Mathlib.Tactic.NormNum

/-! C10 — residual bootstrap. -/

namespace TS

/-- A residual-bootstrap scheme: replicate = fitted values + residuals taken from the list of
all `n` residuals, where every residual can be drawn.  `rep idx` is the replicate for index
draw `idx`; `ok idx` says the sampler can return `idx`. -/
structure IsResidualBootstrap (n : ℕ) (fitted resid : ℕ → ℝ) (ok : (ℕ → ℕ) → Prop)
    (rep : (ℕ → ℕ) → ℕ → ℝ) : Prop where
  /-- each entry is the fit plus one of the residuals -/
  is_fit_plus_resid : ∀ idx, ok idx → ∀ i < n, ∃ k < n, rep idx i = fitted i + resid k
  /-- every residual can be drawn at every position -/
  all_reachable : ∀ i < n, ∀ k < n, ∃ idx, ok idx ∧ rep idx i = fitted i + resid k

/-- What the code does for every fit and every draw: the *data* plus one of the first `n-1`
residuals.  (Missing from C10: the base should be the fitted values, and the last residual should
be drawable; both fail, see below.) -/
theorem C10_replicate_partial (n : ℕ) (data resid : ℕ → ℝ) (idx : ℕ → ℕ) (h : choiceDraw n idx) :
    ∀ i < n, ∃ k < n - 1, bootReplicate data resid idx i = data i + resid k :=
  fun i hi => ⟨idx i, h.2 i hi, rfl⟩

/-- Each of the first `n-1` residuals can be drawn at each position. Missing: the last residual, which is never drawn
(`C10_last_residual_never_drawn`). -/
theorem C10_reachable_partial (n : ℕ) (data resid : ℕ → ℝ) (i k : ℕ) (hk : k < n - 1) :
    ∃ idx, choiceDraw n idx ∧ bootReplicate data resid idx i = data i + resid k :=
  ⟨fun _ => k, ⟨by omega, fun _ _ => hk⟩, rfl⟩

/-- An exact fit (all residuals zero) is reproduced by every replicate. -/
theorem C10_exact_fit (n : ℕ) (data resid : ℕ → ℝ) (h0 : ∀ k < n, resid k = 0) (idx : ℕ → ℕ)
    (h : choiceDraw n idx) : ∀ i < n, bootReplicate data resid idx i = data i := by
  intro i hi
  have := h.2 i hi
  simp [bootReplicate, h0 (idx i) (by omega)]

example : choiceDraw 3 (fun i => i % 2) := ⟨by norm_num, fun i _ => by simp only; omega⟩

/-- The last residual is never used, whatever is drawn. -/
theorem C10_last_residual_never_drawn (n : ℕ) (idx : ℕ → ℕ) (h : choiceDraw n idx) :
    ∀ i < n, idx i ≠ n - 1 := by
  intro i hi
  have := h.2 i hi
  omega

/-- The full claim is false: fitted (0,0), residuals (1,4), so data (1,4) — with the first residual drawn,
the first entry of the replicate is 1 + 1 = 2, which is not the fitted value plus any residual. -/
theorem C10_not_residual_bootstrap :
    ∃ (n : ℕ) (fitted resid : ℕ → ℝ), ¬ IsResidualBootstrap n fitted resid (choiceDraw n)
      (bootReplicate (fun i => fitted i + resid i) resid) := by
  refine ⟨2, fun _ => 0, fun k => if k = 0 then 1 else 4, fun h => ?_⟩
  obtain ⟨k, hk, e⟩ := h.is_fit_plus_resid (fun _ => 0) ⟨by norm_num, fun _ _ => by norm_num⟩ 0 (by norm_num)
  simp only [bootReplicate] at e
  rcases Nat.eq_zero_or_pos k with rfl | hp
  · norm_num at e
  · have : k ≠ 0 := by omega
    simp [this] at e
    norm_num at e

end TS
