import Verif.Model.FittingUtils
import Mathlib.Tactic.NormNum

/-! C09 — frequency clipping and fit-limit expansion. -/

namespace TS

/-- A point is kept exactly when it is a number with `low < x ≤ high`. -/
theorem C09_clip_half_open (low high : ℝ) (x : Option ℝ) :
    clipFunc low high x = true ↔ ∃ v, x = some v ∧ low < v ∧ v ≤ high := by
  cases x <;> simp [clipFunc]

/-- Consecutive ranges partition the joint range: each point of `(a, c]` is in exactly one of
`(a, b]` and `(b, c]`, and points outside are in neither. -/
theorem C09_clip_partition (a b c : ℝ) (hab : a ≤ b) (hbc : b ≤ c) (x : Option ℝ) :
    (clipFunc a c x = true ↔ (clipFunc a b x = true ∨ clipFunc b c x = true)) ∧
    ¬ (clipFunc a b x = true ∧ clipFunc b c x = true) := by
  simp only [C09_clip_half_open]
  constructor
  · constructor
    · rintro ⟨v, rfl, h1, h2⟩
      rcases le_or_gt v b with h | h
      · exact Or.inl ⟨v, rfl, h1, h⟩
      · exact Or.inr ⟨v, rfl, h, h2⟩
    · rintro (⟨v, rfl, h1, h2⟩ | ⟨v, rfl, h1, h2⟩)
      · exact ⟨v, rfl, h1, h2.trans hbc⟩
      · exact ⟨v, rfl, lt_of_le_of_lt hab h1, h2⟩
  · rintro ⟨⟨v, rfl, h1, h2⟩, w, hw, h3, h4⟩
    cases hw; linarith

example : clipFunc 1 3 (some 3) = true ∧ clipFunc 1 3 (some 1) = false ∧
    clipFunc 1 3 none = false := by
  refine ⟨?_, ?_, ?_⟩ <;> simp [clipFunc]

/-- What one limit argument means for the two datasets, when it is acceptable. -/
def limitMeaning : LimArg → Option (Option ℝ × Option ℝ)
  | .none => some (Option.none, Option.none)
  | .scalarQuantity v => some (some v, some v)
  | .array [v, w] => some (some v, some w)
  | _ => Option.none

/-- `check_fit_limits` gives each dataset its own limit; it fails exactly when one of the limits
is a bare number or an array that does not have two entries. -/
theorem C09_check_fit_limits (lo hi : LimArg) :
    (∀ a b, limitMeaning lo = some a → limitMeaning hi = some b →
      checkFitLimits lo hi = .ok ([a.1, a.2], [b.1, b.2])) ∧
    ((limitMeaning lo = none ∨ limitMeaning hi = none) ↔ ∃ e, checkFitLimits lo hi = .error e) := by
  have key : ∀ l : LimArg, (∃ a, limitMeaning l = some a ∧ checkFitLimit l = .ok [a.1, a.2]) ∨
      (limitMeaning l = none ∧ ∃ e, checkFitLimit l = .error e) := by
    intro l
    cases l with
    | none => left; exact ⟨_, rfl, rfl⟩
    | scalarQuantity v => left; exact ⟨_, rfl, rfl⟩
    | bareNumber v => right; exact ⟨rfl, _, rfl⟩
    | array l =>
      match l with
      | [] => right; exact ⟨rfl, _, by simp [checkFitLimit]; rfl⟩
      | [a] => right; exact ⟨rfl, _, by simp [checkFitLimit]; rfl⟩
      | [a, b] => left; exact ⟨_, rfl, by simp [checkFitLimit]⟩
      | a :: b :: c :: t => right; exact ⟨rfl, _, by simp [checkFitLimit]; rfl⟩
  rcases key lo with ⟨a, ha, hca⟩ | ⟨ha, ea, hea⟩ <;> rcases key hi with ⟨b, hb, hcb⟩ | ⟨hb, eb, heb⟩
  · constructor
    · intro a' b' h1 h2
      rw [ha] at h1; rw [hb] at h2; cases h1; cases h2
      simp [checkFitLimits, hca, hcb, bind, Except.bind, pure, Except.pure]
    · simp [checkFitLimits, hca, hcb, ha, hb, bind, Except.bind, pure, Except.pure]
  · constructor
    · intro a' b' h1 h2; rw [hb] at h2; cases h2
    · simp [checkFitLimits, hca, heb, hb, bind, Except.bind]
  · constructor
    · intro a' b' h1 h2; rw [ha] at h1; cases h1
    · simp [checkFitLimits, hea, ha, bind, Except.bind]
  · constructor
    · intro a' b' h1 h2; rw [ha] at h1; cases h1
    · simp [checkFitLimits, hea, ha, bind, Except.bind]

example : checkFitLimits (.scalarQuantity 2) (.array [3, 4]) = .ok ([some 2, some 2], [some 3, some 4]) :=
  (C09_check_fit_limits (.scalarQuantity 2) (.array [3, 4])).1 (some 2, some 2) (some 3, some 4) rfl rfl

end TS
