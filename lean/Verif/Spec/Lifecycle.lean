import Verif.Model.Lifecycle

/-!
# When a result can be read: the statements

A *result* is something a user reads from a statistic: a property such as
`slope`, or a getter such as `spatial_width()`.  It is named together with the
attribute behind it and the steps that make it.
-/

namespace TS
namespace Life

/-- A step that makes a result when it completes; `yes` and `no` are the facts
about its arguments this depends on. -/
structure Step where
  m : ℕ
  yes : List ℕ := []
  no : List ℕ := []
  deriving DecidableEq

/-- `c` is a call of this step. -/
def Step.calls (w : Step) (c : Call) : Prop :=
  c.m = w.m ∧ (∀ i ∈ w.yes, c.args i = true) ∧ ∀ i ∈ w.no, c.args i = false

/-- A result: how it is read, the attribute behind it, the methods that may make
it, and the steps that are certain to make it when they complete. -/
structure Result where
  prop : ℕ
  attr : ℕ
  makers : List ℕ
  steps : List Step

/-- Before any of the methods that make the result was called, reading it raises
the `AttributeError` for its attribute. -/
def NotBefore (C : Cls) (r : Result) : Prop :=
  ∀ h s, Hist C h s → (∀ c ∈ h, c.m ∉ r.makers) →
    ∀ ρ s' o, Exec C.body ρ (C.body r.prop) s s' o → o = .attrErr r.attr

/-- The same for a getter that does something else too (a unit conversion, say):
the getter fails. -/
def NotBeforeFails (C : Cls) (r : Result) : Prop :=
  ∀ h s, Hist C h s → (∀ c ∈ h, c.m ∉ r.makers) →
    ∀ ρ s' o, Exec C.body ρ (C.body r.prop) s s' o → o.failed = true

/-- Once a step that makes the result has completed, then whatever was called
before and after it, and however those calls ended, reading the result does not
raise an `AttributeError`, and what is stored is a value, not `None`. -/
def ReadyAfter (C : Cls) (r : Result) : Prop :=
  ∀ h s, Hist C h s → ∀ w ∈ r.steps, ∀ c ∈ h, w.calls c → c.out = .done →
    ∀ ρ s' o, Exec C.body ρ (C.body r.prop) s s' o →
      (∀ a, o ≠ .attrErr a) ∧ ∃ n, s r.attr = some (.val n)

/-- The same for a result that may be `None` (no break in the fit): it is there. -/
def PresentAfter (C : Cls) (r : Result) : Prop :=
  ∀ h s, Hist C h s → ∀ w ∈ r.steps, ∀ c ∈ h, w.calls c → c.out = .done →
    ∀ ρ s' o, Exec C.body ρ (C.body r.prop) s s' o →
      (∀ a, o ≠ .attrErr a) ∧ s r.attr ≠ none

/-- Once all the steps `ws` have completed (in any order, with anything else in
between), method `m` never fails because an attribute is missing, except for
those in `but`. -/
def UsableAfter (C : Cls) (ws : List Step) (m : ℕ) (but : List ℕ) : Prop :=
  ∀ h s, Hist C h s → (∀ w ∈ ws, ∃ c ∈ h, w.calls c ∧ c.out = .done) →
    ∀ ρ s' a, Exec C.body ρ (C.body m) s s' (.attrErr a) → a ∈ but

/-- Once all the steps `ws` have completed (in any order, with anything else in between, as long as no call failed), method `m`
never fails because an attribute is missing. -/
def UsableClean (C : Cls) (ws : List Step) (m : ℕ) : Prop :=
  ∀ h s, Hist C h s → (∀ c ∈ h, c.out = .done) → (∀ w ∈ ws, ∃ c ∈ h, w.calls c ∧ c.out = .done) →
    ∀ ρ s' a, ¬ Exec C.body ρ (C.body m) s s' (.attrErr a)

/-- Method `m` leaves every attribute as it was, however it ends. -/
def OnlyReads (C : Cls) (m : ℕ) : Prop :=
  ∀ ρ s s' o, Exec C.body ρ (C.body m) s s' o → s' = s

/-- The constructor never fails because an attribute is missing. -/
def InitNeverMisses (C : Cls) : Prop :=
  ∀ ρ s' a, ¬ Exec C.body ρ C.init Store.empty s' (.attrErr a)

end Life
end TS
