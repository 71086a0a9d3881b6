import Verif.Spec.Lifecycle

/-!
# Statistics computed beforehand and handed to a distance class: the statements

A distance class takes, in place of a data set, an object of the statistic's own
class on which the user has already called whatever they wanted.  It looks at one
attribute of the object to decide whether to keep it or to run it, and its
`distance_metric` then reads results from it.
-/

namespace TS
namespace Life

/-- Something done with the object from outside: a method is called or a property
read (`call`), or a plain attribute is read (`attr`). -/
inductive Use
  | call (m : ℕ)
  | attr (a : ℕ)
  deriving DecidableEq

/-- The statement that use amounts to. -/
def Use.cmd (C : Cls) : Use → Cmd
  | .call m => C.body m
  | .attr a => .get a

/-- Uses one after the other, until one of them raises; the `Out` is how it ended. -/
inductive Uses (C : Cls) : List Use → Store → Store → Out → Prop
  | nil (s) : Uses C [] s s .done
  | ok {u us s s₁ s₂ ρ o o'} : Exec C.body ρ (u.cmd C) s s₁ o → o.ofCall = .done →
      Uses C us s₁ s₂ o' → Uses C (u :: us) s s₂ o'
  | fail {u us s s₁ ρ o} : Exec C.body ρ (u.cmd C) s s₁ o → o.ofCall ≠ .done →
      Uses C (u :: us) s s₁ o

/-- What a distance class does with an object it is given. -/
structure Intake where
  /-- the attribute looked for with `hasattr` -/
  check : ℕ
  /-- setters that may be used on the object -/
  sets : List ℕ
  /-- the methods called when the attribute is missing (or for another reason) -/
  rerun : List ℕ
  /-- what is read afterwards for the distance, in the order it is read -/
  reads : List Use
  /-- what is read in addition with `verbose=True` -/
  shows : List Use

/-- The constructor of the distance class completed: the object had the attribute and
was kept, or the methods were called on it and completed. -/
inductive Intake.Taken (C : Cls) (D : Intake) : Store → Store → Prop
  | kept {sets : List ℕ} {s s₁ : Store} : s D.check ≠ none → (∀ m ∈ sets, m ∈ D.sets) →
      Uses C (sets.map .call) s s₁ .done → Intake.Taken C D s s₁
  | rerun {sets : List ℕ} {s s₁ : Store} : (∀ m ∈ sets, m ∈ D.sets) →
      Uses C ((sets ++ D.rerun).map .call) s s₁ .done → Intake.Taken C D s s₁

/-- Whatever had been called on the object, as long as none of the calls failed: what
the distance reads from it is there, and the attributes `vals` behind it hold values;
the plot misses nothing but, possibly, the attributes in `but`. -/
def Intake.Serves (C : Cls) (D : Intake) (vals but : List ℕ) : Prop :=
  ∀ h s s₁, Hist C h s → (∀ c ∈ h, c.out = .done) → D.Taken C s s₁ →
    (∀ s₂ a, ¬ Uses C D.reads s₁ s₂ (.attrErr a)) ∧
    (∀ s₂ a, Uses C (D.reads ++ D.shows) s₁ s₂ (.attrErr a) → a ∈ but) ∧
    ∀ a ∈ vals, ∃ n, s₁ a = some (.val n)

/-- The same for objects on which calls may also have failed, anywhere. -/
def Intake.ServesAll (C : Cls) (D : Intake) : Prop :=
  ∀ h s s₁, Hist C h s → D.Taken C s s₁ → ∀ s₂ a, ¬ Uses C D.reads s₁ s₂ (.attrErr a)

end Life
end TS
