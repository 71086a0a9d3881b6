import Mathlib.Data.Nat.Bitwise

/-!
# Objects whose results appear as attributes while their methods run

Every statistic of the package is a Python object whose results are ordinary
attributes: a method stores them with `self._x = …`, and reading one that was
never stored raises `AttributeError`.  This file is the part of Python that
matters for the question *when can a result be read*: statements that read and
store attributes of `self`, branch, loop, catch, return, raise and call other
methods of the same object.  Everything else a statement does (the numbers it
computes, the libraries it calls) is the command `may`, which completes or raises.

Simplifications, all of which only add behaviours: which side of an `if` is
taken is left open unless the test is `self.x is None`, `hasattr(self, "x")`, or
about an argument of the method that the method has not reassigned; a loop runs its body any number of times; the stored value is any value.
-/

namespace TS
namespace Life

/-- What an attribute holds: Python's `None` (or the empty list `DeltaVariance`
and `Wavelet` start from), or a computed value. -/
inductive Cell
  | blank
  | val (n : ℕ)
  deriving DecidableEq

/-- The instance dictionary: `none` when the attribute was never stored. -/
abbrev Store := ℕ → Option Cell

def Store.put (s : Store) (a : ℕ) (c : Cell) : Store := fun b => if b = a then some c else s b

/-- A fresh instance before `__init__` runs. -/
def Store.empty : Store := fun _ => none

/-- Statements.  Attributes and methods are numbered. -/
inductive Cmd
  | skip
  /-- evaluates `self.a` -/
  | get (a : ℕ)
  /-- `self.a = <computed>` -/
  | put (a : ℕ)
  /-- `self.a = None` -/
  | putNone (a : ℕ)
  /-- any statement that is not about attributes of `self`; may raise -/
  | may
  | raise
  | ret
  /-- `break` or `continue` -/
  | stop
  | seq (c d : Cmd)
  /-- an `if` whose test is about data -/
  | br (c d : Cmd)
  /-- an `if` whose test is the `i`-th yes/no fact about the arguments of the call -/
  | opt (i : ℕ) (c d : Cmd)
  /-- `if self.a is None: c else: d` (reads `a`) -/
  | ifNone (a : ℕ) (c d : Cmd)
  /-- `if hasattr(self, "a"): c else: d` -/
  | ifHas (a : ℕ) (c d : Cmd)
  | loop (c : Cmd)
  /-- `try: c except <not AttributeError>: d` -/
  | tryC (c d : Cmd)
  | call (m : ℕ)
  deriving DecidableEq

/-- Statements one after the other. -/
def block : List Cmd → Cmd
  | [] => .skip
  | [c] => c
  | c :: cs => .seq c (block cs)

/-- How a statement ends.  `attrErr a` is the `AttributeError` for `self.a`. -/
inductive Out
  | done
  | ret
  | stop
  | err
  | attrErr (a : ℕ)
  deriving DecidableEq

/-- The statement was left by an exception. -/
def Out.failed : Out → Bool
  | .err => true
  | .attrErr _ => true
  | _ => false

/-- What a call looks like to its caller: `return` and falling off the end are
the same. -/
def Out.ofCall : Out → Out
  | .ret => .done
  | .stop => .done
  | o => o

/-- The yes/no facts about the arguments of a call that its `if`s test. -/
abbrev Args := ℕ → Bool

/-- Execution of a statement, in a call with arguments `ρ`, of an object whose
methods are `P`.  A nested call has arguments of its own. -/
inductive Exec (P : ℕ → Cmd) : Args → Cmd → Store → Store → Out → Prop
  | skip (ρ s) : Exec P ρ .skip s s .done
  | getOk (ρ s a) : s a ≠ none → Exec P ρ (.get a) s s .done
  | getErr (ρ s a) : s a = none → Exec P ρ (.get a) s s (.attrErr a)
  | put (ρ s a n) : Exec P ρ (.put a) s (s.put a (.val n)) .done
  | putNone (ρ s a) : Exec P ρ (.putNone a) s (s.put a .blank) .done
  | mayOk (ρ s) : Exec P ρ .may s s .done
  | mayErr (ρ s) : Exec P ρ .may s s .err
  | raise (ρ s) : Exec P ρ .raise s s .err
  | ret (ρ s) : Exec P ρ .ret s s .ret
  | stop (ρ s) : Exec P ρ .stop s s .stop
  | seq {ρ c d s s₁ s₂ o} : Exec P ρ c s s₁ .done → Exec P ρ d s₁ s₂ o → Exec P ρ (.seq c d) s s₂ o
  | seqOut {ρ c d s s₁ o} : Exec P ρ c s s₁ o → o ≠ .done → Exec P ρ (.seq c d) s s₁ o
  | brL {ρ c d s s₁ o} : Exec P ρ c s s₁ o → Exec P ρ (.br c d) s s₁ o
  | brR {ρ c d s s₁ o} : Exec P ρ d s s₁ o → Exec P ρ (.br c d) s s₁ o
  | optT {ρ i c d s s₁ o} : ρ i = true → Exec P ρ c s s₁ o → Exec P ρ (.opt i c d) s s₁ o
  | optF {ρ i c d s s₁ o} : ρ i = false → Exec P ρ d s s₁ o → Exec P ρ (.opt i c d) s s₁ o
  | isNone {ρ a c d s s₁ o} : s a = some .blank → Exec P ρ c s s₁ o → Exec P ρ (.ifNone a c d) s s₁ o
  | isVal {ρ a c d s s₁ o n} : s a = some (.val n) → Exec P ρ d s s₁ o →
      Exec P ρ (.ifNone a c d) s s₁ o
  | ifNoneErr {ρ a c d s} : s a = none → Exec P ρ (.ifNone a c d) s s (.attrErr a)
  | has {ρ a c d s s₁ o} : s a ≠ none → Exec P ρ c s s₁ o → Exec P ρ (.ifHas a c d) s s₁ o
  | hasnt {ρ a c d s s₁ o} : s a = none → Exec P ρ d s s₁ o → Exec P ρ (.ifHas a c d) s s₁ o
  | loopEnd (ρ c s) : Exec P ρ (.loop c) s s .done
  | loopGo {ρ c s s₁ s₂ o o'} : Exec P ρ c s s₁ o → (o = .done ∨ o = .stop) →
      Exec P ρ (.loop c) s₁ s₂ o' → Exec P ρ (.loop c) s s₂ o'
  | loopOut {ρ c s s₁ o} : Exec P ρ c s s₁ o → o ≠ .done → o ≠ .stop → Exec P ρ (.loop c) s s₁ o
  | tryOk {ρ c d s s₁ o} : Exec P ρ c s s₁ o → Exec P ρ (.tryC c d) s s₁ o
  | tryCatch {ρ c d s s₁ s₂ o} : Exec P ρ c s s₁ .err → Exec P ρ d s₁ s₂ o →
      Exec P ρ (.tryC c d) s s₂ o
  | call {ρ ρ' m s s₁ o} : Exec P ρ' (P m) s s₁ o → Exec P ρ (.call m) s s₁ o.ofCall

/-- A class: its constructor, its methods and properties. -/
structure Cls where
  init : Cmd
  methods : List Cmd

/-- The body of method number `m`. -/
def Cls.body (C : Cls) (m : ℕ) : Cmd := C.methods.getD m .skip

/-- A call in the history: which method, its arguments, how it ended. -/
structure Call where
  m : ℕ
  args : Args
  out : Out

/-- The life of an object: it was constructed, then methods were called one after
the other with any arguments, each of them ending in any way, including by an
exception at any point.  The list has the latest call first. -/
inductive Hist (C : Cls) : List Call → Store → Prop
  | made {ρ s o} : Exec C.body ρ C.init Store.empty s o → o.ofCall = .done → Hist C [] s
  | called {h s s₁ ρ m o} : Hist C h s → Exec C.body ρ (C.body m) s s₁ o →
      Hist C (⟨m, ρ, o.ofCall⟩ :: h) s₁

end Life
end TS
