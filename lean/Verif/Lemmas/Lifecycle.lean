import Verif.Model.Lifecycle
import Verif.Spec.Lifecycle
import Mathlib.Tactic.SplitIfs
import Mathlib.Tactic.Common

/-!
# Two analyses of `Life.Cmd`, and their soundness

* `mayPut` collects the attributes a statement can store; `mayNone` those it can
  set to `None`.
* `run` executes a statement on masks of attributes known to be present / to be
  `None` / to hold a value, path by path, and says whether an `AttributeError`
  is excluded.
-/

namespace TS
namespace Life

/-! ## Masks -/

def bit (m a : ℕ) : Bool := m.testBit a
def ins (m a : ℕ) : ℕ := m ||| 2 ^ a
def del (m a : ℕ) : ℕ := m ^^^ (m &&& 2 ^ a)

theorem bit_ins (m a b : ℕ) : bit (ins m a) b = (bit m b || decide (a = b)) := by
  simp [bit, ins, Nat.testBit_two_pow]

theorem bit_del (m a b : ℕ) : bit (del m a) b = (bit m b && !decide (a = b)) := by
  simp only [bit, del, Nat.testBit_xor, Nat.testBit_and, Nat.testBit_two_pow]
  cases m.testBit b <;> cases decide (a = b) <;> rfl

theorem bit_and (m n b : ℕ) : bit (m &&& n) b = (bit m b && bit n b) := by
  simp [bit, Nat.testBit_and]

theorem bit_or (m n b : ℕ) : bit (m ||| n) b = (bit m b || bit n b) := by
  simp [bit, Nat.testBit_or]

theorem bit_zero (b : ℕ) : bit 0 b = false := by simp [bit]

/-! ## Attributes are never removed -/

theorem put_ne_none {s : Store} {a b : ℕ} {c : Cell} (h : s b ≠ none) : s.put a c b ≠ none := by
  unfold Store.put
  split_ifs
  · simp
  · exact h

theorem Exec.keeps {P : ℕ → Cmd} {ρ : Args} {c : Cmd} {s s' : Store} {o : Out}
    (h : Exec P ρ c s s' o) :
    ∀ b, s b ≠ none → s' b ≠ none := by
  induction h with
  | put ρ s a n => intro b hb; exact put_ne_none hb
  | putNone ρ s a => intro b hb; exact put_ne_none hb
  | seq _ _ ih₁ ih₂ => intro b hb; exact ih₂ b (ih₁ b hb)
  | loopGo _ _ _ ih₁ ih₂ => intro b hb; exact ih₂ b (ih₁ b hb)
  | tryCatch _ _ ih₁ ih₂ => intro b hb; exact ih₂ b (ih₁ b hb)
  | _ => first | assumption | (intro b hb; exact hb)

/-! ## What a statement can store -/

/-- Attributes `c` can store, when a call of `m` can store `W m`. -/
def mayPut (W : ℕ → ℕ) : Cmd → ℕ
  | .put a => 2 ^ a
  | .putNone a => 2 ^ a
  | .seq c d => mayPut W c ||| mayPut W d
  | .br c d => mayPut W c ||| mayPut W d
  | .opt _ c d => mayPut W c ||| mayPut W d
  | .ifNone _ c d => mayPut W c ||| mayPut W d
  | .ifHas _ c d => mayPut W c ||| mayPut W d
  | .loop c => mayPut W c
  | .tryC c d => mayPut W c ||| mayPut W d
  | .call m => W m
  | _ => 0

/-- Attributes `c` can set to `None`. -/
def mayNone (W : ℕ → ℕ) : Cmd → ℕ
  | .putNone a => 2 ^ a
  | .seq c d => mayNone W c ||| mayNone W d
  | .br c d => mayNone W c ||| mayNone W d
  | .opt _ c d => mayNone W c ||| mayNone W d
  | .ifNone _ c d => mayNone W c ||| mayNone W d
  | .ifHas _ c d => mayNone W c ||| mayNone W d
  | .loop c => mayNone W c
  | .tryC c d => mayNone W c ||| mayNone W d
  | .call m => W m
  | _ => 0

theorem bit_two_pow (a b : ℕ) : bit (2 ^ a) b = decide (a = b) := by
  simp [bit, Nat.testBit_two_pow]

theorem Exec.unchanged {P : ℕ → Cmd} {W : ℕ → ℕ}
    (hW : ∀ m b, bit (mayPut W (P m)) b = true → bit (W m) b = true)
    {ρ : Args} {c : Cmd} {s s' : Store} {o : Out} (h : Exec P ρ c s s' o) :
    ∀ b, bit (mayPut W c) b = false → s' b = s b := by
  induction h with
  | put ρ s a n =>
    intro b hb
    simp only [mayPut, bit_two_pow, decide_eq_false_iff_not] at hb
    simp [Store.put, Ne.symm hb]
  | putNone ρ s a =>
    intro b hb
    simp only [mayPut, bit_two_pow, decide_eq_false_iff_not] at hb
    simp [Store.put, Ne.symm hb]
  | seq _ _ ih₁ ih₂ =>
    intro b hb
    simp only [mayPut, bit_or, Bool.or_eq_false_iff] at hb
    rw [ih₂ b hb.2, ih₁ b hb.1]
  | seqOut _ _ ih =>
    intro b hb
    simp only [mayPut, bit_or, Bool.or_eq_false_iff] at hb
    exact ih b hb.1
  | brL _ ih =>
    intro b hb
    simp only [mayPut, bit_or, Bool.or_eq_false_iff] at hb
    exact ih b hb.1
  | brR _ ih =>
    intro b hb
    simp only [mayPut, bit_or, Bool.or_eq_false_iff] at hb
    exact ih b hb.2
  | optT _ _ ih =>
    intro b hb
    simp only [mayPut, bit_or, Bool.or_eq_false_iff] at hb
    exact ih b hb.1
  | optF _ _ ih =>
    intro b hb
    simp only [mayPut, bit_or, Bool.or_eq_false_iff] at hb
    exact ih b hb.2
  | isNone _ _ ih =>
    intro b hb
    simp only [mayPut, bit_or, Bool.or_eq_false_iff] at hb
    exact ih b hb.1
  | isVal _ _ ih =>
    intro b hb
    simp only [mayPut, bit_or, Bool.or_eq_false_iff] at hb
    exact ih b hb.2
  | has _ _ ih =>
    intro b hb
    simp only [mayPut, bit_or, Bool.or_eq_false_iff] at hb
    exact ih b hb.1
  | hasnt _ _ ih =>
    intro b hb
    simp only [mayPut, bit_or, Bool.or_eq_false_iff] at hb
    exact ih b hb.2
  | loopGo _ _ _ ih₁ ih₂ =>
    intro b hb
    rw [ih₂ b hb, ih₁ b hb]
  | loopOut _ _ _ ih => intro b hb; exact ih b hb
  | tryOk _ ih =>
    intro b hb
    simp only [mayPut, bit_or, Bool.or_eq_false_iff] at hb
    exact ih b hb.1
  | tryCatch _ _ ih₁ ih₂ =>
    intro b hb
    simp only [mayPut, bit_or, Bool.or_eq_false_iff] at hb
    rw [ih₂ b hb.2, ih₁ b hb.1]
  | @call ρ ρ' m s s₁ o _ ih =>
    intro b hb
    refine ih b ?_
    cases hc : bit (mayPut W (P m)) b with
    | false => rfl
    | true => simp only [mayPut] at hb; rw [hW m b hc] at hb; exact absurd hb (by simp)
  | _ => intro b _; rfl

/-- An attribute holding a value keeps holding one, unless set to `None`. -/
theorem Exec.keepsVal {P : ℕ → Cmd} {W : ℕ → ℕ}
    (hW : ∀ m b, bit (mayNone W (P m)) b = true → bit (W m) b = true)
    {ρ : Args} {c : Cmd} {s s' : Store} {o : Out} (h : Exec P ρ c s s' o) :
    ∀ b, bit (mayNone W c) b = false → (∃ n, s b = some (.val n)) → ∃ n, s' b = some (.val n) := by
  induction h with
  | put ρ s a n =>
    intro b _ hb
    unfold Store.put
    by_cases e : b = a
    · exact ⟨n, by simp [e]⟩
    · simpa [e] using hb
  | putNone ρ s a =>
    intro b hb hv
    simp only [mayNone, bit_two_pow, decide_eq_false_iff_not] at hb
    simpa [Store.put, Ne.symm hb] using hv
  | seq _ _ ih₁ ih₂ =>
    intro b hb hv
    simp only [mayNone, bit_or, Bool.or_eq_false_iff] at hb
    exact ih₂ b hb.2 (ih₁ b hb.1 hv)
  | seqOut _ _ ih =>
    intro b hb
    simp only [mayNone, bit_or, Bool.or_eq_false_iff] at hb
    exact ih b hb.1
  | brL _ ih =>
    intro b hb
    simp only [mayNone, bit_or, Bool.or_eq_false_iff] at hb
    exact ih b hb.1
  | brR _ ih =>
    intro b hb
    simp only [mayNone, bit_or, Bool.or_eq_false_iff] at hb
    exact ih b hb.2
  | optT _ _ ih =>
    intro b hb
    simp only [mayNone, bit_or, Bool.or_eq_false_iff] at hb
    exact ih b hb.1
  | optF _ _ ih =>
    intro b hb
    simp only [mayNone, bit_or, Bool.or_eq_false_iff] at hb
    exact ih b hb.2
  | isNone _ _ ih =>
    intro b hb
    simp only [mayNone, bit_or, Bool.or_eq_false_iff] at hb
    exact ih b hb.1
  | isVal _ _ ih =>
    intro b hb
    simp only [mayNone, bit_or, Bool.or_eq_false_iff] at hb
    exact ih b hb.2
  | has _ _ ih =>
    intro b hb
    simp only [mayNone, bit_or, Bool.or_eq_false_iff] at hb
    exact ih b hb.1
  | hasnt _ _ ih =>
    intro b hb
    simp only [mayNone, bit_or, Bool.or_eq_false_iff] at hb
    exact ih b hb.2
  | loopGo _ _ _ ih₁ ih₂ =>
    intro b hb hv
    exact ih₂ b hb (ih₁ b hb hv)
  | loopOut _ _ _ ih => intro b hb; exact ih b hb
  | tryOk _ ih =>
    intro b hb
    simp only [mayNone, bit_or, Bool.or_eq_false_iff] at hb
    exact ih b hb.1
  | tryCatch _ _ ih₁ ih₂ =>
    intro b hb hv
    simp only [mayNone, bit_or, Bool.or_eq_false_iff] at hb
    exact ih₂ b hb.2 (ih₁ b hb.1 hv)
  | @call ρ ρ' m s s₁ o _ ih =>
    intro b hb
    refine ih b ?_
    cases hc : bit (mayNone W (P m)) b with
    | false => rfl
    | true => simp only [mayNone] at hb; rw [hW m b hc] at hb; exact absurd hb (by simp)
  | _ => intro b _ hv; exact hv

/-! ## What is known after a statement -/

/-- Statements that never set an attribute to `None` (calls are not followed). -/
def noBlank : Cmd → Bool
  | .putNone _ => false
  | .call _ => false
  | .seq c d => noBlank c && noBlank d
  | .br c d => noBlank c && noBlank d
  | .opt _ c d => noBlank c && noBlank d
  | .ifNone _ c d => noBlank c && noBlank d
  | .ifHas _ c d => noBlank c && noBlank d
  | .loop c => noBlank c
  | .tryC c d => noBlank c && noBlank d
  | _ => true

theorem Exec.noBlank_keepsVal {P : ℕ → Cmd} {ρ : Args} {c : Cmd} {s s' : Store} {o : Out}
    (h : Exec P ρ c s s' o) : noBlank c = true →
    ∀ b, (∃ n, s b = some (.val n)) → ∃ n, s' b = some (.val n) := by
  induction h with
  | put ρ s a n =>
    intro _ b hb
    unfold Store.put
    by_cases e : b = a
    · exact ⟨n, by simp [e]⟩
    · simpa [e] using hb
  | putNone ρ s a => intro h; simp [noBlank] at h
  | seq _ _ ih₁ ih₂ =>
    intro h b hb
    simp only [noBlank, Bool.and_eq_true] at h
    exact ih₂ h.2 b (ih₁ h.1 b hb)
  | seqOut _ _ ih => intro h; simp only [noBlank, Bool.and_eq_true] at h; exact ih h.1
  | brL _ ih => intro h; simp only [noBlank, Bool.and_eq_true] at h; exact ih h.1
  | brR _ ih => intro h; simp only [noBlank, Bool.and_eq_true] at h; exact ih h.2
  | optT _ _ ih => intro h; simp only [noBlank, Bool.and_eq_true] at h; exact ih h.1
  | optF _ _ ih => intro h; simp only [noBlank, Bool.and_eq_true] at h; exact ih h.2
  | isNone _ _ ih => intro h; simp only [noBlank, Bool.and_eq_true] at h; exact ih h.1
  | isVal _ _ ih => intro h; simp only [noBlank, Bool.and_eq_true] at h; exact ih h.2
  | has _ _ ih => intro h; simp only [noBlank, Bool.and_eq_true] at h; exact ih h.1
  | hasnt _ _ ih => intro h; simp only [noBlank, Bool.and_eq_true] at h; exact ih h.2
  | loopGo _ _ _ ih₁ ih₂ =>
    intro h b hb
    exact ih₂ h b (ih₁ (by simpa [noBlank] using h) b hb)
  | loopOut _ _ _ ih => intro h; exact ih (by simpa [noBlank] using h)
  | tryOk _ ih => intro h; simp only [noBlank, Bool.and_eq_true] at h; exact ih h.1
  | tryCatch _ _ ih₁ ih₂ =>
    intro h b hb
    simp only [noBlank, Bool.and_eq_true] at h
    exact ih₂ h.2 b (ih₁ h.1 b hb)
  | call _ _ => intro h; simp [noBlank] at h
  | _ => intro _ b hb; exact hb

/-- The statement stores nothing and calls nothing. -/
def noPut : Cmd → Bool
  | .put _ => false
  | .putNone _ => false
  | .call _ => false
  | .seq c d => noPut c && noPut d
  | .br c d => noPut c && noPut d
  | .opt _ c d => noPut c && noPut d
  | .ifNone _ c d => noPut c && noPut d
  | .ifHas _ c d => noPut c && noPut d
  | .loop c => noPut c
  | .tryC c d => noPut c && noPut d
  | _ => true

theorem Exec.noPut_keeps {P : ℕ → Cmd} {ρ : Args} {c : Cmd} {s s' : Store} {o : Out}
    (h : Exec P ρ c s s' o) : noPut c = true → s' = s := by
  induction h with
  | put ρ s a n => intro h; simp [noPut] at h
  | putNone ρ s a => intro h; simp [noPut] at h
  | seq _ _ ih₁ ih₂ =>
    intro h
    simp only [noPut, Bool.and_eq_true] at h
    exact (ih₂ h.2).trans (ih₁ h.1)
  | seqOut _ _ ih => intro h; simp only [noPut, Bool.and_eq_true] at h; exact ih h.1
  | brL _ ih => intro h; simp only [noPut, Bool.and_eq_true] at h; exact ih h.1
  | brR _ ih => intro h; simp only [noPut, Bool.and_eq_true] at h; exact ih h.2
  | optT _ _ ih => intro h; simp only [noPut, Bool.and_eq_true] at h; exact ih h.1
  | optF _ _ ih => intro h; simp only [noPut, Bool.and_eq_true] at h; exact ih h.2
  | isNone _ _ ih => intro h; simp only [noPut, Bool.and_eq_true] at h; exact ih h.1
  | isVal _ _ ih => intro h; simp only [noPut, Bool.and_eq_true] at h; exact ih h.2
  | has _ _ ih => intro h; simp only [noPut, Bool.and_eq_true] at h; exact ih h.1
  | hasnt _ _ ih => intro h; simp only [noPut, Bool.and_eq_true] at h; exact ih h.2
  | loopGo _ _ _ ih₁ ih₂ =>
    intro h
    exact (ih₂ h).trans (ih₁ (by simpa [noPut] using h))
  | loopOut _ _ _ ih => intro h; exact ih (by simpa [noPut] using h)
  | tryOk _ ih => intro h; simp only [noPut, Bool.and_eq_true] at h; exact ih h.1
  | tryCatch _ _ ih₁ ih₂ =>
    intro h
    simp only [noPut, Bool.and_eq_true] at h
    exact (ih₂ h.2).trans (ih₁ h.1)
  | call _ _ => intro h; simp [noPut] at h
  | _ => intro _; rfl

/-- Knowledge about a store (present, `None`, value) and about the arguments of
the running call (`yes`, `no`). -/
structure Know where
  has : ℕ
  non : ℕ
  val : ℕ
  yes : ℕ
  no : ℕ
  deriving DecidableEq

def Know.ok (k : Know) (ρ : Args) (s : Store) : Prop :=
  (∀ b, (bit k.has b = true → s b ≠ none) ∧ (bit k.non b = true → s b = some .blank) ∧
    (bit k.val b = true → ∃ n, s b = some (.val n))) ∧
  ∀ i, (bit k.yes i = true → ρ i = true) ∧ (bit k.no i = true → ρ i = false)

def Know.putVal (k : Know) (a : ℕ) : Know := ⟨ins k.has a, del k.non a, ins k.val a, k.yes, k.no⟩
def Know.putNone (k : Know) (a : ℕ) : Know := ⟨ins k.has a, ins k.non a, del k.val a, k.yes, k.no⟩
def Know.seen (k : Know) (a : ℕ) : Know := ⟨ins k.has a, k.non, k.val, k.yes, k.no⟩
def Know.optT (k : Know) (i : ℕ) : Know := ⟨k.has, k.non, k.val, ins k.yes i, k.no⟩
def Know.optF (k : Know) (i : ℕ) : Know := ⟨k.has, k.non, k.val, k.yes, ins k.no i⟩
/-- Forget what `c` may have overwritten. -/
def Know.weak (k : Know) (c : Cmd) : Know :=
  ⟨k.has, if noPut c then k.non else 0, if noBlank c then k.val else 0, k.yes, k.no⟩
/-- What a called method knows about the object. -/
def Know.enter (k : Know) : Know := ⟨k.has, k.non, k.val, 0, 0⟩
/-- What the caller knows when the called method ended knowing `k'`. -/
def Know.leave (k k' : Know) : Know := ⟨k'.has, k'.non, k'.val, k.yes, k.no⟩

/-- The ways of ending that are followed. -/
inductive End
  | done
  | ret
  | stop
  deriving DecidableEq

def End.out : End → Out
  | .done => .done
  | .ret => .ret
  | .stop => .stop

/-- The result of the analysis: the attributes whose `AttributeError` is possible
(any, if calls nest too deeply to be followed), and the possible endings. -/
structure Res where
  miss : ℕ
  deep : Bool
  ends : List (End × Know)

def addEnd (e : End × Know) (l : List (End × Know)) : List (End × Know) :=
  if l.contains e then l else e :: l

def unionEnds (l m : List (End × Know)) : List (End × Know) := l.foldr addEnd m

def Res.join (r t : Res) : Res := ⟨r.miss ||| t.miss, r.deep || t.deep, unionEnds r.ends t.ends⟩

/-- Continue every `done` ending with `f`; the others are final. -/
def thenDo (f : Know → Res) : List (End × Know) → Res
  | [] => ⟨0, false, []⟩
  | (.done, k) :: l => (f k).join (thenDo f l)
  | (e, k) :: l =>
    let r := thenDo f l
    ⟨r.miss, r.deep, addEnd (e, k) r.ends⟩

def Res.bind (r : Res) (f : Know → Res) : Res :=
  let t := thenDo f r.ends
  ⟨r.miss ||| t.miss, r.deep || t.deep, t.ends⟩

/-- What all the endings agree on. -/
def agree : List (End × Know) → Option Know
  | [] => none
  | (_, k) :: l =>
    match agree l with
    | none => some k
    | some k' => some ⟨k.has &&& k'.has, k.non &&& k'.non, k.val &&& k'.val,
        k.yes &&& k'.yes, k.no &&& k'.no⟩

/-- Ending of a call made knowing `k`. -/
def Res.called (r : Res) (k : Know) : Res :=
  ⟨r.miss, r.deep, match agree r.ends with
    | none => []
    | some k' => [(.done, k.leave k')]⟩

/-- Endings of a loop whose body started from `k`. -/
def Res.looped (r : Res) (k : Know) : Res :=
  ⟨r.miss, r.deep, addEnd (.done, k) (r.ends.filter fun e => e.1 == .ret)⟩

/-- The analysis of one method body; `F` is the analysis of the methods it calls. -/
def runWith (F : ℕ → Know → Res) : Cmd → Know → Res
  | .skip, k => ⟨0, false, [(.done, k)]⟩
  | .get a, k => ⟨if bit k.has a then 0 else 2 ^ a, false, [(.done, k.seen a)]⟩
  | .put a, k => ⟨0, false, [(.done, k.putVal a)]⟩
  | .putNone a, k => ⟨0, false, [(.done, k.putNone a)]⟩
  | .may, k => ⟨0, false, [(.done, k)]⟩
  | .raise, _ => ⟨0, false, []⟩
  | .ret, k => ⟨0, false, [(.ret, k)]⟩
  | .stop, k => ⟨0, false, [(.stop, k)]⟩
  | .seq c d, k => (runWith F c k).bind (runWith F d)
  | .br c d, k => (runWith F c k).join (runWith F d k)
  | .opt i c d, k =>
    (if bit k.no i then ⟨0, false, []⟩ else runWith F c (k.optT i)).join
      (if bit k.yes i then ⟨0, false, []⟩ else runWith F d (k.optF i))
  | .ifNone a c d, k =>
    let r := (if bit k.val a then ⟨0, false, []⟩ else runWith F c (k.putNone a)).join
      (if bit k.non a then ⟨0, false, []⟩ else runWith F d (k.putVal a))
    ⟨(if bit k.has a then 0 else 2 ^ a) ||| r.miss, r.deep, r.ends⟩
  | .ifHas a c d, k =>
    (runWith F c (k.seen a)).join (if bit k.has a then ⟨0, false, []⟩ else runWith F d k)
  | .loop c, k => (runWith F c (k.weak c)).looped (k.weak c)
  | .tryC c d, k => (runWith F c k).join (runWith F d (k.weak c))
  | .call m, k => F m k

/-- The analysis of the methods called, followed to depth `n`. -/
def callN (P : ℕ → Cmd) : ℕ → ℕ → Know → Res
  | 0, _, _ => ⟨0, true, [(.done, ⟨0, 0, 0, 0, 0⟩)]⟩
  | n + 1, m, k => (runWith (callN P n) (P m) k.enter).called k

/-- The analysis; `n` bounds the depth of nested calls followed. -/
def run (P : ℕ → Cmd) (n : ℕ) (c : Cmd) (k : Know) : Res := runWith (callN P n) c k

theorem Know.ok_and_left {k k' : Know} {ρ : Args} {s : Store} (h : k.ok ρ s) :
    (⟨k.has &&& k'.has, k.non &&& k'.non, k.val &&& k'.val, k.yes &&& k'.yes,
      k.no &&& k'.no⟩ : Know).ok ρ s := by
  refine ⟨fun b => ?_, fun i => ?_⟩
  · simp only [bit_and, Bool.and_eq_true]
    exact ⟨fun hb => (h.1 b).1 hb.1, fun hb => (h.1 b).2.1 hb.1, fun hb => (h.1 b).2.2 hb.1⟩
  · simp only [bit_and, Bool.and_eq_true]
    exact ⟨fun hi => (h.2 i).1 hi.1, fun hi => (h.2 i).2 hi.1⟩

theorem Know.ok_and_right {k k' : Know} {ρ : Args} {s : Store} (h : k'.ok ρ s) :
    (⟨k.has &&& k'.has, k.non &&& k'.non, k.val &&& k'.val, k.yes &&& k'.yes,
      k.no &&& k'.no⟩ : Know).ok ρ s := by
  refine ⟨fun b => ?_, fun i => ?_⟩
  · simp only [bit_and, Bool.and_eq_true]
    exact ⟨fun hb => (h.1 b).1 hb.2, fun hb => (h.1 b).2.1 hb.2, fun hb => (h.1 b).2.2 hb.2⟩
  · simp only [bit_and, Bool.and_eq_true]
    exact ⟨fun hi => (h.2 i).1 hi.2, fun hi => (h.2 i).2 hi.2⟩

theorem agree_ok {l : List (End × Know)} {e : End} {k : Know} {ρ : Args} {s : Store}
    (h : (e, k) ∈ l) (hk : k.ok ρ s) : ∃ k', agree l = some k' ∧ k'.ok ρ s := by
  induction l with
  | nil => simp at h
  | cons x l ih =>
    obtain ⟨e', k₁⟩ := x
    rcases List.mem_cons.1 h with h | h
    · cases h
      cases hl : agree l with
      | none => exact ⟨k, by simp [agree, hl], hk⟩
      | some k₂ => exact ⟨_, by simp only [agree, hl], Know.ok_and_left (k' := k₂) hk⟩
    · obtain ⟨k₂, hk₂, h₁⟩ := ih h
      exact ⟨_, by simp only [agree, hk₂], Know.ok_and_right (k := k₁) h₁⟩

theorem mem_addEnd {e x : End × Know} {l : List (End × Know)} :
    x ∈ addEnd e l ↔ x = e ∨ x ∈ l := by
  unfold addEnd
  split_ifs with h
  · rw [List.contains_iff_mem] at h
    constructor
    · exact Or.inr
    · rintro (rfl | h'); exacts [h, h']
  · simp

theorem mem_unionEnds {x : End × Know} {l m : List (End × Know)} :
    x ∈ unionEnds l m ↔ x ∈ l ∨ x ∈ m := by
  unfold unionEnds
  induction l with
  | nil => simp
  | cons a l ih => rw [List.foldr_cons, mem_addEnd, ih]; simp [or_assoc]

/-- `r` accounts for an execution that ended in `s'` with `o`. -/
def Res.covers (r : Res) (ρ : Args) (s' : Store) (o : Out) : Prop :=
  (r.deep = false → ∀ a, o = .attrErr a → bit r.miss a = true) ∧
    (∀ e : End, o = e.out → ∃ k, (e, k) ∈ r.ends ∧ k.ok ρ s')

theorem covers_join_left {r t : Res} {ρ : Args} {s' : Store} {o : Out} (h : r.covers ρ s' o) :
    (r.join t).covers ρ s' o := by
  refine ⟨fun hs a ha => ?_, fun e he => ?_⟩
  · simp only [Res.join, Bool.or_eq_false_iff] at hs
    simp [Res.join, bit_or, h.1 hs.1 a ha]
  · obtain ⟨k, hk, ok⟩ := h.2 e he
    exact ⟨k, mem_unionEnds.2 (Or.inl hk), ok⟩

theorem covers_join_right {r t : Res} {ρ : Args} {s' : Store} {o : Out} (h : t.covers ρ s' o) :
    (r.join t).covers ρ s' o := by
  refine ⟨fun hs a ha => ?_, fun e he => ?_⟩
  · simp only [Res.join, Bool.or_eq_false_iff] at hs
    simp [Res.join, bit_or, h.1 hs.2 a ha]
  · obtain ⟨k, hk, ok⟩ := h.2 e he
    exact ⟨k, mem_unionEnds.2 (Or.inr hk), ok⟩

theorem thenDo_done {f : Know → Res} {l : List (End × Know)} {k : Know} (hk : (End.done, k) ∈ l) :
    ((thenDo f l).deep = false → (f k).deep = false ∧
      ∀ a, bit (f k).miss a = true → bit (thenDo f l).miss a = true) ∧
      ∀ x ∈ (f k).ends, x ∈ (thenDo f l).ends := by
  induction l with
  | nil => simp at hk
  | cons a l ih =>
    obtain ⟨e, k'⟩ := a
    rcases List.mem_cons.1 hk with h | h
    · cases h
      simp only [thenDo, Res.join, Bool.or_eq_false_iff, mem_unionEnds, bit_or]
      exact ⟨fun h => ⟨h.1, fun a ha => by simp [ha]⟩, fun x hx => Or.inl hx⟩
    · obtain ⟨h₁, h₂⟩ := ih h
      cases e
      · simp only [thenDo, Res.join, Bool.or_eq_false_iff, mem_unionEnds, bit_or]
        exact ⟨fun h => ⟨(h₁ h.2).1, fun a ha => by simp [(h₁ h.2).2 a ha]⟩,
          fun x hx => Or.inr (h₂ x hx)⟩
      · simp only [thenDo, mem_addEnd]
        exact ⟨h₁, fun x hx => Or.inr (h₂ x hx)⟩
      · simp only [thenDo, mem_addEnd]
        exact ⟨h₁, fun x hx => Or.inr (h₂ x hx)⟩

theorem thenDo_final {f : Know → Res} {l : List (End × Know)} {e : End} {k : Know}
    (he : e ≠ .done) (hk : (e, k) ∈ l) : (e, k) ∈ (thenDo f l).ends := by
  induction l with
  | nil => simp at hk
  | cons a l ih =>
    obtain ⟨e', k'⟩ := a
    rcases List.mem_cons.1 hk with h | h
    · cases h
      cases e
      · exact absurd rfl he
      · simp [thenDo, mem_addEnd]
      · simp [thenDo, mem_addEnd]
    · cases e'
      · simp only [thenDo, Res.join, mem_unionEnds]; exact Or.inr (ih h)
      · simp only [thenDo, mem_addEnd]; exact Or.inr (ih h)
      · simp only [thenDo, mem_addEnd]; exact Or.inr (ih h)

theorem Know.ok_putVal {k : Know} {ρ : Args} {s : Store} (h : k.ok ρ s) (a n : ℕ) :
    (k.putVal a).ok ρ (s.put a (.val n)) := by
  refine ⟨fun b => ?_, h.2⟩
  obtain ⟨h₁, h₂, h₃⟩ := h.1 b
  simp only [Know.putVal, bit_ins, bit_del, Store.put]
  by_cases e : b = a
  · subst e; simp
  · have e' : ¬ a = b := fun h => e h.symm
    simp only [e, e', if_false, decide_false, Bool.or_false, Bool.not_false, Bool.and_true]
    exact ⟨h₁, h₂, h₃⟩

theorem Know.ok_putNone {k : Know} {ρ : Args} {s : Store} (h : k.ok ρ s) (a : ℕ) :
    (k.putNone a).ok ρ (s.put a .blank) := by
  refine ⟨fun b => ?_, h.2⟩
  obtain ⟨h₁, h₂, h₃⟩ := h.1 b
  simp only [Know.putNone, bit_ins, bit_del, Store.put]
  by_cases e : b = a
  · subst e; simp
  · have e' : ¬ a = b := fun h => e h.symm
    simp only [e, e', if_false, decide_false, Bool.or_false, Bool.not_false, Bool.and_true]
    exact ⟨h₁, h₂, h₃⟩

theorem Know.ok_seen {k : Know} {ρ : Args} {s : Store} (h : k.ok ρ s) {a : ℕ} (ha : s a ≠ none) :
    (k.seen a).ok ρ s := by
  refine ⟨fun b => ?_, h.2⟩
  obtain ⟨h₁, h₂, h₃⟩ := h.1 b
  simp only [Know.seen, bit_ins]
  refine ⟨fun hb => ?_, h₂, h₃⟩
  by_cases e : a = b
  · subst e; exact ha
  · simp only [e, decide_false, Bool.or_false] at hb; exact h₁ hb

theorem Know.ok_optT {k : Know} {ρ : Args} {s : Store} (h : k.ok ρ s) {i : ℕ} (hi : ρ i = true) :
    (k.optT i).ok ρ s := by
  refine ⟨h.1, fun j => ⟨fun hj => ?_, (h.2 j).2⟩⟩
  simp only [Know.optT, bit_ins] at hj
  by_cases e : i = j
  · subst e; exact hi
  · simp only [e, decide_false, Bool.or_false] at hj; exact (h.2 j).1 hj

theorem Know.ok_optF {k : Know} {ρ : Args} {s : Store} (h : k.ok ρ s) {i : ℕ} (hi : ρ i = false) :
    (k.optF i).ok ρ s := by
  refine ⟨h.1, fun j => ⟨(h.2 j).1, fun hj => ?_⟩⟩
  simp only [Know.optF, bit_ins] at hj
  by_cases e : i = j
  · subst e; exact hi
  · simp only [e, decide_false, Bool.or_false] at hj; exact (h.2 j).2 hj

theorem Know.ok_enter {k : Know} {ρ ρ' : Args} {s : Store} (h : k.ok ρ s) : k.enter.ok ρ' s :=
  ⟨h.1, fun i => by simp [Know.enter, bit_zero]⟩

theorem Know.ok_leave {k k' : Know} {ρ ρ' : Args} {s s' : Store} (h : k.ok ρ s)
    (h' : k'.ok ρ' s') : (k.leave k').ok ρ s' := ⟨h'.1, h.2⟩

theorem Store.put_same {s : Store} {a : ℕ} {c : Cell} (h : s a = some c) : s.put a c = s := by
  funext b
  unfold Store.put
  split_ifs with e
  · rw [e, h]
  · rfl

theorem Know.ok_isNone {k : Know} {ρ : Args} {s : Store} (h : k.ok ρ s) {a : ℕ} (ha : s a = some .blank) :
    (k.putNone a).ok ρ s := by
  have := Know.ok_putNone h a
  rwa [Store.put_same ha] at this

theorem Know.ok_isVal {k : Know} {ρ : Args} {s : Store} (h : k.ok ρ s) {a n : ℕ} (ha : s a = some (.val n)) :
    (k.putVal a).ok ρ s := by
  have := Know.ok_putVal h a n
  rwa [Store.put_same ha] at this

theorem Know.ok_weak {P : ℕ → Cmd} {k : Know} {ρ : Args} {c : Cmd} {s s' : Store} {o : Out}
    (h : k.ok ρ s) (hx : Exec P ρ c s s' o) : (k.weak c).ok ρ s' := by
  refine ⟨fun b => ⟨fun hb => hx.keeps b ((h.1 b).1 hb), fun hb => ?_, fun hb => ?_⟩, h.2⟩
  · cases hn : noPut c with
    | false => simp [Know.weak, hn, bit_zero] at hb
    | true =>
      simp only [Know.weak, hn, if_true] at hb
      rw [hx.noPut_keeps hn]
      exact (h.1 b).2.1 hb
  · cases hn : noBlank c with
    | false => simp [Know.weak, hn, bit_zero] at hb
    | true =>
      simp only [Know.weak, hn, if_true] at hb
      exact hx.noBlank_keepsVal hn b ((h.1 b).2.2 hb)

theorem Know.ok_weak_same {k : Know} {ρ : Args} {s : Store} (h : k.ok ρ s) (c : Cmd) :
    (k.weak c).ok ρ s := by
  refine ⟨fun b => ⟨(h.1 b).1, fun hb => ?_, fun hb => ?_⟩, h.2⟩
  · cases hn : noPut c with
    | false => simp [Know.weak, hn, bit_zero] at hb
    | true => simp only [Know.weak, hn, if_true] at hb; exact (h.1 b).2.1 hb
  · cases hn : noBlank c with
    | false => simp [Know.weak, hn, bit_zero] at hb
    | true => simp only [Know.weak, hn, if_true] at hb; exact (h.1 b).2.2 hb

theorem Know.weak_weak (k : Know) (c : Cmd) : (k.weak c).weak c = k.weak c := by
  cases hn : noBlank c <;> cases hn' : noPut c <;> simp [Know.weak, hn, hn']

theorem covers_done {r : Res} {k : Know} {ρ : Args} {s : Store} (hm : (End.done, k) ∈ r.ends)
    (h : k.ok ρ s) : r.covers ρ s .done := by
  refine ⟨fun _ a ha => (by cases ha), fun e he => ?_⟩
  cases e
  · exact ⟨k, hm, h⟩
  · cases he
  · cases he

theorem covers_err {r : Res} {ρ : Args} {s : Store} : r.covers ρ s .err :=
  ⟨fun _ a ha => (by cases ha), fun e he => by cases e <;> cases he⟩

theorem covers_attrErr {r : Res} {ρ : Args} {s : Store} {a : ℕ} (h : bit r.miss a = true) :
    r.covers ρ s (.attrErr a) :=
  ⟨fun _ b hb => by cases hb; exact h, fun e he => by cases e <;> cases he⟩

/-- The analysis covers every execution if that of the calls does. -/
theorem runWith_sound {P : ℕ → Cmd} {F : ℕ → ℕ → Know → Res}
    (hF : ∀ (n m : ℕ) (k : Know) (ρ ρ' : Args) (s s₁ : Store) (o : Out), k.ok ρ s →
      (∀ n' k', n = n' + 1 → k'.ok ρ' s → (runWith (F n') (P m) k').covers ρ' s₁ o) →
      (F n m k).covers ρ s₁ o.ofCall)
    {ρ : Args} {c : Cmd} {s s' : Store} {o : Out} (h : Exec P ρ c s s' o) :
    ∀ (n : ℕ) (k : Know), k.ok ρ s → (runWith (F n) c k).covers ρ s' o := by
  induction h with
  | skip ρ s => intro n k hk; exact covers_done (by simp [runWith]) hk
  | getOk ρ s a ha =>
    intro n k hk
    exact covers_done (k := k.seen a) (by simp [runWith]) (Know.ok_seen hk ha)
  | getErr ρ s a ha =>
    intro n k hk
    refine covers_attrErr ?_
    cases hb : bit k.has a with
    | false => simp [runWith, hb, bit_or, bit_two_pow]
    | true => exact absurd ha ((hk.1 a).1 hb)
  | put ρ s a v =>
    intro n k hk
    exact covers_done (k := k.putVal a) (by simp [runWith]) (Know.ok_putVal hk a v)
  | putNone ρ s a =>
    intro n k hk
    exact covers_done (k := k.putNone a) (by simp [runWith]) (Know.ok_putNone hk a)
  | mayOk ρ s => intro n k hk; exact covers_done (by simp [runWith]) hk
  | mayErr ρ s => intro n k hk; exact covers_err
  | raise ρ s => intro n k hk; exact covers_err
  | ret ρ s =>
    intro n k hk
    refine ⟨fun _ a ha => (by cases ha), fun e he => ?_⟩
    cases e <;> cases he
    exact ⟨k, by simp [runWith], hk⟩
  | stop ρ s =>
    intro n k hk
    refine ⟨fun _ a ha => (by cases ha), fun e he => ?_⟩
    cases e <;> cases he
    exact ⟨k, by simp [runWith], hk⟩
  | @seq ρ c d s s₁ s₂ o _ _ ih₁ ih₂ =>
    intro n k hk
    obtain ⟨k₁, hm, hk₁⟩ := (ih₁ n k hk).2 .done rfl
    have h₂ := ih₂ n k₁ hk₁
    have ht := thenDo_done (f := runWith (F n) d) hm
    simp only [runWith, Res.bind]
    refine ⟨fun hs => ?_, fun e he => ?_⟩
    · simp only [Bool.or_eq_false_iff] at hs
      intro a ha
      have := (ht.1 hs.2).2 a (h₂.1 (ht.1 hs.2).1 a ha)
      rw [bit_or, Bool.or_eq_true]; exact Or.inr this
    · obtain ⟨k₂, hm₂, hk₂⟩ := h₂.2 e he
      exact ⟨k₂, ht.2 _ hm₂, hk₂⟩
  | @seqOut ρ c d s s₁ o _ ho ih =>
    intro n k hk
    have h₁ := ih n k hk
    simp only [runWith, Res.bind]
    refine ⟨fun hs => ?_, fun e he => ?_⟩
    · simp only [Bool.or_eq_false_iff] at hs
      intro a ha
      rw [bit_or, Bool.or_eq_true]; exact Or.inl (h₁.1 hs.1 a ha)
    · obtain ⟨k₁, hm, hk₁⟩ := h₁.2 e he
      refine ⟨k₁, thenDo_final (fun hd => ho ?_) hm, hk₁⟩
      rw [he, hd]; rfl
  | brL _ ih => intro n k hk; simp only [runWith]; exact covers_join_left (ih n k hk)
  | brR _ ih => intro n k hk; simp only [runWith]; exact covers_join_right (ih n k hk)
  | @optT ρ i c d s s₁ o hi _ ih =>
    intro n k hk
    have hb : bit k.no i = false := by
      cases hb : bit k.no i with
      | false => rfl
      | true => have := (hk.2 i).2 hb; rw [hi] at this; cases this
    simp only [runWith, hb, Bool.false_eq_true, if_false]
    exact covers_join_left (ih n _ (Know.ok_optT hk hi))
  | @optF ρ i c d s s₁ o hi _ ih =>
    intro n k hk
    have hb : bit k.yes i = false := by
      cases hb : bit k.yes i with
      | false => rfl
      | true => have := (hk.2 i).1 hb; rw [hi] at this; cases this
    simp only [runWith, hb, Bool.false_eq_true, if_false]
    exact covers_join_right (ih n _ (Know.ok_optF hk hi))
  | @isNone ρ a c d s s₁ o ha _ ih =>
    intro n k hk
    have h₁ := ih n _ (Know.ok_isNone hk ha)
    have hv : bit k.val a = false := by
      cases hb : bit k.val a with
      | false => rfl
      | true => obtain ⟨v, hv⟩ := (hk.1 a).2.2 hb; rw [ha] at hv; cases hv
    have h₂ : ((runWith (F n) c (k.putNone a)).join
        (if bit k.non a then ⟨0, false, []⟩ else runWith (F n) d (k.putVal a))).covers ρ s₁ o :=
      covers_join_left h₁
    simp only [runWith, hv, Bool.false_eq_true, if_false]
    refine ⟨fun hs a ha => ?_, h₂.2⟩
    rw [bit_or, Bool.or_eq_true]; exact Or.inr (h₂.1 hs a ha)
  | @isVal ρ a c d s s₁ o v ha _ ih =>
    intro n k hk
    have h₁ := ih n _ (Know.ok_isVal hk ha)
    have hv : bit k.non a = false := by
      cases hb : bit k.non a with
      | false => rfl
      | true => have := (hk.1 a).2.1 hb; rw [ha] at this; cases this
    have h₂ : ((if bit k.val a then ⟨0, false, []⟩ else runWith (F n) c (k.putNone a)).join
        (runWith (F n) d (k.putVal a))).covers ρ s₁ o :=
      covers_join_right h₁
    simp only [runWith, hv, Bool.false_eq_true, if_false]
    refine ⟨fun hs a ha => ?_, h₂.2⟩
    rw [bit_or, Bool.or_eq_true]; exact Or.inr (h₂.1 hs a ha)
  | @ifNoneErr ρ a c d s ha =>
    intro n k hk
    refine covers_attrErr ?_
    cases hb : bit k.has a with
    | false => simp [runWith, hb, bit_or, bit_two_pow]
    | true => exact absurd ha ((hk.1 a).1 hb)
  | @has ρ a c d s s₁ o ha _ ih =>
    intro n k hk
    simp only [runWith]
    exact covers_join_left (ih n _ (Know.ok_seen hk ha))
  | @hasnt ρ a c d s s₁ o ha _ ih =>
    intro n k hk
    have hb : bit k.has a = false := by
      cases hb : bit k.has a with
      | false => rfl
      | true => exact absurd ha ((hk.1 a).1 hb)
    simp only [runWith, hb, Bool.false_eq_true, if_false]
    exact covers_join_right (ih n k hk)
  | loopEnd ρ c s =>
    intro n k hk
    simp only [runWith]
    exact covers_done (k := k.weak c) (by simp [Res.looped, mem_addEnd])
      (Know.ok_weak_same hk c)
  | @loopGo ρ c s s₁ s₂ o o' hx ho _ ih₁ ih₂ =>
    intro n k hk
    have h₂ := ih₂ n (k.weak c) (Know.ok_weak hk hx)
    simpa only [runWith, Know.weak_weak] using h₂
  | @loopOut ρ c s s₁ o _ ho ho' ih =>
    intro n k hk
    have h₁ := ih n (k.weak c) (Know.ok_weak_same hk c)
    simp only [runWith, Res.looped]
    refine ⟨h₁.1, fun e he => ?_⟩
    obtain ⟨k₁, hm, hk₁⟩ := h₁.2 e he
    refine ⟨k₁, mem_addEnd.2 (Or.inr (List.mem_filter.2 ⟨hm, ?_⟩)), hk₁⟩
    cases e
    · exact absurd he ho
    · rfl
    · exact absurd he ho'
  | tryOk _ ih => intro n k hk; simp only [runWith]; exact covers_join_left (ih n k hk)
  | tryCatch hx _ _ ih₂ =>
    intro n k hk
    simp only [runWith]
    exact covers_join_right (ih₂ n _ (Know.ok_weak hk hx))
  | @call ρ ρ' m s s₁ o _ ih =>
    intro n k hk
    exact hF n m k ρ ρ' s s₁ o hk fun n' k' _ hk' => ih n' k' hk'

/-- The analysis covers every execution. -/
theorem run_sound {P : ℕ → Cmd} {ρ : Args} {c : Cmd} {s s' : Store} {o : Out} (h : Exec P ρ c s s' o)
    (n : ℕ) (k : Know) (hk : k.ok ρ s) : (run P n c k).covers ρ s' o := by
  refine runWith_sound (F := callN P) ?_ h n k hk
  intro n m k ρ ρ' s s₁ o hk ih
  cases n with
  | zero =>
    simp only [callN]
    refine ⟨fun hs => absurd hs (by simp), fun e he => ?_⟩
    refine ⟨⟨0, 0, 0, 0, 0⟩, ?_, fun b => by simp [bit_zero], fun b => by simp [bit_zero]⟩
    cases e
    · simp
    · cases o <;> cases he
    · cases o <;> cases he
  | succ n =>
    have h₁ := ih n k.enter rfl (Know.ok_enter hk)
    simp only [callN, Res.called]
    refine ⟨fun hs a ha => ?_, fun e he => ?_⟩
    · cases o <;> simp only [Out.ofCall] at ha <;> cases ha
      exact h₁.1 hs a rfl
    · have hd : e = .done := by cases e <;> cases o <;> first | rfl | cases he
      subst hd
      have key : ∃ e' : End, o = e'.out := by
        cases o
        · exact ⟨.done, rfl⟩
        · exact ⟨.ret, rfl⟩
        · exact ⟨.stop, rfl⟩
        · cases he
        · cases he
      obtain ⟨e', he'⟩ := key
      obtain ⟨k₁, hm, hk₁⟩ := h₁.2 e' he'
      obtain ⟨k₂, ha, hk₂⟩ := agree_ok hm hk₁
      exact ⟨k.leave k₂, by rw [ha]; simp, Know.ok_leave hk hk₂⟩

/-! ## Per-class summaries -/

/-- What a call of each method can store: iterate `mayPut` `n` times. -/
def storesN (P : ℕ → Cmd) : ℕ → ℕ → ℕ
  | 0, _ => 0
  | n + 1, m => mayPut (storesN P n) (P m)

def blanksN (P : ℕ → Cmd) : ℕ → ℕ → ℕ
  | 0, _ => 0
  | n + 1, m => mayNone (blanksN P n) (P m)

/-- Depth of nested calls followed. -/
@[reducible] def depth : ℕ := 5

/-- What is known of every constructed object. -/
def Cls.born (C : Cls) : Know :=
  (agree (run C.body depth C.init ⟨0, 0, 0, 0, 0⟩).ends).getD ⟨0, 0, 0, 0, 0⟩

/-- Attributes some method can set to `None`. -/
def Cls.blanks (C : Cls) : ℕ :=
  (List.range C.methods.length).foldl (fun a m => a ||| blanksN C.body depth m) 0

/-- What is known of an object throughout its life. -/
def Cls.always (C : Cls) : Know :=
  ⟨C.born.has, 0, C.born.val ^^^ (C.born.val &&& C.blanks), 0, 0⟩

def maskOf (l : List ℕ) : ℕ := l.foldl ins 0

/-- What is known when step `w` has completed. -/
def Cls.after (C : Cls) (w : Step) : Know :=
  (agree (run C.body depth (C.body w.m)
    ⟨C.always.has, 0, C.always.val, maskOf w.yes, maskOf w.no⟩).ends).getD ⟨0, 0, 0, 0, 0⟩

/-- The summaries of all methods are closed under calls. -/
def Cls.closed (C : Cls) : Bool :=
  (List.range C.methods.length).all fun m =>
    (mayPut (storesN C.body depth) (C.body m) ||| storesN C.body depth m
        == storesN C.body depth m) &&
      (mayNone (blanksN C.body depth) (C.body m) ||| blanksN C.body depth m
        == blanksN C.body depth m)

theorem Cls.body_of_ge (C : Cls) {m : ℕ} (h : C.methods.length ≤ m) : C.body m = .skip := by
  simp [Cls.body, List.getD_eq_getElem?_getD, List.getElem?_eq_none h]

theorem bit_of_or_eq {x y b : ℕ} (h : x ||| y = y) (hb : bit x b = true) : bit y b = true := by
  rw [← h, bit_or, hb]; rfl

theorem Cls.closed_stores {C : Cls} (h : C.closed = true) (m b : ℕ)
    (hb : bit (mayPut (storesN C.body depth) (C.body m)) b = true) :
    bit (storesN C.body depth m) b = true := by
  by_cases hm : m < C.methods.length
  · have := List.all_eq_true.1 h m (List.mem_range.2 hm)
    simp only [Bool.and_eq_true, beq_iff_eq] at this
    exact bit_of_or_eq this.1 hb
  · rw [C.body_of_ge (not_lt.1 hm)] at hb
    simp [mayPut, bit_zero] at hb

theorem Cls.closed_blanks {C : Cls} (h : C.closed = true) (m b : ℕ)
    (hb : bit (mayNone (blanksN C.body depth) (C.body m)) b = true) :
    bit (blanksN C.body depth m) b = true := by
  by_cases hm : m < C.methods.length
  · have := List.all_eq_true.1 h m (List.mem_range.2 hm)
    simp only [Bool.and_eq_true, beq_iff_eq] at this
    exact bit_of_or_eq this.2 hb
  · rw [C.body_of_ge (not_lt.1 hm)] at hb
    simp [mayNone, bit_zero] at hb

theorem bit_foldl_or (f : ℕ → ℕ) (b : ℕ) (l : List ℕ) (a : ℕ) :
    bit (l.foldl (fun a m => a ||| f m) a) b = (bit a b || l.any fun m => bit (f m) b) := by
  induction l generalizing a with
  | nil => simp
  | cons x l ih => rw [List.foldl_cons, ih, bit_or, List.any_cons, Bool.or_assoc]

theorem Cls.blanks_of {C : Cls} (h : C.closed = true) {m b : ℕ}
    (hb : bit (mayNone (blanksN C.body depth) (C.body m)) b = true) : bit C.blanks b = true := by
  have h₁ := C.closed_blanks h m b hb
  by_cases hm : m < C.methods.length
  · rw [Cls.blanks, bit_foldl_or, Bool.or_eq_true]
    exact Or.inr (List.any_eq_true.2 ⟨m, List.mem_range.2 hm, h₁⟩)
  · rw [C.body_of_ge (not_lt.1 hm)] at hb
    simp [mayNone, bit_zero] at hb

theorem bit_without (x y b : ℕ) : bit (x ^^^ (x &&& y)) b = (bit x b && !bit y b) := by
  simp only [bit, Nat.testBit_xor, Nat.testBit_and]
  cases x.testBit b <;> cases y.testBit b <;> rfl

/-- A method keeps what no method blanks. -/
theorem Cls.keeps {C : Cls} (hc : C.closed = true) {m : ℕ} {ρ : Args} {s s' : Store} {o : Out}
    (hx : Exec C.body ρ (C.body m) s s' o) {b : ℕ} (hb : bit C.blanks b = false)
    (hv : ∃ n, s b = some (.val n)) : ∃ n, s' b = some (.val n) := by
  refine hx.keepsVal (C.closed_blanks hc) b ?_ hv
  cases hn : bit (mayNone (blanksN C.body depth) (C.body m)) b with
  | false => rfl
  | true => rw [C.blanks_of hc hn] at hb; cases hb

theorem out_end {o : Out} (h : o.ofCall = .done) : ∃ e : End, o = e.out := by
  cases o
  · exact ⟨.done, rfl⟩
  · exact ⟨.ret, rfl⟩
  · exact ⟨.stop, rfl⟩
  · cases h
  · cases h

theorem ends_agree {P : ℕ → Cmd} {ρ : Args} {c : Cmd} {k : Know} {s s' : Store} {o : Out}
    (hx : Exec P ρ c s s' o) (hk : k.ok ρ s) (ho : o.ofCall = .done) (d : Know) :
    (∀ b, bit ((agree (run P depth c k).ends).getD d).has b = true → s' b ≠ none) ∧
      ∀ b, bit ((agree (run P depth c k).ends).getD d).val b = true → ∃ n, s' b = some (.val n) := by
  obtain ⟨e, he⟩ := out_end ho
  obtain ⟨k₁, hm, hk₁⟩ := (run_sound hx depth k hk).2 e he
  obtain ⟨k₂, ha, h₂⟩ := agree_ok hm hk₁
  rw [ha]
  exact ⟨fun b hb => (h₂.1 b).1 hb, fun b hb => (h₂.1 b).2.2 hb⟩

theorem Know.ok_nothing (ρ : Args) (s : Store) : (⟨0, 0, 0, 0, 0⟩ : Know).ok ρ s :=
  ⟨fun b => by simp [bit_zero], fun i => by simp [bit_zero]⟩

/-- Every object with a history satisfies `always`. -/
theorem Hist.always {C : Cls} (hc : C.closed = true) {h : List Call} {s : Store}
    (hh : Hist C h s) : ∀ b, (bit C.always.has b = true → s b ≠ none) ∧
      (bit C.always.val b = true → ∃ n, s b = some (.val n)) := by
  induction hh with
  | made hx ho =>
    intro b
    have := ends_agree hx (Know.ok_nothing _ _) ho ⟨0, 0, 0, 0, 0⟩
    refine ⟨this.1 b, fun hb => this.2 b ?_⟩
    simp only [Cls.always, bit_without, Bool.and_eq_true] at hb
    exact hb.1
  | called hh hx ih =>
    intro b
    refine ⟨fun hb => hx.keeps b ((ih b).1 hb), fun hb => C.keeps hc hx ?_ ((ih b).2 hb)⟩
    simp only [Cls.always, bit_without, Bool.and_eq_true, Bool.not_eq_true'] at hb
    exact hb.2

theorem bit_maskOf {l : List ℕ} {b : ℕ} : bit (maskOf l) b = true ↔ b ∈ l := by
  have key : ∀ (l : List ℕ) (a : ℕ), bit (l.foldl ins a) b = true ↔ bit a b = true ∨ b ∈ l := by
    intro l
    induction l with
    | nil => intro a; simp
    | cons x l ih =>
      intro a
      rw [List.foldl_cons, ih, bit_ins, Bool.or_eq_true, decide_eq_true_iff, List.mem_cons, or_assoc,
        @eq_comm _ x b]
  rw [maskOf, key, bit_zero]
  simp

/-- After a completed step, `after` holds for good. -/
theorem Hist.after {C : Cls} (hc : C.closed = true) {h : List Call} {s : Store}
    (hh : Hist C h s) {w : Step} {c : Call} (hm : c ∈ h) (hw : w.calls c) (ho : c.out = .done) :
    ∀ b, (bit (C.after w).has b = true → s b ≠ none) ∧
      (bit (C.after w).val b = true → bit C.blanks b = false → ∃ n, s b = some (.val n)) := by
  induction hh with
  | made _ _ => simp at hm
  | @called h s s₁ ρ m o hh hx ih =>
    rcases List.mem_cons.1 hm with hm | hm
    · subst hm
      obtain ⟨rfl, hy, hn⟩ := hw
      have ha := hh.always hc
      have hk : (⟨C.always.has, 0, C.always.val, maskOf w.yes, maskOf w.no⟩ : Know).ok ρ s :=
        ⟨fun b => ⟨(ha b).1, by simp [bit_zero], (ha b).2⟩,
          fun i => ⟨fun hi => hy i (bit_maskOf.1 hi), fun hi => hn i (bit_maskOf.1 hi)⟩⟩
      have := ends_agree hx hk ho ⟨0, 0, 0, 0, 0⟩
      exact fun b => ⟨this.1 b, fun hb _ => this.2 b hb⟩
    · intro b
      have := ih hm b
      exact ⟨fun hb => hx.keeps b (this.1 hb), fun hb hn => C.keeps hc hx hn (this.2 hb hn)⟩

/-- An attribute that none of the methods called can store is absent. -/
theorem Hist.absent {C : Cls} (hc : C.closed = true) {a : ℕ}
    (hi : bit (mayPut (storesN C.body depth) C.init) a = false) {h : List Call} {s : Store}
    (hh : Hist C h s)
    (hn : ∀ c ∈ h, bit (mayPut (storesN C.body depth) (C.body c.m)) a = false) : s a = none := by
  induction hh with
  | made hx _ => rw [hx.unchanged (C.closed_stores hc) a hi]; rfl
  | @called h s s₁ ρ m o hh hx ih =>
    rw [hx.unchanged (C.closed_stores hc) a (hn ⟨m, ρ, o.ofCall⟩ (by simp))]
    exact ih fun c hc' => hn c (by simp [hc'])

/-! ## Checking a table -/

/-- The statement does not end with `return`, `break` or `continue`. -/
def falls : Cmd → Bool
  | .ret => false
  | .stop => false
  | .seq c d => falls c && falls d
  | .br c d => falls c && falls d
  | .opt _ c d => falls c && falls d
  | .ifNone _ c d => falls c && falls d
  | .ifHas _ c d => falls c && falls d
  | .tryC c d => falls c && falls d
  | .loop c => falls c
  | _ => true

theorem Exec.falls {P : ℕ → Cmd} {ρ : Args} {c : Cmd} {s s' : Store} {o : Out}
    (h : Exec P ρ c s s' o) (hf : falls c = true) : o ≠ .ret ∧ o ≠ .stop := by
  induction h with
  | ret => simp [Life.falls] at hf
  | stop => simp [Life.falls] at hf
  | seq _ _ _ ih => simp only [Life.falls, Bool.and_eq_true] at hf; exact ih hf.2
  | seqOut _ _ ih => simp only [Life.falls, Bool.and_eq_true] at hf; exact ih hf.1
  | brL _ ih => simp only [Life.falls, Bool.and_eq_true] at hf; exact ih hf.1
  | brR _ ih => simp only [Life.falls, Bool.and_eq_true] at hf; exact ih hf.2
  | optT _ _ ih => simp only [Life.falls, Bool.and_eq_true] at hf; exact ih hf.1
  | optF _ _ ih => simp only [Life.falls, Bool.and_eq_true] at hf; exact ih hf.2
  | isNone _ _ ih => simp only [Life.falls, Bool.and_eq_true] at hf; exact ih hf.1
  | isVal _ _ ih => simp only [Life.falls, Bool.and_eq_true] at hf; exact ih hf.2
  | has _ _ ih => simp only [Life.falls, Bool.and_eq_true] at hf; exact ih hf.1
  | hasnt _ _ ih => simp only [Life.falls, Bool.and_eq_true] at hf; exact ih hf.2
  | loopGo _ _ _ _ ih => exact ih hf
  | loopOut _ _ _ ih => exact ih hf
  | tryOk _ ih => simp only [Life.falls, Bool.and_eq_true] at hf; exact ih hf.1
  | tryCatch _ _ _ ih => simp only [Life.falls, Bool.and_eq_true] at hf; exact ih hf.2
  | @call ρ ρ' m s s₁ o _ _ => cases o <;> simp [Out.ofCall]
  | _ => simp

/-- What `if hasattr(self, "a")` comes to when `a` is absent. -/
def skipHas (a : ℕ) : Cmd → Cmd
  | .ifHas b c d => if b = a then d else .ifHas b c d
  | c => c

theorem Exec.skipHas {P : ℕ → Cmd} {ρ : Args} {c : Cmd} {s s' : Store} {o : Out} {a : ℕ}
    (h : Exec P ρ c s s' o) (ha : s a = none) : Exec P ρ (skipHas a c) s s' o := by
  cases c with
  | ifHas b c d =>
    simp only [Life.skipHas]
    split_ifs with hb
    · subst hb
      cases h with
      | has h _ => exact absurd ha h
      | hasnt _ h => exact h
    · exact h
  | _ => exact h

/-- Every way through the statement reads `a` before storing it, or fails. -/
def mustRead (W : ℕ → ℕ) (a : ℕ) : Cmd → Bool
  | .get b => b == a
  | .raise => true
  | .seq c d => mustRead W a c ||
      (falls (skipHas a c) && !bit (mayPut W (skipHas a c)) a && mustRead W a d)
  | .br c d => mustRead W a c && mustRead W a d
  | .opt _ c d => mustRead W a c && mustRead W a d
  | .ifNone b c d => b == a || (mustRead W a c && mustRead W a d)
  | .ifHas b c d => (b == a || mustRead W a c) && mustRead W a d
  | _ => false

theorem mustRead_fails {P : ℕ → Cmd} {W : ℕ → ℕ}
    (hW : ∀ m b, bit (mayPut W (P m)) b = true → bit (W m) b = true) {a : ℕ} {ρ : Args}
    {c : Cmd} {s s' : Store} {o : Out} (hx : Exec P ρ c s s' o) (ha : s a = none)
    (h : mustRead W a c = true) : o.failed = true := by
  induction hx with
  | getOk ρ s b hb =>
    simp only [mustRead, beq_iff_eq] at h
    rw [h] at hb
    exact absurd ha hb
  | getErr => rfl
  | raise => rfl
  | @seq ρ c d s s₁ s₂ o h₁ h₂ ih₁ ih₂ =>
    simp only [mustRead, Bool.or_eq_true, Bool.and_eq_true, Bool.not_eq_true'] at h
    rcases h with h | ⟨⟨_, hn⟩, h⟩
    · exact absurd (ih₁ ha h) (by simp [Out.failed])
    · exact ih₂ (by rw [(h₁.skipHas ha).unchanged hW a hn]; exact ha) h
  | @seqOut ρ c d s s₁ o h₁ hne ih =>
    simp only [mustRead, Bool.or_eq_true, Bool.and_eq_true, Bool.not_eq_true'] at h
    rcases h with h | ⟨⟨hf, _⟩, _⟩
    · exact ih ha h
    · have := (h₁.skipHas ha).falls hf
      cases o <;> simp_all [Out.failed]
  | brL _ ih => simp only [mustRead, Bool.and_eq_true] at h; exact ih ha h.1
  | brR _ ih => simp only [mustRead, Bool.and_eq_true] at h; exact ih ha h.2
  | optT _ _ ih => simp only [mustRead, Bool.and_eq_true] at h; exact ih ha h.1
  | optF _ _ ih => simp only [mustRead, Bool.and_eq_true] at h; exact ih ha h.2
  | isNone hb _ ih =>
    simp only [mustRead, Bool.or_eq_true, Bool.and_eq_true, beq_iff_eq] at h
    rcases h with h | h
    · rw [h, ha] at hb; cases hb
    · exact ih ha h.1
  | isVal hb _ ih =>
    simp only [mustRead, Bool.or_eq_true, Bool.and_eq_true, beq_iff_eq] at h
    rcases h with h | h
    · rw [h, ha] at hb; cases hb
    · exact ih ha h.2
  | ifNoneErr => rfl
  | has hb _ ih =>
    simp only [mustRead, Bool.or_eq_true, Bool.and_eq_true, beq_iff_eq] at h
    rcases h.1 with h' | h'
    · rw [h'] at hb; exact absurd ha hb
    · exact ih ha h'
  | hasnt _ _ ih => simp only [mustRead, Bool.and_eq_true] at h; exact ih ha h.2
  | _ => simp [mustRead] at h

/-- The methods outside `ms` cannot store `a`, nor can the constructor. -/
def Cls.onlyFrom (C : Cls) (a : ℕ) (ms : List ℕ) : Bool :=
  !bit (mayPut (storesN C.body depth) C.init) a &&
    (List.range C.methods.length).all fun m =>
      ms.contains m || !bit (mayPut (storesN C.body depth) (C.body m)) a

theorem Cls.onlyFrom_absent {C : Cls} (hc : C.closed = true) {a : ℕ} {ms : List ℕ}
    (ho : C.onlyFrom a ms = true) {h : List Call} {s : Store} (hh : Hist C h s)
    (hn : ∀ c ∈ h, c.m ∉ ms) : s a = none := by
  simp only [Cls.onlyFrom, Bool.and_eq_true, Bool.not_eq_true'] at ho
  refine hh.absent hc ho.1 fun c hm => ?_
  by_cases hl : c.m < C.methods.length
  · have := List.all_eq_true.1 ho.2 c.m (List.mem_range.2 hl)
    simp only [Bool.or_eq_true, Bool.not_eq_true', List.contains_iff_mem] at this
    exact this.resolve_left (hn c hm)
  · rw [C.body_of_ge (not_lt.1 hl)]; simp [mayPut, bit_zero]

theorem notBefore_of {C : Cls} (hc : C.closed = true) {r : Result}
    (ho : C.onlyFrom r.attr r.makers = true)
    (hb : C.body r.prop = .seq (.get r.attr) .ret) : NotBefore C r := by
  intro h s hh hn ρ s' o hx
  have ha := C.onlyFrom_absent hc ho hh hn
  rw [hb] at hx
  cases hx with
  | seq h₁ _ =>
    cases h₁ with
    | getOk _ _ _ hg => exact absurd ha hg
  | seqOut h₁ hne =>
    cases h₁ with
    | getOk _ _ _ hg => exact absurd ha hg
    | getErr => rfl

theorem notBeforeFails_of {C : Cls} (hc : C.closed = true) {r : Result}
    (ho : C.onlyFrom r.attr r.makers = true)
    (hb : mustRead (storesN C.body depth) r.attr (C.body r.prop) = true) : NotBeforeFails C r := by
  intro h s hh hn ρ s' o hx
  exact mustRead_fails (C.closed_stores hc) hx (C.onlyFrom_absent hc ho hh hn) hb

/-- Reading `m` knowing only what is present raises no `AttributeError`. -/
def Cls.reads (C : Cls) (m has : ℕ) : Bool :=
  let r := run C.body depth (C.body m) ⟨has, 0, 0, 0, 0⟩
  r.miss == 0 && !r.deep

theorem Cls.reads_ok {C : Cls} {m has : ℕ} (h : C.reads m has = true) {s : Store}
    (hs : ∀ b, bit has b = true → s b ≠ none) {ρ : Args} {s' : Store} {o : Out}
    (hx : Exec C.body ρ (C.body m) s s' o) : ∀ a, o ≠ .attrErr a := by
  intro a ha
  simp only [Cls.reads, Bool.and_eq_true, beq_iff_eq, Bool.not_eq_true'] at h
  have hk : (⟨has, 0, 0, 0, 0⟩ : Know).ok ρ s :=
    ⟨fun b => ⟨hs b, by simp [bit_zero], by simp [bit_zero]⟩, fun i => by simp [bit_zero]⟩
  have := (run_sound hx depth _ hk).1 h.2 a ha
  rw [h.1, bit_zero] at this
  cases this

/-- The outcome of the analysis of a class, written down: what each step leaves
present, and with a value; what can be set to `None`; what is known throughout. -/
structure Cert where
  has : ℕ
  val : ℕ
  blanks : ℕ
  after : List (Step × ℕ × ℕ)

def Cert.aft (K : Cert) (w : Step) : ℕ × ℕ :=
  match K.after.find? (fun x => x.1 == w) with
  | some x => x.2
  | none => (0, 0)

/-- The written-down outcome is that of the analysis. -/
def Cert.ok (K : Cert) (C : Cls) : Bool :=
  K.has == C.always.has && K.val == C.always.val && K.blanks == C.blanks &&
    K.after.all fun x =>
      (x.2.1 ||| (C.after x.1).has == (C.after x.1).has) &&
        (x.2.2 ||| (C.after x.1).val == (C.after x.1).val)

theorem Cert.aft_le {K : Cert} {C : Cls} (hK : K.ok C = true) (w : Step) (b : ℕ) :
    (bit (K.aft w).1 b = true → bit (C.after w).has b = true) ∧
      (bit (K.aft w).2 b = true → bit (C.after w).val b = true) := by
  simp only [Cert.ok, Bool.and_eq_true] at hK
  unfold Cert.aft
  split
  · rename_i x hx
    have hw : x.1 = w := by simpa using List.find?_some hx
    have := List.all_eq_true.1 hK.2 x (List.mem_of_find?_eq_some hx)
    simp only [Bool.and_eq_true, beq_iff_eq] at this
    subst hw
    exact ⟨bit_of_or_eq this.1, bit_of_or_eq this.2⟩
  · simp [bit_zero]

theorem Cert.fields {K : Cert} {C : Cls} (hK : K.ok C = true) :
    K.has = C.always.has ∧ K.val = C.always.val ∧ K.blanks = C.blanks := by
  simp only [Cert.ok, Bool.and_eq_true, beq_iff_eq] at hK
  exact ⟨hK.1.1.1, hK.1.1.2, hK.1.2⟩

theorem Hist.certified {C : Cls} (hc : C.closed = true) {K : Cert} (hK : K.ok C = true)
    {h : List Call} {s : Store} (hh : Hist C h s) {w : Step} {c : Call} (hm : c ∈ h)
    (hw : w.calls c) (ho : c.out = .done) :
    ∀ b, (bit (K.aft w).1 b = true → s b ≠ none) ∧
      (bit (K.aft w).2 b = true → bit K.blanks b = false → ∃ n, s b = some (.val n)) := by
  intro b
  have := hh.after hc hm hw ho b
  rw [(K.fields hK).2.2]
  exact ⟨fun hb => this.1 ((K.aft_le hK w b).1 hb), fun hb => this.2 ((K.aft_le hK w b).2 hb)⟩

def Cert.ready (K : Cert) (C : Cls) (r : Result) : Bool :=
  !bit K.blanks r.attr && r.steps.all fun w =>
    bit (K.aft w).2 r.attr && C.reads r.prop (K.aft w).1

theorem readyAfter_of {C : Cls} (hc : C.closed = true) {K : Cert} (hK : K.ok C = true)
    {r : Result} (hr : K.ready C r = true) : ReadyAfter C r := by
  intro h s hh w hw c hm hcall ho ρ s' o hx
  simp only [Cert.ready, Bool.and_eq_true, Bool.not_eq_true'] at hr
  have h₁ := List.all_eq_true.1 hr.2 w hw
  simp only [Bool.and_eq_true] at h₁
  have h₂ := hh.certified hc hK hm hcall ho
  exact ⟨C.reads_ok h₁.2 (fun b => (h₂ b).1) hx, (h₂ _).2 h₁.1 hr.1⟩

def Cert.present (K : Cert) (C : Cls) (r : Result) : Bool :=
  r.steps.all fun w => bit (K.aft w).1 r.attr && C.reads r.prop (K.aft w).1

theorem presentAfter_of {C : Cls} (hc : C.closed = true) {K : Cert} (hK : K.ok C = true)
    {r : Result} (hr : K.present C r = true) : PresentAfter C r := by
  intro h s hh w hw c hm hcall ho ρ s' o hx
  have h₁ := List.all_eq_true.1 hr w hw
  simp only [Bool.and_eq_true] at h₁
  have h₂ := hh.certified hc hK hm hcall ho
  exact ⟨C.reads_ok h₁.2 (fun b => (h₂ b).1) hx, (h₂ _).1 h₁.1⟩

def Cert.hasAfter (K : Cert) (ws : List Step) : ℕ :=
  ws.foldl (fun a w => a ||| (K.aft w).1) K.has

def Cert.valAfter (K : Cert) (ws : List Step) : ℕ :=
  ws.foldl (fun a w => a ||| ((K.aft w).2 ^^^ ((K.aft w).2 &&& K.blanks))) K.val

def Cert.usable (K : Cert) (C : Cls) (ws : List Step) (m : ℕ) (but : List ℕ) : Bool :=
  let r := run C.body depth (C.body m) ⟨K.hasAfter ws, 0, K.valAfter ws, 0, 0⟩
  (r.miss ||| maskOf but == maskOf but) && !r.deep

theorem bit_foldl_step (f : Step → ℕ) (b : ℕ) (l : List Step) (a : ℕ) :
    bit (l.foldl (fun a w => a ||| f w) a) b = true ↔
      bit a b = true ∨ ∃ w ∈ l, bit (f w) b = true := by
  induction l generalizing a with
  | nil => simp
  | cons x l ih => rw [List.foldl_cons, ih, bit_or, Bool.or_eq_true]; simp [or_assoc]

theorem usableAfter_of {C : Cls} (hc : C.closed = true) {K : Cert} (hK : K.ok C = true)
    {ws : List Step} {m : ℕ} {but : List ℕ} (hu : K.usable C ws m but = true) :
    UsableAfter C ws m but := by
  intro h s hh hw ρ s' a hx
  simp only [Cert.usable, Bool.and_eq_true, beq_iff_eq, Bool.not_eq_true'] at hu
  have hal := hh.always hc
  have hk : (⟨K.hasAfter ws, 0, K.valAfter ws, 0, 0⟩ : Know).ok ρ s := by
    refine ⟨fun b => ⟨fun hb => ?_, by simp [bit_zero], fun hb => ?_⟩, fun i => by simp [bit_zero]⟩
    · rw [Cert.hasAfter, bit_foldl_step, (K.fields hK).1] at hb
      rcases hb with hb | ⟨w, hwm, hb⟩
      · exact (hal b).1 hb
      · obtain ⟨c, hcm, hcall, ho⟩ := hw w hwm
        exact (hh.certified hc hK hcm hcall ho b).1 hb
    · rw [Cert.valAfter, bit_foldl_step, (K.fields hK).2.1] at hb
      rcases hb with hb | ⟨w, hwm, hb⟩
      · exact (hal b).2 hb
      · obtain ⟨c, hcm, hcall, ho⟩ := hw w hwm
        simp only [bit_without, Bool.and_eq_true, Bool.not_eq_true'] at hb
        exact (hh.certified hc hK hcm hcall ho b).2 hb.1 hb.2
  have := (run_sound hx depth _ hk).1 hu.2 a rfl
  exact bit_maskOf.1 (bit_of_or_eq hu.1 this)

def Cls.quiet (C : Cls) (m : ℕ) : Bool := mayPut (storesN C.body depth) (C.body m) == 0

theorem onlyReads_of {C : Cls} (hc : C.closed = true) {m : ℕ} (hq : C.quiet m = true) :
    OnlyReads C m := by
  intro ρ s s' o hx
  funext b
  refine hx.unchanged (C.closed_stores hc) b ?_
  simp only [Cls.quiet, beq_iff_eq] at hq
  rw [hq, bit_zero]

def Cls.initOk (C : Cls) : Bool :=
  let r := run C.body depth C.init ⟨0, 0, 0, 0, 0⟩
  r.miss == 0 && !r.deep

theorem initNeverMisses_of {C : Cls} (h : C.initOk = true) : InitNeverMisses C := by
  intro ρ s' a hx
  simp only [Cls.initOk, Bool.and_eq_true, beq_iff_eq, Bool.not_eq_true'] at h
  have := (run_sound hx depth _ (Know.ok_nothing ρ Store.empty)).1 h.2 a rfl
  rw [h.1, bit_zero] at this
  cases this

/-! ## Building executions -/

/-- Follow one path: the first number says which `may` fails (0: none), the list
answers, in order, "left branch / once more?".  The result is where the path ends. -/
def walk (P : ℕ → Cmd) : ℕ → Args → Cmd → Store → ℕ × List Bool → Option (Store × Out × ℕ × List Bool)
  | 0, _, _, _, _ => none
  | n + 1, ρ, c, s, ch =>
    match c with
    | .skip => some (s, .done, ch)
    | .get a => if s a = none then some (s, .attrErr a, ch) else some (s, .done, ch)
    | .put a => some (s.put a (.val 0), .done, ch)
    | .putNone a => some (s.put a .blank, .done, ch)
    | .may =>
      match ch with
      | (0, l) => some (s, .done, (0, l))
      | (1, l) => some (s, .err, (0, l))
      | (k + 2, l) => some (s, .done, (k + 1, l))
    | .raise => some (s, .err, ch)
    | .ret => some (s, .ret, ch)
    | .stop => some (s, .stop, ch)
    | .seq c d =>
      match walk P n ρ c s ch with
      | some (s₁, .done, ch₁) => walk P n ρ d s₁ ch₁
      | r => r
    | .br c d =>
      match ch with
      | (k, true :: l) => walk P n ρ c s (k, l)
      | (k, false :: l) => walk P n ρ d s (k, l)
      | (k, []) => walk P n ρ d s (k, [])
    | .opt i c d => if ρ i then walk P n ρ c s ch else walk P n ρ d s ch
    | .ifNone a c d =>
      match s a with
      | none => some (s, .attrErr a, ch)
      | some .blank => walk P n ρ c s ch
      | some (.val _) => walk P n ρ d s ch
    | .ifHas a c d => if s a = none then walk P n ρ d s ch else walk P n ρ c s ch
    | .loop c =>
      match ch with
      | (k, true :: l) =>
        match walk P n ρ c s (k, l) with
        | some (s₁, .done, ch₁) => walk P n ρ (.loop c) s₁ ch₁
        | some (s₁, .stop, ch₁) => walk P n ρ (.loop c) s₁ ch₁
        | r => r
      | (k, false :: l) => some (s, .done, (k, l))
      | (k, []) => some (s, .done, (k, []))
    | .tryC c d =>
      match walk P n ρ c s ch with
      | some (s₁, .err, ch₁) => walk P n ρ d s₁ ch₁
      | r => r
    | .call m =>
      match walk P n (fun _ => false) (P m) s ch with
      | some (s₁, o, ch₁) => some (s₁, o.ofCall, ch₁)
      | none => none

theorem walk_exec {P : ℕ → Cmd} : ∀ (n : ℕ) (ρ : Args) (c : Cmd) (s : Store) (ch : ℕ × List Bool)
    (s' : Store) (o : Out) (ch' : ℕ × List Bool), walk P n ρ c s ch = some (s', o, ch') →
    Exec P ρ c s s' o := by
  intro n
  induction n with
  | zero => intro ρ c s ch s' o ch' h; simp [walk] at h
  | succ n ih =>
    intro ρ c s ch s' o ch' h
    cases c with
    | skip => simp only [walk, Option.some.injEq, Prod.mk.injEq] at h; obtain ⟨rfl, rfl, _⟩ := h; exact .skip ρ s
    | get a =>
      simp only [walk] at h
      split_ifs at h with ha
      · simp only [Option.some.injEq, Prod.mk.injEq] at h; obtain ⟨rfl, rfl, _⟩ := h
        exact .getErr ρ s a ha
      · simp only [Option.some.injEq, Prod.mk.injEq] at h; obtain ⟨rfl, rfl, _⟩ := h
        exact .getOk ρ s a ha
    | put a => simp only [walk, Option.some.injEq, Prod.mk.injEq] at h; obtain ⟨rfl, rfl, _⟩ := h; exact .put ρ s a 0
    | putNone a => simp only [walk, Option.some.injEq, Prod.mk.injEq] at h; obtain ⟨rfl, rfl, _⟩ := h; exact .putNone ρ s a
    | may =>
      simp only [walk] at h
      split at h <;> simp only [Option.some.injEq, Prod.mk.injEq] at h <;> obtain ⟨rfl, rfl, _⟩ := h
      · exact .mayOk ρ s
      · exact .mayErr ρ s
      · exact .mayOk ρ s
    | raise => simp only [walk, Option.some.injEq, Prod.mk.injEq] at h; obtain ⟨rfl, rfl, _⟩ := h; exact .raise ρ s
    | ret => simp only [walk, Option.some.injEq, Prod.mk.injEq] at h; obtain ⟨rfl, rfl, _⟩ := h; exact .ret ρ s
    | stop => simp only [walk, Option.some.injEq, Prod.mk.injEq] at h; obtain ⟨rfl, rfl, _⟩ := h; exact .stop ρ s
    | seq c d =>
      simp only [walk] at h
      split at h
      · rename_i s₁ ch₁ h₁
        exact .seq (ih _ _ _ _ _ _ _ h₁) (ih _ _ _ _ _ _ _ h)
      · rename_i hne
        refine .seqOut (ih _ _ _ _ _ _ _ h) ?_
        rintro rfl
        exact hne _ _ h
    | br c d =>
      simp only [walk] at h
      split at h
      · exact .brL (ih _ _ _ _ _ _ _ h)
      · exact .brR (ih _ _ _ _ _ _ _ h)
      · exact .brR (ih _ _ _ _ _ _ _ h)
    | opt i c d =>
      simp only [walk] at h
      split_ifs at h with hi
      · exact .optT hi (ih _ _ _ _ _ _ _ h)
      · exact .optF (by simpa using hi) (ih _ _ _ _ _ _ _ h)
    | ifNone a c d =>
      simp only [walk] at h
      split at h
      · rename_i ha
        simp only [Option.some.injEq, Prod.mk.injEq] at h; obtain ⟨rfl, rfl, _⟩ := h
        exact .ifNoneErr ha
      · rename_i ha
        exact .isNone ha (ih _ _ _ _ _ _ _ h)
      · rename_i v ha
        exact .isVal ha (ih _ _ _ _ _ _ _ h)
    | ifHas a c d =>
      simp only [walk] at h
      split_ifs at h with ha
      · exact .hasnt ha (ih _ _ _ _ _ _ _ h)
      · exact .has ha (ih _ _ _ _ _ _ _ h)
    | loop c =>
      simp only [walk] at h
      split at h
      · split at h
        · rename_i h₁
          exact .loopGo (ih _ _ _ _ _ _ _ h₁) (Or.inl rfl) (ih _ _ _ _ _ _ _ h)
        · rename_i h₁
          exact .loopGo (ih _ _ _ _ _ _ _ h₁) (Or.inr rfl) (ih _ _ _ _ _ _ _ h)
        · rename_i hne hne'
          refine .loopOut (ih _ _ _ _ _ _ _ h) ?_ ?_
          · rintro rfl; exact hne _ _ h
          · rintro rfl; exact hne' _ _ h
      · simp only [Option.some.injEq, Prod.mk.injEq] at h; obtain ⟨rfl, rfl, _⟩ := h
        exact .loopEnd ρ c s
      · simp only [Option.some.injEq, Prod.mk.injEq] at h; obtain ⟨rfl, rfl, _⟩ := h
        exact .loopEnd ρ c s
    | tryC c d =>
      simp only [walk] at h
      split at h
      · rename_i h₁
        exact .tryCatch (ih _ _ _ _ _ _ _ h₁) (ih _ _ _ _ _ _ _ h)
      · exact .tryOk (ih _ _ _ _ _ _ _ h)
    | call m =>
      simp only [walk] at h
      split at h
      · rename_i h₁
        simp only [Option.some.injEq, Prod.mk.injEq] at h; obtain ⟨rfl, rfl, _⟩ := h
        exact .call (ih _ _ _ _ _ _ _ h₁)
      · cases h

/-- Play a list of calls (each with the arguments that are true, and its
choices), starting with the constructor. -/
def play (C : Cls) (init : List ℕ × ℕ × List Bool) :
    List (ℕ × List ℕ × ℕ × List Bool) → Option (List Call × Store)
  | [] =>
    match walk C.body 400 (fun i => init.1.contains i) C.init Store.empty init.2 with
    | some (s, o, _) => if o.ofCall = .done then some ([], s) else none
    | none => none
  | (m, yes, ch) :: l =>
    match play C init l with
    | some (h, s) =>
      match walk C.body 400 (fun i => yes.contains i) (C.body m) s ch with
      | some (s₁, o, _) => some (⟨m, fun i => yes.contains i, o.ofCall⟩ :: h, s₁)
      | none => none
    | none => none

theorem play_hist {C : Cls} {init : List ℕ × ℕ × List Bool} :
    ∀ {l : List (ℕ × List ℕ × ℕ × List Bool)} {h : List Call} {s : Store},
      play C init l = some (h, s) → Hist C h s := by
  intro l
  induction l with
  | nil =>
    intro h s hp
    simp only [play] at hp
    split at hp
    · rename_i hw
      split_ifs at hp with ho
      simp only [Option.some.injEq, Prod.mk.injEq] at hp; obtain ⟨rfl, rfl⟩ := hp
      exact .made (walk_exec _ _ _ _ _ _ _ _ hw) ho
    · cases hp
  | cons x l ih =>
    intro h s hp
    obtain ⟨m, yes, ch⟩ := x
    simp only [play] at hp
    split at hp
    · rename_i h₀ s₀ hp₀
      split at hp
      · rename_i hw
        simp only [Option.some.injEq, Prod.mk.injEq] at hp; obtain ⟨rfl, rfl⟩ := hp
        exact .called (ih hp₀) (walk_exec _ _ _ _ _ _ _ _ hw)
      · cases hp
    · cases hp

/-- Play some calls, then read `m`: the calls made (with the `i`-th fact about
their arguments), what attribute `a` then holds, how the reading ends. -/
def playRead (C : Cls) (init : List ℕ × ℕ × List Bool) (l : List (ℕ × List ℕ × ℕ × List Bool))
    (i a m : ℕ) (ch : ℕ × List Bool) : Option (List (ℕ × Bool × Out) × Option Cell × Out) :=
  match play C init l with
  | some (h, s) =>
    match walk C.body 400 (fun _ => false) (C.body m) s ch with
    | some (_, o, _) => some (h.map fun c => (c.m, c.args i, c.out), s a, o)
    | none => none
  | none => none

theorem playRead_hist {C : Cls} {init : List ℕ × ℕ × List Bool} {l : List (ℕ × List ℕ × ℕ × List Bool)}
    {i a m : ℕ} {ch : ℕ × List Bool} {os : List (ℕ × Bool × Out)} {x : Option Cell} {o : Out}
    (h : playRead C init l i a m ch = some (os, x, o)) :
    ∃ h s, Hist C h s ∧ (h.map fun c => (c.m, c.args i, c.out)) = os ∧ s a = x ∧
      ∃ ρ s', Exec C.body ρ (C.body m) s s' o := by
  simp only [playRead] at h
  split at h
  · rename_i h₀ s₀ hp
    split at h
    · rename_i hw
      simp only [Option.some.injEq, Prod.mk.injEq] at h; obtain ⟨rfl, rfl, rfl⟩ := h
      exact ⟨h₀, s₀, play_hist hp, rfl, rfl, _, _, walk_exec _ _ _ _ _ _ _ _ hw⟩
    · cases h
  · cases h

/-- A computation guarded by `if self.a is None` is skipped when `a` holds a value. -/
theorem guarded_keeps {P : ℕ → Cmd} {W : ℕ → ℕ}
    (hW : ∀ m b, bit (mayPut W (P m)) b = true → bit (W m) b = true) {a n : ℕ} {ρ : Args}
    {c d : Cmd} {s s' : Store} {o : Out} (ha : s a = some (.val n))
    (hd : bit (mayPut W d) a = false) (hx : Exec P ρ (.seq (.ifNone a c .skip) d) s s' o) :
    s' a = some (.val n) := by
  cases hx with
  | seq h₁ h₂ =>
    cases h₁ with
    | isNone h _ => rw [ha] at h; cases h
    | isVal _ h => cases h; rw [h₂.unchanged hW a hd, ha]
  | seqOut h₁ hne =>
    cases h₁ with
    | isNone h _ => rw [ha] at h; cases h
    | isVal _ h => cases h; exact absurd rfl hne
    | ifNoneErr h => exact ha

end Life
end TS
