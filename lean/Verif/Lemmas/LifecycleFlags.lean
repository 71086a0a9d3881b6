import Verif.Lemmas.Accept

/-!
# Attributes read under a flag: lemmas

Some attributes are read only when a flag says so (`if self._do_fit: … self._scipy_model …`).
This file follows a pair of attributes, a flag `f` and the attribute `b` it stands for: when
`f` holds a value (not `None`), `b` is there.
-/

namespace TS
namespace Life

/-! ## Calls whose endings are kept apart by the flags -/

/-- Endings of a call made knowing `k`, merged separately according to which of the flags
`fl` are known to be `None`. -/
def Res.calledBy (fl : ℕ) (r : Res) (k : Know) : Res :=
  ⟨r.miss, r.deep, (r.ends.map fun e => e.2.non &&& fl).eraseDups.filterMap fun key =>
    (agree (r.ends.filter fun e => e.2.non &&& fl == key)).map fun k' => (End.done, k.leave k')⟩

def callF (P : ℕ → Cmd) (fl : ℕ) : ℕ → ℕ → Know → Res
  | 0, _, _ => ⟨0, true, [(.done, ⟨0, 0, 0, 0, 0⟩)]⟩
  | n + 1, m, k => (runWith (callF P fl n) (P m) k.enter).calledBy fl k

/-- The analysis of `run`, with the endings of calls kept apart by the flags `fl`. -/
def runF (P : ℕ → Cmd) (fl n : ℕ) (c : Cmd) (k : Know) : Res := runWith (callF P fl n) c k

theorem runF_sound {P : ℕ → Cmd} {fl : ℕ} {ρ : Args} {c : Cmd} {s s' : Store} {o : Out} (h : Exec P ρ c s s' o)
    (n : ℕ) (k : Know) (hk : k.ok ρ s) : (runF P fl n c k).covers ρ s' o := by
  refine runWith_sound (F := callF P fl) ?_ h n k hk
  intro n m k ρ ρ' s s₁ o hk ih
  cases n with
  | zero =>
    simp only [callF]
    refine ⟨fun hs => absurd hs (by simp), fun e he => ?_⟩
    refine ⟨⟨0, 0, 0, 0, 0⟩, ?_, fun b => by simp [bit_zero], fun b => by simp [bit_zero]⟩
    cases e
    · simp
    · cases o <;> cases he
    · cases o <;> cases he
  | succ n =>
    have h₁ := ih n k.enter rfl (Know.ok_enter hk)
    simp only [callF, Res.calledBy]
    refine ⟨fun hs a ha => ?_, fun e he => ?_⟩
    · cases o <;> simp only [Out.ofCall] at ha <;> cases ha
      exact h₁.1 hs a rfl
    · have hd : e = .done := by cases e <;> cases o <;> first | rfl | cases he
      subst hd
      obtain ⟨e', he'⟩ := out_end he
      obtain ⟨k₁, hm, hk₁⟩ := h₁.2 e' he'
      have hm' : (e', k₁) ∈ (runWith (callF P fl n) (P m) k.enter).ends.filter fun e => e.2.non &&& fl == k₁.non &&& fl :=
        List.mem_filter.2 ⟨hm, by simp⟩
      obtain ⟨k₂, ha, hk₂⟩ := agree_ok hm' hk₁
      refine ⟨k.leave k₂, List.mem_filterMap.2 ⟨k₁.non &&& fl, ?_, by rw [ha]; rfl⟩, Know.ok_leave hk hk₂⟩
      rw [List.mem_eraseDups]
      exact List.mem_map.2 ⟨_, hm, rfl⟩

/-! ## The flag and what it stands for -/

/-- When the flag `f` holds a value, `b` is there. -/
def Backed (f b : ℕ) (s : Store) : Prop := (∃ n, s f = some (.val n)) → s b ≠ none

/-- What is known of the pair: 0, `b` is there; 1, `Backed`; more, nothing. -/
def Debt (f b n : ℕ) (s : Store) : Prop := (n = 0 → s b ≠ none) ∧ (n ≤ 1 → Backed f b s)

/-- What is known of the pair at the endings of a statement. -/
structure Owe where
  done : ℕ
  ret : ℕ
  stop : ℕ
  err : ℕ

def Owe.at (x : Owe) : Out → ℕ
  | .done => x.done
  | .ret => x.ret
  | .stop => x.stop
  | .err => x.err
  | .attrErr _ => x.err

def Owe.join (x y : Owe) : Owe := ⟨max x.done y.done, max x.ret y.ret, max x.stop y.stop, max x.err y.err⟩

/-- A flag, an attribute it stands for, an argument tested more than once in a method, and methods that store the attribute
whenever they complete. -/
structure Tie where
  f : ℕ
  b : ℕ
  i : ℕ := 0
  makers : List ℕ := []

/-- What is known of the pair after a statement begun knowing `n`, when the argument `t.i` is `v`.  `ce` is for calls that
fail: 1 if they too leave the pair as they should, 2 if nothing is known then. -/
def settle (ce : ℕ) (t : Tie) (v : Bool) : Cmd → ℕ → Owe
  | .skip, n => ⟨n, 0, 0, 0⟩
  | .get a, n => ⟨if a = t.b then 0 else n, 0, 0, n⟩
  | .put a, n => ⟨if a = t.b then 0 else if a = t.f then (if n = 0 then 0 else 2) else n, 0, 0, 0⟩
  | .putNone a, n => ⟨if a = t.b then 0 else if a = t.f then (if n = 0 then 0 else 1) else n, 0, 0, 0⟩
  | .may, n => ⟨n, 0, 0, n⟩
  | .raise, n => ⟨0, 0, 0, n⟩
  | .ret, n => ⟨0, n, 0, 0⟩
  | .stop, n => ⟨0, 0, n, 0⟩
  | .seq c d, n =>
    let x := settle ce t v c n
    let y := settle ce t v d x.done
    ⟨y.done, max x.ret y.ret, max x.stop y.stop, max x.err y.err⟩
  | .br c d, n => (settle ce t v c n).join (settle ce t v d n)
  | .opt j c d, n =>
    if j = t.i then (if v then settle ce t v c n else settle ce t v d n) else (settle ce t v c n).join (settle ce t v d n)
  | .ifNone a c d, n =>
    ((settle ce t v c (if a = t.b then 0 else if a = t.f then min n 1 else n)).join
      (settle ce t v d (if a = t.b then 0 else n))).join ⟨0, 0, 0, n⟩
  | .ifHas a c d, n => (settle ce t v c (if a = t.b then 0 else n)).join (settle ce t v d n)
  | .loop c, n =>
    let x := settle ce t v c n
    if x.done ≤ n ∧ x.stop ≤ n then ⟨n, x.ret, 0, x.err⟩ else ⟨2, 2, 2, 2⟩
  | .tryC c d, n =>
    let x := settle ce t v c n
    x.join (settle ce t v d x.err)
  | .call m, n => ⟨if m ∈ t.makers then 0 else n, 0, 0, if n = 0 then 0 else max n ce⟩

theorem Debt.mono {f b n n' : ℕ} {s : Store} (h : Debt f b n s) (hn : n ≤ n') : Debt f b n' s :=
  ⟨fun h0 => h.1 (by omega), fun h1 => h.2 (by omega)⟩

theorem Debt.of_has {f b n : ℕ} {s : Store} (h : s b ≠ none) : Debt f b n s := ⟨fun _ => h, fun _ _ => h⟩

theorem Debt.of_backed {f b n : ℕ} {s : Store} (h : Backed f b s) (hn : 1 ≤ n) : Debt f b n s :=
  ⟨fun h0 => by omega, fun _ => h⟩

theorem Debt.of_big {f b n : ℕ} {s : Store} (hn : 2 ≤ n) : Debt f b n s := ⟨fun h0 => by omega, fun h0 => by omega⟩

/-- The methods `t.makers` store the attribute whenever they complete. -/
def Makes (P : ℕ → Cmd) (t : Tie) : Prop :=
  ∀ m ∈ t.makers, ∀ ρ s s' o, Exec P ρ (P m) s s' o → o.ofCall = .done → s' t.b ≠ none

theorem settle_sound {P : ℕ → Cmd} {ce : ℕ} {t : Tie} (hce : 1 ≤ ce) (hmk : Makes P t)
    (hP : ∀ m v, (settle ce t v (P m) 1).done ≤ 1 ∧ (settle ce t v (P m) 1).ret ≤ 1 ∧ (settle ce t v (P m) 1).stop ≤ 1 ∧
      (ce ≤ 1 → (settle ce t v (P m) 1).err ≤ 1))
    {ρ : Args} {c : Cmd} {s s' : Store} {o : Out} (h : Exec P ρ c s s' o) :
    ∀ n, Debt t.f t.b n s → Debt t.f t.b ((settle ce t (ρ t.i) c n).at o) s' := by
  induction h with
  | skip => intro n hn; exact hn
  | @getOk ρ s a ha =>
    intro n hn
    simp only [settle, Owe.at]
    split_ifs with h1
    · subst h1
      exact Debt.of_has ha
    · exact hn
  | getErr => intro n hn; exact hn
  | put ρ s a v =>
    intro n hn
    simp only [settle, Owe.at]
    split_ifs with h1 h2 h3
    · rw [← h1]
      exact Debt.of_has (by simp [Store.put])
    · exact Debt.of_has (put_ne_none (hn.1 h3))
    · exact Debt.of_big le_rfl
    · refine ⟨fun h0 => put_ne_none (hn.1 h0), fun h0 hv => put_ne_none (hn.2 h0 ?_)⟩
      simpa [Store.put, Ne.symm h2] using hv
  | putNone ρ s a =>
    intro n hn
    simp only [settle, Owe.at]
    split_ifs with h1 h2 h3
    · rw [← h1]
      exact Debt.of_has (by simp [Store.put])
    · exact Debt.of_has (put_ne_none (hn.1 h3))
    · subst h2
      refine Debt.of_backed ?_ le_rfl
      rintro ⟨v, hv⟩
      simp [Store.put] at hv
    · refine ⟨fun h0 => put_ne_none (hn.1 h0), fun h0 hv => put_ne_none (hn.2 h0 ?_)⟩
      simpa [Store.put, Ne.symm h2] using hv
  | mayOk => intro n hn; exact hn
  | mayErr => intro n hn; exact hn
  | raise => intro n hn; exact hn
  | ret => intro n hn; exact hn
  | stop => intro n hn; exact hn
  | @seq ρ c d s s₁ s₂ o _ _ ih₁ ih₂ =>
    intro n hn
    refine (ih₂ _ (ih₁ n hn)).mono ?_
    cases o <;> simp only [settle, Owe.at] <;> omega
  | @seqOut ρ c d s s₁ o _ ho ih =>
    intro n hn
    refine (ih n hn).mono ?_
    cases o <;> simp only [settle, Owe.at] <;> first | omega | exact absurd rfl ho
  | @brL ρ c d s s₁ o _ ih =>
    intro n hn
    refine (ih n hn).mono ?_
    cases o <;> simp only [settle, Owe.at, Owe.join] <;> omega
  | @brR ρ c d s s₁ o _ ih =>
    intro n hn
    refine (ih n hn).mono ?_
    cases o <;> simp only [settle, Owe.at, Owe.join] <;> omega
  | @optT ρ j c d s s₁ o hj _ ih =>
    intro n hn
    refine (ih n hn).mono ?_
    simp only [settle]
    split_ifs with h1 h2
    · exact le_rfl
    · rw [h1] at hj
      exact absurd hj h2
    · cases o <;> simp only [Owe.at, Owe.join] <;> omega
  | @optF ρ j c d s s₁ o hj _ ih =>
    intro n hn
    refine (ih n hn).mono ?_
    simp only [settle]
    split_ifs with h1 h2
    · rw [h1, h2] at hj
      cases hj
    · exact le_rfl
    · cases o <;> simp only [Owe.at, Owe.join] <;> omega
  | @isNone ρ a c d s s₁ o ha _ ih =>
    intro n hn
    refine (ih (if a = t.b then 0 else if a = t.f then min n 1 else n) ?_).mono ?_
    · split_ifs with h1 h2
      · subst h1
        exact Debt.of_has (by rw [ha]; simp)
      · subst h2
        refine ⟨fun h0 => hn.1 (by omega), fun _ => ?_⟩
        rintro ⟨v, hv⟩
        rw [ha] at hv
        cases hv
      · exact hn
    · cases o <;> simp only [settle, Owe.at, Owe.join] <;> omega
  | @isVal ρ a c d s s₁ o v ha _ ih =>
    intro n hn
    refine (ih (if a = t.b then 0 else n) ?_).mono ?_
    · split_ifs with h1
      · subst h1
        exact Debt.of_has (by rw [ha]; simp)
      · exact hn
    · cases o <;> simp only [settle, Owe.at, Owe.join] <;> omega
  | @ifNoneErr ρ a c d s ha =>
    intro n hn
    refine hn.mono ?_
    simp only [settle, Owe.at, Owe.join]
    omega
  | @has ρ a c d s s₁ o ha _ ih =>
    intro n hn
    refine (ih (if a = t.b then 0 else n) ?_).mono ?_
    · split_ifs with h1
      · subst h1
        exact Debt.of_has ha
      · exact hn
    · cases o <;> simp only [settle, Owe.at, Owe.join] <;> omega
  | @hasnt ρ a c d s s₁ o ha _ ih =>
    intro n hn
    refine (ih n hn).mono ?_
    cases o <;> simp only [settle, Owe.at, Owe.join] <;> omega
  | loopEnd ρ c s =>
    intro n hn
    simp only [settle]
    split_ifs with h1
    · exact hn
    · exact Debt.of_big le_rfl
  | @loopGo ρ c s s₁ s₂ o o' hx ho _ ih₁ ih₂ =>
    intro n hn
    by_cases h1 : (settle ce t (ρ t.i) c n).done ≤ n ∧ (settle ce t (ρ t.i) c n).stop ≤ n
    · refine ih₂ n ((ih₁ n hn).mono ?_)
      rcases ho with rfl | rfl
      · exact h1.1
      · exact h1.2
    · have : (settle ce t (ρ t.i) (.loop c) n).at o' = 2 := by
        simp only [settle, if_neg h1]
        cases o' <;> rfl
      rw [this]
      exact Debt.of_big le_rfl
  | @loopOut ρ c s s₁ o _ ho ho' ih =>
    intro n hn
    by_cases h1 : (settle ce t (ρ t.i) c n).done ≤ n ∧ (settle ce t (ρ t.i) c n).stop ≤ n
    · have := ih n hn
      simp only [settle, if_pos h1]
      cases o with
      | done => exact absurd rfl ho
      | stop => exact absurd rfl ho'
      | ret => exact this
      | err => exact this
      | attrErr a => exact this
    · have : (settle ce t (ρ t.i) (.loop c) n).at o = 2 := by
        simp only [settle, if_neg h1]
        cases o <;> rfl
      rw [this]
      exact Debt.of_big le_rfl
  | @tryOk ρ c d s s₁ o _ ih =>
    intro n hn
    refine (ih n hn).mono ?_
    cases o <;> simp only [settle, Owe.at, Owe.join] <;> omega
  | @tryCatch ρ c d s s₁ s₂ o hx _ ih₁ ih₂ =>
    intro n hn
    refine (ih₂ _ (ih₁ n hn)).mono ?_
    cases o <;> simp only [settle, Owe.at, Owe.join] <;> omega
  | @call ρ ρ' m s s₁ o hx ih =>
    intro n hn
    by_cases hd : o.ofCall = .done ∧ m ∈ t.makers
    · exact Debt.of_has (hmk m hd.2 _ _ _ _ hx hd.1)
    rcases Nat.eq_zero_or_pos n with rfl | h0
    · exact Debt.of_has (hx.keeps t.b (hn.1 rfl))
    rcases Nat.lt_or_ge 1 n with h1 | h1
    · refine Debt.of_big ?_
      cases o <;> simp only [Out.ofCall, true_and, reduceCtorEq, false_and, not_false_eq_true] at hd <;>
        simp only [settle, Owe.at, Out.ofCall, h0.ne', if_false] <;> first | omega | (rw [if_neg hd]; omega)
    have hn1 : n = 1 := by omega
    subst hn1
    have h₁ := ih 1 hn
    obtain ⟨p1, p2, p3, p4⟩ := hP m (ρ' t.i)
    have hm : o.ofCall = .done → (if m ∈ t.makers then 0 else 1) = 1 := fun h => if_neg fun h' => hd ⟨h, h'⟩
    have he : Debt t.f t.b ((settle ce t (ρ' t.i) (P m) 1).err) s₁ → Debt t.f t.b (if 1 = 0 then 0 else max 1 ce) s₁ := by
      intro h₁
      rw [if_neg one_ne_zero]
      rcases Nat.lt_or_ge 1 ce with hc | hc
      · exact Debt.of_big (by omega)
      · exact (h₁.mono (p4 hc)).mono (by omega)
    cases o with
    | done =>
      show Debt t.f t.b (if m ∈ t.makers then 0 else 1) s₁
      rw [hm rfl]
      exact h₁.mono p1
    | ret =>
      show Debt t.f t.b (if m ∈ t.makers then 0 else 1) s₁
      rw [hm rfl]
      exact h₁.mono p2
    | stop =>
      show Debt t.f t.b (if m ∈ t.makers then 0 else 1) s₁
      rw [hm rfl]
      exact h₁.mono p3
    | err => exact he h₁
    | attrErr a => exact he h₁

/-- Every method, and the constructor, leaves the pair as it should when it completes, and for `ce = 1` also when it fails. -/
def Cls.settles (C : Cls) (ce : ℕ) (t : Tie) : Bool :=
  ((C.init :: C.methods).all fun c => [true, false].all fun v =>
    let x := settle ce t v c 1
    decide (x.done ≤ 1) && decide (x.ret ≤ 1) && decide (x.stop ≤ 1) && (decide (2 ≤ ce) || decide (x.err ≤ 1))) &&
  t.makers.all fun m => bit ((agree (run C.body depth (C.body m) ⟨0, 0, 0, 0, 0⟩).ends).getD ⟨0, 0, 0, 0, 0⟩).has t.b

theorem Cls.settles_makes {C : Cls} {ce : ℕ} {t : Tie} (h : C.settles ce t = true) : Makes C.body t := by
  intro m hm ρ s s' o hx ho
  rw [Cls.settles, Bool.and_eq_true] at h
  exact (ends_agree hx (Know.ok_nothing ρ s) ho ⟨0, 0, 0, 0, 0⟩).1 t.b (List.all_eq_true.1 h.2 m hm)

theorem Cls.settles_of_mem {C : Cls} {ce : ℕ} {t : Tie} (h : C.settles ce t = true) {c : Cmd} (hc : c ∈ C.init :: C.methods) (v : Bool) :
    (settle ce t v c 1).done ≤ 1 ∧ (settle ce t v c 1).ret ≤ 1 ∧ (settle ce t v c 1).stop ≤ 1 ∧
      (ce ≤ 1 → (settle ce t v c 1).err ≤ 1) := by
  rw [Cls.settles, Bool.and_eq_true] at h
  have := List.all_eq_true.1 (List.all_eq_true.1 h.1 _ hc) v (by cases v <;> simp)
  simp only [Bool.and_eq_true, Bool.or_eq_true, decide_eq_true_eq] at this
  exact ⟨this.1.1.1, this.1.1.2, this.1.2, fun hc => this.2.resolve_left (by omega)⟩

theorem Cls.settles_body {C : Cls} {ce : ℕ} {t : Tie} (h : C.settles ce t = true) (m : ℕ) (v : Bool) :
    (settle ce t v (C.body m) 1).done ≤ 1 ∧ (settle ce t v (C.body m) 1).ret ≤ 1 ∧ (settle ce t v (C.body m) 1).stop ≤ 1 ∧
      (ce ≤ 1 → (settle ce t v (C.body m) 1).err ≤ 1) := by
  by_cases hm : m < C.methods.length
  · have hb : C.body m ∈ C.init :: C.methods := by
      rw [Cls.body, List.getD_eq_getElem _ _ hm]
      exact List.mem_cons_of_mem _ (List.getElem_mem hm)
    exact Cls.settles_of_mem h hb v
  · rw [C.body_of_ge (not_lt.1 hm)]
    simp [settle]

/-- The pair is as it should be on every object, if no call failed or failing calls keep it too. -/
theorem Hist.backed {C : Cls} {ce : ℕ} {t : Tie} (hce : 1 ≤ ce) (hs : C.settles ce t = true) {h : List Call} {s : Store}
    (hh : Hist C h s) (hok : ce ≤ 1 ∨ ∀ c ∈ h, c.out = .done) : Backed t.f t.b s := by
  have hP := C.settles_body hs
  have hm := C.settles_makes hs
  induction hh with
  | @made ρ s o hx ho =>
    have h₁ := settle_sound hce hm hP hx 1 (Debt.of_backed (by rintro ⟨v, hv⟩; simp [Store.empty] at hv) le_rfl)
    obtain ⟨p1, p2, p3, -⟩ := C.settles_of_mem hs List.mem_cons_self (ρ t.i)
    obtain ⟨e, rfl⟩ := out_end ho
    cases e with
    | done => exact h₁.2 p1
    | ret => exact h₁.2 p2
    | stop => exact h₁.2 p3
  | @called h s s₁ ρ m o hh hx ih =>
    have h₁ := settle_sound hce hm hP hx 1
      (Debt.of_backed (ih (hok.imp id fun h c hc => h c (List.mem_cons_of_mem _ hc))) le_rfl)
    obtain ⟨p1, p2, p3, p4⟩ := hP m (ρ t.i)
    rcases hok with hc | hall
    · cases o with
      | done => exact h₁.2 p1
      | ret => exact h₁.2 p2
      | stop => exact h₁.2 p3
      | err => exact h₁.2 (p4 hc)
      | attrErr a => exact h₁.2 (p4 hc)
    · obtain ⟨e, rfl⟩ := out_end (hall _ List.mem_cons_self)
      cases e with
      | done => exact h₁.2 p1
      | ret => exact h₁.2 p2
      | stop => exact h₁.2 p3

/-! ## Methods that read attributes under flags -/

/-- The attributes that `f` stands for. -/
def tied (l : List Tie) (f : ℕ) : List ℕ := l.filterMap fun t => if t.f = f then some t.b else none

/-- `q` for each of the ways the flags `fs` can be set. -/
def splitFlags (q : Know → Bool) (l : List Tie) : List ℕ → Know → Bool
  | [], k => q k
  | f :: fs, k =>
    splitFlags q l fs ⟨(tied l f).foldl ins k.has, k.non, ins k.val f, k.yes, k.no⟩ &&
      (splitFlags q l fs ⟨k.has, ins k.non f, k.val, k.yes, k.no⟩ && (bit k.has f || splitFlags q l fs k))

theorem bit_foldl_ins {a : ℕ} : ∀ {l : List ℕ} {n : ℕ}, bit (l.foldl ins n) a = true → bit n a = true ∨ a ∈ l := by
  intro l
  induction l with
  | nil => intro n h; exact Or.inl h
  | cons b l ih =>
    intro n h
    rcases ih h with h | h
    · rw [bit_ins, Bool.or_eq_true, decide_eq_true_eq] at h
      exact h.imp id fun h => by rw [h]; exact List.mem_cons_self
    · exact Or.inr (List.mem_cons_of_mem _ h)

theorem splitFlags_ok {q : Know → Bool} {l : List Tie} {ρ : Args} {s : Store} (hb : ∀ t ∈ l, Backed t.f t.b s) :
    ∀ {fs : List ℕ} {k : Know}, splitFlags q l fs k = true → k.ok ρ s → ∃ k', q k' = true ∧ k'.ok ρ s := by
  intro fs
  induction fs with
  | nil => intro k h hk; exact ⟨k, h, hk⟩
  | cons f fs ih =>
    intro k h hk
    simp only [splitFlags, Bool.and_eq_true, Bool.or_eq_true] at h
    rcases hf : s f with _ | c
    · exact ih (h.2.2.resolve_left fun hh => (hk.1 f).1 hh hf) hk
    cases c with
    | blank =>
      refine ih h.2.1 ⟨fun a => ⟨(hk.1 a).1, fun ha => ?_, (hk.1 a).2.2⟩, hk.2⟩
      rw [bit_ins, Bool.or_eq_true, decide_eq_true_eq] at ha
      rcases ha with ha | rfl
      · exact (hk.1 a).2.1 ha
      · exact hf
    | val n =>
      refine ih h.1 ⟨fun a => ⟨fun ha => ?_, (hk.1 a).2.1, fun ha => ?_⟩, hk.2⟩
      · rcases bit_foldl_ins ha with ha | ha
        · exact (hk.1 a).1 ha
        · obtain ⟨t, ht, hta⟩ := List.mem_filterMap.1 ha
          split_ifs at hta with htf
          cases hta
          exact hb t ht ⟨n, by rw [htf, hf]⟩
      · rw [bit_ins, Bool.or_eq_true, decide_eq_true_eq] at ha
        rcases ha with ha | rfl
        · exact (hk.1 a).2.2 ha
        · exact ⟨n, hf⟩

/-- The method misses nothing after the steps, whatever the flags; `fl` are the flags by which the endings of calls are kept apart. -/
def Cert.flagged (K : Cert) (C : Cls) (fl : List ℕ) (l : List Tie) (ws : List Step) (m : ℕ) : Bool :=
  splitFlags (fun k => let r := runF C.body (maskOf fl) depth (C.body m) k; r.miss == 0 && !r.deep) l
    (l.map Tie.f).eraseDups ⟨K.hasAfter ws, 0, K.valAfter ws, 0, 0⟩

theorem flagged_of {C : Cls} (hc : C.closed = true) {K : Cert} (hK : K.ok C = true) {fl : List ℕ} {l : List Tie} {ws : List Step} {m : ℕ}
    (hu : K.flagged C fl l ws m = true) {h : List Call} {s : Store} (hh : Hist C h s) (hw : Completed h ws)
    (hb : ∀ t ∈ l, Backed t.f t.b s) {ρ : Args} {s' : Store} {a : ℕ} : ¬ Exec C.body ρ (C.body m) s s' (.attrErr a) := by
  intro hx
  have hk : (⟨K.hasAfter ws, 0, K.valAfter ws, 0, 0⟩ : Know).ok ρ s :=
    ⟨fun b => ⟨fun hb => K.present_of hc hK hh hw hb, by simp [bit_zero], fun hb => K.value_of hc hK hh hw hb⟩,
      fun i => by simp [bit_zero]⟩
  obtain ⟨k, hq, hk'⟩ := splitFlags_ok hb hu hk
  simp only [Bool.and_eq_true, beq_iff_eq, Bool.not_eq_true'] at hq
  have := (runF_sound (fl := maskOf fl) hx depth k hk').1 hq.2 a rfl
  rw [hq.1, bit_zero] at this
  cases this

/-- After the steps, for objects on which no call failed. -/
theorem usableClean_of {C : Cls} {K : Cert} (hc : C.closed = true) (hK : K.ok C = true) {fl : List ℕ} {l : List Tie} {ws : List Step} {m : ℕ}
    (hl : (l.all fun t => C.settles 2 t) = true) (hu : K.flagged C fl l ws m = true) : UsableClean C ws m := by
  intro h s hh hclean hw ρ s' a
  exact flagged_of hc hK hu hh hw fun t ht => hh.backed (by omega) (List.all_eq_true.1 hl t ht) (Or.inr hclean)

/-- The same for objects on which calls may have failed, when failing calls keep the flags right too. -/
theorem usableAlways_of {C : Cls} {K : Cert} (hc : C.closed = true) (hK : K.ok C = true) {fl : List ℕ} {l : List Tie} {ws : List Step} {m : ℕ}
    (hl : (l.all fun t => C.settles 1 t) = true) (hu : K.flagged C fl l ws m = true) : UsableAfter C ws m [] := by
  intro h s hh hw ρ s' a hx
  exact absurd hx (flagged_of hc hK hu hh hw fun t ht => hh.backed le_rfl (List.all_eq_true.1 hl t ht) (Or.inl le_rfl))

/-! ## Objects handed to a distance class -/

/-- The method does not miss `x` after the steps, whatever the flags. -/
def Cert.spares (K : Cert) (C : Cls) (l : List Tie) (ws : List Step) (x : ℕ) : Use → Bool
  | .call m => splitFlags (fun k => let r := run C.body depth (C.body m) k; !bit r.miss x && !r.deep) l
      (l.map Tie.f).eraseDups ⟨K.hasAfter ws, 0, K.valAfter ws, 0, 0⟩
  | .attr a => a != x

theorem spares_of {C : Cls} (hc : C.closed = true) {K : Cert} (hK : K.ok C = true) {l : List Tie}
    (hl : (l.all fun t => C.settles 2 t) = true) {ws : List Step} {x : ℕ} {us : List Use} {s s' : Store} {o : Out}
    (hx : Uses C us s s' o) : (us.all fun u => K.spares C l ws x u) = true → ∀ {h : List Call}, Hist C h s →
      (∀ c ∈ h, c.out = .done) → Completed h ws → o ≠ .attrErr x := by
  induction hx with
  | nil s => intro _ h _ _ _ ho; cases ho
  | @ok u us s s₁ s₂ ρ o o' h₁ ho _ ih =>
    intro hu h hh hd hw
    simp only [List.all_cons, Bool.and_eq_true] at hu
    cases u with
    | call m =>
      have hh' := Hist.called hh h₁
      rw [ho] at hh'
      refine ih hu.2 hh' (fun c hc => ?_) (hw.mono _)
      rcases List.mem_cons.1 hc with rfl | hc
      · rfl
      · exact hd c hc
    | attr b =>
      have : s₁ = s := by
        cases h₁ with
        | getOk => rfl
        | getErr => rfl
      subst this
      exact ih hu.2 hh hd hw
  | @fail u us s s₁ ρ o h₁ hne =>
    intro hu h hh hd hw ho
    subst ho
    simp only [List.all_cons, Bool.and_eq_true] at hu
    cases u with
    | call m =>
      have hk : (⟨K.hasAfter ws, 0, K.valAfter ws, 0, 0⟩ : Know).ok ρ s :=
        ⟨fun b => ⟨fun hb => K.present_of hc hK hh hw hb, by simp [bit_zero], fun hb => K.value_of hc hK hh hw hb⟩,
          fun i => by simp [bit_zero]⟩
      obtain ⟨k, hq, hk'⟩ := splitFlags_ok
        (fun t ht => hh.backed (by omega) (List.all_eq_true.1 hl t ht) (Or.inr hd)) hu.1 hk
      simp only [Bool.and_eq_true, Bool.not_eq_true'] at hq
      have h₂ : Exec C.body ρ (C.body m) s s₁ (.attrErr x) := h₁
      have := (run_sound h₂ depth k hk').1 hq.2 x rfl
      rw [hq.1] at this
      cases this
    | attr b =>
      cases h₁ with
      | getErr => simp [Cert.spares] at hu

/-- `serves_of`, with `x` taken off the attributes that the plot may miss. -/
theorem serves_less {C : Cls} (K : Cert) (hc : C.closed = true) (hK : K.ok C = true) {D : Intake} {vals but : List ℕ}
    (makers : List ℕ) (fs : List Fact) (x : ℕ) (l : List Tie) (hl : (l.all fun t => C.settles 2 t) = true)
    (hr : ((D.reads ++ D.shows).all fun u => K.spares C l (D.rerun.map fun m => ({ m := m } : Step)) x u) = true)
    (hm : (makers.all fun m => (D.reads ++ D.shows).all fun u => K.spares C l [{ m := m }] x u) = true)
    (hs : K.serves C D vals (x :: but) makers fs = true) : D.Serves C vals but := by
  intro h s s₁ hh hd ht
  obtain ⟨p1, p2, p3⟩ := serves_of K hc hK makers fs hs h s s₁ hh hd ht
  refine ⟨p1, fun s₂ a hx => (List.mem_cons.1 (p2 s₂ a hx)).resolve_left ?_, p3⟩
  rintro rfl
  simp only [Cert.serves, Bool.and_eq_true] at hs
  cases ht with
  | @kept sets _ _ hp _ hu =>
    obtain ⟨h', g₁, g₂, _, g₄⟩ := hu.hist rfl rfl hh
    have : ∃ c ∈ h, c.m ∈ makers := by
      by_contra hno
      push Not at hno
      exact hp (C.onlyFrom_absent hc hs.1.1 hh hno)
    obtain ⟨c, hcm, hmk⟩ := this
    refine spares_of hc hK hl hx (List.all_eq_true.1 hm c.m hmk) g₁ (fun c hc => (g₄ c hc).elim (hd c) id) ?_ rfl
    intro w hw
    rw [List.mem_singleton] at hw
    subst hw
    exact ⟨c, g₂ c hcm, ⟨rfl, by simp, by simp⟩, hd c hcm⟩
  | @rerun sets _ _ _ hu =>
    obtain ⟨h', g₁, _, g₃, g₄⟩ := hu.hist rfl rfl hh
    refine spares_of hc hK hl hx hr g₁ (fun c hc => (g₄ c hc).elim (hd c) id) ?_ rfl
    intro w hw
    obtain ⟨m, hm, rfl⟩ := List.mem_map.1 hw
    obtain ⟨c, hcm, h₁, h₂⟩ := g₃ m (List.mem_append_right _ hm)
    exact ⟨c, hcm, ⟨h₁, by simp, by simp⟩, h₂⟩

end Life
end TS
