import Verif.Spec.Accept
import Verif.Lemmas.Lifecycle

/-! # Objects handed to the distance classes: lemmas -/

namespace TS
namespace Life

/-- Every step of `ws` was completed in history `h`. -/
def Completed (h : List Call) (ws : List Step) : Prop :=
  ∀ w ∈ ws, ∃ c ∈ h, w.calls c ∧ c.out = .done

theorem Completed.mono {h : List Call} {ws : List Step} (hc : Completed h ws) (c : Call) :
    Completed (c :: h) ws := fun w hw => by
  obtain ⟨x, hx, h₁, h₂⟩ := hc w hw
  exact ⟨x, List.mem_cons_of_mem _ hx, h₁, h₂⟩

theorem Completed.add {h : List Call} {ws : List Step} (hc : Completed h ws) (m : ℕ) (ρ : Args) :
    Completed (⟨m, ρ, .done⟩ :: h) (ws ++ [{ m := m }]) := by
  intro w hw
  rcases List.mem_append.1 hw with hw | hw
  · exact hc.mono _ w hw
  · rw [List.mem_singleton] at hw
    subst hw
    exact ⟨_, List.mem_cons_self, ⟨rfl, by simp, by simp⟩, rfl⟩

/-- `Cert.usable` with attributes `E` known to be present in addition. -/
def Cert.usableIn (K : Cert) (C : Cls) (E : ℕ) (ws : List Step) (m : ℕ) (but : List ℕ) : Bool :=
  let r := run C.body depth (C.body m) ⟨K.hasAfter ws ||| E, 0, K.valAfter ws, 0, 0⟩
  (r.miss ||| maskOf but == maskOf but) && !r.deep

theorem Cert.present_of {C : Cls} (hc : C.closed = true) {K : Cert} (hK : K.ok C = true)
    {h : List Call} {s : Store} (hh : Hist C h s) {ws : List Step} (hw : Completed h ws) {b : ℕ}
    (hb : bit (K.hasAfter ws) b = true) : s b ≠ none := by
  rw [Cert.hasAfter, bit_foldl_step, (K.fields hK).1] at hb
  rcases hb with hb | ⟨w, hwm, hb⟩
  · exact (hh.always hc b).1 hb
  · obtain ⟨c, hcm, hcall, ho⟩ := hw w hwm
    exact (hh.certified hc hK hcm hcall ho b).1 hb

theorem Cert.value_of {C : Cls} (hc : C.closed = true) {K : Cert} (hK : K.ok C = true)
    {h : List Call} {s : Store} (hh : Hist C h s) {ws : List Step} (hw : Completed h ws) {b : ℕ}
    (hb : bit (K.valAfter ws) b = true) : ∃ n, s b = some (.val n) := by
  rw [Cert.valAfter, bit_foldl_step, (K.fields hK).2.1] at hb
  rcases hb with hb | ⟨w, hwm, hb⟩
  · exact (hh.always hc b).2 hb
  · obtain ⟨c, hcm, hcall, ho⟩ := hw w hwm
    simp only [bit_without, Bool.and_eq_true, Bool.not_eq_true'] at hb
    exact (hh.certified hc hK hcm hcall ho b).2 hb.1 hb.2

theorem usableIn_of {C : Cls} (hc : C.closed = true) {K : Cert} (hK : K.ok C = true) {E : ℕ}
    {ws : List Step} {m : ℕ} {but : List ℕ} (hu : K.usableIn C E ws m but = true)
    {h : List Call} {s : Store} (hh : Hist C h s) (hw : Completed h ws)
    (hE : ∀ b, bit E b = true → s b ≠ none) {ρ : Args} {s' : Store} {a : ℕ}
    (hx : Exec C.body ρ (C.body m) s s' (.attrErr a)) : a ∈ but := by
  simp only [Cert.usableIn, Bool.and_eq_true, beq_iff_eq, Bool.not_eq_true'] at hu
  have hk : (⟨K.hasAfter ws ||| E, 0, K.valAfter ws, 0, 0⟩ : Know).ok ρ s := by
    refine ⟨fun b => ⟨fun hb => ?_, by simp [bit_zero], fun hb => ?_⟩, fun i => by simp [bit_zero]⟩
    · rw [bit_or, Bool.or_eq_true] at hb
      exact hb.elim (fun hb => K.present_of hc hK hh hw hb) (hE b)
    · exact K.value_of hc hK hh hw hb
  have := (run_sound hx depth _ hk).1 hu.2 a rfl
  exact bit_maskOf.1 (bit_of_or_eq hu.1 this)

/-- The uses find what they need, in order. -/
def Cert.chain (K : Cert) (C : Cls) (E : ℕ) (but : List ℕ) : List Step → List Use → Bool
  | _, [] => true
  | ws, .call m :: us => K.usableIn C E ws m but && K.chain C E but (ws ++ [{ m := m }]) us
  | ws, .attr a :: us =>
    (bit (K.hasAfter ws ||| E) a || but.contains a) && K.chain C E but ws us

theorem Out.attr_of_ofCall {o : Out} {a : ℕ} (h : o = .attrErr a) : o.ofCall = .attrErr a := by
  subst h; rfl

theorem chain_of {C : Cls} (hc : C.closed = true) {K : Cert} (hK : K.ok C = true) {E : ℕ}
    {but : List ℕ} {us : List Use} {s s' : Store} {o : Out} (hx : Uses C us s s' o) :
    ∀ {ws : List Step} {h : List Call}, K.chain C E but ws us = true → Hist C h s →
      Completed h ws → (∀ b, bit E b = true → s b ≠ none) → ∀ a, o = .attrErr a → a ∈ but := by
  induction hx with
  | nil s => intro ws h _ _ _ _ a ha; cases ha
  | @ok u us s s₁ s₂ ρ o o' h₁ ho _ ih =>
    intro ws h hch hh hw hE a ha
    cases u with
    | call m =>
      simp only [Cert.chain, Bool.and_eq_true] at hch
      have hh' := Hist.called hh h₁
      rw [ho] at hh'
      exact ih hch.2 hh' (hw.add m ρ) (fun b hb => h₁.keeps b (hE b hb)) a ha
    | attr b =>
      simp only [Cert.chain, Bool.and_eq_true] at hch
      have : s₁ = s := by
        cases h₁ with
        | getOk => rfl
        | getErr => rfl
      subst this
      exact ih hch.2 hh hw hE a ha
  | @fail u us s s₁ ρ o h₁ hne =>
    intro ws h hch hh hw hE a ha
    subst ha
    cases u with
    | call m =>
      simp only [Cert.chain, Bool.and_eq_true] at hch
      exact usableIn_of hc hK hch.1 hh hw hE h₁
    | attr b =>
      simp only [Cert.chain, Bool.and_eq_true, Bool.or_eq_true, List.contains_iff_mem] at hch
      cases h₁ with
      | getErr _ _ _ hn =>
        rcases hch.1 with hb | hb
        · rw [bit_or, Bool.or_eq_true] at hb
          exact absurd hn (hb.elim (fun hb => K.present_of hc hK hh hw hb) (hE _))
        · exact hb

/-- Completed calls from outside extend the history. -/
theorem Uses.hist {C : Cls} {us : List Use} {s s' : Store} {o : Out} (hx : Uses C us s s' o) :
    ∀ {ms : List ℕ} {h : List Call}, us = ms.map .call → o = .done → Hist C h s →
      ∃ h', Hist C h' s' ∧ (∀ c ∈ h, c ∈ h') ∧
        (∀ m ∈ ms, ∃ c ∈ h', c.m = m ∧ c.out = .done) ∧
        ∀ c ∈ h', c ∈ h ∨ c.out = .done := by
  induction hx with
  | nil s =>
    intro ms h hm _ hh
    have : ms = [] := by simpa using hm.symm
    subst this
    exact ⟨h, hh, fun _ hc => hc, by simp, fun _ hc => Or.inl hc⟩
  | @ok u us s s₁ s₂ ρ o o' h₁ ho _ ih =>
    intro ms h hm hd hh
    cases ms with
    | nil => cases hm
    | cons m ms =>
      simp only [List.map_cons, List.cons.injEq] at hm
      obtain ⟨rfl, rfl⟩ := hm
      have hh' := Hist.called hh h₁
      rw [ho] at hh'
      obtain ⟨h', g₁, g₂, g₃, g₄⟩ := ih rfl hd hh'
      refine ⟨h', g₁, fun c hc => g₂ c (List.mem_cons_of_mem _ hc), ?_, ?_⟩
      · intro k hk
        rcases List.mem_cons.1 hk with rfl | hk
        · exact ⟨_, g₂ _ List.mem_cons_self, rfl, rfl⟩
        · exact g₃ k hk
      · intro c hc
        rcases g₄ c hc with hc | hc
        · rcases List.mem_cons.1 hc with rfl | hc
          · exact Or.inr rfl
          · exact Or.inl hc
        · exact Or.inr hc
  | @fail u us s s₁ ρ o h₁ hne =>
    intro ms h _ hd _
    subst hd
    exact absurd rfl hne

theorem Uses.keeps {C : Cls} {us : List Use} {s s' : Store} {o : Out} (hx : Uses C us s s' o) (b : ℕ)
    (hb : s b ≠ none) : s' b ≠ none := by
  induction hx with
  | nil => exact hb
  | ok h₁ _ _ ih => exact ih (h₁.keeps b hb)
  | fail h₁ _ => exact h₁.keeps b hb

/-! ## One attribute is there whenever another is -/

/-- After the statement (if it completes) `b` is there, given that `k` says so before,
and that `b` is there whenever one of `A` is. -/
def knows (A : List ℕ) (b : ℕ) : Cmd → Bool → Bool
  | .skip, k => k
  | .get a, k => k || (a == b || A.contains a)
  | .put a, k => k || a == b
  | .putNone a, k => k || a == b
  | .may, k => k
  | .raise, _ => true
  | .ret, _ => true
  | .stop, _ => true
  | .seq c d, k => knows A b d (knows A b c k)
  | .br c d, k => knows A b c k && knows A b d k
  | .opt _ c d, k => knows A b c k && knows A b d k
  | .ifNone a c d, k => knows A b c (k || (a == b || A.contains a)) &&
      knows A b d (k || (a == b || A.contains a))
  | .ifHas a c d, k => knows A b c (k || (a == b || A.contains a)) && knows A b d k
  | .loop _, k => k
  | .tryC c d, k => knows A b c k && knows A b d k
  | .call _, k => k

/-- Within the statement the attributes `A` are stored only when `b` is there. -/
def follows (A : List ℕ) (b : ℕ) : Cmd → Bool → Bool
  | .put x, k => !A.contains x || k
  | .putNone x, k => !A.contains x || k
  | .seq c d, k => follows A b c k && follows A b d (knows A b c k)
  | .br c d, k => follows A b c k && follows A b d k
  | .opt _ c d, k => follows A b c k && follows A b d k
  | .ifNone x c d, k => follows A b c (k || (x == b || A.contains x)) &&
      follows A b d (k || (x == b || A.contains x))
  | .ifHas x c d, k => follows A b c (k || (x == b || A.contains x)) && follows A b d k
  | .loop c, k => follows A b c k
  | .tryC c d, k => follows A b c k && follows A b d k
  | _, _ => true

theorem follows_sound {P : ℕ → Cmd} {A : List ℕ} {b : ℕ}
    (hP : ∀ m, follows A b (P m) false = true) {ρ : Args}
    {c : Cmd} {s s' : Store} {o : Out} (hx : Exec P ρ c s s' o) :
    ∀ {k : Bool}, follows A b c k = true → (k = true → s b ≠ none) →
      (∀ a ∈ A, s a ≠ none → s b ≠ none) →
      (∀ a ∈ A, s' a ≠ none → s' b ≠ none) ∧ (o = .done → knows A b c k = true → s' b ≠ none) := by
  have orb : ∀ {k : Bool} {x : ℕ} {s : Store}, (k = true → s b ≠ none) →
      (∀ a ∈ A, s a ≠ none → s b ≠ none) → s x ≠ none →
      (k || (x == b || A.contains x)) = true → s b ≠ none := by
    intro k x s hk hi hx h
    simp only [Bool.or_eq_true, beq_iff_eq, List.contains_iff_mem] at h
    rcases h with h | h | h
    · exact hk h
    · exact h ▸ hx
    · exact hi x h hx
  induction hx with
  | skip => intro k _ hk hi; exact ⟨hi, fun _ h => hk h⟩
  | getOk ρ s x hg => intro k _ hk hi; exact ⟨hi, fun _ h => orb hk hi hg h⟩
  | getErr => intro k _ hk hi; exact ⟨hi, fun h => by cases h⟩
  | put ρ s x n =>
    intro k hf hk hi
    simp only [follows, Bool.or_eq_true, Bool.not_eq_true', List.contains_eq_mem,
      decide_eq_false_iff_not] at hf
    have hpb : s b ≠ none → s.put x (.val n) b ≠ none := by
      intro h; simp only [Store.put]; split_ifs <;> simp [h]
    refine ⟨fun a hA ha => ?_, fun _ h => ?_⟩
    · rcases hf with hf | hf
      · refine hpb (hi a hA ?_)
        have : a ≠ x := fun h => hf (h ▸ hA)
        simpa [Store.put, this] using ha
      · exact hpb (hk hf)
    · simp only [knows, Bool.or_eq_true, beq_iff_eq] at h
      rcases h with h | h
      · exact hpb (hk h)
      · subst h; simp [Store.put]
  | putNone ρ s x =>
    intro k hf hk hi
    simp only [follows, Bool.or_eq_true, Bool.not_eq_true', List.contains_eq_mem,
      decide_eq_false_iff_not] at hf
    have hpb : s b ≠ none → s.put x .blank b ≠ none := by
      intro h; simp only [Store.put]; split_ifs <;> simp [h]
    refine ⟨fun a hA ha => ?_, fun _ h => ?_⟩
    · rcases hf with hf | hf
      · refine hpb (hi a hA ?_)
        have : a ≠ x := fun h => hf (h ▸ hA)
        simpa [Store.put, this] using ha
      · exact hpb (hk hf)
    · simp only [knows, Bool.or_eq_true, beq_iff_eq] at h
      rcases h with h | h
      · exact hpb (hk h)
      · subst h; simp [Store.put]
  | mayOk => intro k _ hk hi; exact ⟨hi, fun _ h => hk h⟩
  | mayErr => intro k _ hk hi; exact ⟨hi, fun h => by cases h⟩
  | raise => intro k _ hk hi; exact ⟨hi, fun h => by cases h⟩
  | ret => intro k _ hk hi; exact ⟨hi, fun h => by cases h⟩
  | stop => intro k _ hk hi; exact ⟨hi, fun h => by cases h⟩
  | seq _ _ ih₁ ih₂ =>
    intro k hf hk hi
    simp only [follows, Bool.and_eq_true] at hf
    have h₁ := ih₁ hf.1 hk hi
    exact ih₂ hf.2 (h₁.2 rfl) h₁.1
  | seqOut _ hne ih =>
    intro k hf hk hi
    simp only [follows, Bool.and_eq_true] at hf
    exact ⟨(ih hf.1 hk hi).1, fun h => absurd h hne⟩
  | brL _ ih =>
    intro k hf hk hi
    simp only [follows, Bool.and_eq_true] at hf
    refine ⟨(ih hf.1 hk hi).1, fun ho h => ?_⟩
    simp only [knows, Bool.and_eq_true] at h
    exact (ih hf.1 hk hi).2 ho h.1
  | brR _ ih =>
    intro k hf hk hi
    simp only [follows, Bool.and_eq_true] at hf
    refine ⟨(ih hf.2 hk hi).1, fun ho h => ?_⟩
    simp only [knows, Bool.and_eq_true] at h
    exact (ih hf.2 hk hi).2 ho h.2
  | optT _ _ ih =>
    intro k hf hk hi
    simp only [follows, Bool.and_eq_true] at hf
    refine ⟨(ih hf.1 hk hi).1, fun ho h => ?_⟩
    simp only [knows, Bool.and_eq_true] at h
    exact (ih hf.1 hk hi).2 ho h.1
  | optF _ _ ih =>
    intro k hf hk hi
    simp only [follows, Bool.and_eq_true] at hf
    refine ⟨(ih hf.2 hk hi).1, fun ho h => ?_⟩
    simp only [knows, Bool.and_eq_true] at h
    exact (ih hf.2 hk hi).2 ho h.2
  | isNone hx _ ih =>
    intro k hf hk hi
    simp only [follows, Bool.and_eq_true] at hf
    have hk' := fun h => orb hk hi (by rw [hx]; simp) h
    refine ⟨(ih hf.1 hk' hi).1, fun ho h => ?_⟩
    simp only [knows, Bool.and_eq_true] at h
    exact (ih hf.1 hk' hi).2 ho h.1
  | isVal hx _ ih =>
    intro k hf hk hi
    simp only [follows, Bool.and_eq_true] at hf
    have hk' := fun h => orb hk hi (by rw [hx]; simp) h
    refine ⟨(ih hf.2 hk' hi).1, fun ho h => ?_⟩
    simp only [knows, Bool.and_eq_true] at h
    exact (ih hf.2 hk' hi).2 ho h.2
  | ifNoneErr => intro k _ hk hi; exact ⟨hi, fun h => by cases h⟩
  | has hx _ ih =>
    intro k hf hk hi
    simp only [follows, Bool.and_eq_true] at hf
    have hk' := fun h => orb hk hi hx h
    refine ⟨(ih hf.1 hk' hi).1, fun ho h => ?_⟩
    simp only [knows, Bool.and_eq_true] at h
    exact (ih hf.1 hk' hi).2 ho h.1
  | hasnt _ _ ih =>
    intro k hf hk hi
    simp only [follows, Bool.and_eq_true] at hf
    refine ⟨(ih hf.2 hk hi).1, fun ho h => ?_⟩
    simp only [knows, Bool.and_eq_true] at h
    exact (ih hf.2 hk hi).2 ho h.2
  | loopEnd => intro k _ hk hi; exact ⟨hi, fun _ h => hk h⟩
  | loopGo h₁ _ _ ih₁ ih₂ =>
    intro k hf hk hi
    have hf' := hf
    simp only [follows] at hf'
    exact ih₂ hf (fun h => h₁.keeps b (hk h)) (ih₁ hf' hk hi).1
  | loopOut _ hne _ ih =>
    intro k hf hk hi
    simp only [follows] at hf
    exact ⟨(ih hf hk hi).1, fun h => absurd h hne⟩
  | tryOk _ ih =>
    intro k hf hk hi
    simp only [follows, Bool.and_eq_true] at hf
    refine ⟨(ih hf.1 hk hi).1, fun ho h => ?_⟩
    simp only [knows, Bool.and_eq_true] at h
    exact (ih hf.1 hk hi).2 ho h.1
  | tryCatch h₁ _ ih₁ ih₂ =>
    intro k hf hk hi
    simp only [follows, Bool.and_eq_true] at hf
    have hk' := fun h => h₁.keeps b (hk h)
    have hi' := (ih₁ hf.1 hk hi).1
    refine ⟨(ih₂ hf.2 hk' hi').1, fun ho h => ?_⟩
    simp only [knows, Bool.and_eq_true] at h
    exact (ih₂ hf.2 hk' hi').2 ho h.2
  | call h₁ ih =>
    intro k _ hk hi
    exact ⟨(ih (hP _) (by simp) hi).1, fun _ h => h₁.keeps b (hk h)⟩

/-- In every method, and the constructor, the attributes `A` are stored only when `b` is
there. -/
def Cls.follows (C : Cls) (A : List ℕ) (b : ℕ) : Bool :=
  Life.follows A b C.init false && C.methods.all fun c => Life.follows A b c false

theorem Hist.follows {C : Cls} {A : List ℕ} {b : ℕ} (hf : C.follows A b = true) {h : List Call}
    {s : Store} (hh : Hist C h s) {a : ℕ} (hA : a ∈ A) (ha : s a ≠ none) : s b ≠ none := by
  simp only [Cls.follows, Bool.and_eq_true] at hf
  have hP : ∀ m, Life.follows A b (C.body m) false = true := by
    intro m
    by_cases hl : m < C.methods.length
    · rw [Cls.body, List.getD_eq_getElem _ _ hl]
      exact List.all_eq_true.1 hf.2 _ (List.getElem_mem hl)
    · rw [C.body_of_ge (not_lt.1 hl)]; rfl
  have : ∀ a ∈ A, s a ≠ none → s b ≠ none := by
    clear ha
    induction hh with
    | made hx _ => exact (follows_sound hP hx hf.1 (by simp) (by simp [Store.empty])).1
    | called _ hx ih => exact (follows_sound hP hx (hP _) (by simp) ih).1
  exact this a hA ha

/-- A reason why an attribute `b` is there when `a` is: `a` (and others) are stored only
when `b` is there, or every method that stores `a` leaves `b` when it completes. -/
inductive Fact
  | stored (a : ℕ) (others : List ℕ) (b : ℕ)
  | made (a : ℕ) (makers : List ℕ) (b : ℕ)

def Fact.pre : Fact → ℕ
  | .stored a _ _ => a
  | .made a _ _ => a

def Fact.post : Fact → ℕ
  | .stored _ _ b => b
  | .made _ _ b => b

def Cert.fact (K : Cert) (C : Cls) : Fact → Bool
  | .stored a A b => C.follows (a :: A) b
  | .made a ms b => C.onlyFrom a ms && ms.all fun m => bit (K.aft { m := m }).1 b

theorem fact_of {C : Cls} (hc : C.closed = true) {K : Cert} (hK : K.ok C = true) {f : Fact}
    (hf : K.fact C f = true) {h : List Call} {s : Store} (hh : Hist C h s)
    (hd : ∀ c ∈ h, c.out = .done) (ha : s f.pre ≠ none) : s f.post ≠ none := by
  cases f with
  | stored a A b => exact hh.follows hf List.mem_cons_self ha
  | made a ms b =>
    simp only [Cert.fact, Bool.and_eq_true] at hf
    have : ∃ c ∈ h, c.m ∈ ms := by
      by_contra hno
      push Not at hno
      exact ha (C.onlyFrom_absent hc hf.1 hh hno)
    obtain ⟨c, hcm, hmk⟩ := this
    exact (hh.certified hc hK (w := { m := c.m }) hcm ⟨rfl, by simp, by simp⟩ (hd c hcm) b).1
      (List.all_eq_true.1 hf.2 _ hmk)

/-- What is there, by the facts in their order. -/
def Cert.close (K : Cert) (C : Cls) : List Fact → List ℕ → List ℕ
  | [], known => known
  | f :: fs, known =>
    K.close C fs (if known.contains f.pre && K.fact C f then f.post :: known else known)

theorem close_of {C : Cls} (hc : C.closed = true) {K : Cert} (hK : K.ok C = true) {h : List Call}
    {s : Store} (hh : Hist C h s) (hd : ∀ c ∈ h, c.out = .done) :
    ∀ {fs : List Fact} {known : List ℕ}, (∀ b ∈ known, s b ≠ none) →
      ∀ b ∈ K.close C fs known, s b ≠ none := by
  intro fs
  induction fs with
  | nil => intro known hk b hb; exact hk b hb
  | cons f fs ih =>
    intro known hk b hb
    rw [Cert.close] at hb
    refine ih (fun x hx => ?_) b hb
    split_ifs at hx with hf
    · simp only [Bool.and_eq_true, List.contains_iff_mem] at hf
      rcases List.mem_cons.1 hx with rfl | hx
      · exact fact_of hc hK hf.2 hh hd (hk _ hf.1)
      · exact hk x hx
    · exact hk x hx

/-- With `E` there, and after the steps `ws`, everything is found. -/
def Cert.finds (K : Cert) (C : Cls) (D : Intake) (vals but : List ℕ) (E : ℕ) (ws : List Step) : Bool :=
  K.chain C E [] ws D.reads && K.chain C E but ws (D.reads ++ D.shows) &&
    vals.all fun a => bit (K.valAfter ws) a

/-- Everything is found after the methods called by the constructor, and after each
method that makes the attribute it looks for. -/
def Cert.serves (K : Cert) (C : Cls) (D : Intake) (vals but makers : List ℕ) (fs : List Fact) : Bool :=
  C.onlyFrom D.check makers &&
    K.finds C D vals but 0 (D.rerun.map fun m => ({ m := m } : Step)) &&
    makers.all fun m => K.finds C D vals but (maskOf (K.close C fs [D.check])) [{ m := m }]

theorem finds_of {C : Cls} {K : Cert} (hc : C.closed = true) (hK : K.ok C = true) {D : Intake}
    {vals but : List ℕ} {E : ℕ} {ws : List Step} (hf : K.finds C D vals but E ws = true)
    {h : List Call} {s₁ : Store} (hh : Hist C h s₁) (hw : Completed h ws)
    (hE : ∀ b, bit E b = true → s₁ b ≠ none) :
    (∀ s₂ a, ¬ Uses C D.reads s₁ s₂ (.attrErr a)) ∧
    (∀ s₂ a, Uses C (D.reads ++ D.shows) s₁ s₂ (.attrErr a) → a ∈ but) ∧
    ∀ a ∈ vals, ∃ n, s₁ a = some (.val n) := by
  simp only [Cert.finds, Bool.and_eq_true] at hf
  refine ⟨fun s₂ a hx => ?_, fun s₂ a hx => ?_, fun a ha => ?_⟩
  · have := chain_of hc hK hx hf.1.1 hh hw hE a rfl
    simp at this
  · exact chain_of hc hK hx hf.1.2 hh hw hE a rfl
  · exact K.value_of hc hK hh hw (List.all_eq_true.1 hf.2 a ha)

theorem serves_of {C : Cls} (K : Cert) (hc : C.closed = true) (hK : K.ok C = true) {D : Intake}
    {vals but : List ℕ} (makers : List ℕ) (fs : List Fact)
    (hs : K.serves C D vals but makers fs = true) : D.Serves C vals but := by
  intro h s s₁ hh hd ht
  simp only [Cert.serves, Bool.and_eq_true] at hs
  cases ht with
  | @kept sets _ _ hp _ hu =>
    obtain ⟨h', g₁, g₂, _, _⟩ := hu.hist rfl rfl hh
    have : ∃ c ∈ h, c.m ∈ makers := by
      by_contra hno
      push Not at hno
      exact hp (C.onlyFrom_absent hc hs.1.1 hh hno)
    obtain ⟨c, hcm, hmk⟩ := this
    refine finds_of hc hK (List.all_eq_true.1 hs.2 c.m hmk) g₁ ?_ fun b hb => hu.keeps b ?_
    · intro w hw
      rw [List.mem_singleton] at hw
      subst hw
      exact ⟨c, g₂ c hcm, ⟨rfl, by simp, by simp⟩, hd c hcm⟩
    · refine close_of hc hK hh hd ?_ b (bit_maskOf.1 hb)
      intro x hx
      rw [List.mem_singleton] at hx
      exact hx ▸ hp
  | @rerun sets _ _ _ hu =>
    obtain ⟨h', g₁, _, g₃, _⟩ := hu.hist rfl rfl hh
    refine finds_of hc hK hs.1.2 g₁ ?_ (by simp [bit_zero])
    intro w hw
    obtain ⟨m, hm, rfl⟩ := List.mem_map.1 hw
    obtain ⟨c, hcm, h₁, h₂⟩ := g₃ m (List.mem_append_right _ hm)
    exact ⟨c, hcm, ⟨h₁, by simp, by simp⟩, h₂⟩

/-- Everything read is there whenever the attribute looked for is. -/
def Cert.servesAll (K : Cert) (C : Cls) (D : Intake) (with_ : List ℕ) : Bool :=
  with_.all (fun b => b == D.check || C.follows [D.check] b) &&
    K.chain C (maskOf with_) [] [] D.reads &&
    K.chain C 0 [] (D.rerun.map fun m => ({ m := m } : Step)) D.reads

theorem servesAll_of {C : Cls} (K : Cert) (hc : C.closed = true) (hK : K.ok C = true) {D : Intake}
    (with_ : List ℕ) (hs : K.servesAll C D with_ = true) : D.ServesAll C := by
  intro h s s₁ hh ht s₂ a hx
  simp only [Cert.servesAll, Bool.and_eq_true] at hs
  cases ht with
  | @kept sets _ _ hp _ hu =>
    obtain ⟨h', g₁, _, _, _⟩ := hu.hist rfl rfl hh
    have hE : ∀ b, bit (maskOf with_) b = true → s₁ b ≠ none := by
      intro b hb
      refine hu.keeps b ?_
      have := List.all_eq_true.1 hs.1.1 b (bit_maskOf.1 hb)
      simp only [Bool.or_eq_true, beq_iff_eq] at this
      rcases this with rfl | hf
      · exact hp
      · exact hh.follows hf (List.mem_singleton.2 rfl) hp
    have := chain_of hc hK hx hs.1.2 g₁ (fun w hw => by cases hw) hE a rfl
    simp at this
  | @rerun sets _ _ _ hu =>
    obtain ⟨h', g₁, _, g₃, _⟩ := hu.hist rfl rfl hh
    have hw : Completed h' (D.rerun.map fun m => ({ m := m } : Step)) := by
      intro w hw
      obtain ⟨m, hm, rfl⟩ := List.mem_map.1 hw
      obtain ⟨c, hcm, h₁, h₂⟩ := g₃ m (List.mem_append_right _ hm)
      exact ⟨c, hcm, ⟨h₁, by simp, by simp⟩, h₂⟩
    have := chain_of hc hK hx hs.2 g₁ hw (by simp [bit_zero]) a rfl
    simp at this

/-! ## Building cases -/

/-- Follow one path of the uses (nothing raises by itself, `if`s about data and loops
are not entered). -/
def walkUses (C : Cls) : List Use → Store → Option (Store × Out)
  | [], s => some (s, .done)
  | u :: us, s =>
    match walk C.body 400 (fun _ => false) (u.cmd C) s (0, []) with
    | some (s₁, o, _) => if o.ofCall = .done then walkUses C us s₁ else some (s₁, o)
    | none => none

theorem walkUses_uses {C : Cls} : ∀ {us : List Use} {s s' : Store} {o : Out},
    walkUses C us s = some (s', o) → Uses C us s s' o := by
  intro us
  induction us with
  | nil =>
    intro s s' o h
    simp only [walkUses, Option.some.injEq, Prod.mk.injEq] at h
    obtain ⟨rfl, rfl⟩ := h
    exact .nil _
  | cons u us ih =>
    intro s s' o h
    simp only [walkUses] at h
    split at h
    · rename_i hw
      split_ifs at h with ho
      · exact .ok (walk_exec _ _ _ _ _ _ _ _ hw) ho (ih h)
      · simp only [Option.some.injEq, Prod.mk.injEq] at h
        obtain ⟨rfl, rfl⟩ := h
        exact .fail (walk_exec _ _ _ _ _ _ _ _ hw) ho
    · cases h

/-- Play some calls; the object is kept; then the uses: the calls made, how the uses end. -/
def playKept (C : Cls) (D : Intake) (init : List ℕ × ℕ × List Bool)
    (l : List (ℕ × List ℕ × ℕ × List Bool)) (us : List Use) : Option (List (ℕ × Out) × Out) :=
  match play C init l with
  | some (h, s) =>
    if s D.check = none then none else
    match walkUses C us s with
    | some (_, o) => some (h.map fun c => (c.m, c.out), o)
    | none => none
  | none => none

theorem playKept_hist {C : Cls} {D : Intake} {init : List ℕ × ℕ × List Bool}
    {l : List (ℕ × List ℕ × ℕ × List Bool)} {us : List Use} {os : List (ℕ × Out)} {o : Out}
    (h : playKept C D init l us = some (os, o)) :
    ∃ h s, Hist C h s ∧ (h.map fun c => (c.m, c.out)) = os ∧ D.Taken C s s ∧
      ∃ s', Uses C us s s' o := by
  simp only [playKept] at h
  split at h
  · rename_i h₀ s₀ hp
    split_ifs at h with hn
    split at h
    · rename_i hw
      simp only [Option.some.injEq, Prod.mk.injEq] at h
      obtain ⟨rfl, rfl⟩ := h
      exact ⟨h₀, s₀, play_hist hp, rfl, .kept (sets := []) hn (by simp) (.nil _), _, walkUses_uses hw⟩
    · cases h
  · cases h

end Life
end TS
