import Verif.Model.LmSeg
import Verif.Lemmas.Psds

/-! C11 — the segmented fit terminates, with a break inside the data or a reported failure. -/

namespace TS

private theorem segHalve_spec (x : List ℝ) (gamma beta : ℝ) :
    ∀ (fuel : ℕ) (nb : Option ℝ) (h : ℝ) (hIt : ℕ), hIt + fuel = 5 → 0 < fuel →
      ∃ r h', segHalve x gamma beta fuel nb h hIt = some (r, h') ∧
        (∀ b, r = some b → segInside x (some b) = true) := by
  intro fuel
  induction fuel with
  | zero => intro nb h hIt _ h0; omega
  | succ f ih =>
    intro nb h hIt h5 _
    simp only [segHalve]
    split
    · rename_i hin
      refine ⟨_, _, rfl, ?_⟩
      intro b hb; rw [← hb]; exact hin
    · split
      · exact ⟨none, _, rfl, by simp⟩
      · exact ih _ _ _ (by omega) (by omega)

/-- Step halving always stops within five halvings, whatever the regression returned: either a
break strictly inside the data is found, or the loop gives up. -/
theorem C11_halving_terminates (x : List ℝ) (gamma beta : ℝ) (nb : Option ℝ) (h : ℝ) :
    ∃ r h', segHalve x gamma beta 5 nb h 0 = some (r, h') ∧
      (∀ b, r = some b → (∃ v ∈ x, b < v) ∧ (∃ v ∈ x, v ≤ b)) := by
  obtain ⟨r, h', e, hin⟩ := segHalve_spec x gamma beta 5 nb h 0 (by norm_num) (by norm_num)
  refine ⟨r, h', e, ?_⟩
  intro b hb
  have := hin b hb
  simp only [segInside, Bool.and_eq_true, List.any_eq_true, decide_eq_true_eq, Bool.not_eq_true',
    List.all_eq_false] at this
  obtain ⟨h1, v, hv, h2⟩ := this
  exact ⟨h1, v, hv, by simpa using h2⟩

private theorem segBody_spec (x : List ℝ) (o : SegOpts) (f : SegFit) (s : SegSt)
    (hinv : s.failed = false) :
    ∃ s', segBody x o f s = some s' ∧ s'.count = s.count + 1 ∧ s'.fitRss = some f.rss ∧
      ((s'.failed = false ∧ s'.it = s.it + 1 ∧ segInside x (some s'.brk) = true) ∨
       (s'.failed = true ∧ s'.it = o.iterMax + 2)) := by
  unfold segBody
  by_cases hc : segInside x (optAdd (some s.brk) (segStep s.hStep f.gamma f.beta)) = true
  · rw [if_pos hc]
    refine ⟨_, rfl, rfl, rfl, Or.inl ⟨hinv, rfl, ?_⟩⟩
    cases hn : optAdd (some s.brk) (segStep s.hStep f.gamma f.beta) with
    | none => rw [hn] at hc; simp [segInside] at hc
    | some b => rw [hn] at hc; simpa using hc
  · rw [if_neg hc]
    obtain ⟨r, h', e, hin⟩ := segHalve_spec x f.gamma f.beta 5
      (optAdd (some s.brk) (segStep s.hStep f.gamma f.beta)) s.hStep 0 (by norm_num) (by norm_num)
    simp only [e]
    cases r with
    | none => exact ⟨_, rfl, rfl, rfl, Or.inr ⟨rfl, rfl⟩⟩
    | some b => exact ⟨_, rfl, rfl, rfl, Or.inl ⟨hinv, rfl, hin b rfl⟩⟩

/-- What holds of a loop result. -/
private def LoopPost (x : List ℝ) (o : SegOpts) (s : SegSt) : Prop :=
  s.count ≤ o.iterMax + 1 ∧
  (s.failed = false → s.fitRss ≠ none → segInside x (some s.brk) = true)

private theorem segLoop_spec (x : List ℝ) (o : SegOpts) (fit : ℕ → ℝ → Py SegFit) :
    ∀ (fuel : ℕ) (s : SegSt), o.iterMax + 1 ≤ s.it + fuel → s.it ≤ o.iterMax →
      s.count = s.it → s.failed = false →
      (s.fitRss ≠ none → segInside x (some s.brk) = true) →
      (∃ e, segLoop x o fit fuel s = some (.error e)) ∨
      ∃ s', segLoop x o fit fuel s = some (.ok s') ∧ LoopPost x o s' := by
  intro fuel
  induction fuel with
  | zero => intro s h1 h2; omega
  | succ n ih =>
    intro s h1 h2 hc hf hin
    simp only [segLoop]
    split
    · cases hfit : fit s.count s.brk with
      | error e => left; exact ⟨e, rfl⟩
      | ok f =>
        obtain ⟨s', e', hcnt, hrss, hcase⟩ := segBody_spec x o f s hf
        simp only [e']
        by_cases hlt : o.iterMax < s'.it
        · rw [if_pos hlt]
          right
          refine ⟨s', rfl, by rw [hcnt, hc]; omega, ?_⟩
          intro hf' _
          rcases hcase with ⟨-, -, h3⟩ | ⟨h3, -⟩
          · exact h3
          · rw [h3] at hf'; cases hf'
        · rw [if_neg hlt]
          rcases hcase with ⟨h3, h4, h5⟩ | ⟨_, h4⟩
          · exact ih s' (by omega) (by omega) (by rw [hcnt, hc, h4]) h3 (fun _ => h5)
          · omega
    · right; exact ⟨s, rfl, by rw [hc]; omega, fun _ h => hin h⟩

private theorem segLoop_mono (x : List ℝ) (o : SegOpts) (fit : ℕ → ℝ → Py SegFit) :
    ∀ (fuel : ℕ) (s : SegSt) (r : Py SegSt), segLoop x o fit fuel s = some r →
      ∀ extra, segLoop x o fit (fuel + extra) s = some r := by
  intro fuel
  induction fuel with
  | zero =>
    intro s r h extra
    simp only [segLoop] at h
    split at h
    · cases h
    · rename_i hc
      cases extra with
      | zero => simp only [segLoop]; rw [if_neg hc]; exact h
      | succ k => rw [Nat.zero_add]; simp only [segLoop]; rw [if_neg hc]; exact h
  | succ n ih =>
    intro s r h extra
    rw [show n + 1 + extra = (n + extra) + 1 by omega]
    simp only [segLoop] at h ⊢
    by_cases hc : o.tol < |s.epsil|
    · rw [if_pos hc] at h ⊢
      cases hfit : fit s.count s.brk with
      | error e => rw [hfit] at h; exact h
      | ok f =>
        rw [hfit] at h
        simp only at h ⊢
        cases hb : segBody x o f s with
        | none => rw [hb] at h; cases h
        | some s' =>
          rw [hb] at h
          simp only at h ⊢
          by_cases hlt : o.iterMax < s'.it
          · rw [if_pos hlt] at h ⊢; exact h
          · rw [if_neg hlt] at h ⊢; exact ih s' r h extra
    · rw [if_neg hc] at h ⊢; exact h

private theorem segFinish_spec (m : LmSeg) (o : SegOpts) (init : ℝ) (s : SegSt)
    (hp : LoopPost m.x o s) (res : SegResult) (h : segFinish m init s = .ok res) :
    res.count ≤ o.iterMax + 1 ∧
    (res.failed = false → (∃ v ∈ m.x, res.brk < v) ∧ (∃ v ∈ m.x, v ≤ res.brk)) ∧
    (res.failed = true → res.brk ∈ m.x ∧ ∀ v ∈ m.x, v ≤ res.brk) := by
  have hline : ∀ mx, npMax m.x = .ok mx → mx ∈ m.x ∧ ∀ v ∈ m.x, v ≤ mx := fun mx hmx => npMax_spec hmx
  unfold segFinish at h
  cases hf : s.failed with
  | true =>
    rw [hf] at h
    cases hm : npMax m.x with
    | error e => rw [hm] at h; cases h
    | ok mx => rw [hm] at h; cases h; exact ⟨hp.1, by simp, fun _ => hline mx hm⟩
  | false =>
    rw [hf] at h
    cases hr : s.fitRss with
    | none => rw [hr] at h; cases h
    | some r =>
      rw [hr] at h
      by_cases hle : init ≤ r
      · cases hm : npMax m.x with
        | error e => rw [hm] at h; simp [hle, bind, Except.bind] at h
        | ok mx =>
          rw [hm] at h
          simp [hle, bind, Except.bind, pure, Except.pure] at h
          rw [← h]; exact ⟨hp.1, by simp, fun _ => hline mx hm⟩
      · simp [hle, bind, Except.bind, pure, Except.pure] at h
        rw [← h]
        refine ⟨hp.1, fun _ => ?_, by simp⟩
        have := hp.2 hf (by rw [hr]; simp)
        simp only [segInside, Bool.and_eq_true, List.any_eq_true, decide_eq_true_eq,
          Bool.not_eq_true', List.all_eq_false] at this
        obtain ⟨h1, v, hv, h2⟩ := this
        exact ⟨h1, v, hv, by simpa using h2⟩

/-- Termination: for every data set, options and behaviour of the regression, `fit_model` returns
or raises, after at most `iter_max + 1` passes (more fuel never changes the outcome). -/
theorem C11_terminates (m : LmSeg) (o : SegOpts) (init : ℝ) (fit : ℕ → ℝ → Py SegFit) :
    ∃ r, (∀ extra, segFitModel m o init fit (o.iterMax + 1 + extra) = some r) ∧
      ∀ res, r = .ok res → res.count ≤ o.iterMax + 1 := by
  by_cases heps : o.epsil0 < o.tol
  · refine ⟨.error .attributeError, fun extra => by simp [segFitModel, heps], ?_⟩
    intro res h; cases h
  · have hl := segLoop_spec m.x o fit (o.iterMax + 1)
      ⟨m.brk, o.hStep, o.epsil0, init, 0, false, none, 0⟩ (by simp) (by simp) rfl rfl (by simp)
    rcases hl with ⟨e, he⟩ | ⟨s', hs', hpost⟩
    · refine ⟨.error e, fun extra => ?_, fun res h => by cases h⟩
      simp only [segFitModel, if_neg heps, segLoop_mono _ _ _ _ _ _ he extra]
    · refine ⟨segFinish m init s', fun extra => ?_, ?_⟩
      · simp only [segFitModel, if_neg heps, segLoop_mono _ _ _ _ _ _ hs' extra]
      · intro res h
        exact (segFinish_spec m o init s' hpost res h).1

/-- The reported break separates the data (some points above it, some not) unless the fit reports
failure, in which case it is the largest `x`. -/
theorem C11_break_in_range (m : LmSeg) (o : SegOpts) (init : ℝ) (fit : ℕ → ℝ → Py SegFit)
    (res : SegResult) (h : segFitModel m o init fit (o.iterMax + 1) = some (.ok res)) :
    (res.failed = false → (∃ v ∈ m.x, res.brk < v) ∧ (∃ v ∈ m.x, v ≤ res.brk)) ∧
    (res.failed = true → res.brk ∈ m.x ∧ ∀ v ∈ m.x, v ≤ res.brk) := by
  unfold segFitModel at h
  by_cases heps : o.epsil0 < o.tol
  · simp [heps] at h
  rw [if_neg heps] at h
  have hl := segLoop_spec m.x o fit (o.iterMax + 1)
    ⟨m.brk, o.hStep, o.epsil0, init, 0, false, none, 0⟩ (by simp) (by simp) rfl rfl (by simp)
  rcases hl with ⟨e, he⟩ | ⟨s', hs', hpost⟩
  · simp only [he] at h; cases h
  · simp only [hs', Option.some.injEq] at h
    exact (segFinish_spec m o init s' hpost res h).2

/-- The straight-line fit is kept whenever it is at least as good as the last segmented fit: a
fit that is not reported as failed really has a smaller residual sum. -/
theorem C11_success_improves (m : LmSeg) (init : ℝ) (s : SegSt) (res : SegResult)
    (h : segFinish m init s = .ok res) (hok : res.failed = false) :
    ∃ r, s.fitRss = some r ∧ r < init := by
  unfold segFinish at h
  cases hf : s.failed with
  | true =>
    rw [hf] at h
    cases hm : npMax m.x with
    | error e => rw [hm] at h; cases h
    | ok mx => rw [hm] at h; cases h; cases hok
  | false =>
    rw [hf] at h
    cases hr : s.fitRss with
    | none => rw [hr] at h; cases h
    | some r =>
      rw [hr] at h
      by_cases hle : init ≤ r
      · cases hm : npMax m.x with
        | error e => rw [hm] at h; simp [hle, bind, Except.bind] at h
        | ok mx =>
          rw [hm] at h
          simp [hle, bind, Except.bind, pure, Except.pure] at h
          rw [← h] at hok; cases hok
      · exact ⟨r, rfl, not_le.1 hle⟩

/-- Non-vacuity: a successful fit that moves the break from 1 to 3 in one pass. -/
example : segFitModel ⟨[0, 1, 2, 3, 4], [0, 1, 2, 3, 5], 1, none⟩ ⟨1e-3, 100, 2, 10⟩ 1
    (fun _ _ => .ok ⟨1, 1, 0.0005⟩) 1 = none ∧
    ∃ res, segFitModel ⟨[0, 1, 2, 3, 4], [0, 1, 2, 3, 5], 1, none⟩ ⟨1e-3, 0, 2, 10⟩ 1
    (fun _ _ => .ok ⟨1, 1, 0.0005⟩) 1 = some (.ok res) ∧ res.failed = false ∧ res.brk = 3 := by
  have hin : segInside [0, 1, 2, 3, 4] (optAdd (some 1) (segStep 2 1 1)) = true := by
    simp only [segStep, optAdd, segInside]; norm_num [List.any, List.all]
  constructor
  · simp only [segFitModel, segFinish, segLoop, segBody, hin]
    norm_num [optAdd, segStep]
  · simp only [segFitModel, segFinish, segLoop, segBody, hin]
    norm_num [optAdd, segStep, bind, Except.bind, pure, Except.pure]

/-- The constructor: it fails with ValueError for a missing or out-of-range starting break or for
weights of the wrong size or with missing values, and with `Warning` when at most three points are
usable; otherwise the object holds exactly the pairs with both coordinates present, in order. -/
theorem C11_init (x y : List (Option ℝ)) (b : ℝ) (hx : ∀ v ∈ x, v ≠ none)
    (hxy : x.length = y.length) :
    let pairs := (x.zip y).filter (fun p => p.2.isSome && p.1.isSome)
    lmSegInit x y none none = .error .valueError ∧
    ((∀ v ∈ x, ∀ r, v = some r → r < b) ∨ (∀ v ∈ x, ∀ r, v = some r → b < r) →
      lmSegInit x y (some b) none = .error .valueError) ∧
    ((∃ v ∈ x, ∃ r, v = some r ∧ b ≤ r) → (∃ v ∈ x, ∃ r, v = some r ∧ r ≤ b) →
      (pairs.length ≤ 3 → lmSegInit x y (some b) none = .error .warningRaised) ∧
      (3 < pairs.length → ∃ m, lmSegInit x y (some b) none = .ok m ∧ m.brk = b ∧
        m.x.map some = pairs.map (·.1) ∧ m.y.map some = pairs.map (·.2))) := by
  intro pairs
  have hall : x.all Option.isSome = true := by
    rw [List.all_eq_true]
    intro v hv
    exact Option.isSome_iff_ne_none.2 (hx v hv)
  have hl1 : (pairs.filterMap (fun p => p.1)).map some = pairs.map (·.1) := by
    have : ∀ l : List (Option ℝ × Option ℝ), (∀ p ∈ l, p.1.isSome) →
        (l.filterMap (fun p => p.1)).map some = l.map (·.1) := by
      intro l
      induction l with
      | nil => simp
      | cons p l ih =>
        intro h
        obtain ⟨v, hv⟩ := Option.isSome_iff_exists.1 (h p (by simp))
        rw [List.filterMap_cons, hv]
        simp only [List.map_cons, hv]
        rw [ih (fun q hq => h q (List.mem_cons_of_mem _ hq))]
    apply this
    intro p hp
    have := (List.mem_filter.1 hp).2
    simp at this; exact this.2
  have hl2 : (pairs.filterMap (fun p => p.2)).map some = pairs.map (·.2) := by
    have : ∀ l : List (Option ℝ × Option ℝ), (∀ p ∈ l, p.2.isSome) →
        (l.filterMap (fun p => p.2)).map some = l.map (·.2) := by
      intro l
      induction l with
      | nil => simp
      | cons p l ih =>
        intro h
        obtain ⟨v, hv⟩ := Option.isSome_iff_exists.1 (h p (by simp))
        rw [List.filterMap_cons, hv]
        simp only [List.map_cons, hv]
        rw [ih (fun q hq => h q (List.mem_cons_of_mem _ hq))]
    apply this
    intro p hp
    have := (List.mem_filter.1 hp).2
    simp at this; exact this.1
  have len1 : (pairs.filterMap (fun p => p.1)).length = pairs.length := by
    have := congrArg List.length hl1; simpa using this
  have len2 : (pairs.filterMap (fun p => p.2)).length = pairs.length := by
    have := congrArg List.length hl2; simpa using this
  refine ⟨rfl, ?_, ?_⟩
  · intro hout
    by_cases hxe : x = []
    · simp [lmSegInit, hxe, bind, Except.bind]
    · obtain ⟨v0, hv0⟩ := List.exists_mem_of_ne_nil x hxe
      obtain ⟨r0, hr0⟩ := Option.ne_none_iff_exists'.1 (hx v0 hv0)
      have hmem0 : r0 ∈ x.filterMap id := by
        rw [List.mem_filterMap]; exact ⟨v0, hv0, hr0⟩
      have hmx : ∃ mx, npMax (x.filterMap id) = .ok mx := by
        cases hq : x.filterMap id with
        | nil => rw [hq] at hmem0; simp at hmem0
        | cons a l => exact ⟨_, rfl⟩
      have hmn : ∃ mn, npMin (x.filterMap id) = .ok mn := by
        cases hq : x.filterMap id with
        | nil => rw [hq] at hmem0; simp at hmem0
        | cons a l => exact ⟨_, rfl⟩
      obtain ⟨mx, hmx⟩ := hmx
      obtain ⟨mn, hmn⟩ := hmn
      have hmxm := (npMax_spec hmx).1
      have hmnm := (npMin_spec hmn).1
      have hdec : (decide (mx < b) || decide (b < mn)) = true := by
        rw [Bool.or_eq_true, decide_eq_true_eq, decide_eq_true_eq]
        rcases hout with h | h
        · left
          rw [List.mem_filterMap] at hmxm
          obtain ⟨v, hv, e⟩ := hmxm
          exact h v hv mx e
        · right
          rw [List.mem_filterMap] at hmnm
          obtain ⟨v, hv, e⟩ := hmnm
          exact h v hv mn e
      simp only [lmSegInit, hxe, hall, hmx, hmn, hdec, bind, Except.bind, if_true, if_false]
  · rintro ⟨v, hv, r, hr, hbr⟩ ⟨w, hw, t, ht, htb⟩
    have hxe : x ≠ [] := by intro h; rw [h] at hv; simp at hv
    have hmemr : r ∈ x.filterMap id := by rw [List.mem_filterMap]; exact ⟨v, hv, hr⟩
    have hmemt : t ∈ x.filterMap id := by rw [List.mem_filterMap]; exact ⟨w, hw, ht⟩
    have hmx : ∃ mx, npMax (x.filterMap id) = .ok mx := by
      cases hq : x.filterMap id with
      | nil => rw [hq] at hmemr; simp at hmemr
      | cons a l => exact ⟨_, rfl⟩
    have hmn : ∃ mn, npMin (x.filterMap id) = .ok mn := by
      cases hq : x.filterMap id with
      | nil => rw [hq] at hmemr; simp at hmemr
      | cons a l => exact ⟨_, rfl⟩
    obtain ⟨mx, hmx⟩ := hmx
    obtain ⟨mn, hmn⟩ := hmn
    have hdec : (decide (mx < b) || decide (b < mn)) = false := by
      rw [Bool.or_eq_false_iff, decide_eq_false_iff_not, decide_eq_false_iff_not]
      exact ⟨not_lt.2 (hbr.trans ((npMax_spec hmx).2 r hmemr)),
        not_lt.2 (((npMin_spec hmn).2 t hmemt).trans htb)⟩
    have hred : lmSegInit x y (some b) none =
        (if (pairs.filterMap (fun p => p.1)).length ≤ 3 ∨ (pairs.filterMap (fun p => p.2)).length ≤ 3 then
          .error .warningRaised
        else .ok ⟨pairs.filterMap (fun p => p.1), pairs.filterMap (fun p => p.2), b, none⟩) := by
      simp only [lmSegInit, hxe, hall, hmx, hmn, hdec, hxy, bind, Except.bind, pure, Except.pure,
        if_true, if_false, ne_eq, not_true_eq_false, Option.map_none]
      rfl
    rw [hred, len1, len2]
    constructor
    · intro h3; rw [if_pos (Or.inl h3)]
    · intro h3
      rw [if_neg (by omega)]
      exact ⟨_, rfl, rfl, hl1, hl2⟩

/-- Two option settings make every fit raise: a starting epsilon below the tolerance (the code
calls the non-existent `warnings.warning`) and one equal to it (the loop is skipped and `fit` is
unbound). -/
theorem C11_small_epsilon_raises (m : LmSeg) (o : SegOpts) (init : ℝ) (fit : ℕ → ℝ → Py SegFit)
    (fuel : ℕ) :
    (o.epsil0 < o.tol → segFitModel m o init fit fuel = some (.error .attributeError)) ∧
    (o.epsil0 = o.tol → 0 ≤ o.tol → segFitModel m o init fit fuel = some (.error .unboundLocal)) := by
  constructor
  · intro h; simp [segFitModel, h]
  · intro h h0
    have hc : ¬ (o.tol < |o.epsil0|) := by rw [h, abs_of_nonneg h0]; exact lt_irrefl _
    have hl : segLoop m.x o fit fuel ⟨m.brk, o.hStep, o.epsil0, init, 0, false, none, 0⟩
        = some (.ok ⟨m.brk, o.hStep, o.epsil0, init, 0, false, none, 0⟩) := by
      cases fuel <;> simp only [segLoop] <;> rw [if_neg hc]
    simp only [segFitModel, hl]
    rw [if_neg (by rw [h]; exact lt_irrefl _)]
    rfl

end TS
