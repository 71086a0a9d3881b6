import Verif.Model.BreakFit
import Verif.Lemmas.Psds
import Verif.Lemmas.PlawFit
import Mathlib.Data.List.Sort

/-! C72: the fit of the velocity coordinate spectrum uses every positive spectral frequency inside
the cuts, tries the estimated breaks from the largest down until one works, and falls back to a
line without a break when none does. -/

namespace TS

namespace Spec

/-- Index `i` of a length-`n` spectrum holds a positive frequency `i / n`. -/
def PositiveFreq (n i : ℕ) : Prop := 0 < i ∧ 2 * i < n

end Spec

open Spec

private theorem mem_vcsFitIndices {n i : ℕ} : i ∈ vcsFitIndices n ↔ 0 < i ∧ i < n / 2 := by
  unfold vcsFitIndices
  rw [List.drop_one]
  cases h : n / 2 with
  | zero => simp
  | succ m =>
    rw [List.range_succ_eq_map, List.tail_cons, List.mem_map]
    constructor
    · rintro ⟨a, ha, rfl⟩
      exact ⟨Nat.succ_pos a, Nat.succ_lt_succ (List.mem_range.1 ha)⟩
    · rintro ⟨h1, h2⟩
      exact ⟨i - 1, List.mem_range.2 (by omega), by omega⟩

/-- **C72 (frequencies).** For an even number of channels the fitted points are exactly the positive
frequencies in `(low, high]`; without cuts, all of them.  Missing compared with the full property:
odd numbers of channels (see `C72_odd_violated`). -/
theorem C72_frequencies_partial (n : ℕ) (heven : n % 2 = 0) (maxFreq : ℝ)
    (hmax : ∀ i, PositiveFreq n i → (i : ℝ) / n ≤ maxFreq) (i : ℕ) :
    (∀ lo hi, i ∈ vcsFitted n (some lo) (some hi) maxFreq ↔
      PositiveFreq n i ∧ lo < (i : ℝ) / n ∧ (i : ℝ) / n ≤ hi) ∧
    (i ∈ vcsFitted n none none maxFreq ↔ PositiveFreq n i) := by
  have hidx : i ∈ vcsFitIndices n ↔ PositiveFreq n i := by
    rw [mem_vcsFitIndices]; unfold PositiveFreq; omega
  constructor
  · intro lo hi
    unfold vcsFitted
    rw [List.mem_filter, hidx]
    simp [clipFunc]
  · unfold vcsFitted
    rw [List.mem_filter, hidx]
    simp only [Option.getD_none, clipFunc, Bool.and_eq_true, decide_eq_true_eq, and_iff_left_iff_imp]
    intro hp
    have hn : (0 : ℝ) < n := by
      have : 0 < n := by unfold PositiveFreq at hp; omega
      exact_mod_cast this
    have hi1 : (1 : ℝ) ≤ i := by exact_mod_cast hp.1
    have hle := hmax i hp
    have h0 : 0 < (i : ℝ) / n := by positivity
    exact ⟨by rw [div_lt_div_iff_of_pos_right hn]; linarith, by nlinarith⟩

/-- Non-vacuity: 8 channels have the positive frequencies 1/8, 2/8, 3/8. -/
example : (∀ i, PositiveFreq 8 i → (i : ℝ) / (8 : ℕ) ≤ 3 / 8) ∧ PositiveFreq 8 3 ∧ ¬ PositiveFreq 8 4 := by
  refine ⟨?_, by unfold PositiveFreq; omega, by unfold PositiveFreq; omega⟩
  intro i hi
  unfold PositiveFreq at hi
  have : (i : ℝ) ≤ 3 := by exact_mod_cast (by omega : i ≤ 3)
  push_cast
  linarith

/-- **C72 (violation).** With an odd number of channels the highest positive frequency is never
fitted, whatever the cuts. -/
theorem C72_odd_violated (m : ℕ) (hm : 0 < m) (low high : Option ℝ) (maxFreq : ℝ) :
    PositiveFreq (2 * m + 1) m ∧ m ∉ vcsFitted (2 * m + 1) low high maxFreq := by
  refine ⟨⟨hm, by omega⟩, ?_⟩
  intro h
  have := List.mem_of_mem_filter h
  rw [mem_vcsFitIndices] at this
  omega

/-! ### Candidate breaks -/

private theorem vcsTrim_sublist (knots : List ℝ) (mx mn : ℝ) :
    List.Sublist (vcsTrim knots mx mn) ((knots.drop 1).dropLast).reverse := by
  unfold vcsTrim
  simp only
  split <;> split
  · exact (List.dropLast_sublist _).trans (List.drop_sublist 1 _)
  · exact List.drop_sublist 1 _
  · exact List.dropLast_sublist _
  · exact List.Sublist.refl _

/-- **C72 (candidates).** Whatever the spline returns (its knots in increasing order, the first and
last at the ends), the candidates are tried from the largest down, and are interior knots; with no
interior knot the only candidate is the middle of the last and third to last abscissa. -/
theorem C72_candidates (x knots cand : List ℝ) (hk : knots.Pairwise (· < ·))
    (h : vcsCandidates x knots = .ok cand) :
    cand.Pairwise (· > ·) ∧ cand ≠ [] ∧
    ((∀ b ∈ cand, b ∈ (knots.drop 1).dropLast) ∨
      ∃ s : List ℝ, s.Perm x ∧ s.Pairwise (· ≤ ·) ∧
        cand = [(s.getD (x.length - 1) 0 + s.getD (x.length - 3) 0) / 2]) := by
  unfold vcsCandidates at h
  simp only [bind, Except.bind] at h
  cases hmx : npMax x with
  | error e => rw [hmx] at h; simp at h
  | ok mx =>
  cases hmn : npMin x with
  | error e => rw [hmx, hmn] at h; simp at h
  | ok mn =>
  rw [hmx, hmn] at h
  simp only at h
  split at h
  · simp at h
  · split at h
    · rename_i hl h0
      simp only [Except.ok.injEq] at h
      subst h
      refine ⟨by simp, by simp, Or.inr ⟨x.mergeSort (fun a b => decide (a ≤ b)),
        List.mergeSort_perm x _, ?_, ?_⟩⟩
      · have := List.pairwise_mergeSort (le := fun a b : ℝ => decide (a ≤ b))
          (by intro a b c; simp only [decide_eq_true_eq]; exact le_trans)
          (by intro a b; simp only [Bool.or_eq_true, decide_eq_true_eq]; exact le_total a b) x
        simpa using this
      · norm_num; ring
    · rename_i hl h0
      simp only [Except.ok.injEq] at h
      subst h
      have hsub := vcsTrim_sublist knots mx mn
      refine ⟨?_, ?_, Or.inl ?_⟩
      · refine List.Pairwise.sublist hsub ?_
        rw [List.pairwise_reverse]
        exact hk.sublist ((List.dropLast_sublist _).trans (List.drop_sublist 1 _))
      · intro h'; rw [h'] at h0; simp at h0
      · intro b hb
        exact List.mem_reverse.1 (hsub.subset hb)

/-- Non-vacuity. -/
example : vcsCandidates [-4, -3, -2, -1] [-4, -3, -2.5, -1] = .ok [-2.5, -3] := by
  have h1 : npMax [-4, -3, -2, (-1 : ℝ)] = .ok (-1) := npMax_eq (by simp) (by
    intro y hy
    simp only [List.mem_cons, List.not_mem_nil, or_false] at hy
    rcases hy with rfl | rfl | rfl | rfl <;> norm_num)
  have h2 : npMin [-4, -3, -2, (-1 : ℝ)] = .ok (-4) := npMin_eq (by simp) (by
    intro y hy
    simp only [List.mem_cons, List.not_mem_nil, or_false] at hy
    rcases hy with rfl | rfl | rfl | rfl <;> norm_num)
  unfold vcsCandidates
  simp only [h1, h2, bind, Except.bind]
  norm_num [vcsTrim]

/-! ### The search -/

private theorem vcsSearch_spec (seg : ℝ → Py SegOut) (all : List ℝ) :
    ∀ (l : List ℝ) (c : ℕ) (r : BreakArg) (k : ℕ), vcsSearch seg all l c = .ok (r, k) →
      k ≤ c + l.length ∧
      ((∃ pre b post g, l = pre ++ b :: post ∧ r = .one b ∧ seg b = .ok g ∧ g.found = true ∧
          ∀ a ∈ pre, ∃ g', seg a = .ok g' ∧ g'.found = false) ∨
       (r = .array all ∧ ∀ a ∈ l, ∃ g', seg a = .ok g' ∧ g'.found = false)) := by
  intro l
  induction l with
  | nil =>
    intro c r k h
    simp only [vcsSearch, Except.ok.injEq, Prod.mk.injEq] at h
    obtain ⟨rfl, rfl⟩ := h
    exact ⟨by simp, Or.inr ⟨rfl, by simp⟩⟩
  | cons b rest ih =>
    intro c r k h
    unfold vcsSearch at h
    simp only [bind, Except.bind] at h
    cases hs : seg b with
    | error e => rw [hs] at h; simp at h
    | ok g =>
      rw [hs] at h
      simp only at h
      cases hf : g.found with
      | true =>
        rw [hf] at h
        simp only [if_true, Except.ok.injEq, Prod.mk.injEq] at h
        obtain ⟨rfl, rfl⟩ := h
        exact ⟨by simp, Or.inl ⟨[], b, rest, g, rfl, rfl, hs, hf, by simp⟩⟩
      | false =>
        rw [hf] at h
        simp only [Bool.false_eq_true, if_false] at h
        obtain ⟨h1, h2⟩ := ih (c + 1) r k h
        refine ⟨by simp only [List.length_cons]; omega, ?_⟩
        rcases h2 with ⟨pre, b', post, g', e, e2, e3, e4, e5⟩ | ⟨e, e2⟩
        · refine Or.inl ⟨b :: pre, b', post, g', by rw [e]; rfl, e2, e3, e4, ?_⟩
          intro a ha
          rcases List.mem_cons.1 ha with rfl | ha
          · exact ⟨g, hs, hf⟩
          · exact e5 a ha
        · refine Or.inr ⟨e, ?_⟩
          intro a ha
          rcases List.mem_cons.1 ha with rfl | ha
          · exact ⟨g, hs, hf⟩
          · exact e2 a ha

private theorem vcsSearch_first (seg : ℝ → Py SegOut) (all : List ℝ) (b : ℝ) (post : List ℝ)
    (g : SegOut) (hb : seg b = .ok g) (hf : g.found = true) :
    ∀ (pre : List ℝ) (c : ℕ), (∀ a ∈ pre, ∃ g', seg a = .ok g' ∧ g'.found = false) →
      vcsSearch seg all (pre ++ b :: post) c = .ok (.one b, c + pre.length + 1) := by
  intro pre
  induction pre with
  | nil => intro c _; simp [vcsSearch, hb, hf, bind, Except.bind]
  | cons a pre ih =>
    intro c h
    obtain ⟨g', e1, e2⟩ := h a (by simp)
    rw [List.cons_append]
    unfold vcsSearch
    simp only [e1, e2, bind, Except.bind, Bool.false_eq_true, if_false]
    rw [ih (c + 1) (fun a' ha' => h a' (List.mem_cons_of_mem _ ha'))]
    simp only [List.length_cons]
    congr 2; omega

private theorem vcsSearch_none (seg : ℝ → Py SegOut) (all : List ℝ) :
    ∀ (l : List ℝ) (c : ℕ), (∀ a ∈ l, ∃ g', seg a = .ok g' ∧ g'.found = false) →
      vcsSearch seg all l c = .ok (.array all, c + l.length) := by
  intro l
  induction l with
  | nil => intro c _; rfl
  | cons a l ih =>
    intro c h
    obtain ⟨g', e1, e2⟩ := h a (by simp)
    unfold vcsSearch
    simp only [e1, e2, bind, Except.bind, Bool.false_eq_true, if_false]
    rw [ih (c + 1) (fun a' ha' => h a' (List.mem_cons_of_mem _ ha'))]
    simp only [List.length_cons]
    congr 2; omega

/-- **C72 (search ends).** The search starts at most one segmented fit per candidate, plus the final
one. -/
theorem C72_terminates (seg : ℝ → Py SegOut) (bootstrap logBreak : Bool) (x knots cand : List ℝ)
    (hc : vcsCandidates x knots = .ok cand) (r : SegOut × List ℝ × List ℝ) (k : ℕ)
    (h : vcsFit seg bootstrap logBreak none x knots = .ok (r, k)) : k ≤ cand.length + 1 := by
  unfold vcsFit at h
  simp only [bind, Except.bind, hc] at h
  cases hs : vcsSearch seg cand cand 0 with
  | error e => rw [hs] at h; simp at h
  | ok p =>
    obtain ⟨a, c⟩ := p
    rw [hs] at h
    simp only at h
    cases hf : vcsFinish seg bootstrap logBreak a with
    | error e => rw [hf] at h; simp at h
    | ok q =>
      rw [hf] at h
      simp only [Except.ok.injEq, Prod.mk.injEq] at h
      have := (vcsSearch_spec seg cand cand 0 a c hs).1
      omega

/-- **C72 (largest working break).** When some candidate gives a segmented fit with a break, the
reported fit is the one started at the first (largest) such candidate, and it has a break. -/
theorem C72_found (seg : ℝ → Py SegOut) (bootstrap : Bool) (x knots pre post : List ℝ) (b : ℝ)
    (hc : vcsCandidates x knots = .ok (pre ++ b :: post)) (g : SegOut) (hb : seg b = .ok g)
    (hf : g.found = true) (hpre : ∀ a ∈ pre, ∃ g', seg a = .ok g' ∧ g'.found = false) :
    ∃ errs k, vcsFit seg bootstrap true none x knots = .ok ((g, g.slopes, errs), k) ∧
      (bootstrap = false → errs = g.slopeErrs) := by
  refine ⟨if bootstrap then pySlice1m1 g.boot else g.slopeErrs, pre.length + 1 + 1, ?_, ?_⟩
  · unfold vcsFit
    simp only [bind, Except.bind, hc]
    rw [vcsSearch_first seg _ b post g hb hf pre 0 hpre]
    simp [vcsFinish, vcsFinalBreak, bind, Except.bind, hb]
  · rintro rfl; simp

/-- **C72 (no break).** A single candidate that fails gives the fit without a break.  Missing
compared with the full property: two or more candidates (see `C72_no_break_violated`). -/
theorem C72_no_break_partial (seg : ℝ → Py SegOut) (bootstrap : Bool) (x knots : List ℝ) (b : ℝ)
    (hc : vcsCandidates x knots = .ok [b]) (g : SegOut) (hb : seg b = .ok g) (hf : g.found = false) :
    ∃ errs k, vcsFit seg bootstrap true none x knots = .ok ((g, g.slopes, errs), k) ∧
      (bootstrap = false → errs = g.slopeErrs) := by
  refine ⟨if bootstrap then pySlice1m1 g.boot else g.slopeErrs, 2, ?_, ?_⟩
  · unfold vcsFit
    simp only [bind, Except.bind, hc]
    rw [vcsSearch_none seg [b] [b] 0 (by intro a ha; rw [List.mem_singleton.1 ha]; exact ⟨g, hb, hf⟩)]
    simp [vcsFinish, vcsFinalBreak, bind, Except.bind, hb]
  · rintro rfl; simp

/-- **C72 (violation).** With two or more candidates and none that works, the documented fall-back
does not happen: a ValueError is raised. -/
theorem C72_no_break_violated (seg : ℝ → Py SegOut) (bootstrap logBreak : Bool) (x knots : List ℝ)
    (a b : ℝ) (l : List ℝ) (hc : vcsCandidates x knots = .ok (a :: b :: l))
    (hno : ∀ t ∈ a :: b :: l, ∃ g, seg t = .ok g ∧ g.found = false) :
    vcsFit seg bootstrap logBreak none x knots = .error .valueError := by
  unfold vcsFit
  simp only [bind, Except.bind, hc]
  rw [vcsSearch_none seg _ _ 0 hno]
  simp [vcsFinish, vcsFinalBreak, bind, Except.bind]

/-- **C72 (violation).** `log_break=False` cannot be combined with estimated breaks: the estimates
are logarithms of frequencies below 1, and taking the logarithm again always raises. -/
theorem C72_linear_estimate_violated (seg : ℝ → Py SegOut) (bootstrap : Bool) (x knots : List ℝ)
    (cand : List ℝ) (hc : vcsCandidates x knots = .ok cand) (hneg : ∀ b ∈ cand, b < 0)
    (hseg : ∀ b ∈ cand, ∃ g, seg b = .ok g) :
    vcsFit seg bootstrap false none x knots = .error .valueError := by
  unfold vcsFit
  simp only [bind, Except.bind, hc]
  cases hs : vcsSearch seg cand cand 0 with
  | error e =>
    exfalso
    have : ∀ (l : List ℝ) (c : ℕ), (∀ b ∈ l, ∃ g, seg b = .ok g) → ∃ r, vcsSearch seg cand l c = .ok r := by
      intro l
      induction l with
      | nil => intro c _; exact ⟨_, rfl⟩
      | cons t l ih =>
        intro c h
        obtain ⟨g, hg⟩ := h t (by simp)
        unfold vcsSearch
        simp only [hg, bind, Except.bind]
        split
        · exact ⟨_, rfl⟩
        · exact ih (c + 1) (fun b hb => h b (List.mem_cons_of_mem _ hb))
    obtain ⟨r, hr⟩ := this cand 0 hseg
    rw [hr] at hs
    simp at hs
  | ok p =>
    obtain ⟨a, c⟩ := p
    have hl : ∀ b, b < 0 → breakLog10 b = none := by
      intro b hb
      unfold breakLog10
      rw [if_neg (not_lt.2 hb.le)]
    have : vcsFinalBreak false a = .error .valueError := by
      rcases (vcsSearch_spec seg cand cand 0 a c hs).2 with
        ⟨pre, b, post, g, e, rfl, -⟩ | ⟨rfl, -⟩
      · simp [vcsFinalBreak, hl b (hneg b (by rw [e]; simp))]
      · match cand, hneg with
        | [], _ => rfl
        | [b], hneg => simp [vcsFinalBreak, hl b (hneg b (by simp))]
        | _ :: _ :: _, _ => rfl
    simp [vcsFinish, this, bind, Except.bind]

/-- **C72 (given break).** A break passed by the user is fitted once, as it is when given as a
logarithm and as its logarithm otherwise; non-positive frequencies are refused. -/
theorem C72_given (seg : ℝ → Py SegOut) (bootstrap : Bool) (x knots : List ℝ) (b : ℝ) :
    vcsFit seg bootstrap true (some b) x knots =
      (seg b).map (fun g => ((g, g.slopes, if bootstrap then pySlice1m1 g.boot else g.slopeErrs), 1)) ∧
    (0 < b → vcsFit seg bootstrap false (some b) x knots =
      vcsFit seg bootstrap true (some (log10 b)) x knots) ∧
    (b ≤ 0 → vcsFit seg bootstrap false (some b) x knots = .error .valueError) := by
  refine ⟨?_, ?_, ?_⟩
  · simp only [vcsFit, vcsFinish, vcsFinalBreak, bind, Except.bind, if_true]
    cases seg b <;> rfl
  · intro h
    simp [vcsFit, vcsFinish, vcsFinalBreak, bind, Except.bind, breakLog10, h]
  · intro h
    simp [vcsFit, vcsFinish, vcsFinalBreak, bind, Except.bind, breakLog10, not_lt.2 h]

/-- **C72 (violation).** With bootstrap errors a fit without a break (two coefficients) reports one
slope and no slope error. -/
theorem C72_bootstrap_violated (seg : ℝ → Py SegOut) (x knots : List ℝ) (b s e0 e1 be : ℝ)
    (errs : List ℝ) (hb : seg b = .ok ⟨false, b, [s], errs, be, [e0, e1]⟩) :
    ∃ g, vcsFit seg true true (some b) x knots = .ok ((g, [s], []), 1) := by
  refine ⟨⟨false, b, [s], errs, be, [e0, e1]⟩, ?_⟩
  rw [(C72_given seg true x knots b).1, hb]
  simp [Except.map, pySlice1m1]

/-- Non-vacuity of the search theorems: the largest candidate fails, the second works. -/
example : ∃ (seg : ℝ → Py SegOut) (g : SegOut), seg (-3) = .ok g ∧ g.found = true ∧
    (∀ a ∈ [(-2.5 : ℝ)], ∃ g', seg a = .ok g' ∧ g'.found = false) ∧
    vcsCandidates [-4, -3, -2, -1] [-4, -3, -2.5, -1] = .ok ([-2.5] ++ -3 :: []) := by
  refine ⟨fun b => .ok ⟨decide (b < -2.7), b, [], [], 0, []⟩, _, rfl, by norm_num, ?_, ?_⟩
  · intro a ha
    rw [List.mem_singleton.1 ha]
    exact ⟨_, rfl, by norm_num⟩
  · have h1 : npMax [-4, -3, -2, (-1 : ℝ)] = .ok (-1) := npMax_eq (by simp) (by
      intro y hy
      simp only [List.mem_cons, List.not_mem_nil, or_false] at hy
      rcases hy with rfl | rfl | rfl | rfl <;> norm_num)
    have h2 : npMin [-4, -3, -2, (-1 : ℝ)] = .ok (-4) := npMin_eq (by simp) (by
      intro y hy
      simp only [List.mem_cons, List.not_mem_nil, or_false] at hy
      rcases hy with rfl | rfl | rfl | rfl <;> norm_num)
    unfold vcsCandidates
    simp only [h1, h2, bind, Except.bind]
    norm_num [vcsTrim]

/-- **C72 (too few points).** The automatic search runs exactly when there are at least four points; with three or
fewer (but some) it is refused. -/
theorem C72_enough_points (x knots : List ℝ) (hx : x ≠ []) :
    (vcsCandidates x knots = .error .warningRaised ↔ x.length ≤ 3) ∧
    ((∃ cand, vcsCandidates x knots = .ok cand) ↔ 4 ≤ x.length) := by
  obtain ⟨mx, hmx⟩ : ∃ mx, npMax x = .ok mx := by
    cases x with
    | nil => exact absurd rfl hx
    | cons a t => exact ⟨_, rfl⟩
  obtain ⟨mn, hmn⟩ : ∃ mn, npMin x = .ok mn := by
    cases x with
    | nil => exact absurd rfl hx
    | cons a t => exact ⟨_, rfl⟩
  unfold vcsCandidates
  simp only [hmx, hmn, bind, Except.bind]
  by_cases h : x.length ≤ 3
  · rw [if_pos h]
    simp only [h, iff_self, true_iff]
    refine ⟨trivial, ⟨?_, fun h' => by omega⟩⟩
    rintro ⟨c, hc⟩
    cases hc
  · rw [if_neg h]
    split_ifs <;> simp [h] <;> omega

end TS
