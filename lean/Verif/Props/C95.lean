import Verif.Model.PlotOptions
import Mathlib.Tactic.FinCases
import Mathlib.Tactic.Linarith

/-! C95 — the plot options of the distance classes. -/

namespace TS

namespace Spec

/-- The functions that hand the options on as keyword arguments. -/
def HandsOn (f : PlotFn) : Prop := f = .wavelet ∨ f = .mvc ∨ f = .deltaVariance ∨ f = .pspec ∨ f = .vca ∨ f = .vcs

/-- The keywords of their plot methods that a caller can set. -/
def keywords (f : PlotFn) : List String :=
  if f = .mvc ∨ f = .pspec ∨ f = .vca then ["color", "symbol", "label", "fit_color", "show_residual", "save_name", "show_2D", "fillin_errs"]
  else ["color", "symbol", "label", "fit_color", "show_residual", "save_name"]

/-- The functions that show a symbol, and under which name. -/
def symbolName : PlotFn → Option String
  | .scf => some "marker"
  | .pdf => some "marker"
  | .pca => none
  | .moments => none
  | _ => some "symbol"

/-- A program's calls use its own dictionaries, not the objects in the signatures. -/
def OwnDicts (cs : List PlotCmd) : Prop :=
  ∀ c ∈ cs, ∀ r, c.arg1 = some r ∨ c.arg2 = some r → ∀ f, r ≠ (sigRef f).1 ∧ r ≠ (sigRef f).2

/-- The signature objects as the modules define them. -/
def Loaded (h : KwHeap) : Prop := ∀ f, h (sigRef f).1 = (fun k => (sigContents f).1.lookup k) ∧ h (sigRef f).2 = (fun k => (sigContents f).2.lookup k)

end Spec
open Spec

/-! ### The changes to the dictionaries -/

private theorem setMissing_other (d : List (String × String)) (h : KwHeap) {r s : ℕ} (hs : s ≠ r) : setMissing d h r s = h s := by
  unfold setMissing
  induction d generalizing h with
  | nil => rfl
  | cons kv d ih =>
    rw [List.foldl_cons, ih]
    split_ifs
    · exact Function.update_of_ne hs _ _
    · rfl

private theorem setMissing_self (d : List (String × String)) (h : KwHeap) (r : ℕ) (k : String) :
    setMissing d h r r k = (h r k).or (d.lookup k) := by
  unfold setMissing
  induction d generalizing h with
  | nil => simp
  | cons kv d ih =>
    obtain ⟨k0, v0⟩ := kv
    rw [List.foldl_cons, ih, List.lookup_cons]
    by_cases hk : k = k0
    · subst hk
      rw [show (k == k) = true from beq_self_eq_true k]
      cases hg : h r k with
      | none => simp [hg]
      | some v => simp [hg]
    · rw [show (k == k0) = false from beq_false_of_ne hk]
      congr 1
      dsimp only
      split_ifs
      · rw [Function.update_self, Function.update_of_ne hk]
      · rfl

/-- What a dictionary holds after the filling. -/
private def filled (d : List (String × String)) (b : Bool) (o : Opts) : Opts := fun k =>
  if b = true ∧ k = "xunit" then none else (o k).or (d.lookup k)

private theorem dropKey_self (k0 : String) (h : KwHeap) (r : ℕ) (k : String) : dropKey k0 h r r k = if k = k0 then none else h r k := by
  unfold dropKey
  rw [Function.update_self]
  by_cases hk : k = k0
  · subst hk; simp
  · rw [Function.update_of_ne hk, if_neg hk]

private theorem dropKey_other (k0 : String) (h : KwHeap) {r s : ℕ} (hs : s ≠ r) : dropKey k0 h r s = h s := Function.update_of_ne hs _ _

private theorem fill_first (s : PlotStyle) (h : KwHeap) {r1 r2 : ℕ} (hne : r1 ≠ r2) :
    fillOptions s h r1 r2 r1 = filled s.defaults1 s.dropsUnit (h r1) := by
  funext k
  unfold fillOptions filled
  cases s.dropsUnit
  · simp only [Bool.false_eq_true, if_false, false_and]
    rw [setMissing_other _ _ hne, setMissing_self]
  · simp only [if_true, true_and]
    rw [dropKey_other _ _ hne, dropKey_self, setMissing_other _ _ hne, setMissing_self]

private theorem fill_second (s : PlotStyle) (h : KwHeap) {r1 r2 : ℕ} (hne : r1 ≠ r2) :
    fillOptions s h r1 r2 r2 = filled s.defaults2 s.dropsUnit (h r2) := by
  funext k
  unfold fillOptions filled
  cases s.dropsUnit
  · simp only [Bool.false_eq_true, if_false, false_and]
    rw [setMissing_self, setMissing_other _ _ hne.symm]
  · simp only [if_true, true_and]
    rw [dropKey_self, dropKey_other _ _ hne.symm, setMissing_self, setMissing_other _ _ hne.symm]

private theorem fill_other (s : PlotStyle) (h : KwHeap) {r1 r2 r : ℕ} (h1 : r ≠ r1) (h2 : r ≠ r2) : fillOptions s h r1 r2 r = h r := by
  unfold fillOptions
  split_ifs
  · rw [dropKey_other _ _ h2, dropKey_other _ _ h1, setMissing_other _ _ h2, setMissing_other _ _ h1]
  · rw [setMissing_other _ _ h2, setMissing_other _ _ h1]

private theorem fill_same (s : PlotStyle) (h : KwHeap) (r : ℕ) (k : String) (hk : k ≠ "xunit") :
    fillOptions s h r r r k = ((h r k).or (s.defaults1.lookup k)).or (s.defaults2.lookup k) := by
  unfold fillOptions
  split_ifs
  · rw [dropKey_self, if_neg hk, dropKey_self, if_neg hk, setMissing_self, setMissing_self]
  · rw [setMissing_self, setMissing_self]

private theorem filled_idem (d : List (String × String)) (b : Bool) (o : Opts) : filled d b (filled d b o) = filled d b o := by
  funext k
  unfold filled
  split_ifs
  · rfl
  · cases o k <;> cases d.lookup k <;> rfl

private theorem block_true (f : PlotFn) (h : KwHeap) (r1 r2 : ℕ) :
    (plotBlock f true h r1 r2).1 = fillOptions (plotStyle f) h r1 r2 ∧
    (plotBlock f true h r1 r2).2 = (do
      let o1 ← drawnOpts (plotStyle f).use (fillOptions (plotStyle f) h r1 r2 r1)
      let o2 ← drawnOpts (plotStyle f).use (fillOptions (plotStyle f) h r1 r2 r2)
      return some (o1, o2)) := ⟨rfl, rfl⟩

private theorem block_ok {f : PlotFn} {h : KwHeap} {r1 r2 : ℕ} {o1 o2 : Opts} (hr : (plotBlock f true h r1 r2).2 = .ok (some (o1, o2))) :
    drawnOpts (plotStyle f).use (fillOptions (plotStyle f) h r1 r2 r1) = .ok o1 ∧
    drawnOpts (plotStyle f).use (fillOptions (plotStyle f) h r1 r2 r2) = .ok o2 := by
  rw [(block_true f h r1 r2).2] at hr
  cases h1 : drawnOpts (plotStyle f).use (fillOptions (plotStyle f) h r1 r2 r1) with
  | error e => rw [h1] at hr; cases hr
  | ok a =>
    cases h2 : drawnOpts (plotStyle f).use (fillOptions (plotStyle f) h r1 r2 r2) with
    | error e => rw [h1, h2] at hr; cases hr
    | ok b =>
      rw [h1, h2] at hr
      have := Option.some.inj (Except.ok.inj hr)
      cases this
      exact ⟨rfl, rfl⟩

private theorem drawn_at {u : PlotUse} {o o' : Opts} (h : drawnOpts u o = .ok o') (k : String) (hk : ∀ ks, u = .read ks → k ∈ ks) : o' k = o k := by
  cases u with
  | pass a =>
    unfold drawnOpts at h
    dsimp only at h
    split_ifs at h
    cases h; rfl
  | read ks =>
    cases h
    exact if_pos (hk ks rfl)

private theorem or_getD (o : Option String) (v : String) : o.or (some v) = some (o.getD v) := by cases o <;> rfl

private theorem has_color (f : PlotFn) : ∀ ks, (plotStyle f).use = .read ks → "color" ∈ ks := by
  intro ks h
  cases f <;> cases h <;> decide

private theorem has_label (f : PlotFn) : ∀ ks, (plotStyle f).use = .read ks → "label" ∈ ks := by
  intro ks h
  cases f <;> cases h <;> decide

private theorem has_symbol (f : PlotFn) {n : String} (hn : symbolName f = some n) : ∀ ks, (plotStyle f).use = .read ks → n ∈ ks := by
  intro ks h
  cases f <;> cases hn <;> cases h <;> decide

private theorem look_color (f : PlotFn) : (plotStyle f).defaults1.lookup "color" = some "b" ∧ (plotStyle f).defaults2.lookup "color" = some "g" := by
  cases f <;> decide

private theorem look_label (f : PlotFn) : (plotStyle f).defaults1.lookup "label" = some "1" ∧ (plotStyle f).defaults2.lookup "label" = some "2" := by
  cases f <;> decide

private theorem look_symbol (f : PlotFn) {n : String} (hn : symbolName f = some n) :
    n ≠ "xunit" ∧ (plotStyle f).defaults1.lookup n = some "D" ∧ (plotStyle f).defaults2.lookup n = some "o" := by
  cases f <;> cases hn <;> decide

private theorem filled_at (d : List (String × String)) (b : Bool) (o : Opts) {k v : String} (hk : k ≠ "xunit") (hd : d.lookup k = some v) :
    filled d b o k = some ((o k).getD v) := by
  unfold filled
  rw [if_neg (fun h => hk h.2), hd, or_getD]

/-! ### What the plot shows -/

/-- **C95 (quiet).** Without `verbose` nothing is drawn and no dictionary changes. -/
theorem C95_quiet (f : PlotFn) (h : KwHeap) (r1 r2 : ℕ) : plotBlock f false h r1 r2 = (h, .ok none) := rfl

/-- **C95 (shown).** The two datasets are drawn with the colour, label and symbol given in their dictionary, and with blue, `1`, diamonds
and green, `2`, circles where nothing is given. -/
theorem C95_shown {f : PlotFn} {h : KwHeap} {r1 r2 : ℕ} (hne : r1 ≠ r2) {o1 o2 : Opts}
    (hr : (plotBlock f true h r1 r2).2 = .ok (some (o1, o2))) :
    o1 "color" = some ((h r1 "color").getD "b") ∧ o2 "color" = some ((h r2 "color").getD "g") ∧
    o1 "label" = some ((h r1 "label").getD "1") ∧ o2 "label" = some ((h r2 "label").getD "2") ∧
    ∀ n, symbolName f = some n → o1 n = some ((h r1 n).getD "D") ∧ o2 n = some ((h r2 n).getD "o") := by
  obtain ⟨d1, d2⟩ := block_ok hr
  rw [fill_first _ _ hne] at d1
  rw [fill_second _ _ hne] at d2
  refine ⟨?_, ?_, ?_, ?_, fun n hn => ?_⟩
  · rw [drawn_at d1 _ (has_color f), filled_at _ _ _ (by decide) (look_color f).1]
  · rw [drawn_at d2 _ (has_color f), filled_at _ _ _ (by decide) (look_color f).2]
  · rw [drawn_at d1 _ (has_label f), filled_at _ _ _ (by decide) (look_label f).1]
  · rw [drawn_at d2 _ (has_label f), filled_at _ _ _ (by decide) (look_label f).2]
  · obtain ⟨l0, l1, l2⟩ := look_symbol f hn
    rw [drawn_at d1 _ (has_symbol f hn), filled_at _ _ _ l0 l1, drawn_at d2 _ (has_symbol f hn), filled_at _ _ _ l0 l2]
    exact ⟨rfl, rfl⟩

private theorem handsOn_use {f : PlotFn} (hf : HandsOn f) : (plotStyle f).dropsUnit = true ∧ (plotStyle f).defaults1 = symbols1 ∧
    (plotStyle f).defaults2 = symbols2 ∧ ∃ a, (plotStyle f).use = .pass a ∧ ∀ k, k ∈ a ↔ k ∈ keywords f := by
  rcases hf with rfl | rfl | rfl | rfl | rfl | rfl
  all_goals
    refine ⟨rfl, rfl, rfl, _, rfl, fun k => ?_⟩
    simp only [keywords, pspecPlotKeys, curvePlotKeys, reduceCtorEq, or_self, or_true, true_or, false_or, or_false, if_true, if_false,
      List.mem_cons, List.not_mem_nil]
    tauto

private theorem look_rest {k : String} (hk : k ∉ ["color", "symbol", "label"]) : symbols1.lookup k = none ∧ symbols2.lookup k = none := by
  simp only [List.mem_cons, List.not_mem_nil, or_false, not_or] at hk
  obtain ⟨h1, h2, h3⟩ := hk
  unfold symbols1 symbols2
  simp [List.lookup, beq_false_of_ne h1, beq_false_of_ne h2, beq_false_of_ne h3]

/-- **C95 (handed on).** The functions that hand their options on pass every other option as it was given, except `xunit`, which is
dropped in favour of the argument of the function itself. -/
theorem C95_handed_on {f : PlotFn} (hf : HandsOn f) {h : KwHeap} {r1 r2 : ℕ} (hne : r1 ≠ r2) {o1 o2 : Opts}
    (hr : (plotBlock f true h r1 r2).2 = .ok (some (o1, o2))) :
    (∀ k ∉ ["color", "symbol", "label"], k ≠ "xunit" → o1 k = h r1 k ∧ o2 k = h r2 k) ∧ o1 "xunit" = none ∧ o2 "xunit" = none := by
  obtain ⟨d1, d2⟩ := block_ok hr
  obtain ⟨u, s1, s2, a, ha, -⟩ := handsOn_use hf
  rw [fill_first _ _ hne, u, s1] at d1
  rw [fill_second _ _ hne, u, s2] at d2
  have hread : ∀ k : String, ∀ ks, (plotStyle f).use = .read ks → k ∈ ks := by
    intro k ks h
    rw [ha] at h; cases h
  refine ⟨fun k hk hx => ?_, ?_, ?_⟩
  · rw [drawn_at d1 k (hread k), drawn_at d2 k (hread k)]
    unfold filled
    rw [if_neg (fun h => hx h.2), if_neg (fun h => hx h.2), (look_rest hk).1, (look_rest hk).2]
    exact ⟨by cases h r1 k <;> rfl, by cases h r2 k <;> rfl⟩
  · rw [drawn_at d1 _ (hread _)]; exact if_pos ⟨rfl, rfl⟩
  · rw [drawn_at d2 _ (hread _)]; exact if_pos ⟨rfl, rfl⟩

private theorem bad_filled {d : List (String × String)} (hd : d = symbols1 ∨ d = symbols2) {a : List String} {f : PlotFn}
    (ha : ∀ k, k ∈ a ↔ k ∈ keywords f) (o : Opts) :
    (∃ k, k ∉ a ∧ (filled d true o k).isSome) ↔ ∃ k, k ∉ keywords f ∧ k ≠ "xunit" ∧ (o k).isSome := by
  refine exists_congr fun k => ?_
  rw [ha]
  by_cases hk : k ∈ keywords f
  · simp [hk]
  · have hrest : k ∉ ["color", "symbol", "label"] := by
      intro h
      apply hk
      simp only [List.mem_cons, List.not_mem_nil, or_false] at h
      unfold keywords
      split_ifs <;> rcases h with rfl | rfl | rfl <;> decide
    unfold filled
    by_cases hx : k = "xunit"
    · simp [hx]
    · rw [if_neg (fun h => hx h.2)]
      have hl : d.lookup k = none := by rcases hd with rfl | rfl <;> [exact (look_rest hrest).1; exact (look_rest hrest).2]
      rw [hl]
      cases o k <;> simp [hk, hx]

/-- **C95 (refused).** A function that hands its options on raises TypeError exactly when one of the dictionaries has a key, other than
`xunit`, that is no keyword of the plot method; the other functions never refuse. -/
theorem C95_refused (f : PlotFn) (h : KwHeap) {r1 r2 : ℕ} (hne : r1 ≠ r2) :
    (HandsOn f → ((plotBlock f true h r1 r2).2 = .error .typeError ↔
      ∃ k, k ∉ keywords f ∧ k ≠ "xunit" ∧ ((h r1 k).isSome ∨ (h r2 k).isSome)) ∧
      ((plotBlock f true h r1 r2).2 ≠ .error .typeError → ∃ o1 o2, (plotBlock f true h r1 r2).2 = .ok (some (o1, o2)))) ∧
    (¬ HandsOn f → ∃ o1 o2, (plotBlock f true h r1 r2).2 = .ok (some (o1, o2))) := by
  constructor
  · intro hf
    obtain ⟨u, s1, s2, a, ha, hmem⟩ := handsOn_use hf
    rw [(block_true f h r1 r2).2, fill_first _ _ hne, fill_second _ _ hne, u, s1, s2, ha]
    have b1 := bad_filled (d := symbols1) (Or.inl rfl) hmem (h r1)
    have b2 := bad_filled (d := symbols2) (Or.inr rfl) hmem (h r2)
    have hor : (∃ k, k ∉ keywords f ∧ k ≠ "xunit" ∧ ((h r1 k).isSome ∨ (h r2 k).isSome)) ↔
        (∃ k, k ∉ keywords f ∧ k ≠ "xunit" ∧ (h r1 k).isSome) ∨ ∃ k, k ∉ keywords f ∧ k ≠ "xunit" ∧ (h r2 k).isSome := by
      rw [← exists_or]
      exact exists_congr fun k => by tauto
    rw [hor, ← b1, ← b2]
    unfold drawnOpts
    dsimp only
    by_cases c1 : ∃ k, k ∉ a ∧ (filled symbols1 true (h r1) k).isSome = true
    · rw [if_pos c1]
      exact ⟨⟨fun _ => Or.inl c1, fun _ => rfl⟩, fun hh => absurd rfl hh⟩
    · rw [if_neg c1]
      by_cases c2 : ∃ k, k ∉ a ∧ (filled symbols2 true (h r2) k).isSome = true
      · rw [if_pos c2]
        exact ⟨⟨fun _ => Or.inr c2, fun _ => rfl⟩, fun hh => absurd rfl hh⟩
      · rw [if_neg c2]
        refine ⟨⟨fun hh => ?_, fun hh => ?_⟩, fun _ => ⟨_, _, rfl⟩⟩
        · cases hh
        · rcases hh with hh | hh
          · exact absurd hh c1
          · exact absurd hh c2
  · intro hf
    have hu : ∃ ks, (plotStyle f).use = .read ks := by
      cases f <;> first | exact ⟨_, rfl⟩ | (exfalso; apply hf; simp [HandsOn])
    obtain ⟨ks, hks⟩ := hu
    rw [(block_true f h r1 r2).2, hks]
    exact ⟨_, _, rfl⟩

/-- **C95 violated (ignored).** `SCF_Distance` and `PDF_Distance` document that the dictionaries are passed to the plot, but only colour,
marker and label reach it: every other option is ignored without a warning. -/
theorem C95_ignored_violated {f : PlotFn} (hf : f = .scf ∨ f = .pdf) (h : KwHeap) {r1 r2 : ℕ} (k : String)
    (hk : k ∉ ["color", "marker", "label"]) : ∃ o1 o2, (plotBlock f true h r1 r2).2 = .ok (some (o1, o2)) ∧ o1 k = none ∧ o2 k = none := by
  rw [(block_true f h r1 r2).2]
  rcases hf with rfl | rfl
  · exact ⟨_, _, rfl, if_neg hk, if_neg hk⟩
  · exact ⟨_, _, rfl, if_neg hk, if_neg hk⟩

/-- **C95 violated (no symbol).** `PCA_Distance` documents a symbol for each dataset, but none reaches its plot. -/
theorem C95_pca_symbol_violated (h : KwHeap) (r1 r2 : ℕ) :
    ∃ o1 o2, (plotBlock .pca true h r1 r2).2 = .ok (some (o1, o2)) ∧ o1 "symbol" = none ∧ o2 "symbol" = none := by
  rw [(block_true .pca h r1 r2).2]
  exact ⟨_, _, rfl, if_neg (by decide), if_neg (by decide)⟩

/-- **C95 violated (one dictionary for both).** A dictionary without a label given for both datasets labels both `1`. -/
theorem C95_same_dict_violated {f : PlotFn} {h : KwHeap} {r : ℕ} (hl : h r "label" = none) {o1 o2 : Opts}
    (hr : (plotBlock f true h r r).2 = .ok (some (o1, o2))) : o1 "label" = some "1" ∧ o2 "label" = some "1" := by
  obtain ⟨d1, d2⟩ := block_ok hr
  have e : fillOptions (plotStyle f) h r r r "label" = some "1" := by
    rw [fill_same _ _ _ _ (by decide), hl, (look_label f).1]; rfl
  exact ⟨by rw [drawn_at d1 _ (has_label f), e], by rw [drawn_at d2 _ (has_label f), e]⟩

/-! ### Histories -/

/-- **C95 (repetition).** Repeating a call with the same dictionaries draws the same and changes nothing more. -/
theorem C95_repeat (f : PlotFn) (h : KwHeap) {r1 r2 : ℕ} (hne : r1 ≠ r2) :
    plotBlock f true (plotBlock f true h r1 r2).1 r1 r2 = plotBlock f true h r1 r2 := by
  have e : fillOptions (plotStyle f) (fillOptions (plotStyle f) h r1 r2) r1 r2 = fillOptions (plotStyle f) h r1 r2 := by
    funext r
    by_cases h1 : r = r1
    · subst h1
      rw [fill_first _ _ hne, fill_first _ _ hne, filled_idem]
    · by_cases h2 : r = r2
      · subst h2
        rw [fill_second _ _ hne, fill_second _ _ hne, filled_idem]
      · rw [fill_other _ _ h1 h2]
  refine Prod.ext e ?_
  show (plotBlock f true (fillOptions (plotStyle f) h r1 r2) r1 r2).2 = _
  rw [(block_true f _ r1 r2).2, (block_true f h r1 r2).2, e]

/-- **C95 (contents only).** What a call draws depends only on the contents of its two dictionaries. -/
theorem C95_contents (f : PlotFn) (v : Bool) (h h' : KwHeap) {r1 r2 s1 s2 : ℕ} (hr : r1 ≠ r2) (hs : s1 ≠ s2) (e1 : h r1 = h' s1)
    (e2 : h r2 = h' s2) : (plotBlock f v h r1 r2).2 = (plotBlock f v h' s1 s2).2 := by
  cases v
  · rfl
  · rw [(block_true f h r1 r2).2, (block_true f h' s1 s2).2, fill_first _ _ hr, fill_second _ _ hr, fill_first _ _ hs, fill_second _ _ hs,
      e1, e2]

private theorem sig_ne (f g : PlotFn) : (sigRef f).1 ≠ (sigRef g).2 := by
  cases f <;> cases g <;> decide

private theorem sig_inj1 {f g : PlotFn} (h : (sigRef f).1 = (sigRef g).1) : f = g := by
  revert h
  cases f <;> cases g <;> decide

private theorem sig_inj2 {f g : PlotFn} (h : (sigRef f).2 = (sigRef g).2) : f = g := by
  revert h
  cases f <;> cases g <;> decide

/-- The signature objects hold nothing but defaults. -/
private def SigInv (h : KwHeap) : Prop :=
  ∀ f k, (h (sigRef f).1 k = none ∨ h (sigRef f).1 k = (plotStyle f).defaults1.lookup k) ∧
    (h (sigRef f).2 k = none ∨ h (sigRef f).2 k = (plotStyle f).defaults2.lookup k)

private theorem filled_inv {d : List (String × String)} {b : Bool} {o : Opts} {k : String} (h : o k = none ∨ o k = d.lookup k) :
    filled d b o k = none ∨ filled d b o k = d.lookup k := by
  unfold filled
  split_ifs
  · exact Or.inl rfl
  · rcases h with h | h <;> rw [h]
    · right; rfl
    · right; cases d.lookup k <;> rfl

private theorem exec_inv {h : KwHeap} (hi : SigInv h) {c : PlotCmd} (hc : OwnDicts [c]) : SigInv (plotExec h c).1 := by
  obtain ⟨f, v, a1, a2⟩ := c
  cases v
  · exact hi
  show SigInv (fillOptions (plotStyle f) h (a1.getD (sigRef f).1) (a2.getD (sigRef f).2))
  have own : ∀ r, a1 = some r ∨ a2 = some r → ∀ g, r ≠ (sigRef g).1 ∧ r ≠ (sigRef g).2 := hc _ List.mem_cons_self
  -- the first dictionary is never a second signature object, and the reverse
  have n1 : ∀ g, (sigRef g).2 ≠ a1.getD (sigRef f).1 := by
    intro g e
    cases a1 with
    | none => exact sig_ne f g e.symm
    | some r => exact (own r (Or.inl rfl) g).2 e.symm
  have n2 : ∀ g, (sigRef g).1 ≠ a2.getD (sigRef f).2 := by
    intro g e
    cases a2 with
    | none => exact sig_ne g f e
    | some r => exact (own r (Or.inr rfl) g).1 e.symm
  intro g k
  constructor
  · by_cases e : (sigRef g).1 = a1.getD (sigRef f).1
    · have hfg : f = g := by
        cases a1 with
        | none => exact (sig_inj1 e).symm
        | some r => exact absurd e.symm (own r (Or.inl rfl) g).1
      subst hfg
      have hne : a1.getD (sigRef f).1 ≠ a2.getD (sigRef f).2 := by rw [← e]; exact n2 f
      have := fill_first (plotStyle f) h hne
      rw [← e] at this ⊢
      rw [this]
      exact filled_inv (hi f k).1
    · rw [fill_other _ _ e (n2 g)]
      exact (hi g k).1
  · by_cases e : (sigRef g).2 = a2.getD (sigRef f).2
    · have hfg : f = g := by
        cases a2 with
        | none => exact (sig_inj2 e).symm
        | some r => exact absurd e.symm (own r (Or.inr rfl) g).2
      subst hfg
      have hne : a1.getD (sigRef f).1 ≠ a2.getD (sigRef f).2 := by rw [← e]; exact (n1 f).symm
      have := fill_second (plotStyle f) h hne
      rw [← e] at this ⊢
      rw [this]
      exact filled_inv (hi f k).2
    · rw [fill_other _ _ (n1 g) e]
      exact (hi g k).2

private theorem run_inv {h : KwHeap} (hi : SigInv h) {cs : List PlotCmd} (hcs : OwnDicts cs) : SigInv (plotRun h cs) := by
  unfold plotRun
  induction cs generalizing h with
  | nil => exact hi
  | cons c cs ih =>
    rw [List.foldl_cons]
    refine ih (exec_inv hi ?_) fun c' hc' => hcs c' (List.mem_cons_of_mem _ hc')
    intro c' hc'
    rw [List.mem_singleton.1 hc']
    exact hcs c List.mem_cons_self

private theorem loaded_inv {h : KwHeap} (hl : Loaded h) : SigInv h := by
  intro f k
  obtain ⟨l1, l2⟩ := hl f
  rw [l1, l2]
  cases f <;> first | exact ⟨Or.inl rfl, Or.inl rfl⟩ | exact ⟨Or.inr rfl, Or.inr rfl⟩

private theorem look_unit (f : PlotFn) : (plotStyle f).defaults1.lookup "xunit" = none ∧ (plotStyle f).defaults2.lookup "xunit" = none := by
  cases f <;> decide

private theorem filled_sig {d : List (String × String)} {b : Bool} {o : Opts} (hx : d.lookup "xunit" = none)
    (h : ∀ k, o k = none ∨ o k = d.lookup k) : filled d b o = fun k => d.lookup k := by
  funext k
  unfold filled
  split_ifs with hb
  · rw [hb.2, hx]
  · rcases h k with h | h <;> rw [h]
    · rfl
    · cases d.lookup k <;> rfl

/-- **C95 (defaults last).** The options in the signatures are objects shared by all calls and are written to, but after any sequence of
calls, with any dictionaries of the caller and with calls that raise, a call without options draws what it draws in a fresh
interpreter: blue diamonds labelled `1` and green circles labelled `2`. -/
theorem C95_defaults {h : KwHeap} (hl : Loaded h) {cs : List PlotCmd} (hcs : OwnDicts cs) (f : PlotFn) :
    (plotExec (plotRun h cs) ⟨f, true, none, none⟩).2 = (plotExec h ⟨f, true, none, none⟩).2 ∧
    ∃ o1 o2, (plotExec (plotRun h cs) ⟨f, true, none, none⟩).2 = .ok (some (o1, o2)) ∧ o1 "color" = some "b" ∧ o2 "color" = some "g" ∧
      o1 "label" = some "1" ∧ o2 "label" = some "2" ∧ ∀ n, symbolName f = some n → o1 n = some "D" ∧ o2 n = some "o" := by
  have key : ∀ h : KwHeap, SigInv h → (plotExec h ⟨f, true, none, none⟩).2 = (do
      let o1 ← drawnOpts (plotStyle f).use (fun k => (plotStyle f).defaults1.lookup k)
      let o2 ← drawnOpts (plotStyle f).use (fun k => (plotStyle f).defaults2.lookup k)
      return some (o1, o2)) := by
    intro h hi
    show (plotBlock f true h (sigRef f).1 (sigRef f).2).2 = _
    rw [(block_true f h _ _).2, fill_first _ _ (sig_ne f f), fill_second _ _ (sig_ne f f),
      filled_sig (look_unit f).1 (fun k => (hi f k).1), filled_sig (look_unit f).2 (fun k => (hi f k).2)]
  have i0 := loaded_inv hl
  have i1 := run_inv i0 hcs
  refine ⟨by rw [key _ i1, key _ i0], ?_⟩
  have hok : ∃ o1 o2, drawnOpts (plotStyle f).use (fun k => (plotStyle f).defaults1.lookup k) = .ok o1 ∧
      drawnOpts (plotStyle f).use (fun k => (plotStyle f).defaults2.lookup k) = .ok o2 := by
    cases hu : (plotStyle f).use with
    | read ks => exact ⟨_, _, rfl, rfl⟩
    | pass a =>
      have hf : HandsOn f := by
        cases f <;> first | (simp [HandsOn]; done) | cases hu
      obtain ⟨-, s1, s2, a', ha', hmem⟩ := handsOn_use hf
      rw [hu] at ha'
      cases ha'
      have good : ∀ d, d = symbols1 ∨ d = symbols2 → ¬ ∃ k, k ∉ a ∧ (d.lookup k).isSome = true := by
        rintro d hd ⟨k, hk, hs⟩
        rw [hmem] at hk
        have hrest : k ∉ ["color", "symbol", "label"] := by
          intro h
          apply hk
          simp only [List.mem_cons, List.not_mem_nil, or_false] at h
          unfold keywords
          split_ifs <;> rcases h with rfl | rfl | rfl <;> decide
        rcases hd with rfl | rfl
        · rw [(look_rest hrest).1] at hs; cases hs
        · rw [(look_rest hrest).2] at hs; cases hs
      refine ⟨fun k => symbols1.lookup k, fun k => symbols2.lookup k, ?_, ?_⟩
      · rw [s1]; exact if_neg (good _ (Or.inl rfl))
      · rw [s2]; exact if_neg (good _ (Or.inr rfl))
  obtain ⟨o1, o2, h1, h2⟩ := hok
  refine ⟨o1, o2, by rw [key _ i1, h1, h2]; rfl, ?_, ?_, ?_, ?_, fun n hn => ⟨?_, ?_⟩⟩
  · rw [drawn_at h1 _ (has_color f), (look_color f).1]
  · rw [drawn_at h2 _ (has_color f), (look_color f).2]
  · rw [drawn_at h1 _ (has_label f), (look_label f).1]
  · rw [drawn_at h2 _ (has_label f), (look_label f).2]
  · rw [drawn_at h1 _ (has_symbol f hn), (look_symbol f hn).2.1]
  · rw [drawn_at h2 _ (has_symbol f hn), (look_symbol f hn).2.2]

/-- **C95 (caller's dictionaries).** A call leaves all dictionaries except its own two as they are.  Missing for the full claim: its own
two are only left alone if they have all the default keys and, in the functions that drop it, no `xunit`. -/
theorem C95_caller_partial (f : PlotFn) (v : Bool) (h : KwHeap) (r1 r2 : ℕ) :
    (∀ r, r ≠ r1 → r ≠ r2 → (plotBlock f v h r1 r2).1 r = h r) ∧
    (r1 ≠ r2 → ((plotBlock f true h r1 r2).1 r1 = h r1 ↔
      (∀ k, ((plotStyle f).defaults1.lookup k).isSome → (h r1 k).isSome) ∧ ((plotStyle f).dropsUnit = true → h r1 "xunit" = none))) := by
  constructor
  · intro r h1 h2
    cases v
    · rfl
    · exact fill_other _ _ h1 h2
  · intro hne
    rw [(block_true f h r1 r2).1, fill_first _ _ hne]
    constructor
    · intro e
      refine ⟨fun k hk => ?_, fun hb => ?_⟩
      · rw [← e]
        unfold filled
        have hx : k ≠ "xunit" := by rintro rfl; rw [(look_unit f).1] at hk; cases hk
        rw [if_neg (fun h => hx h.2)]
        cases h r1 k with
        | none => exact hk
        | some v => rfl
      · rw [← e]; exact if_pos ⟨hb, rfl⟩
    · rintro ⟨e1, e2⟩
      funext k
      unfold filled
      split_ifs with hb
      · rw [hb.2, e2 hb.1]
      · cases hk : h r1 k with
        | some v => rfl
        | none =>
          cases hd : (plotStyle f).defaults1.lookup k with
          | none => rfl
          | some v =>
            have := e1 k (by rw [hd]; rfl)
            rw [hk] at this; cases this

/-- **C95 violated (caller's dictionaries).** A dictionary of the caller without a label comes back with the label `1`, and, from the
functions that drop it, without its `xunit`. -/
theorem C95_caller_violated (f : PlotFn) (h : KwHeap) {r1 r2 : ℕ} (hne : r1 ≠ r2) :
    (h r1 "label" = none → (plotBlock f true h r1 r2).1 r1 "label" = some "1") ∧
    (HandsOn f → (plotBlock f true h r1 r2).1 r1 "xunit" = none ∧ (plotBlock f true h r1 r2).1 r2 "xunit" = none) := by
  rw [(block_true f h r1 r2).1, fill_first _ _ hne, fill_second _ _ hne]
  constructor
  · intro hl
    rw [filled_at _ _ _ (by decide) (look_label f).1, hl]; rfl
  · intro hf
    rw [(handsOn_use hf).1]
    exact ⟨if_pos ⟨rfl, rfl⟩, if_pos ⟨rfl, rfl⟩⟩

/-- **C95 (other keys).** Apart from colour, symbol, marker and label, the dictionaries keep every key the caller put in; only `xunit` is
removed, and not by the functions for the SCF, the moments and the PDF. -/
theorem C95_other_keys (f : PlotFn) (h : KwHeap) {r1 r2 : ℕ} (hne : r1 ≠ r2) (k : String) (hk : k ∉ ["color", "symbol", "marker", "label"])
    (hx : k ≠ "xunit" ∨ f = .scf ∨ f = .moments ∨ f = .pdf) :
    (plotBlock f true h r1 r2).1 r1 k = h r1 k ∧ (plotBlock f true h r1 r2).1 r2 k = h r2 k := by
  rw [(block_true f h r1 r2).1, fill_first _ _ hne, fill_second _ _ hne]
  simp only [List.mem_cons, List.not_mem_nil, or_false, not_or] at hk
  have hd : (plotStyle f).defaults1.lookup k = none ∧ (plotStyle f).defaults2.lookup k = none := by
    cases f <;> simp [plotStyle, symbols1, symbols2, markers1, markers2, List.lookup, hk, beq_false_of_ne]
  have hb : ¬ ((plotStyle f).dropsUnit = true ∧ k = "xunit") := by
    rintro ⟨h1, h2⟩
    rcases hx with hx | rfl | rfl | rfl
    · exact hx h2
    · cases h1
    · cases h1
    · cases h1
  simp only [filled, if_neg hb, hd.1, hd.2, Option.or_none, and_self]

/-- **C95 violated (order of calls).** Options that a function accepts are refused after they have been used with `SCF_Distance` or
`PDF_Distance`, which add the key `marker` to them. -/
theorem C95_order_violated {f g : PlotFn} (hf : f = .scf ∨ f = .pdf) (hg : HandsOn g) (h : KwHeap) {r1 r2 : ℕ} (hne : r1 ≠ r2)
    (hgood : ∀ k, (h r1 k).isSome ∨ (h r2 k).isSome → k ∈ ["color", "symbol", "label"]) :
    (∃ o1 o2, (plotBlock g true h r1 r2).2 = .ok (some (o1, o2))) ∧
    (plotBlock g true (plotBlock f true h r1 r2).1 r1 r2).2 = .error .typeError := by
  constructor
  · refine (((C95_refused g h hne).1 hg).2 ?_)
    rw [Ne, ((C95_refused g h hne).1 hg).1]
    rintro ⟨k, hk, -, hs⟩
    apply hk
    have := hgood k hs
    simp only [List.mem_cons, List.not_mem_nil, or_false] at this
    unfold keywords
    split_ifs <;> rcases this with rfl | rfl | rfl <;> decide
  · rw [((C95_refused g _ hne).1 hg).1]
    refine ⟨"marker", ?_, by decide, Or.inl ?_⟩
    · unfold keywords
      split_ifs <;> decide
    · rw [(block_true f h r1 r2).1, fill_first _ _ hne]
      rcases hf with rfl | rfl
      · rw [filled_at (v := "D") _ _ _ (by decide) (by decide)]; rfl
      · rw [filled_at (v := "D") _ _ _ (by decide) (by decide)]; rfl

/-- **C95 (dendrograms).** The two plots of `Dendrogram_Distance.distance_metric` show the same options, and the second plot changes no
dictionary. -/
theorem C95_dendro (v : Bool) (h : KwHeap) {r1 r2 : ℕ} (hne : r1 ≠ r2) :
    (dendroPlots v h r1 r2).2.1 = (dendroPlots v h r1 r2).2.2 ∧ (dendroPlots v h r1 r2).2.1 = (plotBlock .dendroBoth v h r1 r2).2 ∧
    (dendroPlots v h r1 r2).1 = (plotBlock .dendroBoth v h r1 r2).1 := by
  cases v
  · exact ⟨rfl, rfl, rfl⟩
  · have e := C95_repeat .dendroBoth h hne
    refine ⟨?_, rfl, ?_⟩
    · show (plotBlock .dendroBoth true h r1 r2).2 = (plotBlock .dendroBoth true (plotBlock .dendroBoth true h r1 r2).1 r1 r2).2
      rw [e]
    · show (plotBlock .dendroBoth true (plotBlock .dendroBoth true h r1 r2).1 r1 r2).1 = _
      rw [e]

/-! ### Concrete cases -/

/-- A program's memory: the signature objects and two dictionaries of the caller, `{'color': 'k'}` and `{}`. -/
private def mem : KwHeap := fun r =>
  if r = 26 then fun k => if k = "color" then some "k" else none
  else if r = 12 ∨ r = 22 then fun k => markers1.lookup k
  else if r = 13 ∨ r = 23 then fun k => markers2.lookup k
  else if r = 14 then fun k => [("color", "b"), ("label", "1")].lookup k
  else if r = 15 then fun k => [("color", "g"), ("label", "2")].lookup k
  else fun _ => none

private theorem mem_loaded : Loaded mem := by
  intro f
  cases f <;> exact ⟨rfl, rfl⟩

/-- After a call of `MVC_Distance` without options and one of `SCF_Distance` with the caller's, the defaults are those of the start. -/
example : (plotExec (plotRun mem [⟨.mvc, true, none, none⟩, ⟨.scf, true, some 26, some 27⟩]) ⟨.mvc, true, none, none⟩).2 =
    (plotExec mem ⟨.mvc, true, none, none⟩).2 := by
  refine (C95_defaults mem_loaded ?_ .mvc).1
  intro c hc r hr f
  simp only [List.mem_cons, List.not_mem_nil, or_false] at hc
  rcases hc with rfl | rfl
  · rcases hr with hr | hr <;> cases hr
  · rcases hr with hr | hr <;> cases hr <;> cases f <;> decide

/-- `{'color': 'k'}` is fine for `MVC_Distance`, but not after `SCF_Distance`. -/
example : (∃ o1 o2, (plotBlock .mvc true mem 26 27).2 = .ok (some (o1, o2))) ∧
    (plotBlock .mvc true (plotBlock .scf true mem 26 27).1 26 27).2 = .error .typeError := by
  refine C95_order_violated (Or.inl rfl) (by simp [HandsOn]) mem (by decide) ?_
  intro k hk
  have e : k = "color" := by
    by_contra hc
    rcases hk with hk | hk
    · have : mem 26 k = none := if_neg hc
      rw [this] at hk; cases hk
    · have : mem 27 k = none := rfl
      rw [this] at hk; cases hk
  rw [e]; decide

/-- Both datasets in one dictionary. -/
example : ∃ o1 o2, (plotBlock .pca true mem 26 26).2 = .ok (some (o1, o2)) ∧ o2 "label" = some "1" :=
  ⟨_, _, rfl, (C95_same_dict_violated (f := .pca) (h := mem) (r := 26) rfl rfl).2⟩

end TS
