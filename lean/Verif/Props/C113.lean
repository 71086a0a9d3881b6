import Verif.Model.RandomState
import Verif.Props.C80
import Verif.Props.C30
import Mathlib.Tactic.Linarith

/-! C113 — random draws: what is repeatable, and what happens to numpy's global generator. -/

namespace TS
open Finset

namespace Spec

/-- The calls with an argument for the seed of their draws. -/
def takesSeed : RandCall → Bool
  | .bootErrs _ _ _ => true
  | .bootSamps _ _ _ => true
  | .bispec _ _ _ _ => true
  | .extended _ _ _ _ _ _ _ => true
  | .field3d _ _ _ _ => true
  | _ => false

/-- The comparison of two cubes, which fixes its seed. -/
def isCramer : RandCall → Bool
  | .cramer _ _ _ _ _ => true
  | _ => false

/-- What the call `c` returns when it is made after the calls `h`, the generator starting in `s`. -/
noncomputable def resultAfter (g : Rng) (x : RandExt) (h : List RandCall) (c : RandCall) (s : g.S) : RandOut :=
  (runCall g x c (runCalls g x h s).2).1

/-- Sum of the squared residuals. -/
noncomputable def sumSq (d : List (ℝ × ℝ × ℝ)) (p : EllipPar) : ℝ := (d.map fun q => (q.2.2 - p.eval q.1 q.2.1) ^ 2).sum

/-- A fitter that, with the ellipse fixed to a circle and without weights, finds a least-squares solution whenever one exists within the
bounds. -/
def CircleLsq (lm : LevMar) : Prop := ∀ (start : EllipPar) (d : List (ℝ × ℝ × ℝ)), start.e = none → (lm true none start d).1.e = none ∧
  ∀ p, InBounds p → p.e = none → (∀ q : EllipPar, InBounds q → q.e = none → sumSq d p ≤ sumSq d q) →
    sumSq d (lm true none start d).1 ≤ sumSq d p

end Spec
open Spec

private theorem withSeed_result {α : Type*} (g : Rng) (seed : ℕ) (body : g.S → Py α × g.S) (s s' : g.S) :
    (withSeed g seed body s).1 = (withSeed g seed body s').1 := by
  unfold withSeed npSeed
  by_cases h : seed < 2 ^ 32
  · rw [if_pos h, if_pos h]
  · rw [if_neg h, if_neg h]

private theorem withSeed_state {α : Type*} (g : Rng) (seed : ℕ) (body : g.S → Py α × g.S) (s : g.S) :
    (withSeed g seed body s).2 = s := by
  unfold withSeed npSeed
  by_cases h : seed < 2 ^ 32
  · rw [if_pos h]
  · rw [if_neg h]

private theorem seeded_result (g : Rng) (x : RandExt) (c : RandCall) (hc : takesSeed c = true ∨ isCramer c = true) (s s' : g.S) :
    (runCall g x c s).1 = (runCall g x c s').1 := by
  cases c with
  | userSeed _ => simp [takesSeed, isCramer] at hc
  | userDraw _ => simp [takesSeed, isCramer] at hc
  | bootErrs m nboot seed => exact congrArg RandOut.errs (withSeed_result g seed _ s s')
  | bootSamps m nboot seed => exact congrArg RandOut.samps (withSeed_result g seed _ s s')
  | bispec img ms ns seed => exact congrArg RandOut.bispec (withSeed_result g seed _ s s')
  | extended n pl th el rf ff seed =>
    apply congrArg RandOut.extended
    unfold extendedCall
    by_cases h : el > 1 ∨ el ≤ 0
    · rw [if_pos h, if_pos h]
    · rw [if_neg h, if_neg h]; exact withSeed_result g seed _ s s'
  | field3d n pl amp seed => exact congrArg RandOut.field3d (withSeed_result g seed _ s s')
  | cramer c1 c2 n1 n2 nm => rfl
  | fitEllip _ _ _ => simp [takesSeed, isCramer] at hc
  | ellipse _ _ _ => simp [takesSeed, isCramer] at hc

private theorem seeded_state (g : Rng) (x : RandExt) (c : RandCall) (hc : takesSeed c = true) (s : g.S) : (runCall g x c s).2 = s := by
  cases c with
  | userSeed _ => simp [takesSeed] at hc
  | userDraw _ => simp [takesSeed] at hc
  | bootErrs m nboot seed => exact withSeed_state g seed _ s
  | bootSamps m nboot seed => exact withSeed_state g seed _ s
  | bispec img ms ns seed => exact withSeed_state g seed _ s
  | extended n pl th el rf ff seed =>
    show (extendedCall g n pl th el rf ff seed s).2 = s
    unfold extendedCall
    by_cases h : el > 1 ∨ el ≤ 0
    · rw [if_pos h]
    · rw [if_neg h]; exact withSeed_state g seed _ s
  | field3d n pl amp seed => exact withSeed_state g seed _ s
  | cramer c1 c2 n1 n2 nm => simp [takesSeed] at hc
  | fitEllip _ _ _ => simp [takesSeed] at hc
  | ellipse _ _ _ => simp [takesSeed] at hc

/-- **C113 (repeatable).** What a call with a seed argument returns, and what the Cramer distance returns, does not depend on anything
called before nor on the state of the generator. -/
theorem C113_repeatable (g : Rng) (x : RandExt) (c : RandCall) (hc : takesSeed c = true ∨ isCramer c = true) (h h' : List RandCall)
    (s s' : g.S) : resultAfter g x h c s = resultAfter g x h' c s' := seeded_result g x c hc _ _

/-- **C113 (transparent).** Leaving out the calls with a seed argument, also those that raise, changes nothing: the other calls return the
same and the generator ends in the same state. -/
theorem C113_transparent (g : Rng) (x : RandExt) (l : List RandCall) (s : g.S) :
    (l.zip (runCalls g x l s).1).filter (fun q => !takesSeed q.1) =
      (l.filter fun c => !takesSeed c).zip (runCalls g x (l.filter fun c => !takesSeed c) s).1 ∧
    (runCalls g x l s).2 = (runCalls g x (l.filter fun c => !takesSeed c) s).2 := by
  induction l generalizing s with
  | nil => exact ⟨rfl, rfl⟩
  | cons c l ih =>
    by_cases hc : takesSeed c = true
    · have hs := seeded_state g x c hc s
      obtain ⟨i1, i2⟩ := ih s
      simp only [runCalls, hs, List.zip_cons_cons, List.filter_cons, hc, Bool.not_true, Bool.false_eq_true, if_false]
      exact ⟨i1, i2⟩
    · obtain ⟨i1, i2⟩ := ih (runCall g x c s).2
      have hc' : takesSeed c = false := by simpa using hc
      simp only [runCalls, List.zip_cons_cons, List.filter_cons, hc', Bool.not_false, if_true]
      exact ⟨by rw [i1], i2⟩

/-- **C113 (user's seed).** After the user seeds the generator, everything that follows is determined by that seed. -/
theorem C113_user_seed (g : Rng) (x : RandExt) (a : ℕ) (ha : a < 2 ^ 32) (h h' l : List RandCall) (s s' : g.S) :
    runCalls g x (.userSeed a :: l) (runCalls g x h s).2 = runCalls g x (.userSeed a :: l) (runCalls g x h' s').2 := by
  simp only [runCalls, runCall, npSeed, if_pos ha]

/-! ### The Cramer distance -/

private theorem format_cols {cube : Arr3 (Option ℝ)} {noise : Option ℝ} {normalize : Bool} {d : Arr2 (Option ℝ)}
    (h : formatData cube "intensity" (some 1000) (fun _ => 0) noise 0.2 normalize = .ok d) :
    d.m = (npRound (0.2 * cube.m * cube.p)).toNat ∧ 0 ≤ npRound (0.2 * cube.m * cube.p) := by
  have hne : ("intensity" : String) ≠ "spectra" := by decide
  unfold formatData at h
  simp only [if_neg hne, if_true] at h
  cases hi : intensityData cube 0.2 noise true with
  | error e => rw [hi] at h; simp [bind, Except.bind] at h
  | ok mat =>
    rw [hi] at h
    have hm : mat.m = (npRound (0.2 * cube.m * cube.p)).toNat ∧ 0 ≤ npRound (0.2 * cube.m * cube.p) := by
      unfold intensityData at hi
      simp only at hi
      split_ifs at hi with h1 h2 h3
      · rw [← Except.ok.inj hi]; exact ⟨rfl, by omega⟩
      · rw [← Except.ok.inj hi]; exact ⟨rfl, by omega⟩
    by_cases hn : normalize = true
    · rw [hn] at h
      simp only [bind, Except.bind, if_true, normalizeMatrix] at h
      split_ifs at h
      rw [← Except.ok.inj h]; exact hm
    · have : normalize = false := by simpa using hn
      rw [this] at h
      simp only [bind, Except.bind, Bool.false_eq_true, if_false, pure, Except.pure] at h
      rw [← Except.ok.inj h]; exact hm

/-- **C113 (Cramer, same size).** Comparing cubes with the same number of pixels in a channel leaves the generator alone. -/
theorem C113_cramer_same_size (g : Rng) (x : RandExt) (c1 c2 : Arr3 (Option ℝ)) (n1 n2 : Option ℝ) (nm : Bool)
    (h : c1.m * c1.p = c2.m * c2.p) (s : g.S) : (runCall g x (.cramer c1 c2 n1 n2 nm) s).2 = s := by
  show (cramerCall g c1 c2 n1 n2 nm s).2 = s
  unfold cramerCall
  simp only
  cases h1 : formatData c1 "intensity" (some 1000) (fun _ => 0) n1 0.2 nm with
  | error e => rfl
  | ok d1 =>
    cases h2 : formatData c2 "intensity" (some 1000) (fun _ => 0) n2 0.2 nm with
    | error e => rfl
    | ok d2 =>
      have e1 := (format_cols h1).1
      have e2 := (format_cols h2).1
      have hr : (0.2 : ℝ) * c1.m * c1.p = 0.2 * c2.m * c2.p := by
        rw [mul_assoc, mul_assoc, ← Nat.cast_mul, ← Nat.cast_mul, h]
      rw [hr] at e1
      simp only
      rw [if_neg (by rw [e1, e2]; simp)]

private theorem metric_parts {c : Choice} {c1 c2 : Arr3 (Option ℝ)} {n1 n2 : Option ℝ} {nm : Bool} {r : CramerResult}
    (h : cramerMetric c c1 c2 n1 n2 nm false "1" "2" = .ok r) :
    ∃ d1 d2, formatData c1 "intensity" (some 1000) (fun _ => 0) n1 0.2 nm = .ok d1 ∧
      formatData c2 "intensity" (some 1000) (fun _ => 0) n2 0.2 nm = .ok d2 := by
  unfold cramerMetric at h
  cases h1 : formatData c1 "intensity" (some 1000) (fun _ => 0) n1 0.2 nm with
  | error e => rw [h1] at h; simp [bind, Except.bind] at h
  | ok d1 =>
    cases h2 : formatData c2 "intensity" (some 1000) (fun _ => 0) n2 0.2 nm with
    | error e => rw [h1, h2] at h; simp [bind, Except.bind] at h
    | ok d2 => exact ⟨d1, d2, rfl, rfl⟩

/-- The generator after a comparison of cubes of different sizes does not remember the state before it. -/
private theorem cramer_forgets (g : Rng) (x : RandExt) (c1 c2 : Arr3 (Option ℝ)) (n1 n2 : Option ℝ) (nm : Bool) (s s' : g.S)
    (hd : npRound (0.2 * c1.m * c1.p) ≠ npRound (0.2 * c2.m * c2.p)) (r : CramerResult)
    (hr : (runCall g x (.cramer c1 c2 n1 n2 nm) s).1 = .cramer (.ok r)) :
    (runCall g x (.cramer c1 c2 n1 n2 nm) s).2 = (runCall g x (.cramer c1 c2 n1 n2 nm) s').2 := by
  have hr' : cramerMetric (choiceOf g 13024) c1 c2 n1 n2 nm false "1" "2" = .ok r := RandOut.cramer.inj hr
  obtain ⟨d1, d2, h1, h2⟩ := metric_parts hr'
  show (cramerCall g c1 c2 n1 n2 nm s).2 = (cramerCall g c1 c2 n1 n2 nm s').2
  obtain ⟨e1, p1⟩ := format_cols h1
  obtain ⟨e2, p2⟩ := format_cols h2
  have hm : d1.m ≠ d2.m := by rw [e1, e2]; omega
  unfold cramerCall
  simp only [h1, h2, if_pos hm]

/-- **C113 (Cramer, different sizes).** Comparing cubes of different sizes seeds the user's generator and leaves it there: whatever was
drawn or seeded before, everything called afterwards returns the same. -/
theorem C113_cramer_forgets (g : Rng) (x : RandExt) (c1 c2 : Arr3 (Option ℝ)) (n1 n2 : Option ℝ) (nm : Bool)
    (hd : npRound (0.2 * c1.m * c1.p) ≠ npRound (0.2 * c2.m * c2.p)) (h h' l : List RandCall) (s s' : g.S) (r : CramerResult)
    (hr : resultAfter g x h (.cramer c1 c2 n1 n2 nm) s = .cramer (.ok r)) :
    runCalls g x (.cramer c1 c2 n1 n2 nm :: l) (runCalls g x h s).2 =
      runCalls g x (.cramer c1 c2 n1 n2 nm :: l) (runCalls g x h' s').2 := by
  have e1 := cramer_forgets g x c1 c2 n1 n2 nm (runCalls g x h s).2 (runCalls g x h' s').2 hd r hr
  have e2 := seeded_result g x (.cramer c1 c2 n1 n2 nm) (Or.inr rfl) (runCalls g x h s).2 (runCalls g x h' s').2
  simp only [runCalls]
  rw [e1, e2]

/-- **C113 (Cramer, violated).** The comparison is not transparent: for cubes of different sizes, of any two seeds that give the user
different draws, at least one gives other draws with the comparison made between seeding and drawing. -/
theorem C113_cramer_violated (g : Rng) (x : RandExt) (c1 c2 : Arr3 (Option ℝ)) (n1 n2 : Option ℝ) (nm : Bool)
    (hd : npRound (0.2 * c1.m * c1.p) ≠ npRound (0.2 * c2.m * c2.p)) (s : g.S) (r : CramerResult)
    (hr : resultAfter g x [] (.cramer c1 c2 n1 n2 nm) s = .cramer (.ok r)) (a b k : ℕ)
    (hab : resultAfter g x [.userSeed a] (.userDraw k) s ≠ resultAfter g x [.userSeed b] (.userDraw k) s) :
    ∃ seed, (seed = a ∨ seed = b) ∧
      resultAfter g x [.userSeed seed, .cramer c1 c2 n1 n2 nm] (.userDraw k) s ≠ resultAfter g x [.userSeed seed] (.userDraw k) s := by
  by_contra hcon
  push_neg at hcon
  have ha := hcon a (Or.inl rfl)
  have hb := hcon b (Or.inr rfl)
  apply hab
  rw [← ha, ← hb]
  have hra : (runCall g x (.cramer c1 c2 n1 n2 nm) (runCalls g x [.userSeed a] s).2).1 = .cramer (.ok r) := by
    rw [← hr]; exact seeded_result g x _ (Or.inr rfl) _ _
  have := cramer_forgets g x c1 c2 n1 n2 nm (runCalls g x [.userSeed a] s).2 (runCalls g x [.userSeed b] s).2 hd r hra
  unfold resultAfter
  simp only [runCalls] at this ⊢
  rw [this]

/-! ### Bootstrapped errors and the bispectrum -/

/-- **C113 (draws of the bootstrap).** The resampled positions depend on the number of points, the number of resamplings and the seed only,
not on the data, the fit or the history: there is one list of them for each choice of those three, which no valid seed leaves to chance. -/
theorem C113_boot_draws (g : Rng) (n nboot seed : ℕ) (hs : seed < 2 ^ 32) :
    ∃ draws : List (Fin n → Fin n), draws.length = nboot ∧ (2 ≤ n → ∀ d ∈ draws, ∀ i, (d i).val < n - 1) ∧
      ∀ (x : RandExt) (p : ℕ) (m : LinModel n p) (h : List RandCall) (s : g.S),
        resultAfter g x h (.bootErrs m nboot seed) s = .errs (residualBootstrap x.ols m draws) := by
  refine ⟨bootDraws g n nboot (g.seeded seed), by simp [bootDraws], ?_, ?_⟩
  · intro hn d hd i
    obtain ⟨t, -, rfl⟩ := List.mem_map.1 hd
    have := g.choice_lt (n - 1) n (Rng.after (g.choice (n - 1) n) t (g.seeded seed)) (by omega) i i.isLt
    show Rng.nth (g.choice (n - 1) n) t (g.seeded seed) i % n < n - 1
    unfold Rng.nth
    rw [Nat.mod_eq_of_lt (by omega)]
    exact this
  · intro x p m h s
    simp only [resultAfter, runCall, bootCall, withSeed, npSeed, if_pos hs]

/-- **C113 (more resamplings).** With more resamplings and the same seed the first ones are the same. -/
theorem C113_boot_prefix (g : Rng) (x : RandExt) {n p : ℕ} (m : LinModel n p) (nboot nboot' seed : ℕ) (hle : nboot ≤ nboot')
    (h h' : List RandCall) (s s' : g.S) (l l' : List (Fin p → ℝ)) (hl : resultAfter g x h (.bootSamps m nboot seed) s = .samps (.ok l))
    (hl' : resultAfter g x h' (.bootSamps m nboot' seed) s' = .samps (.ok l')) : l <+: l' := by
  unfold resultAfter at hl hl'
  simp only [runCall, bootSampsCall, withSeed, npSeed] at hl hl'
  by_cases hs : seed < 2 ^ 32
  · simp only [if_pos hs] at hl hl'
    have el := eq_of_heq (RandOut.samps.inj hl).2
    have el' := eq_of_heq (RandOut.samps.inj hl').2
    unfold bootSamples at el el'
    split_ifs at el el'
    · rw [← Except.ok.inj el, ← Except.ok.inj el']
      apply List.IsPrefix.map
      unfold bootDraws
      apply List.IsPrefix.map
      obtain ⟨d, rfl⟩ := Nat.exists_eq_add_of_le hle
      rw [List.range_add]
      exact List.prefix_append _ _
  · simp only [if_neg hs] at hl
    exact absurd (eq_of_heq (RandOut.samps.inj hl).2) (by simp)

private theorem sample_ok_iff {F G : Arr2 ℂ} (hn : F.n = G.n) (hm : F.m = G.m) (t : Triangle) :
    (∃ e, bispecSample F t = .error e) ↔ ∃ e, bispecSample G t = .error e := by
  unfold bispecSample fftAt npIdx
  rw [hn, hm]
  simp only [bind, Except.bind, pure, Except.pure]
  split_ifs <;> simp

private theorem samples_ok_iff {F G : Arr2 ℂ} (hn : F.n = G.n) (hm : F.m = G.m) (k1 k2 : ℕ) (l : List (ℝ × ℝ)) :
    (∃ e, bispecSamples F k1 k2 l = .error e) ↔ ∃ e, bispecSamples G k1 k2 l = .error e := by
  unfold bispecSamples
  induction l with
  | nil => simp [pure, Except.pure]
  | cons a l ih =>
    have h1 := sample_ok_iff hn hm (triangle k1 k2 a)
    rw [List.mapM_cons, List.mapM_cons]
    cases hF : bispecSample F (triangle k1 k2 a) with
    | error e =>
      obtain ⟨e', hG⟩ := h1.1 ⟨e, hF⟩
      rw [hG]
      simp [bind, Except.bind]
    | ok v =>
      cases hG : bispecSample G (triangle k1 k2 a) with
      | error e =>
        obtain ⟨e', he⟩ := h1.2 ⟨e, hG⟩
        rw [hF] at he; cases he
      | ok w =>
        simp only [bind, Except.bind, pure, Except.pure]
        constructor
        · rintro ⟨e, he⟩
          cases hl : List.mapM (fun phi => bispecSample F (triangle k1 k2 phi)) l with
          | error e0 =>
            obtain ⟨e1, h1⟩ := ih.1 ⟨e0, hl⟩
            exact ⟨e1, by rw [h1]⟩
          | ok u => rw [hl] at he; cases he
        · rintro ⟨e, he⟩
          cases hl : List.mapM (fun phi => bispecSample G (triangle k1 k2 phi)) l with
          | error e0 =>
            obtain ⟨e1, h1⟩ := ih.2 ⟨e0, hl⟩
            exact ⟨e1, by rw [h1]⟩
          | ok u => rw [hl] at he; cases he

/-- **C113 (sampling of the bispectrum).** Two images of the same shape are sampled at the same triangles of wavevectors, whenever and in
whatever order the two bispectra are computed, with or without subtraction of the mean: both calls return or both raise, and the sampling maps
are equal. -/
theorem C113_bispec_sampling (g : Rng) (x : RandExt) (a b : Arr2 ℝ) (hn : a.n = b.n) (hm : a.m = b.m) (ms ms' : Bool) (ns seed : ℕ)
    (h h' : List RandCall) (s s' : g.S) :
    (∃ o o', resultAfter g x h (.bispec a ms ns seed) s = .bispec (.ok o) ∧ resultAfter g x h' (.bispec b ms' ns seed) s' = .bispec (.ok o') ∧
      o.tracker.n = o'.tracker.n ∧ o.tracker.m = o'.tracker.m ∧ ∀ i j, o.tracker.get i j = o'.tracker.get i j) ∨
    ∃ e, resultAfter g x h (.bispec a ms ns seed) s = .bispec (.error e) ∧ resultAfter g x h' (.bispec b ms' ns seed) s' = .bispec (.error e) := by
  unfold resultAfter
  simp only [runCall, bispecCall, withSeed, npSeed]
  by_cases hs : seed < 2 ^ 32
  · simp only [if_pos hs]
    have hN : (bispecFft a ms).n = (bispecFft b ms').n := hn
    have hM : (bispecFft a ms).m = (bispecFft b ms').m := hm
    have hiff : (∃ k1 < a.n / 2, ∃ k2 < a.m / 2, ∃ e, bispecSamples (bispecFft a ms) k1 k2 (bispecDraws g a.m ns (g.seeded seed) k1 k2) =
        .error e) ↔ (∃ k1 < b.n / 2, ∃ k2 < b.m / 2, ∃ e, bispecSamples (bispecFft b ms') k1 k2
          (bispecDraws g b.m ns (g.seeded seed) k1 k2) = .error e) := by
      rw [← hn, ← hm]
      constructor
      · rintro ⟨k1, h1, k2, h2, he⟩; exact ⟨k1, h1, k2, h2, (samples_ok_iff hN hM _ _ _).1 he⟩
      · rintro ⟨k1, h1, k2, h2, he⟩; exact ⟨k1, h1, k2, h2, (samples_ok_iff hN hM _ _ _).2 he⟩
    unfold computeBispectrum
    simp only
    by_cases hx : ∃ k1 < a.n / 2, ∃ k2 < a.m / 2, ∃ e, bispecSamples (bispecFft a ms) k1 k2
        (bispecDraws g a.m ns (g.seeded seed) k1 k2) = .error e
    · right
      rw [if_pos hx, if_pos (hiff.1 hx)]
      exact ⟨_, rfl, rfl⟩
    · left
      rw [if_neg hx, if_neg (fun hy => hx (hiff.2 hy))]
      refine ⟨_, _, rfl, rfl, hn, hm, fun i j => ?_⟩
      simp only [hn, hm]
  · right
    simp only [if_neg hs]
    exact ⟨_, rfl, rfl⟩

/-! ### The draws without a seed -/

private theorem fit_fst (lm : LevMar) (perms perms' : ℕ → ℕ → ℕ) (o : EllipOpts) (p0 : EllipPar) (pts : List (ℝ × ℝ × FVal)) :
    (fitEllip lm perms o p0 pts).map Prod.fst = (fitEllip lm perms' o p0 pts).map Prod.fst := by
  unfold fitEllip
  cases finitePts pts with
  | error e => simp only [bind, Except.bind]
  | ok d =>
    by_cases hm : o.method = "LevMarq"
    · simp only [bind, Except.bind, pure, Except.pure, if_pos hm, Except.map]
    · simp only [bind, Except.bind, if_neg hm]

private theorem widths_fst (ext : EllipseExt) {n : ℕ} (pts : Fin n → ℝ × ℝ) (draws draws' : List (EllipseDraw n))
    (hl : draws = [] ↔ draws' = []) (alpha : ℝ) :
    (fit2DEllipseErrs ext pts draws alpha).map (fun w => (w.y, w.x)) = (fit2DEllipseErrs ext pts draws' alpha).map (fun w => (w.y, w.x)) := by
  unfold fit2DEllipseErrs ellipseStderrs
  cases ellipseEstimate ext.eig pts with
  | none => simp only
  | some p =>
    by_cases h1 : alpha < 0 ∨ 1 ≤ alpha
    · simp only [if_pos h1]
    · by_cases h2 : draws = []
      · simp only [if_neg h1, if_pos h2, if_pos (hl.1 h2)]
      · simp only [if_neg h1, if_neg h2, if_neg (fun h => h2 (hl.2 h)), Except.map]

/-- **C113 (fitted parameters).** The two calls that draw without a seed, the elliptical power-law fit and the fit of an ellipse to a contour,
give the same parameters (all that is not an error estimate), and raise alike, whatever was called before. -/
theorem C113_parameters (g : Rng) (x : RandExt) (h h' : List RandCall) (s s' : g.S) :
    (∀ (o : EllipOpts) (p0 : EllipPar) (pts : List (ℝ × ℝ × FVal)), ∃ r r', resultAfter g x h (.fitEllip o p0 pts) s = .ellip r ∧
      resultAfter g x h' (.fitEllip o p0 pts) s' = .ellip r' ∧ r.map Prod.fst = r'.map Prod.fst) ∧
    ∀ (n : ℕ) (pts : Fin n → ℝ × ℝ) (niters : ℕ) (alpha : ℝ), ∃ r r', resultAfter g x h (.ellipse pts niters alpha) s = .widths r ∧
      resultAfter g x h' (.ellipse pts niters alpha) s' = .widths r' ∧
      r.map (fun w => (w.y, w.x)) = r'.map (fun w => (w.y, w.x)) := by
  refine ⟨fun o p0 pts => ⟨_, _, rfl, rfl, fit_fst _ _ _ _ _ _⟩, fun n pts niters alpha => ⟨_, _, rfl, rfl, widths_fst _ _ _ _ ?_ _⟩⟩
  rw [List.map_eq_nil_iff, List.map_eq_nil_iff]

/-- Three points on the x axis, a decade apart, off a line by 1, -2, 1. -/
private noncomputable def kinked (v : ℕ → ℝ) : List (ℝ × ℝ × ℝ) := [(1, 0, v 0), (10, 0, v 1), (100, 0, v 2)]

private theorem log10_pow (n : ℕ) : log10 ((10 : ℝ) ^ n) = n := by
  unfold log10
  rw [Real.logb_pow, Real.logb_self_eq_one (by norm_num), mul_one]

private theorem eval_axis (p : EllipPar) (he : p.e = none) (n : ℕ) : p.eval ((10 : ℝ) ^ n) 0 = p.amp + p.gamma * n := by
  unfold EllipPar.eval
  rw [he, C14_isotropic _ _ _ _ _ (Or.inl (by positivity))]
  have : Real.sqrt (((10 : ℝ) ^ n) ^ 2 + 0 ^ 2) = (10 : ℝ) ^ n := by
    rw [zero_pow (by norm_num), add_zero, Real.sqrt_sq (by positivity)]
  rw [this, log10_pow]

private theorem eval3 (p : EllipPar) (he : p.e = none) :
    p.eval 1 0 = p.amp ∧ p.eval 10 0 = p.amp + p.gamma ∧ p.eval 100 0 = p.amp + 2 * p.gamma := by
  have h0 := eval_axis p he 0
  have h1 := eval_axis p he 1
  have h2 := eval_axis p he 2
  norm_num at h0 h1 h2
  exact ⟨h0, h1, by rw [h2]; ring⟩

private theorem sumSq_kinked (v : ℕ → ℝ) (p : EllipPar) (he : p.e = none) :
    sumSq (kinked v) p = (v 0 - p.amp) ^ 2 + (v 1 - p.amp - p.gamma) ^ 2 + (v 2 - p.amp - 2 * p.gamma) ^ 2 := by
  obtain ⟨h0, h1, h2⟩ := eval3 p he
  simp only [sumSq, kinked, List.map_cons, List.map_nil, List.sum_cons, List.sum_nil, h0, h1, h2]
  ring

/-- The least-squares line through three points. -/
private theorem lsq_three {lm : LevMar} (hlm : CircleLsq lm) (start : EllipPar) (hs : start.e = none) (v : ℕ → ℝ)
    (hb : |(v 2 - v 0) / 2| ≤ 20) (ha : -10 ≤ (v 0 + v 1 + v 2) / 3 - (v 2 - v 0) / 2) :
    (lm true none start (kinked v)).1.gamma = (v 2 - v 0) / 2 ∧
    (lm true none start (kinked v)).1.amp = (v 0 + v 1 + v 2) / 3 - (v 2 - v 0) / 2 := by
  obtain ⟨he, hmin⟩ := hlm start (kinked v) hs
  have key := hmin ⟨(v 0 + v 1 + v 2) / 3 - (v 2 - v 0) / 2, none, 0, (v 2 - v 0) / 2⟩
    ⟨ha, by simp, by simp [Real.pi_pos.le], hb⟩ rfl (fun q _ hq => by
      rw [sumSq_kinked v _ rfl, sumSq_kinked v q hq]
      simp only
      nlinarith [sq_nonneg (q.amp + q.gamma - (v 0 + v 1 + v 2) / 3), sq_nonneg (q.gamma - (v 2 - v 0) / 2)])
  rw [sumSq_kinked v _ he, sumSq_kinked v _ rfl] at key
  simp only at key
  generalize (lm true none start (kinked v)).1 = q at *
  have e : 3 * (q.amp + q.gamma - (v 0 + v 1 + v 2) / 3) ^ 2 + 2 * (q.gamma - (v 2 - v 0) / 2) ^ 2 ≤ 0 := by nlinarith
  have g0 : q.gamma - (v 2 - v 0) / 2 = 0 := by
    have : (q.gamma - (v 2 - v 0) / 2) ^ 2 = 0 := le_antisymm (by nlinarith [sq_nonneg (q.amp + q.gamma - (v 0 + v 1 + v 2) / 3)]) (sq_nonneg _)
    exact pow_eq_zero_iff (by norm_num) |>.1 this
  have a0 : q.amp + q.gamma - (v 0 + v 1 + v 2) / 3 = 0 := by
    have : (q.amp + q.gamma - (v 0 + v 1 + v 2) / 3) ^ 2 = 0 := le_antisymm (by nlinarith [sq_nonneg (q.gamma - (v 2 - v 0) / 2)]) (sq_nonneg _)
    exact pow_eq_zero_iff (by norm_num) |>.1 this
  constructor <;> linarith

private theorem percentile_swap (a b q : ℝ) : npPercentile [a, b] q = npPercentile [b, a] q := by
  have : [a, b].insertionSort (· ≤ ·) = [b, a].insertionSort (· ≤ ·) := by
    simp only [List.insertionSort_cons, List.insertionSort_nil, List.orderedInsert]
    rcases lt_trichotomy a b with h | h | h
    · rw [if_pos h.le, if_neg (not_le.2 h)]
    · subst h; rfl
    · rw [if_neg (not_le.2 h), if_pos h.le]
  unfold npPercentile
  simp only [this, List.length_cons, List.length_nil]

private theorem halfWidth_pair (a b : ℝ) : halfWidth 0.6827 [a, b] = 0.6827 * (|a - b| / 2) := by
  have up : ∀ c h : ℝ, 0 ≤ h → halfWidth 0.6827 [c, c + h] = 0.6827 * (h / 2) := by
    intro c h hh
    have := C80_half_width c h hh (n := 2) (by norm_num) (alpha := 0.6827) (by norm_num) (by norm_num)
    simp only [List.range_succ, List.range_zero, List.nil_append, List.map_append, List.map_cons, List.map_nil, List.cons_append,
      Nat.cast_zero, mul_zero, add_zero, Nat.cast_one, mul_one] at this
    rw [this]; push_cast; ring
  rcases le_total a b with h | h
  · have := up a (b - a) (by linarith)
    rw [show a + (b - a) = b by ring] at this
    rw [this, abs_of_nonpos (by linarith)]; ring
  · have := up b (a - b) (by linarith)
    rw [show b + (a - b) = a by ring] at this
    rw [abs_of_nonneg (by linarith), ← this]
    unfold halfWidth
    rw [percentile_swap a b, percentile_swap a b]

private def kink : ℕ → ℝ := fun i => if i = 1 then -2 else 1

private theorem kink_replicate {p : EllipPar} (he : p.e = none) (ha : p.amp = 0) (hg : p.gamma = 0) (perm : ℕ → ℕ) (hp : ∀ i < 3, perm i < 3) :
    ellipReplicate p (kinked kink) perm = kinked fun i => kink i + kink (perm i) := by
  obtain ⟨h0, h1, h2⟩ := eval3 p he
  rw [ha, hg] at *
  have hres : ∀ j < 3, ((kinked kink).getD j (0, 0, 0)).2.2 -
      p.eval ((kinked kink).getD j (0, 0, 0)).1 ((kinked kink).getD j (0, 0, 0)).2.1 = kink j := by
    intro j hj
    obtain rfl | rfl | rfl : j = 0 ∨ j = 1 ∨ j = 2 := by omega
    · show kink 0 - p.eval 1 0 = _; rw [h0, sub_zero]
    · show kink 1 - p.eval 10 0 = _; rw [h1]; ring
    · show kink 2 - p.eval 100 0 = _; rw [h2]; ring
  unfold ellipReplicate
  have hl : (kinked kink).length = 3 := rfl
  simp only [hl, List.range_succ, List.range_zero, List.nil_append, List.map_append, List.map_cons, List.map_nil, List.cons_append]
  rw [hres _ (hp 0 (by norm_num)), hres _ (hp 1 (by norm_num)), hres _ (hp 2 (by norm_num))]
  rfl

/-- The slope of a replicate: what matters is where the middle residual goes. -/
private noncomputable def kickOf (perm : ℕ → ℕ) : ℝ := (kink (perm 2) - kink (perm 0)) / 2

private theorem kink_sum (perm : ℕ → ℕ) (hp : ∀ i < 3, perm i < 3) (hi : ∀ i < 3, ∀ j < 3, perm i = perm j → i = j) :
    kink (perm 0) + kink (perm 1) + kink (perm 2) = 0 := by
  have a0 := hp 0 (by norm_num)
  have a1 := hp 1 (by norm_num)
  have a2 := hp 2 (by norm_num)
  have n01 : perm 0 ≠ perm 1 := fun h => by simpa using hi 0 (by norm_num) 1 (by norm_num) h
  have n02 : perm 0 ≠ perm 2 := fun h => by simpa using hi 0 (by norm_num) 2 (by norm_num) h
  have n12 : perm 1 ≠ perm 2 := fun h => by simpa using hi 1 (by norm_num) 2 (by norm_num) h
  unfold kink
  by_cases c0 : perm 0 = 1
  · rw [if_pos c0, if_neg (by omega), if_neg (by omega)]; norm_num
  · by_cases c1 : perm 1 = 1
    · rw [if_neg c0, if_pos c1, if_neg (by omega)]; norm_num
    · rw [if_neg c0, if_neg c1, if_pos (by omega)]; norm_num

private theorem kick_bound (perm : ℕ → ℕ) : |kickOf perm| ≤ 3 / 2 := by
  unfold kickOf kink
  split_ifs <;> norm_num [abs_le]

private theorem replicate_slope {lm : LevMar} (hlm : CircleLsq lm) {p : EllipPar} (he : p.e = none) (ha : p.amp = 0) (hg : p.gamma = 0)
    (perm : ℕ → ℕ) (hp : ∀ i < 3, perm i < 3) (hi : ∀ i < 3, ∀ j < 3, perm i = perm j → i = j) :
    (lm true none p (ellipReplicate p (kinked kink) perm)).1.gamma = kickOf perm := by
  rw [kink_replicate he ha hg perm hp]
  have hk := kick_bound perm
  have hs := kink_sum perm hp hi
  have hv : (kink 2 + kink (perm 2) - (kink 0 + kink (perm 0))) / 2 = kickOf perm := by
    unfold kickOf; simp only [kink]; norm_num
  have k0 : kink 0 + kink 1 + kink 2 = 0 := by norm_num [kink]
  have := (lsq_three hlm p he (fun i => kink i + kink (perm i)) (by rw [hv]; linarith) (by
    rw [hv]
    have := (abs_le.1 hk).2
    linarith)).1
  rw [this, hv]

private theorem first_fit {lm : LevMar} (hlm : CircleLsq lm) (start : EllipPar) (hs : start.e = none) :
    (lm true none start (kinked kink)).1.e = none ∧ (lm true none start (kinked kink)).1.amp = 0 ∧
      (lm true none start (kinked kink)).1.gamma = 0 := by
  have := lsq_three hlm start hs kink (by norm_num [kink]) (by norm_num [kink])
  refine ⟨(hlm start _ hs).1, ?_, ?_⟩
  · rw [this.2]; norm_num [kink]
  · rw [this.1]; norm_num [kink]

private theorem kick_ne {p q : ℕ → ℕ} (hp : ∀ i < 3, p i < 3) (hpi : ∀ i < 3, ∀ j < 3, p i = p j → i = j)
    (hq : ∀ i < 3, q i < 3) (hqi : ∀ i < 3, ∀ j < 3, q i = q j → i = j) {i : ℕ} (hi : i < 3) (h1 : p i = 1) (h2 : q i ≠ 1) :
    kickOf p ≠ kickOf q := by
  have a0 := hq 0 (by norm_num)
  have a1 := hq 1 (by norm_num)
  have a2 := hq 2 (by norm_num)
  have n01 : q 0 ≠ q 1 := fun h => by simpa using hqi 0 (by norm_num) 1 (by norm_num) h
  have n02 : q 0 ≠ q 2 := fun h => by simpa using hqi 0 (by norm_num) 2 (by norm_num) h
  have n12 : q 1 ≠ q 2 := fun h => by simpa using hqi 1 (by norm_num) 2 (by norm_num) h
  have m01 : p 0 ≠ p 1 := fun h => by simpa using hpi 0 (by norm_num) 1 (by norm_num) h
  have m02 : p 0 ≠ p 2 := fun h => by simpa using hpi 0 (by norm_num) 2 (by norm_num) h
  have m12 : p 1 ≠ p 2 := fun h => by simpa using hpi 1 (by norm_num) 2 (by norm_num) h
  unfold kickOf kink
  obtain rfl | rfl | rfl : i = 0 ∨ i = 1 ∨ i = 2 := by omega
  · rw [if_pos h1, if_neg (show p 2 ≠ 1 by omega), if_neg h2]
    split_ifs <;> norm_num
  · rw [if_neg (show p 0 ≠ 1 by omega), if_neg (show p 2 ≠ 1 by omega)]
    by_cases c : q 2 = 1
    · rw [if_pos c, if_neg (show q 0 ≠ 1 by omega)]; norm_num
    · rw [if_neg c, if_pos (show q 0 = 1 by omega)]; norm_num
  · rw [if_pos h1, if_neg (show p 0 ≠ 1 by omega), if_neg h2]
    split_ifs <;> norm_num

private theorem nth_after {S α : Type*} (d : S → α × S) (t k : ℕ) (s : S) : Rng.nth d t (Rng.after d k s) = Rng.nth d (t + k) s := by
  unfold Rng.nth Rng.after
  rw [Function.iterate_add_apply]

private theorem kink_errors (g : Rng) {lm : LevMar} (hlm : CircleLsq lm) (p0 : EllipPar) (s : g.S) :
    ∃ r e, fitEllipCall g lm { bootstrap := true, niters := 2, fix := true } p0 ((kinked kink).map fun q => (q.1, q.2.1, FVal.fin q.2.2)) s =
      (.ok (r, e), Rng.after (g.permutation 3) 2 s) ∧
      e.getD 3 none = some (0.6827 * (|kickOf (Rng.nth (g.permutation 3) 0 s) - kickOf (Rng.nth (g.permutation 3) 1 s)| / 2)) := by
  have hp : ∀ k, ∀ i < 3, Rng.nth (g.permutation 3) k s i < 3 := fun k => g.permutation_lt 3 _
  have hi : ∀ k, ∀ i < 3, ∀ j < 3, Rng.nth (g.permutation 3) k s i = Rng.nth (g.permutation 3) k s j → i = j := fun k => g.permutation_inj 3 _
  obtain ⟨he, ha, hg⟩ := first_fit hlm { p0 with e := none } rfl
  refine ⟨(lm true none { p0 with e := none } (kinked kink)).1,
    ellipBootErrs lm { bootstrap := true, niters := 2, fix := true } (fun k => Rng.nth (g.permutation 3) k s)
      (lm true none { p0 with e := none } (kinked kink)).1 (kinked kink), rfl, ?_⟩
  unfold ellipBootErrs
  simp only [List.getD_cons_succ, List.getD_cons_zero]
  congr 1
  simp only [List.range_succ, List.range_zero, List.nil_append, List.map_append, List.map_cons, List.map_nil, List.cons_append]
  rw [replicate_slope hlm he ha hg _ (hp 0) (hi 0), replicate_slope hlm he ha hg _ (hp 1) (hi 1)]
  exact halfWidth_pair _ _

/-- **C113 (errors, violated).** The bootstrapped errors of the elliptical power-law fit are not repeatable: the same fit of the same data,
made twice in a row, returns the same parameters with different errors of the slope, for every least-squares fitter and every generator whose
first two permutations of three points are equal while the next two move the middle point to different places. -/
theorem C113_errors_violated (g : Rng) (x : RandExt) (hlm : CircleLsq x.lm) (s : g.S)
    (same : ∀ i < 3, Rng.nth (g.permutation 3) 0 s i = Rng.nth (g.permutation 3) 1 s i) (i : ℕ) (hi : i < 3)
    (diff : Rng.nth (g.permutation 3) 2 s i = 1 ∧ Rng.nth (g.permutation 3) 3 s i ≠ 1) :
    ∃ (o : EllipOpts) (p0 : EllipPar) (pts : List (ℝ × ℝ × FVal)) (r : EllipPar) (e e' : List (Option ℝ)),
      (runCalls g x [.fitEllip o p0 pts, .fitEllip o p0 pts] s).1 = [.ellip (.ok (r, e)), .ellip (.ok (r, e'))] ∧
      e.getD 3 none ≠ e'.getD 3 none := by
  let p0 : EllipPar := ⟨0, none, 0, 0⟩
  obtain ⟨r, e, h1, he⟩ := kink_errors g hlm p0 s
  obtain ⟨r', e', h2, he'⟩ := kink_errors g hlm p0 (Rng.after (g.permutation 3) 2 s)
  have hr : r = r' := by
    have := fit_fst x.lm (fun k => Rng.nth (g.permutation 3) k s) (fun k => Rng.nth (g.permutation 3) k (Rng.after (g.permutation 3) 2 s))
      { bootstrap := true, niters := 2, fix := true } p0 ((kinked kink).map fun q => (q.1, q.2.1, FVal.fin q.2.2))
    have a1 : fitEllip x.lm (fun k => Rng.nth (g.permutation 3) k s) { bootstrap := true, niters := 2, fix := true } p0
      ((kinked kink).map fun q => (q.1, q.2.1, FVal.fin q.2.2)) = .ok (r, e) := congrArg Prod.fst h1
    have a2 : fitEllip x.lm (fun k => Rng.nth (g.permutation 3) k (Rng.after (g.permutation 3) 2 s)) { bootstrap := true, niters := 2, fix := true } p0
      ((kinked kink).map fun q => (q.1, q.2.1, FVal.fin q.2.2)) = .ok (r', e') := congrArg Prod.fst h2
    rw [a1, a2] at this
    exact Except.ok.inj this
  subst hr
  refine ⟨{ bootstrap := true, niters := 2, fix := true }, p0, (kinked kink).map fun q => (q.1, q.2.1, FVal.fin q.2.2), r, e, e', ?_, ?_⟩
  · simp only [runCalls, runCall, h1, h2]
  · rw [he, he', nth_after, nth_after]
    have z : kickOf (Rng.nth (g.permutation 3) 0 s) = kickOf (Rng.nth (g.permutation 3) 1 s) := by
      unfold kickOf
      rw [same 0 (by norm_num), same 2 (by norm_num)]
    have nz : kickOf (Rng.nth (g.permutation 3) 2 s) ≠ kickOf (Rng.nth (g.permutation 3) 3 s) :=
      kick_ne (g.permutation_lt 3 _) (g.permutation_inj 3 _) (g.permutation_lt 3 _) (g.permutation_inj 3 _) hi diff.1 diff.2
    rw [z, sub_self, abs_zero]
    intro h
    have h' := Option.some.inj h
    have : 0 < |kickOf (Rng.nth (g.permutation 3) (0 + 2) s) - kickOf (Rng.nth (g.permutation 3) (1 + 2) s)| :=
      abs_pos.2 (sub_ne_zero.2 nz)
    nlinarith

/-! ### A generator, a fitter and cubes that meet the hypotheses -/

/-- A generator that counts its draws; the permutation drawn in state 3 exchanges the first two points. -/
private noncomputable def counter : Rng where
  S := ℕ
  seeded n := n
  uniform _ s := (fun i => (s : ℝ) + i, s + 1)
  choice a _ s := (fun i => (s + i) % a, s + 1)
  choice_lt a k s ha i _ := Nat.mod_lt _ ha
  noReplace _ _ s := (id, s + 1)
  noReplace_lt n k s hk i hi := lt_of_lt_of_le hi hk
  noReplace_inj n k s hk i _ j _ h := h
  permutation n s := (fun i => if s = 3 ∧ 2 ≤ n then (if i = 0 then 1 else if i = 1 then 0 else i) else i, s + 1)
  permutation_lt n s i hi := by
    dsimp only
    split_ifs <;> omega
  permutation_inj n s i hi j hj h := by
    dsimp only at h
    split_ifs at h <;> omega
  dirichlet _ s := (fun _ => (1 / 2, 1 / 2), s + 1)
  signs _ s := (fun _ => (1, 1), s + 1)

open Classical in
/-- A fitter that finds a least-squares circle when there is one. -/
private noncomputable def circleFit : LevMar := fun _ _ start d =>
  if h : ∃ p : EllipPar, InBounds p ∧ p.e = none ∧ ∀ q : EllipPar, InBounds q → q.e = none → sumSq d p ≤ sumSq d q then (h.choose, none)
  else (start, none)

private theorem circleFit_lsq : CircleLsq circleFit := by
  intro start d hs
  unfold circleFit
  by_cases h : ∃ p : EllipPar, InBounds p ∧ p.e = none ∧ ∀ q : EllipPar, InBounds q → q.e = none → sumSq d p ≤ sumSq d q
  · rw [dif_pos h]
    exact ⟨h.choose_spec.2.1, fun p hb he _ => h.choose_spec.2.2 p hb he⟩
  · rw [dif_neg h]
    exact ⟨hs, fun p hb he hmin => absurd ⟨p, hb, he, hmin⟩ h⟩

private noncomputable def demoExt : RandExt := ⟨fun _ _ _ _ _ => 0, circleFit, ⟨id, fun _ t => t⟩⟩

/-- `C113_errors_violated` applies. -/
example : ∃ (o : EllipOpts) (p0 : EllipPar) (pts : List (ℝ × ℝ × FVal)) (r : EllipPar) (e e' : List (Option ℝ)),
    (runCalls counter demoExt [.fitEllip o p0 pts, .fitEllip o p0 pts] (0 : ℕ)).1 = [.ellip (.ok (r, e)), .ellip (.ok (r, e'))] ∧
      e.getD 3 none ≠ e'.getD 3 none :=
  C113_errors_violated counter demoExt circleFit_lsq (0 : ℕ) (fun i _ => by simp [Rng.nth, Rng.after, counter]) 1 (by norm_num)
    (by simp [Rng.nth, Rng.after, counter])

/-- A cube of one channel with `k` pixels of value 1. -/
private noncomputable def ones (k : ℕ) : Arr3 (Option ℝ) := ⟨1, 1, k, fun _ _ _ => some 1⟩

private theorem ones_format (k : ℕ) (hk : 0 < k) (hr : 0 ≤ npRound (0.2 * ((ones k).m : ℝ) * ((ones k).p : ℝ))) :
    ∃ d, formatData (ones k) "intensity" (some 1000) (fun _ => 0) none 0.2 false = .ok d ∧ d.n = 1 ∧
      d.m = (npRound (0.2 * ((ones k).m : ℝ) * ((ones k).p : ℝ))).toNat ∧ ∀ i j, d.get i j ≠ none := by
  have hmax : Spec.CubeMax (ones k) 1 :=
    ⟨⟨0, by simp [ones], 0, by simp [ones], 0, by simpa [ones] using hk, rfl⟩, fun v _ i _ j _ x hx => by simp [ones] at hx; exact hx.symm.le⟩
  have hne : ("intensity" : String) ≠ "spectra" := by decide
  have hv := intensity_value_of hmax one_ne_zero hr none
  have hf : formatData (ones k) "intensity" (some 1000) (fun _ => 0) none 0.2 false = intensityData (ones k) 0.2 none true := by
    unfold formatData
    simp only [if_neg hne, if_true, hv]
    rfl
  rw [hf, hv]
  exact ⟨_, rfl, rfl, rfl, fun i j => by simp⟩

private theorem ones_compare (c : Choice) : ∃ r, cramerMetric c (ones 5) (ones 10) none none false false "1" "2" = .ok r := by
  have r5 : npRound (0.2 * ((ones 5).m : ℝ) * ((ones 5).p : ℝ)) = 1 := by simp only [ones]; unfold npRound; norm_num
  have r10 : npRound (0.2 * ((ones 10).m : ℝ) * ((ones 10).p : ℝ)) = 2 := by simp only [ones]; unfold npRound; norm_num
  obtain ⟨d, hd, hn, hm, hg⟩ := ones_format 5 (by norm_num) (by rw [r5]; norm_num)
  obtain ⟨e, he, hn', hm', hg'⟩ := ones_format 10 (by norm_num) (by rw [r10]; norm_num)
  rw [r5] at hm
  rw [r10] at hm'
  have h1 : matchSamples c d e = (d, subsample c e 1) := by
    unfold matchSamples
    rw [hm, hm', if_pos (by decide), if_pos (by decide)]
    rfl
  have hs : ∃ v, cramerStatistic d (subsample c e 1) = .ok v := by
    have c1 : (subsample c e 1).n ≤ d.n := by show e.n ≤ d.n; rw [hn, hn']
    have hok : SkValid d ∧ SkValid (subsample c e 1) ∧ d.m = (subsample c e 1).m :=
      ⟨⟨by omega, by rw [hm]; norm_num, fun i _ j _ => hg i j⟩, ⟨by show 0 < e.n; omega, by show 0 < 1; norm_num, fun i _ j _ => hg' i _⟩,
        by rw [hm]; rfl⟩
    refine ⟨cramerTerms d (subsample c e 1), ?_⟩
    unfold cramerStatistic
    simp only
    rw [if_pos c1, if_pos c1, if_pos hok]
  obtain ⟨v, hv⟩ := hs
  unfold cramerMetric
  rw [hd, he]
  simp only [bind, Except.bind, h1, hv, pure, Except.pure]
  exact ⟨_, rfl⟩

/-- `C113_cramer_violated` applies. -/
example : ∃ seed, (seed = 0 ∨ seed = 1) ∧
    resultAfter counter demoExt [.userSeed seed, .cramer (ones 5) (ones 10) none none false] (.userDraw 1) (0 : ℕ) ≠
      resultAfter counter demoExt [.userSeed seed] (.userDraw 1) (0 : ℕ) := by
  obtain ⟨r, hr⟩ := ones_compare (choiceOf counter 13024)
  refine C113_cramer_violated counter demoExt (ones 5) (ones 10) none none false ?_ (0 : ℕ) r (congrArg RandOut.cramer hr) 0 1 1 ?_
  · simp only [ones]; unfold npRound; norm_num
  · simp [resultAfter, runCalls, runCall, npSeed, counter]

/-- Seeded calls between the user's own draws, one of them refused: the draws are those of a program without them. -/
example (m : LinModel 1 2) : (runCalls counter demoExt [.userSeed 7, .bootErrs m 3 1, .extended 4 3 0 2 false false 5, .userDraw 2] (0 : ℕ)).2 =
    (8 : ℕ) ∧ resultAfter counter demoExt [.userSeed 7] (.bootErrs m 3 1) (0 : ℕ) = .errs (p := 2) (.error .valueError) := by
  have h := (C113_transparent counter demoExt [.userSeed 7, .bootErrs m 3 1, .extended 4 3 0 2 false false 5, .userDraw 2] (0 : ℕ)).2
  refine ⟨h.trans ?_, ?_⟩
  · simp [takesSeed, runCalls, runCall, npSeed, counter]
  · simp [resultAfter, runCalls, runCall, npSeed, counter, bootCall, withSeed, residualBootstrap, bootSamples, bootDraws, bind, Except.bind]

end TS
