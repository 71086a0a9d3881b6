import Verif.Model.ResidBoot
import Verif.Model.EllipseBoot
import Verif.Model.EllipFit
import Verif.Model.Bispec
import Verif.Model.GenField
import Verif.Model.CramerMetric
import Mathlib.Logic.Function.Iterate

/-!
Model of the use turbustat makes of numpy's global random generator: which calls seed it, draw from it and put it back.

numpy's generator is external: a type of states, the state after `np.random.seed`, and draws that return values and the next state.  The
results are those of the models of the callers, with the draws taken from the generator.  Not modelled: the MCMC fits (fitting_utils.py:172,
compare_pdf.py:266), which hand the drawing over to emcee.
-/

namespace TS

/-- numpy's global generator (external). -/
structure Rng where
  /-- `np.random.get_state()` -/
  S : Type
  /-- the state after `np.random.seed(n)` -/
  seeded : ℕ → S
  /-- `np.random.uniform(0, 2 * np.pi, size=k)`, flat -/
  uniform : ℕ → S → (ℕ → ℝ) × S
  /-- `np.random.choice(a, k)` -/
  choice : ℕ → ℕ → S → (ℕ → ℕ) × S
  choice_lt : ∀ a k s, 0 < a → ∀ i < k, (choice a k s).1 i < a
  /-- `np.random.choice(row, k, replace=False)` for a row of `n` values: the positions -/
  noReplace : ℕ → ℕ → S → (ℕ → ℕ) × S
  noReplace_lt : ∀ n k s, k ≤ n → ∀ i < k, (noReplace n k s).1 i < n
  noReplace_inj : ∀ n k s, k ≤ n → ∀ i < k, ∀ j < k, (noReplace n k s).1 i = (noReplace n k s).1 j → i = j
  /-- `np.random.permutation(n)` -/
  permutation : ℕ → S → (ℕ → ℕ) × S
  permutation_lt : ∀ n s, ∀ i < n, (permutation n s).1 i < n
  permutation_inj : ∀ n s, ∀ i < n, ∀ j < n, (permutation n s).1 i = (permutation n s).1 j → i = j
  /-- `np.random.dirichlet((1, 1), size=n)` -/
  dirichlet : ℕ → S → (ℕ → ℝ × ℝ) × S
  /-- `np.random.choice([-1, 1], size=(n, 2))` -/
  signs : ℕ → S → (ℕ → ℝ × ℝ) × S

namespace Rng

/-- The state after `t` repetitions of a draw. -/
def after {S α : Type*} (d : S → α × S) (t : ℕ) (s : S) : S := (fun s => (d s).2)^[t] s

/-- Repetition number `t` (from 0) of a draw. -/
def nth {S α : Type*} (d : S → α × S) (t : ℕ) (s : S) : α := (d (after d t s)).1

end Rng

/-- `np.random.seed(n)`: ValueError, and no change, outside `0 <= n < 2**32`. -/
def npSeed (g : Rng) (seed : ℕ) (s : g.S) : Py Unit × g.S :=
  if seed < 2 ^ 32 then (.ok (), g.seeded seed) else (.error .valueError, s)

/-- astropy's `with NumpyRNGContext(seed): body` (external): the state is kept, the generator seeded, and the state put back when the
body ends, also when it raises. -/
def withSeed {α : Type*} (g : Rng) (seed : ℕ) (body : g.S → Py α × g.S) (s : g.S) : Py α × g.S :=
  match npSeed g seed s with
  | (.error e, s') => (.error e, s')
  | (.ok _, s') => ((body s').1, s)

/-- A drawn index as an index of an array of `n` values. -/
def drawIdx {n : ℕ} (f : ℕ → ℕ) (i : Fin n) : Fin n := ⟨f i % n, Nat.mod_lt _ i.pos⟩

/-- fitting_utils.py:331-335 the draws of `residual_bootstrap`: `np.random.choice(y_res.size - 1, y_res.size)` once per resampling. -/
def bootDraws (g : Rng) (n nboot : ℕ) (s : g.S) : List (Fin n → Fin n) :=
  (List.range nboot).map fun t => drawIdx (Rng.nth (g.choice (n - 1) n) t s)

/-- fitting_utils.py:316-361 `residual_bootstrap(fit_model, nboot, seed)`. -/
noncomputable def bootCall (g : Rng) (ols : Ols) {n p : ℕ} (m : LinModel n p) (nboot seed : ℕ) : g.S → Py (BootOut p) × g.S :=
  withSeed g seed fun s => (residualBootstrap ols m (bootDraws g n nboot s), Rng.after (g.choice (n - 1) n) nboot s)

/-- fitting_utils.py:356-359 `residual_bootstrap(..., return_samps=True)`. -/
noncomputable def bootSampsCall (g : Rng) (ols : Ols) {n p : ℕ} (m : LinModel n p) (nboot seed : ℕ) :
    g.S → Py (List (Fin p → ℝ)) × g.S :=
  withSeed g seed fun s => (bootSamples ols m (bootDraws g n nboot s), Rng.after (g.choice (n - 1) n) nboot s)

/-- bispec.py:131-132 the angles of one bin. -/
def binDraw (g : Rng) (nsamples : ℕ) (s : g.S) : List (ℝ × ℝ) × g.S :=
  let a := g.uniform nsamples s
  let b := g.uniform nsamples a.2
  ((List.range nsamples).map fun i => (a.1 i, b.1 i), b.2)

/-- bispec.py:126-132 the angles of bin `(k1, k2)`: `itertools.product` runs through the second index first. -/
def bispecDraws (g : Rng) (m nsamples : ℕ) (s : g.S) (k1 k2 : ℕ) : List (ℝ × ℝ) := Rng.nth (binDraw g nsamples) (k1 * (m / 2) + k2) s

/-- bispec.py:64-165 `Bispectrum.compute_bispectrum(nsamples, seed, mean_subtract)`. -/
noncomputable def bispecCall (g : Rng) (img : Arr2 ℝ) (meanSubtract : Bool) (nsamples seed : ℕ) : g.S → Py BispecOut × g.S :=
  withSeed g seed fun s =>
    (computeBispectrum img meanSubtract (bispecDraws g img.m nsamples s), Rng.after (binDraw g nsamples) (img.n / 2 * (img.m / 2)) s)

/-- gen_field.py:137-257 `make_extended(..., randomseed)`: the ellipticity is checked before the generator is touched. -/
noncomputable def extendedCall (g : Rng) (n : ℕ) (powerlaw theta ellip : ℝ) (returnFft fullFft : Bool) (seed : ℕ) (s : g.S) :
    Py ExtOut × g.S :=
  if ellip > 1 ∨ ellip ≤ 0 then (.error .valueError, s)
  else withSeed g seed (fun s =>
    let a := g.uniform (n * (np1 n + 1)) s
    (makeExtended n powerlaw theta ellip returnFft fullFft fun i j => a.1 (i * (np1 n + 1) + j), a.2)) s

/-- gen_field.py:6-132 `make_3dfield(..., randomseed)`. -/
noncomputable def field3dCall (g : Rng) (n : ℕ) (powerlaw amp : ℝ) (seed : ℕ) : g.S → Py (Arr3 ℝ) × g.S :=
  withSeed g seed fun s =>
    let a := g.uniform (n * n * (np1 n + 1)) s
    (make3dfield n powerlaw amp fun i j k => a.1 ((i * n + j) * (np1 n + 1) + k), a.2)

/-- cramer.py:97-118 the draws of `format_data`, one per row after seeding. -/
def choiceOf (g : Rng) (seed : ℕ) : Choice where
  pick n k i := Rng.nth (g.noReplace n k) i (g.seeded seed)
  lt n k _ h := g.noReplace_lt n k _ h
  inj n k _ h := g.noReplace_inj n k _ h

/-- cramer.py:188-247 `Cramer_Distance.distance_metric` with what `format_data` (seed 13024) does to the generator: nothing for matrices
with the same number of columns, otherwise it is seeded, used once per row of the wider matrix, and left there. -/
noncomputable def cramerCall (g : Rng) (cube1 cube2 : Arr3 (Option ℝ)) (noise1 noise2 : Option ℝ) (normalize : Bool) (s : g.S) :
    Py CramerResult × g.S :=
  (cramerMetric (choiceOf g 13024) cube1 cube2 noise1 noise2 normalize false "1" "2",
    match formatData cube1 "intensity" (some 1000) (fun _ => 0) noise1 0.2 normalize,
      formatData cube2 "intensity" (some 1000) (fun _ => 0) noise2 0.2 normalize with
    | .ok d1, .ok d2 =>
      if d1.m ≠ d2.m then
        if d1.m < d2.m then Rng.after (g.noReplace d2.m d1.m) d2.n (g.seeded 13024)
        else Rng.after (g.noReplace d1.m d2.m) d1.n (g.seeded 13024)
      else s
    | _, _ => s)

/-- elliptical_powerlaw.py:11-191 `fit_elliptical_powerlaw` with its draws (lines 136-139); nothing is drawn when it raises or does not
bootstrap. -/
noncomputable def fitEllipCall (g : Rng) (lm : LevMar) (o : EllipOpts) (p0 : EllipPar) (pts : List (ℝ × ℝ × FVal)) (s : g.S) :
    Py (EllipPar × List (Option ℝ)) × g.S :=
  let r := fitEllip lm (fun k => Rng.nth (g.permutation pts.length) k s) o p0 pts
  (r, match r with
    | .ok _ => if o.bootstrap then Rng.after (g.permutation pts.length) o.niters s else s
    | .error _ => s)

/-- stats_utils.py:440-449 the draws of one iteration of `estimate_stderrs`. -/
def ellipseDraw (g : Rng) (n : ℕ) (s : g.S) : EllipseDraw n × g.S :=
  let a := g.permutation n s
  let b := g.dirichlet n a.2
  let c := g.signs n b.2
  (⟨drawIdx a.1, fun i => b.1 i, fun i => c.1 i⟩, c.2)

open Classical in
/-- width_estimate.py:380-398 `fit_2D_ellipse` with the draws of its errors (`niters` defaults to 100); nothing is drawn when the fit fails or
`alpha` is refused. -/
noncomputable def ellipseCall (g : Rng) (ext : EllipseExt) {n : ℕ} (pts : Fin n → ℝ × ℝ) (niters : ℕ) (alpha : ℝ) (s : g.S) :
    Py EllipseWidths × g.S :=
  (fit2DEllipseErrs ext pts ((List.range niters).map fun t => Rng.nth (ellipseDraw g n) t s) alpha,
    if ellipseEstimate ext.eig pts = none ∨ alpha < 0 ∨ 1 ≤ alpha then s else Rng.after (ellipseDraw g n) niters s)

/-! ### Histories -/

/-- The external routines. -/
structure RandExt where
  ols : Ols
  lm : LevMar
  ell : EllipseExt

/-- What a program may do with the generator. -/
inductive RandCall where
  /-- the user's own `np.random.seed(n)` -/
  | userSeed (seed : ℕ)
  /-- the user's own `np.random.uniform(size=k)`, up to scale -/
  | userDraw (k : ℕ)
  | bootErrs {n p : ℕ} (m : LinModel n p) (nboot seed : ℕ)
  | bootSamps {n p : ℕ} (m : LinModel n p) (nboot seed : ℕ)
  | bispec (img : Arr2 ℝ) (meanSubtract : Bool) (nsamples seed : ℕ)
  | extended (n : ℕ) (powerlaw theta ellip : ℝ) (returnFft fullFft : Bool) (seed : ℕ)
  | field3d (n : ℕ) (powerlaw amp : ℝ) (seed : ℕ)
  | cramer (cube1 cube2 : Arr3 (Option ℝ)) (noise1 noise2 : Option ℝ) (normalize : Bool)
  | fitEllip (o : EllipOpts) (p0 : EllipPar) (pts : List (ℝ × ℝ × FVal))
  | ellipse {n : ℕ} (pts : Fin n → ℝ × ℝ) (niters : ℕ) (alpha : ℝ)

/-- What a call returns. -/
inductive RandOut where
  | seeded (r : Py Unit)
  | drawn (l : List ℝ)
  | errs {p : ℕ} (r : Py (BootOut p))
  | samps {p : ℕ} (r : Py (List (Fin p → ℝ)))
  | bispec (r : Py BispecOut)
  | extended (r : Py ExtOut)
  | field3d (r : Py (Arr3 ℝ))
  | cramer (r : Py CramerResult)
  | ellip (r : Py (EllipPar × List (Option ℝ)))
  | widths (r : Py EllipseWidths)

/-- One call. -/
noncomputable def runCall (g : Rng) (x : RandExt) : RandCall → g.S → RandOut × g.S
  | .userSeed seed, s => (.seeded (npSeed g seed s).1, (npSeed g seed s).2)
  | .userDraw k, s => (.drawn ((List.range k).map (g.uniform k s).1), (g.uniform k s).2)
  | .bootErrs m nboot seed, s => (.errs (bootCall g x.ols m nboot seed s).1, (bootCall g x.ols m nboot seed s).2)
  | .bootSamps m nboot seed, s => (.samps (bootSampsCall g x.ols m nboot seed s).1, (bootSampsCall g x.ols m nboot seed s).2)
  | .bispec img ms ns seed, s => (.bispec (bispecCall g img ms ns seed s).1, (bispecCall g img ms ns seed s).2)
  | .extended n pl th el rf ff seed, s =>
    (.extended (extendedCall g n pl th el rf ff seed s).1, (extendedCall g n pl th el rf ff seed s).2)
  | .field3d n pl amp seed, s => (.field3d (field3dCall g n pl amp seed s).1, (field3dCall g n pl amp seed s).2)
  | .cramer c1 c2 n1 n2 nm, s => (.cramer (cramerCall g c1 c2 n1 n2 nm s).1, (cramerCall g c1 c2 n1 n2 nm s).2)
  | .fitEllip o p0 pts, s => (.ellip (fitEllipCall g x.lm o p0 pts s).1, (fitEllipCall g x.lm o p0 pts s).2)
  | .ellipse pts niters alpha, s => (.widths (ellipseCall g x.ell pts niters alpha s).1, (ellipseCall g x.ell pts niters alpha s).2)

/-- A program: what its calls return, and the state of the generator at the end. -/
noncomputable def runCalls (g : Rng) (x : RandExt) : List RandCall → g.S → List RandOut × g.S
  | [], s => ([], s)
  | c :: l, s => ((runCall g x c s).1 :: (runCalls g x l (runCall g x c s).2).1, (runCalls g x l (runCall g x c s).2).2)

end TS
