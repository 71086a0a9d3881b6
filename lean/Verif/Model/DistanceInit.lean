import Verif.Np.Core
import Mathlib.Data.Real.Basic

/-!
Model of what the constructors of the Distance classes do with their two inputs: which of them is
(re)computed and with which options.  Simplified: the computation itself and the warnings are not
modelled, a run is the record of its options.
-/

namespace TS

/-- An input of a Distance class: raw data, or an object of the statistic's class that has (or has not)
been run. -/
inductive Given where
  | raw
  | object (computed : Bool)
  deriving DecidableEq

/-- What the constructor does with one dataset: keep the result it carries, or run with options. -/
inductive Act (O : Type*) where
  | keep
  | run (o : O)

/-- `breaks`: one value for both datasets or a pair. -/
inductive Breaks (B : Type*) where
  | one (b : B)
  | two (b1 b2 : B)

/-- `breaks = [breaks] * 2` unless it is a list or array (vca.py:270-271 and the same lines in the
other classes). -/
def Breaks.pair {B : Type*} : Breaks B → B × B
  | .one b => (b, b)
  | .two a b => (a, b)

/-- Options of a power-spectrum type run. -/
structure PsOpts (B L K : Type*) where
  brk : B
  low : L
  high : L
  kwargs : K

/-- `isinstance(...)`, `hasattr(..., '_slope')` and the run decision, identical in these classes. -/
def needsRun : Given → Bool
  | .raw => true
  | .object computed => !computed

/-- Run with the options or keep. -/
def actOf {O : Type*} (g : Given) (o : O) : Act O := if needsRun g then .run o else .keep

/-- mvc.py:345-425 `MVC_Distance.__init__` (`low`, `high` are the pairs of `check_fit_limits`). -/
def mvcInit {B L K : Type*} (d1 d2 : Given) (breaks : Breaks B) (low high : L × L) (kw : K)
    (kw2 : Option K) : Act (PsOpts B L K) × Act (PsOpts B L K) :=
  let b := breaks.pair
  let k2 := kw2.getD kw
  (actOf d1 ⟨b.1, low.1, high.1, kw⟩, actOf d2 ⟨b.2, low.2, high.2, k2⟩)

/-- vca.py:263-312 `VCA_Distance.__init__`: line 311 hands `radial_pspec_kwargs` to the second cube. -/
def vcaInit {B L K : Type*} (d1 d2 : Given) (breaks : Breaks B) (low high : L × L) (kw : K)
    (_kw2 : Option K) : Act (PsOpts B L K) × Act (PsOpts B L K) :=
  let b := breaks.pair
  (actOf d1 ⟨b.1, low.1, high.1, kw⟩, actOf d2 ⟨b.2, low.2, high.2, kw⟩)

/-- vcs.py:422-457 `VCS_Distance.__init__`. -/
def vcsDistInit {B K : Type*} (d1 d2 : Given) (breaks : Breaks B) (kw : K) (kw2 : Option K) :
    Act (B × K) × Act (B × K) :=
  let b := breaks.pair
  let k2 := kw2.getD kw
  (actOf d1 (b.1, kw), actOf d2 (b.2, k2))

/-- wavelet_transform.py:642-679 `Wavelet_Distance.__init__`. -/
def waveletInit {L K : Type*} (d1 d2 : Given) (xlow xhigh : L × L) (kw : K) (kw2 : Option K) :
    Act (L × L × K) × Act (L × L × K) :=
  let k2 := kw2.getD kw
  (actOf d1 (xlow.1, xhigh.1, kw), actOf d2 (xlow.2, xhigh.2, k2))

/-- bispec.py:536-566 `Bispectrum_Distance.__init__` (one set of options for both). -/
def bispecInit {K : Type*} (d1 d2 : Given) (kw : K) : Act K × Act K := (actOf d1 kw, actOf d2 kw)

/-! ### Keyword dictionaries -/

/-- A dictionary of keyword arguments. -/
abbrev KwDict (V : Type*) := String → Option V

/-- `d.pop(key, None)`. -/
def KwDict.pop {V : Type*} (d : KwDict V) (key : String) : KwDict V :=
  fun s => if s = key then none else d s

/-- `f(k1=..., k2=..., **d)`: TypeError when `d` repeats a key. Simplified: keys unknown to `f` are
not checked. -/
def callKw {V α : Type*} (explicit : List String) (d : KwDict V) (r : α) : Py α :=
  if explicit.any (fun s => (d s).isSome) then .error .typeError else .ok r

/-- `if needs_run: <run>`: without it the given object is kept. -/
def whenNeeded {O : Type*} (needs : Bool) (run : Py (Act O)) : Py (Act O) :=
  if needs then run else .ok .keep

/-- pspec.py:282-294 / 309-321 the run of one dataset: `low_cut`, `high_cut` and `fit_2D` are dropped
from a copy of the dictionary; `fit_kwargs` stays in it and is also given explicitly. -/
def pspecRun {B L V : Type*} (o : PsOpts B L (KwDict V)) : Py (Act (PsOpts B L (KwDict V))) :=
  let kw := ((o.kwargs.pop "low_cut").pop "high_cut").pop "fit_2D"
  callKw ["low_cut", "high_cut", "fit_kwargs", "fit_2D"] kw (.run { o with kwargs := kw })

/-- pspec.py:257-324 `PSpec_Distance.__init__`. -/
def pspecInit {B L V : Type*} (d1 d2 : Given) (breaks : Breaks B) (low high : L × L)
    (kw : KwDict V) (kw2 : Option (KwDict V)) :
    Py (Act (PsOpts B L (KwDict V)) × Act (PsOpts B L (KwDict V))) := do
  let b := breaks.pair
  let k2 := kw2.getD kw
  let a1 ← whenNeeded (needsRun d1) (pspecRun ⟨b.1, low.1, high.1, kw⟩)
  let a2 ← whenNeeded (needsRun d2) (pspecRun ⟨b.2, low.2, high.2, k2⟩)
  return (a1, a2)

/-! ### Dendrogram_Distance -/

/-- A `Dendrogram_Stats` input: raw data, or an object with its own `min_deltas`. -/
inductive DendroIn where
  | raw
  | object (hasSlope : Bool) (minDeltas : List ℝ)

/-- dendro_stats.py:546-551, 569-574 whether an object is re-run; different numbers of deltas make the
comparison raise. -/
noncomputable def dendroNeeds (minDeltas : List ℝ) : DendroIn → Py Bool
  | .raw => .ok true
  | .object hasSlope own =>
    if own.length = minDeltas.length then .ok (!hasSlope || !decide (own = minDeltas))
    else .error .valueError

/-- The deltas a run uses: new objects get the requested ones, given objects keep their own. -/
def dendroDeltas (minDeltas : List ℝ) : DendroIn → List ℝ
  | .raw => minDeltas
  | .object _ own => own

/-- dendro_stats.py:506-609 `Dendrogram_Distance.__init__` up to the feature counts.  Both branches pop
`make_hists` and `verbose` from `dendro_kwargs`, also for the second dataset, whose run gets
`dendro2_kwargs` (the same dictionary object when `None` was given). -/
noncomputable def dendroInit {V : Type} (minDeltas : List ℝ) (d1 d2 : DendroIn) (kw : KwDict V)
    (kw2 : Option (KwDict V)) : Py (Act (List ℝ × KwDict V) × Act (List ℝ × KwDict V)) := do
  let n1 ← dendroNeeds minDeltas d1
  let popped := (kw.pop "make_hists").pop "verbose"
  let a1 ← whenNeeded n1
    (callKw ["verbose", "make_hists"] popped (Act.run (dendroDeltas minDeltas d1, popped)))
  let n2 ← dendroNeeds minDeltas d2
  let k2 := kw2.getD popped
  let a2 ← whenNeeded n2 (callKw ["verbose", "make_hists"] k2 (Act.run (dendroDeltas minDeltas d2, k2)))
  return (a1, a2)

/-! ### SCF_Distance -/

/-- An SCF input: raw data, or an object with its lags in pixels. -/
inductive ScfIn where
  | raw
  | object (hasSpectrum : Bool) (lags : List ℝ)

/-- scf.py:863-885 the lags for both datasets.  Line 869 tests dataset 1 for the lags of dataset 2:
reading the object of a raw second dataset is an AttributeError.  Different numbers of lags make the
comparison raise. -/
noncomputable def scfCommonLags (default : List ℝ) (scale : ℝ) (d1 d2 : ScfIn) :
    Py (List ℝ × List ℝ) :=
  if scale = 1 then do
    let l1 := match d1 with
      | .raw => default
      | .object _ l => l
    let l2 ← match d1 with
      | .raw => .ok default
      | .object _ _ => match d2 with
        | .raw => .error .attributeError
        | .object _ l => .ok l
    if l1 = l2 then .ok (l1, l2) else .error .valueError
  else if 1 < scale then .ok (default.map (fun t => scale * t), default)
  else .ok (default, default.map (fun t => t / scale))

/-- scf.py:896-919 / 927-950 what happens to one dataset: a different number of lags counts as
matching (line 900). -/
noncomputable def scfAct (lags : List ℝ) : ScfIn → Act (List ℝ)
  | .raw => .run lags
  | .object hasSpectrum own =>
    let lagCheck := if lags.length ≠ own.length then true else decide (lags = own)
    if !lagCheck then .run lags
    else if !hasSpectrum then .run own
    else .keep

/-- scf.py:831-955 `SCF_Distance.__init__` (`scale` is the result of `common_scale`). -/
noncomputable def scfInit (default : List ℝ) (scale : ℝ) (d1 d2 : ScfIn) :
    Py (Act (List ℝ) × Act (List ℝ)) := do
  let l ← scfCommonLags default scale d1 d2
  return (scfAct l.1 d1, scfAct l.2 d2)

/-! ### DeltaVariance_Distance -/

/-- A DeltaVariance input: raw data, or an object with its lags. -/
inductive DvIn where
  | raw
  | object (hasSlope : Bool) (lags : List ℝ)

/-- delta_variance.py:790-806 / 811-826 what happens to one dataset: an object with other lags is run
again but its lags are not set; one without a slope is run (`kwNoSlope`) with the common lags.
Different numbers of lags make the comparison raise. -/
noncomputable def dvAct {K : Type*} (lags : List ℝ) (kw kwNoSlope : K) : DvIn → Py (Act (List ℝ × K))
  | .raw => .ok (.run (lags, kw))
  | .object hasSlope own =>
    if own.length ≠ lags.length then .error .valueError
    else if own ≠ lags then .ok (.run (own, kw))
    else if !hasSlope then .ok (.run (lags, kwNoSlope))
    else .ok .keep

/-- delta_variance.py:711-826 `DeltaVariance_Distance.__init__`.  The second `isinstance` test looks at
`dataset1` (line 723, after `dataset1` was replaced by the loaded data when raw), so the second input
is treated like the first: an object as second input of a raw first one is refused by `input_data`
(TypeError), raw data as second input of an object has no `_wcs` (AttributeError).  Without common lags
`lags2` is read before assignment (line 780).  `lags` are the common lags in pixels. -/
noncomputable def dvInit {K : Type} (common : Bool) (lags : List ℝ) (scale : ℝ) (d1 d2 : DvIn) (kw : K)
    (kw2 : Option K) : Py (Act (List ℝ × K) × Act (List ℝ × K)) := do
  match d1, d2 with
  | .raw, .object _ _ => .error .typeError
  | _, _ =>
    if !common then .error .unboundLocal
    else match d1, d2 with
      | .object _ _, .raw => .error .attributeError
      | _, _ => do
        let l1 := if 1 < scale then lags.map (fun t => scale * t) else lags
        let l2 := if scale < 1 then lags.map (fun t => t / scale) else lags
        let a1 ← dvAct l1 kw kw d1
        let a2 ← dvAct l2 (kw2.getD kw) kw d2
        return (a1, a2)

/-! ### PCA_Distance and StatMoments_Distance -/

/-- A PCA input: raw data, or an object that has (`some` number of eigenvalues) or has not been run. -/
inductive PcaIn where
  | raw
  | object (neigvals : Option ℕ)

/-- pca.py:1073-1095 / 1097-1119 one dataset: an object with eigenvalues is kept when it has more than
`n_eigs` of them (`n_eigs <= 0` is refused by the setter). -/
def pcaAct (nEigs : ℤ) (meanSub : Bool) : PcaIn → Py (Act (Bool × ℤ))
  | .raw => .ok (.run (meanSub, nEigs))
  | .object none => .ok (.run (meanSub, nEigs))
  | .object (some k) =>
    if nEigs ≤ 0 then .error .valueError
    else if (k : ℤ) ≤ nEigs then .error .valueError
    else .ok .keep

/-- `n_eigs` as given: the word 'auto' or a number. -/
inductive NEigsArg where
  | auto
  | num (k : ℤ)

/-- pca.py:1062-1122 `PCA_Distance.__init__`. -/
def pcaInit (nEigs : NEigsArg) (meanSub : Bool) (d1 d2 : PcaIn) :
    Py (Act (Bool × ℤ) × Act (Bool × ℤ)) :=
  match nEigs with
  | .auto => .error .valueError
  | .num k => do
    let a1 ← pcaAct k meanSub d1
    let a2 ← pcaAct k meanSub d2
    return (a1, a2)

/-- A StatMoments input: raw data, or an object with its radius in pixels. -/
inductive MomIn where
  | raw
  | object (computed : Bool) (radius : ℝ)

/-- highstatmoments.py:573-601 / 603-628 one dataset: re-run when not computed or when the radius is off
by a pixel or more; the radius is set only in the latter case. -/
noncomputable def momAct (radius : ℝ) (periodic : Bool) : MomIn → Act (ℝ × Bool)
  | .raw => .run (radius, periodic)
  | .object computed own =>
    if 1 ≤ |own - radius| then .run (radius, periodic)
    else if !computed then .run (own, periodic)
    else .keep

/-- highstatmoments.py:528-628 `StatMoments_Distance.__init__` for a radius in pixels and the scale ratio
of the two grids. -/
noncomputable def momInit (radius scale : ℝ) (p1 p2 : Bool) (d1 d2 : MomIn) :
    Act (ℝ × Bool) × Act (ℝ × Bool) :=
  let r1 := if 1 < scale then scale * radius else radius
  let r2 := if scale < 1 then radius / scale else radius
  (momAct r1 p1 d1, momAct r2 p2 d2)

end TS
