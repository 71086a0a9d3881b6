import Verif.Np.Core
import Mathlib.Logic.Function.Basic

/-! Model of the plot options `plot_kwargs1` and `plot_kwargs2` of the distance classes.

Dictionaries are objects of a heap: a caller may pass the same one to several calls, and a default value `{}` in a signature is one
object that lives as long as the function.  Values are strings; the drawing itself is not modelled, only the options that reach it. -/

namespace TS

/-- Contents of a dictionary of options. -/
abbrev Opts := String → Option String

/-- The dictionaries of a program. -/
abbrev KwHeap := ℕ → Opts

/-- `for key in defaults: if key not in d: d[key] = defaults[key]` (e.g. scf.py:1010-1015). -/
def setMissing (defaults : List (String × String)) (h : KwHeap) (r : ℕ) : KwHeap :=
  defaults.foldl (fun h kv => if (h r kv.1).isNone then Function.update h r (Function.update (h r) kv.1 (some kv.2)) else h) h

/-- `if k in d: del d[k]` (e.g. mvc.py:480-483). -/
def dropKey (k : String) (h : KwHeap) (r : ℕ) : KwHeap := Function.update h r (Function.update (h r) k none)

/-- How the options reach the plot: as keyword arguments of a method with the given remaining keywords, or by looking up some keys. -/
inductive PlotUse where
  | pass (accepted : List String)
  | read (keys : List String)

/-- What the plotting part of a function does with its options. -/
structure PlotStyle where
  defaults1 : List (String × String)
  defaults2 : List (String × String)
  dropsUnit : Bool
  use : PlotUse

/-- The functions with plot options; `dendroHist`, `dendroNum` and `dendroBoth` are `histogram_stat`, `numfeature_stat` and
`distance_metric` of `Dendrogram_Distance`, the others the `distance_metric` of their class. -/
inductive PlotFn where
  | pca | wavelet | dendroHist | dendroNum | mvc | deltaVariance | scf | moments | pspec | vca | vcs | pdf
  | dendroBoth
  deriving DecidableEq

/-- pca.py:1163-1164 and the same lines of the other functions. -/
def symbols1 : List (String × String) := [("color", "b"), ("symbol", "D"), ("label", "1")]
/-- pca.py:1164 and the same lines of the other functions. -/
def symbols2 : List (String × String) := [("color", "g"), ("symbol", "o"), ("label", "2")]
/-- scf.py:1007, compare_pdf.py:722. -/
def markers1 : List (String × String) := [("color", "b"), ("marker", "D"), ("label", "1")]
/-- scf.py:1008, compare_pdf.py:723. -/
def markers2 : List (String × String) := [("color", "g"), ("marker", "o"), ("label", "2")]

/-- base_pspec2.py:530-533 keywords of `plot_fit` other than `xunit` and `use_wavenumber`, which the callers set (mvc.py:485-490,
pspec.py:385-390, vca.py:372-377). -/
def pspecPlotKeys : List String := ["show_2D", "show_residual", "color", "fit_color", "label", "fillin_errs", "symbol", "save_name"]
/-- delta_variance.py:494-496, wavelet_transform.py:434-436, vcs.py:251-252 keywords other than `xunit`. -/
def curvePlotKeys : List String := ["save_name", "symbol", "color", "fit_color", "label", "show_residual"]

/-- The plotting parts: pca.py:1163-1210, wavelet_transform.py:718-737, dendro_stats.py:774-826 and 647-677 (the first of them is also what `distance_metric` does first, 872-874), mvc.py:469-490,
delta_variance.py:926-943, scf.py:1007-1059, highstatmoments.py:696-740, pspec.py:369-390, vca.py:356-377, vcs.py:515-532,
compare_pdf.py:722-840. -/
def plotStyle : PlotFn → PlotStyle
  | .pca => ⟨symbols1, symbols2, true, .read ["color", "label"]⟩
  | .wavelet => ⟨symbols1, symbols2, true, .pass curvePlotKeys⟩
  | .dendroHist => ⟨symbols1, symbols2, true, .read ["color", "symbol", "label"]⟩
  | .dendroNum => ⟨symbols1, symbols2, true, .read ["color", "symbol", "label"]⟩
  | .mvc => ⟨symbols1, symbols2, true, .pass pspecPlotKeys⟩
  | .deltaVariance => ⟨symbols1, symbols2, true, .pass curvePlotKeys⟩
  | .scf => ⟨markers1, markers2, false, .read ["color", "marker", "label"]⟩
  | .moments => ⟨[("color", "b"), ("label", "1")], [("color", "g"), ("label", "2")], false, .read ["color", "label"]⟩
  | .pspec => ⟨symbols1, symbols2, true, .pass pspecPlotKeys⟩
  | .vca => ⟨symbols1, symbols2, true, .pass pspecPlotKeys⟩
  | .vcs => ⟨symbols1, symbols2, true, .pass curvePlotKeys⟩
  | .pdf => ⟨markers1, markers2, false, .read ["color", "marker", "label"]⟩
  | .dendroBoth => ⟨symbols1, symbols2, true, .read ["color", "symbol", "label"]⟩

open Classical in
/-- The options that reach the plot; an unexpected keyword raises TypeError. -/
noncomputable def drawnOpts (u : PlotUse) (o : Opts) : Py Opts :=
  match u with
  | .pass accepted => if ∃ k, k ∉ accepted ∧ (o k).isSome then .error .typeError else .ok o
  | .read keys => .ok fun k => if k ∈ keys then o k else none

/-- The changes made to the dictionaries before plotting. -/
def fillOptions (s : PlotStyle) (h : KwHeap) (r1 r2 : ℕ) : KwHeap :=
  let h := setMissing s.defaults2 (setMissing s.defaults1 h r1) r2
  if s.dropsUnit then dropKey "xunit" (dropKey "xunit" h r1) r2 else h

/-- One call with `verbose`, with dictionaries `r1` and `r2`: the dictionaries afterwards and the options of the two datasets in the
plot. -/
noncomputable def plotBlock (f : PlotFn) (verbose : Bool) (h : KwHeap) (r1 r2 : ℕ) : KwHeap × Py (Option (Opts × Opts)) :=
  if verbose then
    let s := plotStyle f
    let h := fillOptions s h r1 r2
    (h, do
      let o1 ← drawnOpts s.use (h r1)
      let o2 ← drawnOpts s.use (h r2)
      return some (o1, o2))
  else (h, .ok none)

/-- One call of a program: the function, `verbose`, and the dictionaries given (`none`: not given). -/
structure PlotCmd where
  fn : PlotFn
  verbose : Bool
  arg1 : Option ℕ
  arg2 : Option ℕ

/-- The objects in the signatures, `plot_kwargs1={}` and `plot_kwargs2={}`; every function has its own two. -/
def sigRef : PlotFn → ℕ × ℕ
  | .pca => (0, 1) | .wavelet => (2, 3) | .dendroHist => (4, 5) | .dendroNum => (6, 7) | .mvc => (8, 9) | .deltaVariance => (10, 11)
  | .scf => (12, 13) | .moments => (14, 15) | .pspec => (16, 17) | .vca => (18, 19) | .vcs => (20, 21) | .pdf => (22, 23)
  | .dendroBoth => (24, 25)

/-- A call with its defaults. -/
noncomputable def plotExec (h : KwHeap) (c : PlotCmd) : KwHeap × Py (Option (Opts × Opts)) :=
  plotBlock c.fn c.verbose h (c.arg1.getD (sigRef c.fn).1) (c.arg2.getD (sigRef c.fn).2)

/-- The dictionaries after a sequence of calls; a call that raises leaves its changes behind. -/
noncomputable def plotRun (h : KwHeap) (cs : List PlotCmd) : KwHeap := cs.foldl (fun h c => (plotExec h c).1) h

/-- Contents of the signature objects when the modules are loaded: scf.py:959-962, compare_pdf.py:668-671, highstatmoments.py:659-660 list
their values, the others are `{}`. -/
def sigContents : PlotFn → List (String × String) × List (String × String)
  | .scf => (markers1, markers2)
  | .pdf => (markers1, markers2)
  | .moments => ([("color", "b"), ("label", "1")], [("color", "g"), ("label", "2")])
  | _ => ([], [])

/-- dendro_stats.py:872-878 the plots of `Dendrogram_Distance.distance_metric`: the same dictionaries go to both.  (`plotBlock .dendroBoth`
is the first of the two; the second changes nothing more, `C95_dendro`.) -/
noncomputable def dendroPlots (verbose : Bool) (h : KwHeap) (r1 r2 : ℕ) :
    KwHeap × Py (Option (Opts × Opts)) × Py (Option (Opts × Opts)) :=
  let a := plotBlock .dendroHist verbose h r1 r2
  let b := plotBlock .dendroNum verbose a.1 r1 r2
  (b.1, a.2, b.2)

end TS
