import Verif.Np.Core

/-! Model of the figure handling of the plotting methods: which axes of the current matplotlib figure are used or made, and what is drawn in
them.  The drawing itself is not modelled. -/

namespace TS

/-- What an axis was made for, and what can be drawn: the 2D image, the curve with its fit, the residuals; `bar` is the axis of a colour
bar. -/
inductive AxRole where
  | image | main | resid | bar
  deriving DecidableEq

/-- An axis and what was drawn in it: (dataset, what). -/
structure PAxis where
  role : AxRole
  shows : List (ℕ × AxRole)

/-- The current figure, as the list of its axes in the order of `get_axes`; `[]` when there is none or it is empty. -/
abbrev Fig := List PAxis

/-- The plotting methods: base_pspec2.py:530-766 (`pspec`), delta_variance.py:494-604 and wavelet_transform.py:434-541 (`curve`),
vcs.py:251-345 (`vcs`), scf.py:577-736 (`scf`). -/
inductive FigKind where
  | pspec | curve | vcs | scf
  deriving DecidableEq

/-- Options of a call: `show_2D` or `show_surface`, `show_radial`, `show_residual`, and whether `save_name` is given. -/
structure FigOpts where
  image : Bool
  main : Bool
  resid : Bool
  save : Bool

/-- Whether the image is drawn (base_pspec2.py:622, scf.py:648; the other methods have none). -/
def FigKind.wantsImage (k : FigKind) (o : FigOpts) : Bool :=
  match k with
  | .pspec => o.image
  | .scf => o.image
  | _ => false

/-- Whether the curve is drawn (scf.py:688; always in the others). -/
def FigKind.wantsMain (k : FigKind) (o : FigOpts) : Bool :=
  match k with
  | .scf => o.main
  | _ => true

/-- The local variables for the axes, as positions in the figure; `none` = not assigned. -/
structure AxVars where
  image : Option ℕ
  main : Option ℕ
  resid : Option ℕ

/-- The axes that are made and the variables assigned, given the number of axes.  New axes are added to the old ones (some versions of
matplotlib remove old axes below new ones; not modelled). -/
def pickAxes (k : FigKind) (n : ℕ) (o : FigOpts) : List AxRole × AxVars :=
  match k with
  | .pspec => -- base_pspec2.py:583-618
    if n = 3 then ([], ⟨some 0, some 1, some 2⟩)
    else if n = 2 then
      if o.image then ([], ⟨some 0, some 1, none⟩)
      else if o.resid then ([], ⟨none, some 0, some 1⟩)
      else ([], ⟨none, none, none⟩)
    else if n = 1 then ([], ⟨none, some 0, none⟩)
    else if o.image then
      if o.resid then ([.image, .main, .resid], ⟨some n, some (n + 1), some (n + 2)⟩)
      else ([.image, .main], ⟨some n, some (n + 1), none⟩)
    else if o.resid then ([.main, .resid], ⟨none, some n, some (n + 1)⟩)
    else ([.main], ⟨none, some n, none⟩)
  | .curve => -- delta_variance.py:524-538, wavelet_transform.py:464-478
    if n = 0 then
      if o.resid then ([.main, .resid], ⟨none, some 0, some 1⟩) else ([.main], ⟨none, some 0, none⟩)
    else if n = 1 then ([], ⟨none, some 0, none⟩)
    else ([], ⟨none, some 0, some 1⟩)
  | .vcs => -- vcs.py:279-291
    if n = 2 then ([], ⟨none, some 0, some 1⟩)
    else if n = 1 then ([], ⟨none, some 0, none⟩)
    else if o.resid then ([.main, .resid], ⟨none, some n, some (n + 1)⟩)
    else ([.main], ⟨none, some n, none⟩)
  | .scf => -- scf.py:610-646
    if n = 3 then ([], ⟨some 0, some 1, some 2⟩)
    else if n = 2 then
      if o.image && !o.resid then ([], ⟨some 0, some 1, none⟩) else ([], ⟨none, some 0, some 1⟩)
    else if n = 1 then
      if o.main then ([], ⟨some 0, none, none⟩) else ([], ⟨none, some 0, none⟩)
    else if o.image then
      if o.main then
        if o.resid then ([.image, .main, .resid], ⟨some n, some (n + 1), some (n + 2)⟩)
        else ([.image, .main], ⟨some n, some (n + 1), none⟩)
      else ([.image], ⟨some n, none, none⟩)
    else if o.resid then ([.main, .resid], ⟨none, some n, some (n + 1)⟩)
    else ([.main], ⟨none, some n, none⟩)

/-- Draw something of a dataset in the axis of a variable; a variable that is not assigned raises UnboundLocalError. -/
def drawIn (v : Option ℕ) (d : ℕ) (what : AxRole) (f : Fig) : Py Fig :=
  match v with
  | none => .error .unboundLocal
  | some i => .ok (f.modify i fun a => { a with shows := a.shows ++ [(d, what)] })

/-- base_pspec2.py:634-640, scf.py:650-657 the image and its colour bar, which gets an axis of its own. -/
def drawImage (want : Bool) (v : Option ℕ) (d : ℕ) (f : Fig) : Py Fig := do
  if want then
    let f ← drawIn v d .image f
    return f ++ [⟨.bar, []⟩]
  else return f

/-- The curve or the residuals, when asked for. -/
def drawIf (want : Bool) (v : Option ℕ) (d : ℕ) (what : AxRole) (f : Fig) : Py Fig :=
  if want then drawIn v d what f else .ok f

/-- One call for dataset `d`, up to saving or showing.  Residuals are drawn with the curve only (scf.py:688-728). -/
def figPlot (k : FigKind) (d : ℕ) (o : FigOpts) (f : Fig) : Py Fig := do
  let p := pickAxes k f.length o
  let f ← drawImage (k.wantsImage o) p.2.image d (f ++ p.1.map fun r => ⟨r, []⟩)
  let f ← drawIf (k.wantsMain o) p.2.main d .main f
  drawIf (k.wantsMain o && o.resid) p.2.resid d .resid f

/-- base_pspec2.py:762-766 and the same lines of the others: with `save_name` the figure is closed, otherwise shown.  `keep` is whether the
figure is still the current one after `plt.show()` (so for backends without windows and in interactive mode, but not after a window is
closed). -/
def figDone (keep : Bool) (o : FigOpts) (f : Fig) : Fig := if o.save || !keep then [] else f

/-- A call with its end. -/
def figCall (k : FigKind) (keep : Bool) (f : Fig) (c : ℕ × FigOpts) : Py Fig := do
  let f ← figPlot k c.1 c.2 f
  return figDone keep c.2 f

/-- A sequence of calls. -/
def figRun (k : FigKind) (keep : Bool) : Fig → List (ℕ × FigOpts) → Py Fig
  | f, [] => .ok f
  | f, c :: cs => do
    let f ← figCall k keep f c
    figRun k keep f cs

/-- The plots of `distance_metric` with `verbose`: the figure that is saved or shown at the end.  mvc.py:485-499, pspec.py:385-399,
vca.py:372-386 (`pspec`), delta_variance.py:942-951, wavelet_transform.py:734-747 (`curve`): the legend goes to `axes[0]`; vcs.py:531-538
(`vcs`) asks for none.  `SCF_Distance` does not use `SCF.plot_fit`. -/
def distFigure (k : FigKind) (keep : Bool) (f : Fig) (o1 o2 : FigOpts) : Py Fig := do
  let f ← figCall k keep f (1, o1)
  let f ← figCall k keep f (2, o2)
  if k ≠ .vcs ∧ f = [] then .error .indexError else return f

end TS
