import Verif.Model.DistribPlots
import Verif.Model.Dendro
import Verif.Lemmas.PlawFit
import Verif.Props.C51
import Verif.Props.C82
import Verif.Props.C96
import Mathlib.Tactic.Linarith
import Mathlib.Tactic.FieldSimp
import Mathlib.Tactic.NormNum
import Mathlib.Tactic.Positivity

/-! C101 — what the plots of distributions, of genus curves, of dendrograms and of the size-linewidth relation show. -/

namespace TS

namespace Spec

/-- A parameter vector of a fit in which `loc` or `scale` may be fixed: the shapes, then those of the two that are not. -/
def FittedAs (f : FitFixes) (ps sh : List ℝ) (loc sc : ℝ) : Prop :=
  ps = sh ++ (if f.floc then [] else [loc]) ++ (if f.fscale then [] else [sc]) ∧
    (f.floc = true → loc = f.loc) ∧ (f.fscale = true → sc = f.scale)

/-- Log-likelihood of the data, `none` when it is minus infinity. -/
noncomputable def logLik (logpdf : List ℝ → ℝ → ℝ → ℝ → Option ℝ) (sh : List ℝ) (loc sc : ℝ) (data : List ℝ) : Option ℝ :=
  (data.mapM (logpdf sh loc sc)).map List.sum

/-- `a ≤ b`, where `none` is minus infinity. -/
def LeInf : Option ℝ → Option ℝ → Prop
  | none, _ => True
  | some _, none => False
  | some a, some b => a ≤ b

/-- An optimiser that returns as many parameters as it is given, none better. -/
def FindsLargest (opt : (List ℝ → Py (Option ℝ)) → List ℝ → Py (List ℝ)) : Prop :=
  ∀ ll p0 r, opt ll p0 = .ok r → r.length = p0.length ∧
    ∀ p a b, p.length = r.length → ll p = .ok a → ll r = .ok b → LeInf a b

/-- The curve of `g` at 1000 places from `a` to `b`. -/
def CurveOf (g : ℝ → ℝ) (a b : ℝ) (c : List (ℝ × ℝ)) : Prop :=
  c.length = 1000 ∧ (∀ q ∈ c, q.2 = g q.1) ∧ (c.head?.map Prod.fst = some a) ∧ (c.getLast?.map Prod.fst = some b) ∧
    (a < b → (c.map Prod.fst).Pairwise (· < ·))

/-- One channel measures `k` of the unit. -/
def ChannelSize (h : SpecHeader) (u : SpecUnit) (k : ℝ) : Prop := 0 < k ∧ toSpectral h 1 .pix u = .ok k

/-- Widths are positive or missing. -/
def PosWidths (ws : List WidthPt) : Prop := ∀ p ∈ ws, (∀ x, p.x = some x → 0 < x) ∧ ∀ y, p.y = some y → 0 < y

end Spec
open Spec

/-! ### PDF -/

private theorem shown_of {f : FitFixes} {ps sh : List ℝ} {loc sc : ℝ} (h : FittedAs f ps sh loc sc) :
    shownParams f ps = .ok (sh, loc, sc) := by
  obtain ⟨rfl, h1, h2⟩ := h
  obtain ⟨fl, l, fs, s⟩ := f
  cases fl <;> cases fs <;> simp_all [shownParams, fromEnd, bind, Except.bind, pure, Except.pure]

private theorem split_of {f : FitFixes} {ps sh : List ℝ} {loc sc : ℝ} (h : FittedAs f ps sh loc sc)
    (hf : ¬ (f.floc = true ∧ f.fscale = true)) : splitParams f ps = .ok (sh, loc, sc) := by
  obtain ⟨rfl, h1, h2⟩ := h
  obtain ⟨fl, l, fs, s⟩ := f
  cases fl <;> cases fs <;> simp_all [splitParams, fromEnd, bind, Except.bind, pure, Except.pure]

private theorem curve_of (g : ℝ → ℝ) (b : ℝ) (t : List ℝ) :
    CurveOf g b ((b :: t).getLastD b) (((List.range 1000).map (linspace b ((b :: t).getLastD b) 1000).get).map fun x => (x, g x)) := by
  refine ⟨by simp, ?_, ?_, ?_, ?_⟩
  · intro q hq
    obtain ⟨x, _, rfl⟩ := List.mem_map.1 hq
    rfl
  · rw [show (1000 : ℕ) = 999 + 1 from rfl, List.range_succ_eq_map]
    simp [linspace]
  · rw [show List.range 1000 = List.range 999 ++ [999] from List.range_succ]
    rw [List.map_append, List.map_append, List.map_singleton, List.map_singleton, List.getLast?_append]
    have := linspace_last b ((b :: t).getLastD b) (num := 1000) (by norm_num)
    simpa using this
  · intro hab
    rw [List.map_map]
    have e : (Prod.fst ∘ fun x => (x, g x)) = (id : ℝ → ℝ) := rfl
    rw [e, List.map_id, List.pairwise_map]
    exact List.pairwise_lt_range.imp fun h => linspace_strictMono hab (by norm_num) h

/-- **C101 (PDF).** After a fit that succeeds, `plot_distrib` shows the PDF and, from the first to the last bin, the density with the
parameters of the fit; so does the panel of the cumulative distribution when the data are normalised. Missing: data that are not
normalised (`C101_pdf_cdf_violated`), refits and failed fits (`C101_refit_violated`, `C101_failed_violated`). -/
theorem C101_pdf_partial (o o' : PdfState) (m : DistModel) (f : FitFixes) (ty : String) (start : Py (List ℝ))
    (opt : List ℝ → Py (List ℝ)) (h : o.fit m f ty start opt = (o', none)) :
    ∃ p0 ps, start = .ok p0 ∧ opt p0 = .ok ps ∧ ∀ sh loc sc, FittedAs f ps sh loc sc → ∀ b t, o.bins = b :: t → ∀ e : Bool,
      ∃ d c, plotDistrib o' e = .ok d ∧ d.points = o.bins.zip o.pdf ∧ d.curve = some c ∧
        CurveOf (m.pdf sh loc sc) b (o.bins.getLastD b) c ∧ (d.ecdf = if e then some (o.bins.zip o.ecdf) else none) ∧
        (e = false → d.ecurve = none) ∧
        (e = true → o.norm ≠ none → ∃ c', d.ecurve = some c' ∧ CurveOf (m.cdf sh loc sc) b (o.bins.getLastD b) c') := by
  unfold PdfState.fit at h
  split_ifs at h with h1
  · cases h
  · cases start with
    | error e => cases h
    | ok p0 =>
      cases ho : opt p0 with
      | error e => simp only [ho] at h; cases h
      | ok ps =>
        simp only [ho] at h
        injection h with h _
        subst h
        refine ⟨p0, ps, rfl, ho, ?_⟩
        intro sh loc sc hfit b t hb e
        have hs := shown_of hfit
        refine ⟨_, _, by
          simp only [plotDistrib, pdfCurves, orRaise, hb, shownVals, hs, bind, Except.bind, pure, Except.pure, if_true]; rfl,
          by simp only [hb], rfl, ?_, by simp only [hb], ?_, ?_⟩
        · rw [hb]; exact curve_of _ b t
        · rintro rfl; rfl
        · rintro rfl hn
          refine ⟨_, rfl, ?_⟩
          simp only [hn, if_false]
          rw [hb]; exact curve_of _ b t

/-- **C101 (maximum likelihood).** With an optimiser that finds the maximum, the density drawn is the one with the largest likelihood
of the data among all with as many shapes and the same fixed parameters. -/
theorem C101_pdf_likelihood (sfit : List ℝ → Option ℝ → Option ℝ → Py (List ℝ)) (opt : (List ℝ → Py (Option ℝ)) → List ℝ → Py (List ℝ))
    (hopt : FindsLargest opt) (logpdf : List ℝ → ℝ → ℝ → ℝ → Option ℝ) (f : FitFixes) (hf : ¬ (f.floc = true ∧ f.fscale = true))
    (data : List ℝ) (o o' : PdfState) (m : DistModel)
    (h : o.fit m f "mle" (initParams sfit f data) (opt (loglike logpdf f data)) = (o', none)) :
    ∀ ps sh loc sc, o'.params = some ps → FittedAs f ps sh loc sc → o'.fixes = some f ∧
      ∀ ps' sh' loc' sc', FittedAs f ps' sh' loc' sc' → sh'.length = sh.length →
        LeInf (logLik logpdf sh' loc' sc' data) (logLik logpdf sh loc sc data) := by
  intro ps sh loc sc hp hfit
  unfold PdfState.fit at h
  rw [if_neg (by simp)] at h
  cases hs : initParams sfit f data with
  | error e => simp only [hs] at h; cases h
  | ok p0 =>
    cases ho : opt (loglike logpdf f data) p0 with
    | error e => simp only [hs, ho] at h; cases h
    | ok r =>
      simp only [hs, ho] at h
      injection h with h _
      subst h
      injection hp with hp
      subst hp
      refine ⟨rfl, ?_⟩
      intro ps' sh' loc' sc' hfit' hlen
      refine (hopt _ _ _ ho).2 ps' _ _ ?_ ?_ ?_
      · rw [hfit.1, hfit'.1]
        cases f.floc <;> cases f.fscale <;> simp [hlen]
      · simp only [loglike, split_of hfit' hf, bind, Except.bind, pure, Except.pure]; rfl
      · simp only [loglike, split_of hfit hf, bind, Except.bind, pure, Except.pure]; rfl

open Classical in
/-- There is such an optimiser, and it succeeds when there is a maximum. -/
example : ∃ opt, FindsLargest opt ∧ ∃ r, opt (fun p => .ok (some (-(p.headD 0) ^ 2))) [1] = .ok r := by
  refine ⟨fun ll p0 => if h : ∃ r : List ℝ, r.length = p0.length ∧ ∀ p a b, p.length = r.length → ll p = .ok a → ll r = .ok b → LeInf a b
    then .ok h.choose else .error .runtimeError, ?_, ?_⟩
  · intro ll p0 r hr
    by_cases h : ∃ r : List ℝ, r.length = p0.length ∧ ∀ p a b, p.length = r.length → ll p = .ok a → ll r = .ok b → LeInf a b
    · simp only [dif_pos h] at hr
      injection hr with hr
      rw [← hr]
      exact h.choose_spec
    · simp only [dif_neg h] at hr
      cases hr
  · refine ⟨_, dif_pos ⟨[0], rfl, ?_⟩⟩
    intro p a b _ ha hb
    injection ha with ha
    injection hb with hb
    subst ha hb
    simpa [LeInf] using sq_nonneg (p.headD 0)

/-- A model, data and fit that succeed: one shape, `loc` fixed to 2. -/
example : ∃ o', PdfState.fit ⟨some "center", [0, 1], [1 / 2, 1 / 2], [1 / 2, 1], false, none, none, none⟩
      ⟨fun _ _ _ x => x, fun _ _ _ x => x⟩ { loc := 2 } "mle" (.ok [1, 3]) (fun p => .ok p) = (o', none) ∧
    o'.params = some [1, 3] ∧ FittedAs { loc := 2 } [1, 3] [1] 2 3 := by
  refine ⟨_, by simp [PdfState.fit]; rfl, rfl, ?_⟩
  simp [FittedAs]

/-- **C101 (violation).** Without normalisation the fitted cumulative distribution is drawn with `loc = 0` instead of the fitted or fixed
`loc`: for a distribution that increases everywhere and a `loc` other than 0, every point of that curve is wrong, next to a density that
is right. -/
theorem C101_pdf_cdf_violated (o : PdfState) (m : DistModel) (f : FitFixes) (ps sh : List ℝ) (loc sc b : ℝ) (t : List ℝ)
    (G : ℝ → ℝ) (hG : StrictMono G) (hm : ∀ l x, m.cdf sh l sc x = G ((x - l) / sc)) (hsc : 0 < sc) (hloc : loc ≠ 0)
    (hfit : FittedAs f ps sh loc sc) (hb : o.bins = b :: t) (hn : o.norm = none)
    (ho : o.doFit = true ∧ o.fixes = some f ∧ o.model = some m ∧ o.params = some ps) :
    ∃ d c c', plotDistrib o true = .ok d ∧ d.curve = some c ∧ d.ecurve = some c' ∧ CurveOf (m.pdf sh loc sc) b (o.bins.getLastD b) c ∧
      c'.length = 1000 ∧ ∀ q ∈ c', q.2 ≠ m.cdf sh loc sc q.1 := by
  obtain ⟨h1, h2, h3, h4⟩ := ho
  refine ⟨_, _, _, by
    simp only [plotDistrib, pdfCurves, h1, h2, h3, h4, hn, orRaise, hb, shownVals, shown_of hfit, bind, Except.bind, pure, Except.pure,
      if_true]; rfl, rfl, rfl, ?_, by simp, ?_⟩
  · rw [hb]; exact curve_of _ b t
  · intro q hq
    obtain ⟨x, _, rfl⟩ := List.mem_map.1 hq
    show m.cdf sh 0 sc x ≠ m.cdf sh loc sc x
    rw [hm, hm]
    intro h
    have := hG.injective h
    rw [div_left_inj' hsc.ne'] at this
    exact hloc (by linarith)

/-- A normal-like distribution fitted with a free `loc`. -/
example : StrictMono (id : ℝ → ℝ) ∧ FittedAs ⟨false, 0, false, 1⟩ [3, 2] [] 3 2 := ⟨strictMono_id, by simp [FittedAs]⟩

/-- **C101 (violation).** A second fit that fails, from its starting values on, leaves the parameters of the first fit under the options
of the second, and the plot mixes them: after a fit with one shape and `loc` fixed, then one with `scale` fixed that fails, the fitted
scale is drawn as `loc`, with the fixed value as scale. -/
theorem C101_refit_violated (o o1 o2 : PdfState) (m m2 : DistModel) (ty ty2 : String) (start start2 : Py (List ℝ))
    (opt opt2 : List ℝ → Py (List ℝ)) (f2 : FitFixes) (hf2 : f2.floc = false ∧ f2.fscale = true) (s k l e b : ℝ) (t : List ℝ) (err : PyErr)
    (hb : o.bins = b :: t)
    (h1 : o.fit m ⟨true, l, false, e⟩ ty start opt = (o1, none)) (hp : o1.params = some [s, k]) (hs2 : start2 = .error err)
    (ht2 : ty2 = "mle" ∨ ty2 = "mcmc") (h2 : o1.fit m2 f2 ty2 start2 opt2 = (o2, some err)) :
    ∃ d1 c1 d2 c2, plotDistrib o1 false = .ok d1 ∧ d1.curve = some c1 ∧ CurveOf (m.pdf [s] l k) b (o.bins.getLastD b) c1 ∧
      plotDistrib o2 false = .ok d2 ∧ d2.curve = some c2 ∧ CurveOf (m.pdf [s] k f2.scale) b (o.bins.getLastD b) c2 := by
  obtain ⟨p0, ps, hst, hop, hall⟩ := C101_pdf_partial o o1 m _ ty start opt h1
  unfold PdfState.fit at h1
  split_ifs at h1 with hty
  · cases h1
  · subst hst
    simp only [hop] at h1
    injection h1 with h1 _
    subst h1
    injection hp with hp
    subst hp
    obtain ⟨d, c, hd, _, hc, hcv, _⟩ := hall [s] l k (by simp [FittedAs]) b t hb false
    have hty2 : ¬ (ty2 ≠ "mle" ∧ ty2 ≠ "mcmc") := by rcases ht2 with h | h <;> simp [h]
    subst hs2
    unfold PdfState.fit at h2
    rw [if_neg hty2] at h2
    injection h2 with h2 _
    subst h2
    have hsh : shownParams f2 [s, k] = .ok ([s], k, f2.scale) :=
      shown_of (f := f2) (sh := [s]) (by simp [FittedAs, hf2.1, hf2.2])
    refine ⟨d, c, _, _, hd, hc, hcv, by
      simp only [plotDistrib, pdfCurves, orRaise, hb, shownVals, hsh, bind, Except.bind, pure, Except.pure, if_true]; rfl, rfl, ?_⟩
    rw [hb]; exact curve_of _ b t

/-- **C101 (violation).** When the first fit fails after its options have been accepted, the distribution can no longer be shown at
all, although it could before. -/
theorem C101_failed_violated (o o' : PdfState) (hd : o.doFit = false) (hp : o.params = none) (b : ℝ) (t : List ℝ) (hb : o.bins = b :: t)
    (m : DistModel) (f : FitFixes) (ty : String) (hty : ty = "mle" ∨ ty = "mcmc") (start : Py (List ℝ)) (opt : List ℝ → Py (List ℝ))
    (err : PyErr) (h : o.fit m f ty start opt = (o', some err)) (e : Bool) :
    (∃ d, plotDistrib o e = .ok d ∧ d.points = o.bins.zip o.pdf ∧ d.curve = none ∧ d.ecurve = none) ∧
      plotDistrib o' e = .error .runtimeError := by
  refine ⟨⟨_, by simp only [plotDistrib, hd, Bool.false_eq_true, if_false]; rfl, rfl, rfl, rfl⟩, ?_⟩
  have hty2 : ¬ (ty ≠ "mle" ∧ ty ≠ "mcmc") := by rcases hty with h | h <;> simp [h]
  unfold PdfState.fit at h
  rw [if_neg hty2] at h
  cases start with
  | error e' =>
    injection h with h _
    subst h
    simp only [plotDistrib, pdfCurves, orRaise, hb, hp, shownVals, bind, Except.bind, if_true]
  | ok p0 =>
    cases ho : opt p0 with
    | error e' =>
      simp only [ho] at h
      injection h with h _
      subst h
      simp only [plotDistrib, pdfCurves, orRaise, hb, hp, shownVals, bind, Except.bind, if_true]
    | ok ps => simp only [ho] at h; injection h with _ h; cases h

/-- An unknown kind of fit is refused without a trace. -/
theorem C101_fit_type (o : PdfState) (m : DistModel) (f : FitFixes) (ty : String) (h : ty ≠ "mle" ∧ ty ≠ "mcmc") (start : Py (List ℝ))
    (opt : List ℝ → Py (List ℝ)) : o.fit m f ty start opt = (o, some .valueError) := by
  unfold PdfState.fit
  rw [if_pos h]

/-- A fit that fails in its starting values. -/
example (o : PdfState) (m : DistModel) : ∃ o', o.fit m {} "mle" (.error .valueError) (fun p => .ok p) = (o', some .valueError) :=
  ⟨_, by simp only [PdfState.fit]; rfl⟩

/-- **C101 (chains).** With two or more parameters `trace_plot` shows each chain; with one (a model without shapes and one of `loc` and
`scale` fixed) it raises AttributeError. -/
theorem C101_trace_violated (chain : List (List ℝ)) :
    (2 ≤ chain.length → tracePlot chain = .ok chain) ∧ (chain.length = 1 → tracePlot chain = .error .attributeError) := by
  constructor
  · intro h
    simp only [tracePlot, subplots, if_neg (show ¬ chain.length = 0 by omega), if_neg (show ¬ chain.length = 1 by omega), bind,
      Except.bind, pure, Except.pure]
  · intro h
    simp only [tracePlot, subplots, h, bind, Except.bind]
    rfl

/-! ### Tsallis -/

/-- **C101 (Tsallis).** With two or more lags there is one panel per lag.  It shows the distribution of that lag; the curve is the
function fitted to it, at the same places; every point that was fitted is among those shown, and no other parameters fit better.
Missing: a single lag (`C101_tsallis_single_violated`) and the lines at the limits (`C101_tsallis_lines_violated`). -/
theorem C101_tsallis_partial (cf : CurveFit) (hcf : FindsMinimum cf) (sigma : Option ℝ) (lags : List ℝ) (ds : List TsallisDist)
    (rows : List TsRow) (hn : 2 ≤ lags.length) (hl : lags.length = ds.length) (hr : fitTsallis cf sigma (some ds) = .ok rows) :
    ∃ ps, tsallisPlotFit lags ds (rows.map (·.par)) sigma = .ok ps ∧ ps.length = lags.length ∧
      ∀ (i : ℕ) (p : TsPanel) (lag : ℝ) (d : TsallisDist), ps[i]? = some p → lags[i]? = some lag → ds[i]? = some d → p.lag = lag ∧
        p.points = (List.range d.prob.n).map (fun k => (d.centres.get k, logProb (d.prob.get k))) ∧
        ∃ row : TsRow, rows[i]? = some row ∧ p.curve = p.points.map (fun q => (q.1, row.par.eval q.1)) ∧
          (∀ q ∈ tsallisPoints sigma d, (q.1, some q.2) ∈ p.points) ∧
          ∀ r, Proper r (tsallisPoints sigma d) → ssr row.par (tsallisPoints sigma d) ≤ ssr r (tsallisPoints sigma d) := by
  have hrow : ∀ (l : List TsallisDist) (rs : List TsRow), l.mapM (fitTsallisAt cf sigma) = .ok rs → rs.length = l.length ∧
      ∀ (i : ℕ) d, l[i]? = some d → ∃ r, rs[i]? = some r ∧ fitTsallisAt cf sigma d = .ok r := by
    intro l
    induction l with
    | nil => intro rs h; cases h; simp
    | cons d l ih =>
      intro rs h
      rw [List.mapM_cons] at h
      cases hd : fitTsallisAt cf sigma d with
      | error e => rw [hd] at h; cases h
      | ok r =>
        cases hm : l.mapM (fitTsallisAt cf sigma) with
        | error e => rw [hd, hm] at h; cases h
        | ok rs' =>
          rw [hd, hm] at h
          cases h
          obtain ⟨h1, h2⟩ := ih rs' hm
          refine ⟨by simp [h1], ?_⟩
          intro i d' hi
          cases i with
          | zero => simp at hi; subst hi; exact ⟨r, rfl, hd⟩
          | succ i => simpa using h2 i d' (by simpa using hi)
  obtain ⟨hlen, hrows⟩ := hrow ds rows hr
  refine ⟨(lags.zip (ds.zip (rows.map (·.par)))).map fun t => tsPanel sigma t.1 t.2.1 t.2.2, ?_, ?_, ?_⟩
  · simp only [tsallisPlotFit, subplots, if_neg (show ¬ lags.length = 0 by omega), if_neg (show ¬ lags.length = 1 by omega), bind,
      Except.bind, pure, Except.pure]
  · simp [hlen, hl]
  · intro i p lag d hp hlag hd
    obtain ⟨row, hrw, hfit⟩ := hrows i d hd
    have hz : (lags.zip (ds.zip (rows.map (·.par))))[i]? = some (lag, d, row.par) := by
      rw [List.getElem?_zip_eq_some, List.getElem?_zip_eq_some]
      exact ⟨hlag, hd, by simp [hrw]⟩
    rw [List.getElem?_map, hz] at hp
    injection hp with hp
    subst hp
    refine ⟨rfl, rfl, row, hrw, by simp [tsPanel], ?_, ?_⟩
    · rintro ⟨x, y⟩ hq
      obtain ⟨k, hk, q, hq1, hq0, rfl, rfl, _⟩ := (C82_points sigma d x y).1 hq
      refine List.mem_map.2 ⟨k, List.mem_range.2 hk, ?_⟩
      simp [logProb, hq1, hq0]
    · intro r hprop
      unfold fitTsallisAt at hfit
      simp only [bind, Except.bind] at hfit
      cases h0 : tsallisStart (tsallisPoints sigma d) with
      | error e => rw [h0] at hfit; cases hfit
      | ok p0 =>
        rw [h0] at hfit
        cases hc : cf (tsallisPoints sigma d) p0 with
        | error e => simp only [hc] at hfit; cases hfit
        | ok c =>
          simp only [hc, pure, Except.pure] at hfit
          injection hfit with hfit
          subst hfit
          exact (hcf _ _ _ hc).2 r hprop

/-- **C101 (violation).** With a single lag there is nothing to be seen: TypeError. -/
theorem C101_tsallis_single_violated (lag : ℝ) (ds : List TsallisDist) (ps : List TsPar) (sigma : Option ℝ) :
    tsallisPlotFit [lag] ds ps sigma = .error .typeError := rfl

/-- **C101 (violation).** The vertical lines at plus and minus the limit are drawn to "indicate which data was used for the fits".
Whatever the limit (above 0.01), there is a distribution with a fitted point outside the lines and a point between them, finite and
shown, that is not fitted. -/
theorem C101_tsallis_lines_violated (s : ℝ) (hs : 0.01 < s) (lag : ℝ) (p : TsPar) :
    ∃ d : TsallisDist, (tsPanel (some s) lag d p).lines = [s, -s] ∧
      (∃ q ∈ tsallisPoints (some s) d, (q.1, some q.2) ∈ (tsPanel (some s) lag d p).points ∧ s < |q.1|) ∧
      ∃ x y, (x, some y) ∈ (tsPanel (some s) lag d p).points ∧ |x| < s ∧ ∀ y', (x, y') ∉ tsallisPoints (some s) d := by
  obtain ⟨d, ⟨x, y, hxy, hx⟩, hn, hc, ⟨q, hq, hq0, _⟩, hno⟩ := C82_clip_violated s hs
  refine ⟨d, rfl, ⟨(x, y), hxy, ?_, hx⟩, 0, log10 q, ?_, by simp; linarith, fun y' hy' => hno ⟨y', hy'⟩⟩
  · obtain ⟨k, hk, r, hr, hr0, rfl, rfl, _⟩ := (C82_points (some s) d x y).1 hxy
    exact List.mem_map.2 ⟨k, List.mem_range.2 hk, by simp [logProb, hr, hr0]⟩
  · exact List.mem_map.2 ⟨1, List.mem_range.2 (by omega), by simp [logProb, hq, hq0.ne', hc]⟩

/-- **C101 (Tsallis parameters).** `plot_parameters` shows for every lag the three parameters of its fit with their errors. -/
theorem C101_tsallis_params (lags : List ℝ) (rows : List TsRow) (hl : lags.length = rows.length) :
    tsallisPlotPars lags rows = .ok
      [(lags.zip rows).map fun t => (t.1, some t.2.par.loga, t.2.err.1), (lags.zip rows).map fun t => (t.1, some t.2.par.w2, t.2.err.2.1),
       (lags.zip rows).map fun t => (t.1, some t.2.par.q, t.2.err.2.2)] := by
  have key : ∀ (v e : TsRow → Option ℝ) (l : List ℝ) (r : List TsRow), l.zip ((r.map v).zip (r.map e)) =
      (l.zip r).map fun t => (t.1, v t.2, e t.2) := by
    intro v e l
    induction l with
    | nil => intro r; rfl
    | cons a l ih => intro r; cases r <;> simp [ih]
  simp [tsallisPlotPars, tableCol, tsallisTable, bind, Except.bind, pure, Except.pure, key]

/-! ### Genus -/

/-- **C101 (genus).** One panel per smoothing radius, each at its own place of a grid that has room for it; the panel shows the genus curve
of its radius over the thresholds, standardised, when asked for, with mean and standard deviation of the map smoothed with the same
radius; the abscissa is labelled exactly when there is no panel below. -/
theorem C101_genus (num : ℕ) (th : List ℝ) (stats : List (List ℤ)) (means stds : List ℝ) (hs : stats.length = num)
    (hm : means.length = num) (hd : stds.length = num) (std : Bool) :
    (genusPlotFit num th stats means stds std).length = num ∧
      ∀ (i : ℕ) (p : GenusPanel) (g : List ℤ) (mu sd : ℝ), (genusPlotFit num th stats means stds std)[i]? = some p → stats[i]? = some g → means[i]? = some mu →
        stds[i]? = some sd → p.place = i + 1 ∧ p.place ≤ p.rows * p.cols ∧ (num ≠ 1 → (p.rows - 1) * p.cols < num) ∧
          ((std = true → sd ≠ 0) → p.curve = (if std then th.map (fun t => (t - mu) / sd) else th).zip g) ∧
          (p.label = true ↔ num < p.place + p.cols) := by
  refine ⟨by simp [genusPlotFit], ?_⟩
  intro i p g mu sd hp hg hmu hsd
  have hi : i < num := by
    rw [← hs]; exact (List.getElem?_eq_some_iff.1 hg).1
  rw [genusPlotFit, List.getElem?_map, List.getElem?_range hi] at hp
  injection hp with hp
  subst hp
  refine ⟨rfl, ?_, ?_, ?_, ?_⟩
  · simp only [genusPanel, genusRows]
    split_ifs <;> omega
  · intro hne
    simp only [genusPanel, genusRows, if_neg hne]
    split_ifs <;> omega
  · intro _
    simp [genusPanel, List.getD_eq_getElem?_getD, hg, hmu, hsd]
  · simp only [genusPanel, decide_eq_true_eq]
    split_ifs <;> omega

/-- Three radii. -/
example : (genusPlotFit 3 [0, 1] [[1, 2], [3, 4], [5, 6]] [0, 0, 0] [1, 1, 1] false).map (fun p => (p.rows, p.cols, p.place, p.label)) =
    [(2, 2, 1, false), (2, 2, 2, true), (2, 2, 3, true)] := by
  simp [genusPlotFit, genusPanel, genusRows, List.range_succ]

/-! ### dendrograms -/

/-- **C101 (histograms).** For two or more bins of equal width, as `np.histogram` makes them, there is one bar per bin: it reaches from the
lower to the upper edge of the bin and is as high as its count. Missing: a single bin (`C101_hist_single_violated`). -/
theorem C101_hist_partial (a w : ℝ) (hw : 0 < w) (n : ℕ) (hn : 2 ≤ n) (counts : List ℝ) (hc : counts.length = n) :
    ∃ bars, histBars (histOf ((List.range (n + 1)).map fun k : ℕ => a + k * w) counts) = .ok bars ∧ bars.length = n ∧
      ∀ (k : ℕ) b v, bars[k]? = some b → counts[k]? = some v →
        b.centre - b.width / 2 = a + k * w ∧ b.centre + b.width / 2 = a + (k + 1) * w ∧ b.height = v := by
  have hcent : (histOf ((List.range (n + 1)).map fun k : ℕ => a + k * w) counts).1 =
      (List.range n).map fun k : ℕ => a + k * w + w / 2 := by
    refine List.ext_getElem (by simp [histOf]) ?_
    intro k h1 h2
    simp only [histOf, List.getElem_map, List.getElem_zip, List.getElem_tail, List.getElem_range]
    push_cast; ring
  have h2 : (histOf ((List.range (n + 1)).map fun k : ℕ => a + k * w) counts).2 = counts := rfl
  obtain ⟨r, hr⟩ : ∃ r, (List.range n).map (fun k : ℕ => a + k * w + w / 2) = (a + w / 2) :: (a + w + w / 2) :: r := by
    obtain ⟨n', rfl⟩ : ∃ n', n = n' + 2 := ⟨n - 2, by omega⟩
    rw [List.range_succ_eq_map, List.range_succ_eq_map]
    exact ⟨_, by simp; rfl⟩
  refine ⟨((List.range n).map (fun k : ℕ => a + k * w + w / 2)).zip counts |>.map fun t => ⟨t.1, t.2, w⟩, ?_, by simp [hc], ?_⟩
  · unfold histBars
    rw [hcent, h2, hr]
    have : |a + w + w / 2 - (a + w / 2)| = w := by
      rw [show a + w + w / 2 - (a + w / 2) = w by ring, abs_of_pos hw]
    simp only [this]
  · intro k b v hb hv
    have hk : k < n := by rw [← hc]; exact (List.getElem?_eq_some_iff.1 hv).1
    have hz : (((List.range n).map (fun k : ℕ => a + k * w + w / 2)).zip counts)[k]? = some (a + k * w + w / 2, v) := by
      rw [List.getElem?_zip_eq_some]
      exact ⟨by simp [List.getElem?_range hk], hv⟩
    rw [List.getElem?_map, hz] at hb
    injection hb with hb
    subst hb
    refine ⟨?_, ?_, rfl⟩ <;> simp only <;> ring

/-- **C101 (dendrogram).** The line drawn is the fitted one at the fitted places, next to the points; without the histograms it needs
nothing else, with them it refuses when they have not been made. -/
theorem C101_dendro (fv : List (ℝ × ℝ)) (a b : ℝ) (hists : Option (List (List ℝ × List ℝ))) :
    dendroPlotFit fv a b hists false = .ok (fv, fv.map (fun p => (p.1, a + b * p.1)), []) ∧
      dendroPlotFit fv a b none true = .error .valueError ∧
      ∀ hs, hists = some hs → ∀ r, dendroPlotFit fv a b hists true = .ok r →
        r.1 = fv ∧ r.2.1 = fv.map (fun p => (p.1, a + b * p.1)) ∧ hs.mapM histBars = .ok r.2.2 := by
  refine ⟨rfl, rfl, ?_⟩
  rintro hs rfl r h
  simp only [dendroPlotFit, if_true, bind, Except.bind] at h
  cases hm : hs.mapM histBars with
  | error e => rw [hm] at h; cases h
  | ok bars => rw [hm] at h; cases h; exact ⟨rfl, rfl, rfl⟩

/-- **C101 (violation).** One histogram with a single bin makes the whole plot raise IndexError.  `make_hists` makes such a histogram of
every threshold with one to three structures, when `min_number` lets it, and of any number of them with `bins=1`. -/
theorem C101_hist_single_violated :
    (∀ (fv : List (ℝ × ℝ)) (a b : ℝ) (hs : List (List ℝ × List ℝ)), (∃ h ∈ hs, h.1.length = 1) →
      dendroPlotFit fv a b (some hs) true = .error .indexError) ∧
    (∀ (minNumber : ℕ) (v : List ℝ), minNumber ≤ v.length → 1 ≤ v.length → v.length ≤ 3 → histBins minNumber none [v] = [some 1]) ∧
    (∀ (minNumber : ℕ) (v : List ℝ), minNumber ≤ v.length → histBins minNumber (some 1) [v] = [some 1]) ∧
    ∀ e0 e1 c : ℝ, (histOf [e0, e1] [c]).1.length = 1 := by
  refine ⟨?_, ?_, ?_, fun _ _ _ => rfl⟩
  · intro fv a b hs h
    have key : ∀ hs : List (List ℝ × List ℝ), (∃ h ∈ hs, h.1.length = 1) → hs.mapM histBars = .error .indexError := by
      intro hs
      induction hs with
      | nil => rintro ⟨h, hm, _⟩; cases hm
      | cons x hs ih =>
        rintro ⟨h, hm, h1⟩
        rw [List.mapM_cons]
        obtain ⟨x1, x2⟩ := x
        match x1, hm with
        | [], hm =>
          rcases List.mem_cons.1 hm with rfl | hm
          · cases h1
          · rw [ih ⟨h, hm, h1⟩]; rfl
        | [_], _ => rfl
        | _ :: _ :: _, hm =>
          rcases List.mem_cons.1 hm with rfl | hm
          · simp at h1
          · rw [ih ⟨h, hm, h1⟩]; rfl
    simp only [dendroPlotFit, if_true, key hs h, bind, Except.bind]
  · intro mn v h0 h1 h3
    have : Nat.sqrt v.length = 1 := by
      have a1 : 1 ≤ Nat.sqrt v.length := Nat.le_sqrt.2 (by omega)
      have a2 : Nat.sqrt v.length < 2 := Nat.sqrt_lt.2 (by omega)
      omega
    simp [histBins, histStep, this, Nat.not_lt.2 h0]
  · intro mn v h0
    simp [histBins, histStep, Nat.not_lt.2 h0]

/-! ### PCA -/

/-- **C101 (eigenvalues).** Without `n_eigs` bar `i` shows eigenvalue `i`, for all components in use. Missing: plots with `n_eigs`
(`C101_bars_violated`). -/
theorem C101_bars_partial (n : ℕ) (eig : List ℝ) (hn : n ≤ eig.length) :
    ∃ bars, pcaBars n eig none = .ok bars ∧ bars.length = n ∧ ∀ k v, k < n → eig[k]? = some v → bars[k]? = some ((k : ℝ) + 1, v) := by
  refine ⟨((List.range n).map fun k : ℕ => (k : ℝ) + 1).zip (eig.take n), ?_, by simp [hn], ?_⟩
  · simp [pcaBars, barPlot, hn]
  · intro k v hk hv
    rw [List.getElem?_zip_eq_some]
    refine ⟨by simp [List.getElem?_range hk], ?_⟩
    rw [List.getElem?_take, if_pos hk, hv]

/-- **C101 (violation).** "Number of eigenvalues to show in the bar plot": any other number than the components in use raises
ValueError; asking for one shows the first eigenvalue at every place, and with one component in use all are drawn on top of one another. -/
theorem C101_bars_violated (n k : ℕ) (eig : List ℝ) (hk : k ≤ eig.length) (hne : k ≠ n) :
    (2 ≤ n → 2 ≤ k → pcaBars n eig (some k) = .error .valueError) ∧
    (2 ≤ n → k = 1 → ∃ v, eig[0]? = some v ∧ pcaBars n eig (some k) = .ok ((List.range n).map fun j : ℕ => ((j : ℝ) + 1, v))) ∧
    (n = 1 → 2 ≤ k → pcaBars n eig (some k) = .ok ((eig.take k).map fun v => (1, v))) := by
  have hlen : (eig.take k).length = k := by simp [hk]
  refine ⟨?_, ?_, ?_⟩
  · intro h2 h2'
    obtain ⟨n', rfl⟩ : ∃ n', n = n' + 2 := ⟨n - 2, by omega⟩
    unfold pcaBars barPlot
    rw [if_neg (by simp [hk]; omega)]
    match h : eig.take k, hlen with
    | [], hl => simp at hl; omega
    | [_], hl => simp at hl; omega
    | x :: y :: l, _ =>
      simp [h, List.range_succ_eq_map]
  · rintro h2 rfl
    cases eig with
    | nil => simp at hk
    | cons v l =>
      refine ⟨v, rfl, ?_⟩
      unfold pcaBars barPlot
      rw [if_neg (by simp; omega)]
      simp
  · rintro rfl h2
    unfold pcaBars barPlot
    rw [if_neg (by simp [hk]; omega)]
    match h : eig.take k, hlen with
    | [], hl => simp at hl; omega
    | [_], hl => simp at hl; omega
    | x :: y :: l, _ => simp [h]

/-- Three eigenvalues, two asked for. -/
example : (2 : ℕ) ≤ [(3 : ℝ), 2, 1].length ∧ 2 ≠ 3 := by simp

/-- **C101 (violation).** `PCA.model` raises TypeError for every fit and every argument. -/
theorem C101_model_violated (index x : ℝ) : pcaModel index pcaInterceptAttr x = .error .typeError := rfl

private theorem spec_lin {h : SpecHeader} {u : SpecUnit} {k : ℝ} (hk : toSpectral h 1 .pix u = .ok k) (v : ℝ) :
    toSpectral h v .pix u = .ok (v * k) := by
  unfold toSpectral at *
  cases hs : spectralSize h with
  | error e => rw [hs] at hk; cases hk
  | ok s =>
    rw [hs] at hk
    cases u with
    | pix =>
      simp only [bind, Except.bind, pure, Except.pure] at hk ⊢
      injection hk with hk
      rw [← hk, mul_one]
    | axis kd b =>
      simp only [bind, Except.bind, pure, Except.pure] at hk ⊢
      split_ifs at hk ⊢ with he
      injection hk with hk
      rw [← hk]; congr 1; ring

private theorem width_lin {h : SpecHeader} {u : SpecUnit} {k : ℝ} (hk : toSpectral h 1 .pix u = .ok k) (ws : List (Option ℝ)) :
    spectralWidth h ws u = .ok (ws.map (Option.map (· * k))) := by
  refine mapM_all_ok _ _ ws ?_
  intro w _
  cases w with
  | none => simp only [spec_lin hk, Except.map, Option.map_none]
  | some v => simp only [spec_lin hk, Except.map, Option.map_some]

private theorem convO_ok {s : Spatial} {u : SUnit} {c : ℝ} (hc : PixelSize s u c) (w : Option ℝ) :
    convScaleO s u w = .ok (w.map (· * c)) := by
  cases w with
  | none => simp only [convScaleO, conv_ok hc, Except.map, Option.map_none]
  | some v => simp only [convScaleO, conv_ok hc, Except.map, Option.map_some]

private theorem foldl_min_mul (c : ℝ) (hc : 0 < c) (l : List ℝ) (a : ℝ) : (l.map (· * c)).foldl min (a * c) = l.foldl min a * c := by
  induction l generalizing a with
  | nil => rfl
  | cons b l ih => simp only [List.map_cons, List.foldl_cons]; rw [← ih, min_mul_of_nonneg _ _ hc.le]

private theorem foldl_max_mul (c : ℝ) (hc : 0 < c) (l : List ℝ) (a : ℝ) : (l.map (· * c)).foldl max (a * c) = l.foldl max a * c := by
  induction l generalizing a with
  | nil => rfl
  | cons b l ih => simp only [List.map_cons, List.foldl_cons]; rw [← ih, max_mul_of_nonneg _ _ hc.le]

private theorem valid_mul (c : ℝ) (l : List (Option ℝ)) : validVals (l.map (Option.map (· * c))) = (validVals l).map (· * c) := by
  induction l with
  | nil => rfl
  | cons a l ih => cases a <;> simp_all [validVals]

private theorem nanmin_mul (c : ℝ) (hc : 0 < c) (l : List (Option ℝ)) : nanmin (l.map (Option.map (· * c))) = (nanmin l).map (· * c) := by
  unfold nanmin
  rw [valid_mul]
  cases validVals l with
  | nil => rfl
  | cons a l => simp [minO, foldl_min_mul c hc]

private theorem nanmax_mul (c : ℝ) (hc : 0 < c) (l : List (Option ℝ)) : nanmax (l.map (Option.map (· * c))) = (nanmax l).map (· * c) := by
  unfold nanmax
  rw [valid_mul]
  cases validVals l with
  | nil => rfl
  | cons a l => simp [maxO, foldl_max_mul c hc]

private theorem model_eq {index a k x : ℝ} (ha : 0 < a) (hk : 0 < k) (hx : 0 < x) :
    slModel index a k (log10 x) = log10 (a * x ^ index * k) := by
  unfold slModel log10
  congr 2
  rw [add_comm, Real.rpow_add (by norm_num), Real.rpow_logb (by norm_num) (by norm_num) ha, mul_comm index,
    Real.rpow_mul (by norm_num), Real.rpow_logb (by norm_num) (by norm_num) hx]

private theorem lin_shift {a b c : ℝ} (ha : 0 < a) (hb : 0 < b) (hc : 0 < c) (N k : ℕ) (hN : 2 ≤ N) :
    (linspace (log10 (a * c)) (log10 (b * c)) N).get k = (linspace (log10 a) (log10 b) N).get k + log10 c := by
  simp only [linspace]
  rw [log10_mul ha hc, log10_mul hb hc]
  ring

private theorem min_mem {l : List (Option ℝ)} {a : ℝ} (h : nanmin l = some a) : some a ∈ l := by
  unfold nanmin at h
  cases hv : validVals l with
  | nil => rw [hv] at h; cases h
  | cons b t =>
    rw [hv] at h
    injection h with h
    have hm : a ∈ validVals l := by
      rw [hv]
      rcases (foldl_min_spec t b).1 with h' | h'
      · rw [← h, h']; simp
      · rw [← h]; exact List.mem_cons_of_mem _ h'
    simpa [validVals] using hm

private theorem max_mem {l : List (Option ℝ)} {a : ℝ} (h : nanmax l = some a) : some a ∈ l := by
  unfold nanmax at h
  cases hv : validVals l with
  | nil => rw [hv] at h; cases h
  | cons b t =>
    rw [hv] at h
    injection h with h
    have hm : a ∈ validVals l := by
      rw [hv]
      rcases (foldl_max_spec t b).1 with h' | h'
      · rw [← h, h']; simp
      · rw [← h]; exact List.mem_cons_of_mem _ h'
    simpa [validVals] using hm

/-- **C101 (size-linewidth).** In every spatial and spectral unit (`c` of it per pixel, `k` per channel) the plot shows the widths in
these units, relative errors and residuals that do not depend on the units, and the fitted power law: at a size of `10^X` units the line
is at the linewidth `k · a · (10^X / c)^index`, from the smallest to the largest width. Missing: the attribute `model`
(`C101_model_violated`). -/
theorem C101_pca_partial (s : Spatial) (h : SpecHeader) (index a lo hi : ℝ) (ha : 0 < a) (ws : List WidthPt) (hw : PosWidths ws)
    (su : SUnit) (vu : SpecUnit) (c k : ℝ) (hc : PixelSize s su c) (hk : ChannelSize h vu k) (res : Bool) :
    ∃ p, pcaPlotFit s h index a lo hi ws su vu res = .ok p ∧
      p.points = ws.map (fun w => (w.x.map fun x => log10 (x * c), w.y.map fun y => log10 (y * k))) ∧
      p.errs = ws.map (fun w => (mulO (some 0.434) (divO w.ex w.x), mulO (some 0.434) (divO w.ey w.y))) ∧
      p.limits = (log10 (lo * c), log10 (hi * c)) ∧
      (∀ q ∈ p.curve, (10 : ℝ) ^ q.2 = k * (a * ((10 : ℝ) ^ q.1 / c) ^ index)) ∧
      (∀ x1 x2, nanmin (ws.map (·.x)) = some x1 → nanmax (ws.map (·.x)) = some x2 → p.curve.length = 10 * ws.length ∧
        p.curve.head?.map Prod.fst = some (log10 (x1 * c)) ∧ p.curve.getLast?.map Prod.fst = some (log10 (x2 * c))) ∧
      p.resid = (if res then some (ws.map fun w => (w.x.map fun x => log10 (x * c),
        subO (w.y.map log10) (w.x.map fun x => log10 (a * x ^ index)))) else none) := by
  obtain ⟨hk0, hk1⟩ := hk
  have hc0 : 0 < c := hc.1
  have ex : ws.mapM (fun p => convScaleO s su p.x) = .ok (ws.map fun p => p.x.map (· * c)) := mapM_all_ok _ _ ws fun t _ => convO_ok hc _
  have eex : ws.mapM (fun p => convScaleO s su p.ex) = .ok (ws.map fun p => p.ex.map (· * c)) := mapM_all_ok _ _ ws fun t _ => convO_ok hc _
  have hxw : (ws.map fun p => p.x.map (· * c)) = (ws.map (·.x)).map (Option.map (· * c)) := by rw [List.map_map]; rfl
  have hmn := nanmin_mul c hc0 (ws.map (·.x))
  have hmx := nanmax_mul c hc0 (ws.map (·.x))
  have hpos : ∀ x, some x ∈ ws.map (·.x) → 0 < x := by
    intro x hx
    obtain ⟨w, hw', e⟩ := List.mem_map.1 hx
    exact (hw w hw').1 x e
  refine ⟨_, by
    simp only [pcaPlotFit, ex, eex, width_lin hk1, conv_ok hc, hk1, bind, Except.bind, pure, Except.pure]; rfl, ?_, ?_, rfl, ?_, ?_, ?_⟩
  · simp only [List.map_map, List.zip_map']
    refine List.map_congr_left fun w _ => ?_
    cases hX : w.x <;> cases hY : w.y <;> simp [Function.comp, hX, hY]
  · simp only [List.map_map, List.zip_map']
    refine List.map_congr_left fun w _ => ?_
    have key : ∀ (u v : Option ℝ) (r : ℝ), 0 < r → divO (u.map (· * r)) (v.map (· * r)) = divO u v := by
      intro u v r hr
      cases u with
      | none => rfl
      | some u =>
        cases v with
        | none => rfl
        | some v =>
          by_cases hv : v = 0
          · simp [divO, hv]
          · simp [divO, hv, hr.ne', mul_div_mul_right _ _ hr.ne']
    simp only [Function.comp, key _ _ _ hc0, key _ _ _ hk0]
  · intro q hq
    obtain ⟨t, ht, rfl⟩ := List.mem_map.1 hq
    rw [hxw] at ht
    unfold slGrid at ht
    rw [hmn, hmx] at ht
    cases h1 : nanmin (ws.map (·.x)) with
    | none => rw [h1] at ht; simp at ht
    | some x1 =>
      cases h2 : nanmax (ws.map (·.x)) with
      | none => rw [h1, h2] at ht; simp at ht
      | some x2 =>
        rw [h1, h2] at ht
        simp only [Option.map_some] at ht
        obtain ⟨j, hj, rfl⟩ := List.mem_map.1 ht
        have p1 := hpos x1 (min_mem h1)
        have p2 := hpos x2 (max_mem h2)
        have hne : 2 ≤ ((ws.map (·.x)).map (Option.map (· * c))).length * 10 := by
          have := List.length_pos_of_mem (min_mem h1)
          simp only [List.length_map] at this ⊢
          omega
        simp only
        rw [lin_shift p1 p2 hc0 _ _ hne]
        generalize (linspace (log10 x1) (log10 x2) _).get j = z
        unfold slModel log10
        have hz : 0 < (10 : ℝ) ^ (index * z + Real.logb 10 a) * k := by positivity
        rw [Real.rpow_logb (by norm_num) (by norm_num) hz, Real.rpow_add (by norm_num), Real.rpow_logb (by norm_num) (by norm_num) ha,
          Real.rpow_add (by norm_num), Real.rpow_logb (by norm_num) (by norm_num) hc0, mul_div_assoc, div_self hc0.ne', mul_one,
          ← Real.rpow_mul (by norm_num), mul_comm z index]
        ring
  · intro x1 x2 h1 h2
    have p1 := hpos x1 (min_mem h1)
    have hne : 0 < ws.length := by
      have := List.length_pos_of_mem (min_mem h1)
      simpa using this
    have hg : slGrid (ws.map fun p => p.x.map (· * c)) (ws.map (·.x)) = (List.range (ws.length * 10)).map fun j =>
        ((linspace (log10 (x1 * c)) (log10 (x2 * c)) (ws.length * 10)).get j,
          (linspace (log10 x1) (log10 x2) (ws.length * 10)).get j) := by
      unfold slGrid
      rw [hxw, hmn, hmx, h1, h2]
      simp only [Option.map_some, List.length_map]
    simp only [hg, List.map_map]
    obtain ⟨N, hN⟩ : ∃ N, ws.length * 10 = N + 2 := ⟨ws.length * 10 - 2, by omega⟩
    rw [hN]
    refine ⟨by simp; omega, ?_, ?_⟩
    · rw [List.range_succ_eq_map]; simp [linspace]
    · rw [List.range_succ, List.map_append, List.getLast?_append]
      have := linspace_last (log10 (x1 * c)) (log10 (x2 * c)) (num := N + 2) (by omega)
      simpa using this
  · cases res with
    | false => rfl
    | true =>
      simp only [if_true, List.map_map]
      congr 1
      have hz : ∀ (f g : WidthPt → Option ℝ) (l : List WidthPt), (l.map f).zip ((l.map g).zip l) = l.map fun w => (f w, g w, w) := by
        intro f g l
        induction l with
        | nil => rfl
        | cons w l ih => simp [ih]
      rw [hz, List.map_map]
      refine List.map_congr_left fun w hw' => ?_
      obtain ⟨hx, hy⟩ := hw w hw'
      cases hX : w.x with
      | none => cases hY : w.y <;> simp [Function.comp, hX, hY, subO]
      | some x =>
        cases hY : w.y with
        | none => simp [Function.comp, hX, hY, subO]
        | some y =>
          have hx0 := hx x hX
          have hy0 := hy y hY
          have hpw : 0 < a * x ^ index := mul_pos ha (Real.rpow_pos_of_pos hx0 _)
          simp only [Function.comp, hX, hY, Option.map_some, subO, model_eq ha hk0 hx0, log10_mul hpw hk0, log10_mul hy0 hk0, bind,
            Option.bind, pure]
          congr 2
          ring

/-- Two components, one without a width, in channels and pixels. -/
example : PosWidths [⟨some 2, some 1, some 3, some 1⟩, ⟨none, none, some 2, some 1⟩] ∧ PixelSize ⟨none, none⟩ .pix 1 ∧
    ChannelSize (some (some ⟨-2, .velocity, 1000⟩)) (.axis .velocity 1) 2000 := by
  refine ⟨?_, ⟨by norm_num, rfl⟩, by norm_num, ?_⟩
  · intro p hp
    simp only [List.mem_cons, List.not_mem_nil, or_false] at hp
    rcases hp with rfl | rfl <;> simp
  · simp only [toSpectral, spectralSize, bind, Except.bind, pure, Except.pure, if_true]
    norm_num

end TS
