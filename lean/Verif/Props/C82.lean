import Verif.Model.TsallisFit
import Verif.Lemmas.PlawFit
import Verif.Lemmas.Psds
import Verif.Props.C41
import Mathlib.Analysis.Calculus.LocalExtr.Rolle
import Mathlib.Analysis.SpecialFunctions.Log.Deriv
import Mathlib.Analysis.SpecialFunctions.Pow.Real
import Mathlib.Analysis.Complex.ExponentialBounds

/-! C82 — the fits of the Tsallis distributions. -/

namespace TS

namespace Spec

/-- The Tsallis (q-Gaussian) distribution of the documentation: amplitude `a`, width `w²`, shape `q`. -/
noncomputable def qGauss (a w2 q x : ℝ) : ℝ := a * (1 + (q - 1) * (x ^ 2 / w2)) ^ (-1 / (q - 1))

/-- Parameters for which the function is defined at all points. -/
def Proper (p : TsPar) (pts : List (ℝ × ℝ)) : Prop :=
  p.q ≠ 1 ∧ p.w2 ≠ 0 ∧ ∀ t ∈ pts, 0 < 1 + (p.q - 1) * (t.1 ^ 2 / p.w2)

/-- Sum of squared residuals. -/
noncomputable def ssr (p : TsPar) (pts : List (ℝ × ℝ)) : ℝ := (pts.map (fun t => (t.2 - p.eval t.1) ^ 2)).sum

/-- A `curve_fit` that, when it returns, returns a least-squares solution. -/
def FindsMinimum (cf : CurveFit) : Prop :=
  ∀ pts p0 r, cf pts p0 = .ok r → Proper r.1 pts ∧ ∀ p, Proper p pts → ssr r.1 pts ≤ ssr p pts

/-- Three points at different distances from the centre. -/
def ThreePoints (pts : List (ℝ × ℝ)) : Prop :=
  ∃ a ∈ pts, ∃ b ∈ pts, ∃ c ∈ pts, |a.1| < |b.1| ∧ |b.1| < |c.1|

end Spec
open Spec

/-! ### Algebra and Rolle -/

private theorem two_zeros (g g' : ℝ → ℝ) {s t u : ℝ} (hst : s < t) (htu : t < u)
    (hd : ∀ x, s ≤ x → x ≤ u → HasDerivAt g (g' x) x) (h1 : g s = g t) (h2 : g t = g u) :
    ∃ a b, s < a ∧ a < b ∧ b < u ∧ g' a = 0 ∧ g' b = 0 := by
  obtain ⟨a, ha, ha0⟩ := exists_hasDerivAt_eq_zero (f := g) (f' := g') hst
    (fun x hx => (hd x hx.1 (hx.2.trans htu.le)).continuousAt.continuousWithinAt) h1
    (fun x hx => hd x hx.1.le (hx.2.le.trans htu.le))
  obtain ⟨b, hb, hb0⟩ := exists_hasDerivAt_eq_zero (f := g) (f' := g') htu
    (fun x hx => (hd x (hst.le.trans hx.1) hx.2).continuousAt.continuousWithinAt) h2
    (fun x hx => hd x (hst.le.trans hx.1.le) hx.2.le)
  exact ⟨a, b, ha.1, ha.2.trans hb.1, hb.2, ha0, hb0⟩

private theorem pos_between {β s u x : ℝ} (hs : 0 < 1 + β * s) (hu : 0 < 1 + β * u) (h1 : s ≤ x) (h2 : x ≤ u) :
    0 < 1 + β * x := by
  rcases le_or_gt 0 β with h | h
  · nlinarith [mul_le_mul_of_nonneg_left h1 h]
  · nlinarith [mul_le_mul_of_nonpos_left h2 h.le]

/-- Two logarithmic curves `A log(1 + βs)` differing by a constant at three places are the same. -/
private theorem same_log {A A' β β' C s t u : ℝ} (hA : A ≠ 0) (hβ : β ≠ 0) (hβ' : β' ≠ 0)
    (hst : s < t) (htu : t < u) (p1 : 0 < 1 + β * s) (p2 : 0 < 1 + β * u) (p3 : 0 < 1 + β' * s) (p4 : 0 < 1 + β' * u)
    (e1 : A * Real.log (1 + β * s) = A' * Real.log (1 + β' * s) + C)
    (e2 : A * Real.log (1 + β * t) = A' * Real.log (1 + β' * t) + C)
    (e3 : A * Real.log (1 + β * u) = A' * Real.log (1 + β' * u) + C) : A = A' ∧ β = β' ∧ C = 0 := by
  have key : A = A' ∧ β = β' := by
    obtain ⟨a, b, ha, hab, hb, za, zb⟩ := two_zeros
      (fun x => A * Real.log (1 + β * x) - A' * Real.log (1 + β' * x))
      (fun x => A * (β / (1 + β * x)) - A' * (β' / (1 + β' * x))) hst htu
      (fun x h1 h2 => by
        have d1 : HasDerivAt (fun x : ℝ => 1 + β * x) β x := by
          simpa using ((hasDerivAt_id x).const_mul β).const_add 1
        have d2 : HasDerivAt (fun x : ℝ => 1 + β' * x) β' x := by
          simpa using ((hasDerivAt_id x).const_mul β').const_add 1
        exact ((d1.log (pos_between p1 p2 h1 h2).ne').const_mul A).sub
          ((d2.log (pos_between p3 p4 h1 h2).ne').const_mul A'))
      (by linarith) (by linarith)
    have qa := (pos_between p1 p2 ha.le (hab.trans hb).le).ne'
    have qa' := (pos_between p3 p4 ha.le (hab.trans hb).le).ne'
    have qb := (pos_between p1 p2 (ha.trans hab).le hb.le).ne'
    have qb' := (pos_between p3 p4 (ha.trans hab).le hb.le).ne'
    rw [sub_eq_zero, mul_div_assoc', mul_div_assoc', div_eq_div_iff qa qa'] at za
    rw [sub_eq_zero, mul_div_assoc', mul_div_assoc', div_eq_div_iff qb qb'] at zb
    have l1 : (A * β * β' - A' * β' * β) * (b - a) = 0 := by linear_combination zb - za
    have hAA : A = A' := by
      rcases mul_eq_zero.1 l1 with h | h
      · have : β * β' * (A - A') = 0 := by linear_combination h
        rcases mul_eq_zero.1 this with h' | h'
        · exact absurd h' (mul_ne_zero hβ hβ')
        · linarith
      · linarith
    subst hAA
    refine ⟨rfl, ?_⟩
    have : A * (β - β') = 0 := by linear_combination za
    rcases mul_eq_zero.1 this with h | h
    · exact absurd h hA
    · linarith
  obtain ⟨rfl, rfl⟩ := key
  exact ⟨rfl, rfl, by linarith⟩

/-- A logarithmic curve does not meet a straight line (in `s`) three times. -/
private theorem log_not_line {A β C κ s t u : ℝ} (hA : A ≠ 0) (hβ : β ≠ 0) (hκ : κ ≠ 0)
    (hst : s < t) (htu : t < u) (p1 : 0 < 1 + β * s) (p2 : 0 < 1 + β * u)
    (e1 : A * Real.log (1 + β * s) = κ * s + C) (e2 : A * Real.log (1 + β * t) = κ * t + C)
    (e3 : A * Real.log (1 + β * u) = κ * u + C) : False := by
  obtain ⟨a, b, ha, hab, hb, za, zb⟩ := two_zeros (fun x => A * Real.log (1 + β * x) - κ * x)
    (fun x => A * (β / (1 + β * x)) - κ) hst htu
    (fun x h1 h2 => by
      have d1 : HasDerivAt (fun x : ℝ => 1 + β * x) β x := by
        simpa using ((hasDerivAt_id x).const_mul β).const_add 1
      have d2 : HasDerivAt (fun x : ℝ => κ * x) κ x := by simpa using (hasDerivAt_id x).const_mul κ
      exact ((d1.log (pos_between p1 p2 h1 h2).ne').const_mul A).sub d2)
    (by linarith) (by linarith)
  have qa := (pos_between p1 p2 ha.le (hab.trans hb).le).ne'
  have qb := (pos_between p1 p2 (ha.trans hab).le hb.le).ne'
  rw [sub_eq_zero, mul_div_assoc', div_eq_iff qa] at za
  rw [sub_eq_zero, mul_div_assoc', div_eq_iff qb] at zb
  have : κ * β * (b - a) = 0 := by linear_combination za - zb
  rcases mul_eq_zero.1 this with h | h
  · exact mul_ne_zero hκ hβ h
  · linarith

/-- The function in the form `c - A log(1 + βs)`, `s = x²`. -/
private theorem eval_form (p : TsPar) (hq : p.q ≠ 1) (x : ℝ) :
    p.eval x = -(p.loga / (p.q - 1)) - 1 / ((p.q - 1) * Real.log 10) * Real.log (1 + (p.q - 1) / p.w2 * x ^ 2) := by
  have h1 : p.q - 1 ≠ 0 := sub_ne_zero.2 hq
  have h2 : Real.log 10 ≠ 0 := (Real.log_pos (by norm_num)).ne'
  unfold TsPar.eval tsallisFunction log10 Real.logb
  rw [show (p.q - 1) / p.w2 * x ^ 2 = (p.q - 1) * (x ^ 2 / p.w2) by ring]
  field_simp
  ring

private theorem sq_lt_of_abs {a b : ℝ} (h : |a| < |b|) : a ^ 2 < b ^ 2 := sq_lt_sq.2 h

private theorem log10_ne : Real.log 10 ≠ 0 := (Real.log_pos (by norm_num)).ne'

/-- **C82 (the parameters are determined).** Two parameter sets under which the function takes the same values
at three distances from the centre are equal. -/
theorem C82_identifiable (p p' : TsPar) (a b c : ℝ) (hab : |a| < |b|) (hbc : |b| < |c|)
    (hp : Proper p [(a, 0), (b, 0), (c, 0)]) (hp' : Proper p' [(a, 0), (b, 0), (c, 0)])
    (ea : p.eval a = p'.eval a) (eb : p.eval b = p'.eval b) (ec : p.eval c = p'.eval c) : p = p' := by
  obtain ⟨hq, hw, hpos⟩ := hp
  obtain ⟨hq', hw', hpos'⟩ := hp'
  have h1 : p.q - 1 ≠ 0 := sub_ne_zero.2 hq
  have h1' : p'.q - 1 ≠ 0 := sub_ne_zero.2 hq'
  rw [eval_form p hq, eval_form p' hq'] at ea eb ec
  have P : ∀ x, x = a ∨ x = b ∨ x = c → 0 < 1 + (p.q - 1) / p.w2 * x ^ 2 := by
    intro x hx
    have := hpos (x, 0) (by rcases hx with rfl | rfl | rfl <;> simp)
    rwa [show (p.q - 1) / p.w2 * x ^ 2 = (p.q - 1) * (x ^ 2 / p.w2) by ring]
  have P' : ∀ x, x = a ∨ x = b ∨ x = c → 0 < 1 + (p'.q - 1) / p'.w2 * x ^ 2 := by
    intro x hx
    have := hpos' (x, 0) (by rcases hx with rfl | rfl | rfl <;> simp)
    rwa [show (p'.q - 1) / p'.w2 * x ^ 2 = (p'.q - 1) * (x ^ 2 / p'.w2) by ring]
  obtain ⟨hA, hB, hC⟩ := same_log (A := 1 / ((p.q - 1) * Real.log 10)) (A' := 1 / ((p'.q - 1) * Real.log 10))
    (β := (p.q - 1) / p.w2) (β' := (p'.q - 1) / p'.w2) (C := p'.loga / (p'.q - 1) - p.loga / (p.q - 1))
    (by have := log10_ne; positivity) (div_ne_zero h1 hw) (div_ne_zero h1' hw') (sq_lt_of_abs hab) (sq_lt_of_abs hbc)
    (P a (by simp)) (P c (by simp)) (P' a (by simp)) (P' c (by simp))
    (by linarith) (by linarith) (by linarith)
  have l10 := log10_ne
  have hqq : p.q = p'.q := by
    have : (p.q - 1) * Real.log 10 = (p'.q - 1) * Real.log 10 := by
      have := congrArg (fun z => z⁻¹) hA
      simpa using this
    have := mul_right_cancel₀ l10 this
    linarith
  rw [hqq] at hB hC
  have hww : p.w2 = p'.w2 := by
    rw [div_eq_div_iff hw hw'] at hB
    exact (mul_left_cancel₀ h1' hB).symm
  have hll : p.loga = p'.loga := by
    field_simp at hC
    linarith
  cases p; cases p'
  simp_all

/-! ### Recovery -/

private theorem sum_sq_zero {l : List ℝ} (h0 : ∀ x ∈ l, 0 ≤ x) (h : l.sum ≤ 0) : ∀ x ∈ l, x = 0 := by
  induction l with
  | nil => simp
  | cons y t ih =>
    have hy := h0 y (by simp)
    have ht : 0 ≤ t.sum := List.sum_nonneg (fun x hx => h0 x (by simp [hx]))
    rw [List.sum_cons] at h
    intro x hx
    rcases List.mem_cons.1 hx with rfl | hx
    · linarith
    · exact ih (fun x hx => h0 x (by simp [hx])) (by linarith) x hx

private theorem ssr_nonneg (p : TsPar) (pts : List (ℝ × ℝ)) : 0 ≤ ssr p pts := by
  apply List.sum_nonneg
  intro x hx
  obtain ⟨t, -, rfl⟩ := List.mem_map.1 hx
  positivity

private theorem ssr_zero {p : TsPar} {pts : List (ℝ × ℝ)} : ssr p pts ≤ 0 ↔ ∀ t ∈ pts, p.eval t.1 = t.2 := by
  constructor
  · intro h t ht
    have := sum_sq_zero (by
      intro x hx
      obtain ⟨t, -, rfl⟩ := List.mem_map.1 hx
      positivity) h _ (List.mem_map.2 ⟨t, ht, rfl⟩)
    have := pow_eq_zero_iff (two_ne_zero) |>.1 this
    linarith
  · intro h
    unfold ssr
    rw [List.map_congr_left (g := fun _ => (0 : ℝ))]
    · simp
    · intro t ht
      rw [h t ht]; ring

private theorem proper_sub {p : TsPar} {pts l : List (ℝ × ℝ)} (h : Proper p pts) (hl : ∀ t ∈ l, ∃ y, (t.1, y) ∈ pts) :
    Proper p l := by
  refine ⟨h.1, h.2.1, ?_⟩
  intro t ht
  obtain ⟨y, hy⟩ := hl t ht
  exact h.2.2 (t.1, y) hy

private theorem fitAt_ok {cf : CurveFit} {sigma : Option ℝ} {d : TsallisDist} {row : TsRow}
    (h : fitTsallisAt cf sigma d = .ok row) : ∃ p0 r, tsallisStart (tsallisPoints sigma d) = .ok p0 ∧
      cf (tsallisPoints sigma d) p0 = .ok r ∧ row.par = r.1 ∧ row.chisq = tsallisChisq r.1 (tsallisPoints sigma d) ∧
      row.err = (r.2.1.map Real.sqrt, r.2.2.1.map Real.sqrt, r.2.2.2.map Real.sqrt) := by
  unfold fitTsallisAt at h
  simp only [bind, Except.bind, pure, Except.pure] at h
  cases h0 : tsallisStart (tsallisPoints sigma d) with
  | error e => rw [h0] at h; simp at h
  | ok p0 =>
    rw [h0] at h
    simp only at h
    cases h1 : cf (tsallisPoints sigma d) p0 with
    | error e => rw [h1] at h; simp at h
    | ok r =>
      rw [h1] at h
      simp only [Except.ok.injEq] at h
      subst h
      exact ⟨p0, r, rfl, h1, rfl, rfl, rfl⟩

/-- **C82 (exact distributions).** When the fitted points lie exactly on the function, a fit that finds the
least-squares solution returns its parameters and a chi-squared of 0. -/
theorem C82_exact (cf : CurveFit) (hcf : FindsMinimum cf) (sigma : Option ℝ) (d : TsallisDist) (p : TsPar)
    (hp : Proper p (tsallisPoints sigma d)) (hex : ∀ t ∈ tsallisPoints sigma d, t.2 = p.eval t.1)
    (h3 : ThreePoints (tsallisPoints sigma d)) (row : TsRow) (h : fitTsallisAt cf sigma d = .ok row) :
    row.par = p ∧ row.chisq = 0 := by
  obtain ⟨p0, r, -, hr, e1, e2, -⟩ := fitAt_ok h
  obtain ⟨hprop, hmin⟩ := hcf _ _ _ hr
  have h0 : ssr r.1 (tsallisPoints sigma d) ≤ 0 :=
    (hmin p hp).trans (ssr_zero.2 (fun t ht => (hex t ht).symm))
  have hv := ssr_zero.1 h0
  obtain ⟨a, ha, b, hb, c, hc, hab, hbc⟩ := h3
  have hsub : ∀ t ∈ [((a.1 : ℝ), (0 : ℝ)), (b.1, 0), (c.1, 0)], ∃ y, (t.1, y) ∈ tsallisPoints sigma d := by
    intro t ht
    simp only [List.mem_cons, List.not_mem_nil, or_false] at ht
    rcases ht with rfl | rfl | rfl
    · exact ⟨a.2, ha⟩
    · exact ⟨b.2, hb⟩
    · exact ⟨c.2, hc⟩
  have hpp : r.1 = p := C82_identifiable r.1 p a.1 b.1 c.1 hab hbc (proper_sub hprop hsub) (proper_sub hp hsub)
    (by rw [hv a ha, hex a ha]) (by rw [hv b hb, hex b hb]) (by rw [hv c hc, hex c hc])
  refine ⟨e1.trans hpp, ?_⟩
  rw [e2]
  unfold tsallisChisq
  rw [List.map_congr_left (g := fun _ => (0 : ℝ))]
  · simp
  · intro t ht
    rw [hv t ht]; simp

/-- The logarithm of the documented distribution. -/
theorem C82_log_form (a w2 q x : ℝ) (ha : 0 < a) (hq : q ≠ 1) (hx : 0 < 1 + (q - 1) * (x ^ 2 / w2)) :
    log10 (qGauss a w2 q x) = tsallisFunction x ((1 - q) * log10 a) w2 q := by
  have h1 : q - 1 ≠ 0 := sub_ne_zero.2 hq
  unfold qGauss tsallisFunction
  rw [log10_mul ha (Real.rpow_pos_of_pos hx _)]
  unfold log10
  rw [Real.logb_rpow_eq_mul_logb_of_pos hx]
  field_simp
  ring

private theorem mem_points {sigma : Option ℝ} {d : TsallisDist} {t : ℝ × ℝ} (h : t ∈ tsallisPoints sigma d) :
    ∃ k < d.prob.n, t.1 = d.centres.get k ∧ logProb (d.prob.get k) = some t.2 := by
  have : ((some t.1 : Option ℝ), (some t.2 : Option ℝ)) ∈
      (List.range d.prob.n).map (fun k => (some (d.centres.get k), logProb (d.prob.get k))) := by
    unfold tsallisPoints at h
    cases sigma with
    | none =>
      simp only [List.mem_filterMap] at h
      obtain ⟨⟨u, v⟩, hm, hh⟩ := h
      cases u with
      | none => simp at hh
      | some u =>
        cases v with
        | none => simp at hh
        | some v =>
          simp only [Option.some.injEq] at hh
          rw [← hh]
          exact hm
    | some s =>
      simp only at h
      have := (C41_clip s _ t.1 t.2).1 h
      exact this.1
  obtain ⟨k, hk, e⟩ := List.mem_map.1 this
  simp only [Prod.mk.injEq, Option.some.injEq] at e
  exact ⟨k, List.mem_range.1 hk, e.1.symm, e.2⟩

/-- **C82 (recovery).** When the histogram of a lag is exactly the documented distribution with `q > 1`, the
reported `w2` and `q` are its width and shape.  Missing: the amplitude (`C82_amplitude_violated`). -/
theorem C82_recovers_partial (cf : CurveFit) (hcf : FindsMinimum cf) (sigma : Option ℝ) (d : TsallisDist)
    (a w2 q : ℝ) (ha : 0 < a) (hw : 0 < w2) (hq : 1 < q)
    (hprob : ∀ k < d.prob.n, d.prob.get k = some (qGauss a w2 q (d.centres.get k)))
    (h3 : ThreePoints (tsallisPoints sigma d)) (row : TsRow) (h : fitTsallisAt cf sigma d = .ok row) :
    row.par.w2 = w2 ∧ row.par.q = q ∧ row.par.loga = (1 - q) * log10 a ∧ row.chisq = 0 := by
  have hq1 : 0 < q - 1 := by linarith
  have hpos : ∀ x : ℝ, 0 < 1 + (q - 1) * (x ^ 2 / w2) := fun x => by positivity
  have hp : Proper ⟨(1 - q) * log10 a, w2, q⟩ (tsallisPoints sigma d) := ⟨hq.ne', hw.ne', fun t _ => hpos _⟩
  have hex : ∀ t ∈ tsallisPoints sigma d, t.2 = TsPar.eval ⟨(1 - q) * log10 a, w2, q⟩ t.1 := by
    intro t ht
    obtain ⟨k, hk, e1, e2⟩ := mem_points ht
    rw [hprob k hk, ← e1] at e2
    unfold logProb at e2
    have hqg : 0 < qGauss a w2 q t.1 := mul_pos ha (Real.rpow_pos_of_pos (hpos _) _)
    simp only [if_neg hqg.ne', Option.some.injEq] at e2
    rw [← e2, C82_log_form a w2 q t.1 ha hq.ne' (hpos _)]
    rfl
  obtain ⟨e, hc⟩ := C82_exact cf hcf sigma d _ hp hex h3 row h
  rw [e]
  exact ⟨rfl, rfl, rfl, hc⟩

/-- The reported `logA` is not the logarithm of the amplitude of the distribution (unless that is 1): it is
`1 - q` times it. -/
theorem C82_amplitude_violated (cf : CurveFit) (hcf : FindsMinimum cf) (sigma : Option ℝ) (d : TsallisDist)
    (a w2 q : ℝ) (ha : 0 < a) (ha1 : a ≠ 1) (hw : 0 < w2) (hq : 1 < q)
    (hprob : ∀ k < d.prob.n, d.prob.get k = some (qGauss a w2 q (d.centres.get k)))
    (h3 : ThreePoints (tsallisPoints sigma d)) (row : TsRow) (h : fitTsallisAt cf sigma d = .ok row) :
    row.par.loga ≠ log10 a := by
  rw [(C82_recovers_partial cf hcf sigma d a w2 q ha hw hq hprob h3 row h).2.2.1]
  intro he
  have : q * log10 a = 0 := by linarith
  rcases mul_eq_zero.1 this with h0 | h0
  · linarith
  · apply ha1
    apply log10_inj ha one_pos
    rw [h0]; simp [log10]

/-- **C82 (the start of the fit).** The starting function peaks at the centre with the largest log-probability
among the fitted points. -/
theorem C82_start (pts : List (ℝ × ℝ)) (hne : pts ≠ []) :
    ∃ p0 mx, tsallisStart pts = .ok p0 ∧ mx ∈ pts.map (·.2) ∧ (∀ t ∈ pts, t.2 ≤ mx) ∧
      Proper p0 pts ∧ ∀ x, p0.eval x = mx - log10 (1 + x ^ 2) := by
  have hn : pts.map (·.2) ≠ [] := by simpa using hne
  obtain ⟨mx, hmx⟩ : ∃ mx, npMax (pts.map (·.2)) = .ok mx := by
    cases hh : pts.map (·.2) with
    | nil => exact absurd hh hn
    | cons y t => exact ⟨_, rfl⟩
  obtain ⟨hm, hle⟩ := npMax_spec hmx
  refine ⟨⟨-mx, 1, 2⟩, mx, ?_, hm, fun t ht => hle _ (List.mem_map.2 ⟨t, ht, rfl⟩), ?_, ?_⟩
  · unfold tsallisStart
    simp [hmx, bind, Except.bind, pure, Except.pure]
  · refine ⟨by norm_num, by norm_num, fun t _ => ?_⟩
    show (0 : ℝ) < 1 + (2 - 1) * (t.1 ^ 2 / 1)
    have := sq_nonneg t.1
    linarith
  · intro x
    unfold TsPar.eval tsallisFunction
    simp only
    rw [show (1 : ℝ) + (2 - 1) * (x ^ 2 / 1) = 1 + x ^ 2 by ring]
    norm_num
    ring

/-- **C82 (nothing to fit).** Without points the fit is refused, before distributions are made as well. -/
theorem C82_refused (cf : CurveFit) (sigma : Option ℝ) (d : TsallisDist) :
    (tsallisPoints sigma d = [] → fitTsallisAt cf sigma d = .error .valueError) ∧
    fitTsallis cf sigma none = .error .runtimeError := by
  refine ⟨?_, rfl⟩
  intro h
  unfold fitTsallisAt
  rw [h]
  rfl

/-- **C82 (rows).** One row per lag; each row is the fit of its own distribution and of no other; a fit that
fails anywhere fails as a whole. -/
theorem C82_rows (cf : CurveFit) (sigma : Option ℝ) (ds : List TsallisDist) :
    (∀ rows : List TsRow, fitTsallis cf sigma (some ds) = .ok rows → rows.length = ds.length ∧
      ∀ (k : ℕ) (d : TsallisDist) (r : TsRow), ds[k]? = some d → rows[k]? = some r → fitTsallisAt cf sigma d = .ok r) ∧
    ((∃ d ∈ ds, ∃ e, fitTsallisAt cf sigma d = .error e) → ∃ e, fitTsallis cf sigma (some ds) = .error e) := by
  unfold fitTsallis
  simp only
  induction ds with
  | nil =>
    constructor
    · intro rows h
      simp only [List.mapM_nil, pure, Except.pure, Except.ok.injEq] at h
      subst h
      simp
    · rintro ⟨d, hd, -⟩
      simp at hd
  | cons d t ih =>
    constructor
    · intro rows h
      rw [List.mapM_cons] at h
      simp only [bind, Except.bind, pure, Except.pure] at h
      cases h1 : fitTsallisAt cf sigma d with
      | error e => rw [h1] at h; simp at h
      | ok r =>
        rw [h1] at h
        simp only at h
        cases h2 : t.mapM (fitTsallisAt cf sigma) with
        | error e => rw [h2] at h; simp at h
        | ok rs =>
          rw [h2] at h
          simp only [Except.ok.injEq] at h
          subst h
          obtain ⟨hl, hk⟩ := ih.1 rs h2
          refine ⟨by simp [hl], ?_⟩
          intro k d' r' hd hr
          cases k with
          | zero =>
            simp only [List.getElem?_cons_zero, Option.some.injEq] at hd hr
            subst hd hr
            exact h1
          | succ k =>
            simp only [List.getElem?_cons_succ] at hd hr
            exact hk k d' r' hd hr
    · rintro ⟨d', hd', e, he⟩
      rw [List.mapM_cons]
      simp only [bind, Except.bind, pure, Except.pure]
      cases h1 : fitTsallisAt cf sigma d with
      | error e => exact ⟨e, rfl⟩
      | ok r =>
        simp only
        rcases List.mem_cons.1 hd' with rfl | hd'
        · rw [he] at h1; simp at h1
        · obtain ⟨e', he'⟩ := ih.2 ⟨d', hd', e, he⟩
          rw [he']
          exact ⟨e', rfl⟩

private theorem mapM_getElem {α β : Type} (f : α → Py β) : ∀ (l : List α) (rs : List β), l.mapM f = .ok rs →
    rs.length = l.length ∧ ∀ (k : ℕ) (a : α), l[k]? = some a → ∃ b, rs[k]? = some b ∧ f a = .ok b := by
  intro l
  induction l with
  | nil =>
    intro rs h
    simp only [List.mapM_nil, pure, Except.pure, Except.ok.injEq] at h
    subst h
    simp
  | cons a t ih =>
    intro rs h
    rw [List.mapM_cons] at h
    simp only [bind, Except.bind, pure, Except.pure] at h
    cases h1 : f a with
    | error e => rw [h1] at h; simp at h
    | ok r =>
      rw [h1] at h
      simp only at h
      cases h2 : t.mapM f with
      | error e => rw [h2] at h; simp at h
      | ok rs' =>
        rw [h2] at h
        simp only [Except.ok.injEq] at h
        subst h
        obtain ⟨hl, hk⟩ := ih rs' h2
        refine ⟨by simp [hl], ?_⟩
        intro k a' ha
        cases k with
        | zero =>
          simp only [List.getElem?_cons_zero, Option.some.injEq] at ha
          subst ha
          exact ⟨r, by simp, h1⟩
        | succ k =>
          simp only [List.getElem?_cons_succ] at ha
          simpa using hk k a' ha

/-- **C82 (the run).** A run reports one row per lag, in the order of the lags: row `k` is the fit, with the
given limit, of the distribution made from the image for lag `k` with the given edge treatment and number of
bins. -/
theorem C82_run (cf : CurveFit) (junk : ℕ → ℕ → Option ℝ) (periodic : Bool) (num : Option ℕ) (sigma : Option ℝ)
    (lags : List ℝ) (img : Arr2 (Option ℝ)) (rows : List TsRow)
    (h : tsallisRun cf junk periodic num sigma lags img = .ok rows) :
    rows.length = lags.length ∧ ∀ (k : ℕ) (l : ℝ), lags[k]? = some l →
      ∃ row d, rows[k]? = some row ∧ makeTsallisAt junk periodic num ⌊l⌋.toNat img = .ok d ∧
        fitTsallisAt cf sigma d.2 = .ok row := by
  unfold tsallisRun at h
  simp only [bind, Except.bind] at h
  cases h1 : lags.mapM (fun l => makeTsallisAt junk periodic num (tsallisPixLag l) img) with
  | error e => rw [h1] at h; simp at h
  | ok ds =>
    rw [h1] at h
    simp only at h
    obtain ⟨hl, hk⟩ := mapM_getElem _ _ _ h1
    obtain ⟨hl', hk'⟩ := mapM_getElem _ _ _ h
    refine ⟨by rw [hl', List.length_map, hl], ?_⟩
    intro k l hkl
    obtain ⟨d, hd, hm⟩ := hk k l hkl
    obtain ⟨row, hr, hf⟩ := hk' k d.2 (by simp [hd])
    exact ⟨row, d, hr, hm, hf⟩

/-- **C82 (clipping).** Which points are fitted: the finite ones, with a limit those whose log-probability is
within it. -/
theorem C82_points (sigma : Option ℝ) (d : TsallisDist) (x y : ℝ) :
    (x, y) ∈ tsallisPoints sigma d ↔ ∃ k < d.prob.n, ∃ p, d.prob.get k = some p ∧ p ≠ 0 ∧ x = d.centres.get k ∧
      y = log10 p ∧ ∀ s, sigma = some s → |y| < s := by
  have base : ((some x : Option ℝ), (some y : Option ℝ)) ∈
      (List.range d.prob.n).map (fun k => (some (d.centres.get k), logProb (d.prob.get k))) ↔
      ∃ k < d.prob.n, ∃ p, d.prob.get k = some p ∧ p ≠ 0 ∧ x = d.centres.get k ∧ y = log10 p := by
    rw [List.mem_map]
    constructor
    · rintro ⟨k, hk, e⟩
      simp only [Prod.mk.injEq, Option.some.injEq] at e
      obtain ⟨e1, e2⟩ := e
      unfold logProb at e2
      cases hp : d.prob.get k with
      | none => rw [hp] at e2; simp at e2
      | some p =>
        rw [hp] at e2
        simp only at e2
        split_ifs at e2 with h0
        simp only [Option.some.injEq] at e2
        exact ⟨k, List.mem_range.1 hk, p, hp, h0, e1.symm, e2.symm⟩
    · rintro ⟨k, hk, p, hp, h0, rfl, rfl⟩
      exact ⟨k, List.mem_range.2 hk, by simp [hp, logProb, h0]⟩
  cases sigma with
  | none =>
    have : (x, y) ∈ tsallisPoints none d ↔ ((some x : Option ℝ), (some y : Option ℝ)) ∈
        (List.range d.prob.n).map (fun k => (some (d.centres.get k), logProb (d.prob.get k))) := by
      unfold tsallisPoints
      simp only [List.mem_filterMap]
      constructor
      · rintro ⟨⟨u, v⟩, hm, hh⟩
        cases u <;> cases v <;> simp_all
      · intro h
        exact ⟨_, h, rfl⟩
    rw [this, base]
    simp
  | some s =>
    have : (x, y) ∈ tsallisPoints (some s) d ↔ _ := C41_clip s _ x y
    rw [this, base]
    constructor
    · rintro ⟨⟨k, hk, p, h1, h2, h3, h4⟩, hs⟩
      exact ⟨k, hk, p, h1, h2, h3, h4, by rintro s' ⟨⟩; exact hs⟩
    · rintro ⟨k, hk, p, h1, h2, h3, h4, hs⟩
      exact ⟨⟨k, hk, p, h1, h2, h3, h4⟩, hs s rfl⟩

/-- The limit is documented as a number of standard deviations of the increments; whatever it is (above 0.01),
an increment beyond it is fitted and an increment at the mean is left out. -/
theorem C82_clip_violated (s : ℝ) (hs : 0.01 < s) :
    ∃ d : TsallisDist, (∃ x y, (x, y) ∈ tsallisPoints (some s) d ∧ s < |x|) ∧
      d.prob.n = 2 ∧ d.centres.get 1 = 0 ∧ (∃ p, d.prob.get 1 = some p ∧ 0 < p ∧ p < 1) ∧
      ¬ ∃ y, ((0 : ℝ), y) ∈ tsallisPoints (some s) d := by
  have hlt : (10 : ℝ) ^ (-s) < 1 := Real.rpow_lt_one_of_one_lt_of_neg (by norm_num) (by linarith)
  refine ⟨⟨⟨2, fun k => if k = 0 then s + 1 else 0⟩, ⟨2, fun k => if k = 0 then some 1 else some ((10 : ℝ) ^ (-s))⟩⟩,
    ⟨s + 1, 0, ?_, ?_⟩, rfl, rfl, ⟨(10 : ℝ) ^ (-s), rfl, by positivity, hlt⟩, ?_⟩
  · rw [C82_points]
    refine ⟨0, by norm_num, 1, rfl, one_ne_zero, rfl, by simp [log10], ?_⟩
    rintro s' ⟨⟩
    simpa using by linarith
  · rw [abs_of_pos (by linarith)]; linarith
  · rintro ⟨y, hy⟩
    rw [C82_points] at hy
    obtain ⟨k, hk, p, hp, h0, hx, hy, hc⟩ := hy
    have hc := hc s rfl
    by_cases hk0 : k = 0
    · subst hk0
      simp only [if_true] at hx
      linarith
    · simp only [if_neg hk0, Option.some.injEq] at hp
      rw [hy, ← hp] at hc
      unfold log10 at hc
      rw [Real.logb_rpow (by norm_num) (by norm_num), abs_neg, abs_of_pos (by linarith)] at hc
      linarith

/-- **C82 (chi-squared).** Where the fitted function is defined, the reported number is never negative and 0 exactly for a perfect
fit. -/
theorem C82_chisq (p : TsPar) (pts : List (ℝ × ℝ)) (_hp : Proper p pts) :
    0 ≤ tsallisChisq p pts ∧ (tsallisChisq p pts = 0 ↔ ∀ t ∈ pts, p.eval t.1 = t.2) := by
  have h0 : ∀ x ∈ pts.map (fun t => (Real.exp (p.eval t.1) - Real.exp t.2) ^ 2 / Real.exp t.2), 0 ≤ x := by
    intro x hx
    obtain ⟨t, -, rfl⟩ := List.mem_map.1 hx
    positivity
  refine ⟨List.sum_nonneg h0, ?_, ?_⟩
  · intro h t ht
    have := sum_sq_zero h0 h.le _ (List.mem_map.2 ⟨t, ht, rfl⟩)
    rw [div_eq_zero_iff, or_iff_left (Real.exp_ne_zero _), pow_eq_zero_iff two_ne_zero, sub_eq_zero] at this
    exact Real.exp_injective this
  · intro h
    unfold tsallisChisq
    rw [List.map_congr_left (g := fun _ => (0 : ℝ))]
    · simp
    · intro t ht
      rw [h t ht]; simp

namespace Spec

/-- The reduced chi-squared of probabilities given by their decimal logarithms, three parameters fitted. -/
noncomputable def reducedChisq (f : ℝ → ℝ) (pts : List (ℝ × ℝ)) : ℝ :=
  (pts.map (fun t => ((10 : ℝ) ^ f t.1 - (10 : ℝ) ^ t.2) ^ 2 / (10 : ℝ) ^ t.2)).sum / (pts.length - 3)

end Spec

/-- What is reported as `redchisq` is not the reduced chi-squared: it does not depend on the number of degrees
of freedom and takes natural exponentials of decimal logarithms. -/
theorem C82_chisq_violated :
    (∀ p pts, tsallisChisq p (pts ++ pts) = 2 * tsallisChisq p pts) ∧
    ∃ p pts, pts.length = 4 ∧ tsallisChisq p pts < reducedChisq p.eval pts := by
  constructor
  · intro p pts
    unfold tsallisChisq
    rw [List.map_append, List.sum_append]; ring
  · refine ⟨⟨0, 1, 2⟩, [(0, -1), (0, -1), (0, -1), (0, -1)], rfl, ?_⟩
    have e0 : TsPar.eval ⟨0, 1, 2⟩ 0 = 0 := by
      unfold TsPar.eval tsallisFunction log10; norm_num
    unfold tsallisChisq reducedChisq
    simp only [List.map_cons, List.map_nil, List.sum_cons, List.sum_nil, e0, List.length_cons, List.length_nil]
    rw [Real.exp_zero, Real.rpow_zero, Real.rpow_neg_one]
    have h1 : Real.exp (-1) ≤ 1 := Real.exp_le_one_iff.2 (by norm_num)
    have h2 : (1 / 3 : ℝ) < Real.exp (-1) := by
      rw [Real.exp_neg, ← one_div]
      exact one_div_lt_one_div_of_lt (Real.exp_pos _) (by linarith [Real.exp_one_lt_d9])
    have h3 : (1 - Real.exp (-1)) ^ 2 / Real.exp (-1) < 3 := by
      rw [div_lt_iff₀ (Real.exp_pos _)]
      nlinarith
    norm_num
    linarith

/-- **C82 (table).** The named columns hold the parameter, or its error, of every lag in order; the lags are
listed as given. -/
theorem C82_table (lags : List ℝ) (rows : List TsRow) :
    (tsallisTable lags rows).map (·.1) =
      ["lags", "logA", "w2", "q", "logA_stderr", "w2_stderr", "q_stderr", "redchisq"] ∧
    ("lags", lags.map some) ∈ tsallisTable lags rows ∧
    ("w2", rows.map (fun r => some r.par.w2)) ∈ tsallisTable lags rows ∧
    ("q", rows.map (fun r => some r.par.q)) ∈ tsallisTable lags rows ∧
    ("logA", rows.map (fun r => some r.par.loga)) ∈ tsallisTable lags rows ∧
    ("logA_stderr", rows.map (fun r => r.err.1)) ∈ tsallisTable lags rows ∧
    ("w2_stderr", rows.map (fun r => r.err.2.1)) ∈ tsallisTable lags rows ∧
    ("q_stderr", rows.map (fun r => r.err.2.2)) ∈ tsallisTable lags rows ∧
    ("redchisq", rows.map (fun r => some r.chisq)) ∈ tsallisTable lags rows := by
  simp [tsallisTable]

/-! ### A Gaussian -/

private theorem eval_near (c k ε x : ℝ) (hk : 0 < k) (hε : 0 < ε) :
    |c - k * x ^ 2 - TsPar.eval ⟨-(ε * c), 1 / (k * Real.log 10), 1 + ε⟩ x| ≤ ε * (k ^ 2 * Real.log 10 * x ^ 4 / 2) := by
  have hl : 0 < Real.log 10 := Real.log_pos (by norm_num)
  rw [eval_form _ (by simp only; linarith)]
  simp only
  rw [show 1 + ε - 1 = ε by ring, show ε / (1 / (k * Real.log 10)) * x ^ 2 = ε * k * Real.log 10 * x ^ 2 by
    field_simp]
  set t := ε * k * Real.log 10 * x ^ 2 with ht
  have ht0 : 0 ≤ t := by positivity
  have hup : Real.log (1 + t) ≤ t := by
    have := Real.log_le_sub_one_of_pos (by linarith : 0 < 1 + t)
    linarith
  have hlo : 2 * t / (t + 2) ≤ Real.log (1 + t) := Real.le_log_one_add_of_nonneg ht0
  have hlo' : t - t ^ 2 / 2 ≤ Real.log (1 + t) := by
    refine le_trans ?_ hlo
    rw [le_div_iff₀ (by linarith)]
    nlinarith [mul_nonneg ht0 (mul_nonneg ht0 ht0)]
  have e : c - k * x ^ 2 - (-(-(ε * c) / ε) - 1 / (ε * Real.log 10) * Real.log (1 + t)) =
      -((t - Real.log (1 + t)) / (ε * Real.log 10)) := by
    rw [ht]; field_simp; ring
  rw [e, abs_neg, abs_of_nonneg (div_nonneg (by linarith) (by positivity)), div_le_iff₀ (by positivity)]
  calc t - Real.log (1 + t) ≤ t ^ 2 / 2 := by linarith
    _ = ε * (k ^ 2 * Real.log 10 * x ^ 4 / 2) * (ε * Real.log 10) := by rw [ht]; ring

private theorem sum_le_of {l : List (ℝ × ℝ)} {f g : ℝ × ℝ → ℝ} (h : ∀ t ∈ l, f t ≤ g t) :
    (l.map f).sum ≤ (l.map g).sum := by
  induction l with
  | nil => simp
  | cons y t ih =>
    simp only [List.map_cons, List.sum_cons]
    have h1 := h y (by simp)
    have h2 := ih (fun t ht => h t (by simp [ht]))
    linarith

private theorem sum_mul_const {l : List (ℝ × ℝ)} (f : ℝ × ℝ → ℝ) (c : ℝ) :
    (l.map (fun t => c * f t)).sum = c * (l.map f).sum := by
  induction l with
  | nil => simp
  | cons y t ih => simp only [List.map_cons, List.sum_cons, ih]; ring

/-- **C82 (Gaussian increments).** For a distribution that is exactly Gaussian the least-squares problem has no
solution: every parameter set can be improved (towards `q = 1`, which the function does not allow). -/
theorem C82_gaussian (pts : List (ℝ × ℝ)) (c k : ℝ) (hk : 0 < k) (hg : ∀ t ∈ pts, t.2 = c - k * t.1 ^ 2)
    (h3 : ThreePoints pts) (p : TsPar) (hp : Proper p pts) : ∃ p', Proper p' pts ∧ 1 < p'.q ∧ ssr p' pts < ssr p pts := by
  have hl : 0 < Real.log 10 := Real.log_pos (by norm_num)
  have hpos : 0 < ssr p pts := by
    rcases (ssr_nonneg p pts).lt_or_eq with h | h
    · exact h
    · exfalso
      have hv := ssr_zero.1 h.symm.le
      obtain ⟨a, ha, b, hb, d, hd, hab, hbd⟩ := h3
      obtain ⟨hq, hw, hpp⟩ := hp
      have h1 : p.q - 1 ≠ 0 := sub_ne_zero.2 hq
      have P : ∀ t ∈ pts, 0 < 1 + (p.q - 1) / p.w2 * t.1 ^ 2 := by
        intro t ht
        rw [show (p.q - 1) / p.w2 * t.1 ^ 2 = (p.q - 1) * (t.1 ^ 2 / p.w2) by ring]
        exact hpp t ht
      have E : ∀ t ∈ pts, 1 / ((p.q - 1) * Real.log 10) * Real.log (1 + (p.q - 1) / p.w2 * t.1 ^ 2) =
          k * t.1 ^ 2 + (-(p.loga / (p.q - 1)) - c) := by
        intro t ht
        have := hv t ht
        rw [eval_form p hq, hg t ht] at this
        linarith
      exact log_not_line (by have := hl.ne'; positivity) (div_ne_zero h1 hw) hk.ne' (sq_lt_of_abs hab) (sq_lt_of_abs hbd)
        (P a ha) (P d hd) (E a ha) (E b hb) (E d hd)
  set M := (pts.map (fun t => (k ^ 2 * Real.log 10 * t.1 ^ 4 / 2) ^ 2)).sum with hM
  have hM0 : 0 ≤ M := by
    apply List.sum_nonneg
    intro x hx
    obtain ⟨t, -, rfl⟩ := List.mem_map.1 hx
    positivity
  set ε := Real.sqrt (ssr p pts / (M + 1)) with hε
  have hε0 : 0 < ε := Real.sqrt_pos.2 (div_pos hpos (by linarith))
  refine ⟨⟨-(ε * c), 1 / (k * Real.log 10), 1 + ε⟩, ⟨by simp only; linarith, by simp only; positivity, ?_⟩,
    by simp only; linarith, ?_⟩
  · intro t _
    simp only
    rw [show 1 + ε - 1 = ε by ring]
    positivity
  · have h1 : ssr ⟨-(ε * c), 1 / (k * Real.log 10), 1 + ε⟩ pts ≤ ε ^ 2 * M := by
      rw [hM, ← sum_mul_const]
      apply sum_le_of
      intro t ht
      rw [hg t ht]
      have := eval_near c k ε t.1 hk hε0
      rw [← sq_abs]
      calc _ ≤ (ε * (k ^ 2 * Real.log 10 * t.1 ^ 4 / 2)) ^ 2 := pow_le_pow_left₀ (abs_nonneg _) this 2
        _ = _ := by ring
    refine h1.trans_lt ?_
    rw [hε, Real.sq_sqrt (by positivity), div_mul_eq_mul_div, div_lt_iff₀ (by linarith)]
    nlinarith

/-! ### Units of the image -/

private theorem standardize_scale (x : List (Option ℝ)) (c : ℝ) (hc : 0 < c) :
    standardize (x.map (Option.map (c * ·))) = standardize x := by
  unfold standardize
  rw [List.map_map]
  by_cases hne : validVals x = []
  · apply List.map_congr_left
    intro v hv
    cases v with
    | none => rfl
    | some v => have := mem_validVals.2 hv; rw [hne] at this; simp at this
  · obtain ⟨m, hm⟩ := exists_meanO hne
    obtain ⟨s, hs⟩ := exists_varO hne
    have hv : validVals (x.map (Option.map (c * ·))) = (validVals x).map (fun t => c * t + 0) := by
      rw [validVals_map]; apply List.map_congr_left; intro t _; ring
    have e1 : nanmean (x.map (Option.map (c * ·))) = some (c * m) := by
      unfold nanmean; rw [hv, meanO_affine hm, add_zero]
    have e2 : nanstd (x.map (Option.map (c * ·))) = some (c * Real.sqrt s) := by
      unfold nanstd
      rw [hv, varO_affine hs, Option.map_some, Real.sqrt_mul (sq_nonneg c), Real.sqrt_sq hc.le]
    have e3 : nanmean x = some m := hm
    have e4 : nanstd x = some (Real.sqrt s) := by unfold nanstd; rw [hs]; rfl
    rw [e1, e2, e3, e4]
    apply List.map_congr_left
    intro v _
    cases v with
    | none => rfl
    | some v =>
      simp only [Function.comp, Option.map_some, subO, divO, bind, Option.bind, pure, mul_eq_zero, hc.ne', false_or]
      split_ifs
      · rfl
      · congr 1
        field_simp

private theorem tsallisMap_scale (junk : ℕ → ℕ → Option ℝ) (lag : ℕ) (img : Arr2 (Option ℝ)) (c : ℝ) :
    (tsallisMap junk true lag (img.map (Option.map (c * ·)))).ravel =
      (tsallisMap junk true lag img).ravel.map (Option.map (c * ·)) := by
  unfold Arr2.ravel
  rw [List.map_flatMap]
  simp only [List.map_map]
  have : ∀ i j, (tsallisMap junk true lag (img.map (Option.map (c * ·)))).get i j =
      ((tsallisMap junk true lag img).get i j).map (c * ·) := by
    intro i j
    simp only [tsallisMap, rollSum, Arr2.roll0, Arr2.roll1, Arr2.map, if_true]
    generalize img.get _ _ = a1
    generalize img.get _ _ = a2
    generalize img.get _ _ = a3
    generalize img.get _ _ = a4
    generalize img.get _ _ = a5
    cases a1 <;> cases a2 <;> cases a3 <;> cases a4 <;> cases a5 <;> simp [addO, subO, divO] <;> ring
  simp only [Function.comp_def, this]
  rfl

/-- **C82 (units).** With periodic edges the fits do not depend on the unit of the image. -/
theorem C82_units (cf : CurveFit) (junk : ℕ → ℕ → Option ℝ) (num : Option ℕ) (sigma : Option ℝ) (pixLags : List ℝ)
    (img : Arr2 (Option ℝ)) (c : ℝ) (hc : 0 < c) :
    tsallisRun cf junk true num sigma pixLags (img.map (Option.map (c * ·))) =
      tsallisRun cf junk true num sigma pixLags img := by
  unfold tsallisRun
  have hb : tsallisBins num (img.map (Option.map (c * ·))) = tsallisBins num img := by
    cases num with
    | some k => rfl
    | none =>
      have : (img.map (Option.map (c * ·))).nFinite = img.nFinite := by
        unfold Arr2.nFinite Arr2.map
        simp
      unfold tsallisBins
      rw [this]
  have : ∀ l : ℝ, makeTsallisAt junk true num (tsallisPixLag l) (img.map (Option.map (c * ·))) =
      makeTsallisAt junk true num (tsallisPixLag l) img := by
    intro l
    unfold makeTsallisAt
    rw [tsallisMap_scale, standardize_scale _ _ hc, hb]
  simp only [this]

/-- Non-vacuity: a histogram with three bins that is exactly a Tsallis distribution. -/
example : ∃ d : TsallisDist, (∀ k < d.prob.n, d.prob.get k = some (qGauss (1 / 2) 1 2 (d.centres.get k))) ∧
    ThreePoints (tsallisPoints none d) := by
  have hval : ∀ k < 3, (⟨3, fun k => some (qGauss (1 / 2) 1 2 (k : ℝ))⟩ : Arr1 (Option ℝ)).get k =
      some (qGauss (1 / 2) 1 2 (k : ℝ)) := fun _ _ => rfl
  have hpos : ∀ k : ℕ, qGauss (1 / 2) 1 2 (k : ℝ) ≠ 0 := by
    intro k
    have : (0 : ℝ) < 1 + (2 - 1) * ((k : ℝ) ^ 2 / 1) := by positivity
    exact (mul_pos (by norm_num) (Real.rpow_pos_of_pos this _)).ne'
  refine ⟨⟨⟨3, fun k => (k : ℝ)⟩, ⟨3, fun k => some (qGauss (1 / 2) 1 2 (k : ℝ))⟩⟩, hval, ?_⟩
  have hm : ∀ k : ℕ, k < 3 → (((k : ℝ)), log10 (qGauss (1 / 2) 1 2 (k : ℝ))) ∈ tsallisPoints none
      ⟨⟨3, fun k => (k : ℝ)⟩, ⟨3, fun k => some (qGauss (1 / 2) 1 2 (k : ℝ))⟩⟩ := by
    intro k hk
    rw [C82_points]
    exact ⟨k, hk, _, rfl, hpos k, rfl, rfl, by simp⟩
  exact ⟨_, hm 0 (by norm_num), _, hm 1 (by norm_num), _, hm 2 (by norm_num), by norm_num, by norm_num⟩

/-- Non-vacuity of `C82_run`: a 2×2 image with one bright pixel, two lags, a solver that always answers. -/
example (junk : ℕ → ℕ → Option ℝ) : ∃ rows, tsallisRun (fun _ p => .ok (p, (none, none, none))) junk true (some 2)
    none [1, 1] ⟨2, 2, fun i j => if i = 0 ∧ j = 0 then some 1 else some 0⟩ = .ok rows := by
  have hr : (tsallisMap junk true 1 ⟨2, 2, fun i j => if i = 0 ∧ j = 0 then some 1 else some 0⟩).ravel =
      [some (-1), some (1 / 2), some (1 / 2), some 0] := by
    simp [tsallisMap, rollSum, Arr2.ravel, Arr2.roll0, Arr2.roll1, rollIx, List.range_succ, addO, subO, divO, bind]
    norm_num
  have hv : validVals (standardize (tsallisMap junk true 1
      ⟨2, 2, fun i j => if i = 0 ∧ j = 0 then some 1 else some 0⟩).ravel) ≠ [] := by
    rw [hr]
    have h1 : nanmean [some (-1), some (1 / 2), some (1 / 2), some (0 : ℝ)] = some 0 := by
      simp [nanmean, meanO, validVals]; norm_num
    have h2 : nanstd [some (-1), some (1 / 2), some (1 / 2), some (0 : ℝ)] = some (Real.sqrt (3 / 8)) := by
      have hvar : varO (validVals [some (-1), some (1 / 2), some (1 / 2), some (0 : ℝ)]) = some (3 / 8) := by
        simp [varO, meanO, validVals]; norm_num
      unfold nanstd
      rw [hvar]
      rfl
    unfold standardize
    rw [h1, h2]
    simp [validVals, subO, divO]
  obtain ⟨d, e, p, hd, -, hpn, -, -, -, -, hp, hsum, -⟩ := C41_probabilities 2 (by norm_num) _ hv
  have hpt : tsallisPoints none d ≠ [] := by
    have : ∃ k < 2, p k ≠ 0 := by
      by_contra hc
      push Not at hc
      rw [Finset.sum_congr rfl (fun k hk => hc k (Finset.mem_range.1 hk))] at hsum
      simp at hsum
    obtain ⟨k, hk, hk0⟩ := this
    exact List.ne_nil_of_mem ((C82_points none d _ _).2 ⟨k, by omega, p k, (hp k hk).1, hk0, rfl, rfl, by simp⟩)
  obtain ⟨p0, mx, h0, -⟩ := C82_start _ hpt
  obtain ⟨w, hm⟩ : ∃ w, makeTsallisAt junk true (some 2) (tsallisPixLag 1)
      ⟨2, 2, fun i j => if i = 0 ∧ j = 0 then some 1 else some 0⟩ = .ok (w, d) := by
    unfold makeTsallisAt tsallisPixLag
    refine ⟨standardize (tsallisMap junk true 1
      ⟨2, 2, fun i j => if i = 0 ∧ j = 0 then some 1 else some 0⟩).ravel, ?_⟩
    simp only [Int.floor_one, Int.toNat_one, tsallisBins, hd, bind, Except.bind, pure, Except.pure]
  simp only [tsallisRun, fitTsallis, List.mapM_cons, List.mapM_nil, hm, bind, Except.bind, pure, Except.pure, List.map,
    fitTsallisAt, h0]
  exact ⟨_, rfl⟩

end TS
