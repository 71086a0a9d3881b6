import Verif.Model.PdfFit
import Mathlib.Tactic.Linarith
import Mathlib.Tactic.FieldSimp
import Mathlib.Tactic.Ring
import Mathlib.Tactic.Positivity
import Mathlib.Tactic.NormNum
import Mathlib.Algebra.Order.BigOperators.Group.List

/-! C78 — the log-normal fit of a PDF is the maximum-likelihood fit. -/

namespace TS

namespace Spec

/-- Arithmetic mean. -/
noncomputable def mean (l : List ℝ) : ℝ := l.sum / l.length

/-- Standard deviation (of the population). -/
noncomputable def sd (l : List ℝ) : ℝ := Real.sqrt (mean (l.map (fun t => (t - mean l) ^ 2)))

/-- `p` maximises the log-likelihood `L` among the parameter vectors of its length. -/
def Maximises (L : List ℝ → Py (Option ℝ)) (p : List ℝ) : Prop :=
  ∃ v, L p = .ok (some v) ∧ ∀ q w, q.length = p.length → L q = .ok (some w) → w ≤ v

/-- What is assumed of the optimiser: it evaluates the likelihood at the start, and finds a maximum if
there is one. -/
def Optimiser (opt : (List ℝ → Py (Option ℝ)) → List ℝ → Py (List ℝ)) : Prop :=
  (∀ L p0 e, L p0 = .error e → opt L p0 = .error e) ∧
  ∀ L p0, (∀ q : List ℝ, q.length = p0.length → ∃ r, L q = .ok r) → (∃ p, p.length = p0.length ∧ Maximises L p) →
    ∃ p, opt L p0 = .ok p ∧ p.length = p0.length ∧ Maximises L p

/-- What is assumed of scipy's `lognorm.fit`: three numbers. -/
def StartFit (sfit : List ℝ → Option ℝ → Option ℝ → Py (List ℝ)) (data : List ℝ) : Prop :=
  ∀ a b, ∃ s l c, sfit data a b = .ok [s, l, c]

end Spec

open Spec

private theorem loglike_eq (c : ℝ) (data : List ℝ) (hpos : ∀ x ∈ data, c < x) (s k : ℝ) (hs : 0 < s) (hk : 0 < k) :
    loglike lognormLogpdf { loc := c } data [s, k] =
      .ok (some ((data.map (fun x => -(Real.log (x - c) - Real.log k) ^ 2 / (2 * s ^ 2)
        - Real.log s - Real.log (x - c) - Real.log (Real.sqrt (2 * Real.pi)))).sum)) := by
  have hp2 : Real.sqrt (2 * Real.pi) ≠ 0 := (Real.sqrt_pos.2 (by positivity)).ne'
  have hm : data.mapM (lognormLogpdf [s] c k) = some (data.map (fun x => -(Real.log (x - c) - Real.log k) ^ 2 / (2 * s ^ 2)
        - Real.log s - Real.log (x - c) - Real.log (Real.sqrt (2 * Real.pi)))) := by
    induction data with
    | nil => rfl
    | cons x t ih =>
      have hx : 0 < x - c := sub_pos.2 (hpos x (by simp))
      have hq : 0 < (x - c) / k := div_pos hx hk
      rw [List.mapM_cons, ih (fun y hy => hpos y (by simp [hy]))]
      have : lognormLogpdf [s] c k x = some (-(Real.log (x - c) - Real.log k) ^ 2 / (2 * s ^ 2)
        - Real.log s - Real.log (x - c) - Real.log (Real.sqrt (2 * Real.pi))) := by
        unfold lognormLogpdf
        simp only
        rw [if_pos ⟨hs, hk, hq⟩, Real.log_mul (mul_ne_zero hs.ne' hq.ne') hp2, Real.log_mul hs.ne' hq.ne',
          Real.log_div hx.ne' hk.ne']
        congr 1; ring
      rw [this]
      rfl
  unfold loglike splitParams
  simp only [bind, Except.bind, pure, Except.pure, fromEnd, List.length_cons, List.length_nil]
  norm_num [hm]

private theorem loglike_total (c : ℝ) (data : List ℝ) (q : List ℝ) (hq : q.length = 2) :
    ∃ s k, q = [s, k] ∧ ∃ r, loglike lognormLogpdf { loc := c } data q = .ok r ∧
      (data ≠ [] → ∀ w, r = some w → 0 < s ∧ 0 < k ∧ ∀ x ∈ data, c < x) := by
  match q, hq with
  | [s, k], _ =>
    refine ⟨s, k, rfl, _, rfl, ?_⟩
    intro hne w hw
    have hex : ∃ l, data.mapM (lognormLogpdf [s] c k) = some l := by
      cases h : data.mapM (lognormLogpdf [s] c k) with
      | none =>
        exfalso
        have : (data.mapM (lognormLogpdf [s] c k)).map List.sum = some w := hw
        rw [h] at this; cases this
      | some l => exact ⟨l, rfl⟩
    obtain ⟨l, hl⟩ := hex
    have hall : ∀ x ∈ data, ∃ y, lognormLogpdf [s] c k x = some y := by
      clear hw hne
      induction data generalizing l with
      | nil => simp
      | cons a t ih =>
        rw [List.mapM_cons] at hl
        cases ha : lognormLogpdf [s] c k a with
        | none => rw [ha] at hl; cases hl
        | some y =>
          cases ht : t.mapM (lognormLogpdf [s] c k) with
          | none => rw [ha, ht] at hl; cases hl
          | some l' =>
            intro x hx
            rcases List.mem_cons.1 hx with rfl | hx
            · exact ⟨y, ha⟩
            · exact ih l' ht x hx
    have hcond : ∀ x ∈ data, 0 < s ∧ 0 < k ∧ 0 < (x - c) / k := by
      intro x hx
      obtain ⟨y, hy⟩ := hall x hx
      unfold lognormLogpdf at hy
      simp only at hy
      split_ifs at hy with h
      exact h
    obtain ⟨x0, hx0⟩ := List.exists_mem_of_ne_nil _ hne
    refine ⟨(hcond x0 hx0).1, (hcond x0 hx0).2.1, fun x hx => ?_⟩
    obtain ⟨-, hk, hq⟩ := hcond x hx
    have := (div_pos_iff_of_pos_right hk).1 hq
    linarith

/-- The sum of squares about any point. -/
private theorem sum_sq_about (l : List ℝ) (hne : l ≠ []) (a : ℝ) :
    (l.map (fun t => (t - a) ^ 2)).sum = l.length * (mean (l.map (fun t => (t - mean l) ^ 2)) + (mean l - a) ^ 2) := by
  have hn : (l.length : ℝ) ≠ 0 := by exact_mod_cast (List.length_pos_of_ne_nil hne).ne'
  have hsm : ∀ m : List ℝ, (m.length : ℝ) ≠ 0 → m.sum = m.length * mean m := by
    intro m hm; unfold mean; field_simp
  have hs : l.sum = l.length * mean l := hsm l hn
  have e1 : ∀ (l : List ℝ) (m b : ℝ), (l.map (fun t => (t - b) ^ 2)).sum =
      (l.map (fun t => (t - m) ^ 2)).sum + 2 * (m - b) * (l.sum - l.length * m) + l.length * (m - b) ^ 2 := by
    intro l m b
    induction l with
    | nil => simp
    | cons x t ih => simp only [List.map_cons, List.sum_cons, ih, List.length_cons]; push_cast; ring
  have e2 : (l.map (fun t => (t - mean l) ^ 2)).sum = l.length * mean (l.map (fun t => (t - mean l) ^ 2)) := by
    have := hsm (l.map (fun t => (t - mean l) ^ 2)) (by rw [List.length_map]; exact hn)
    rw [List.length_map] at this
    exact this
  rw [e1 l (mean l) a, e2, hs]
  ring

private theorem sum_terms (l : List ℝ) (a b c d : ℝ) :
    (l.map (fun t => -(t - a) ^ 2 / b - c - t - d)).sum =
      -(l.map (fun t => (t - a) ^ 2)).sum / b - l.length * c - l.sum - l.length * d := by
  induction l with
  | nil => simp
  | cons x t ih => simp only [List.map_cons, List.sum_cons, ih, List.length_cons]; push_cast; ring

/-- The likelihood of the fit, in terms of mean and variance of the logarithms. -/
private theorem loglike_value (c : ℝ) (data : List ℝ) (hne : data ≠ []) (hpos : ∀ x ∈ data, c < x) (s k : ℝ) (hs : 0 < s)
    (hk : 0 < k) :
    let l := data.map (fun x => Real.log (x - c))
    loglike lognormLogpdf { loc := c } data [s, k] =
      .ok (some (-(l.length * (mean (l.map (fun t => (t - mean l) ^ 2)) + (mean l - Real.log k) ^ 2)) / (2 * s ^ 2)
        - l.length * Real.log s - l.sum - l.length * Real.log (Real.sqrt (2 * Real.pi)))) := by
  intro l
  rw [loglike_eq c data hpos s k hs hk]
  have : data.map (fun x => -(Real.log (x - c) - Real.log k) ^ 2 / (2 * s ^ 2)
        - Real.log s - Real.log (x - c) - Real.log (Real.sqrt (2 * Real.pi))) =
      l.map (fun t => -(t - Real.log k) ^ 2 / (2 * s ^ 2) - Real.log s - t - Real.log (Real.sqrt (2 * Real.pi))) := by
    simp only [l, List.map_map]; rfl
  rw [this, sum_terms, sum_sq_about l (by simpa [l] using hne)]

private theorem best (V d s : ℝ) (hV : 0 < V) (hs : 0 < s) :
    -(V + d ^ 2) / (2 * s ^ 2) - Real.log s ≤ -V / (2 * Real.sqrt V ^ 2) - Real.log (Real.sqrt V) ∧
    (-(V + d ^ 2) / (2 * s ^ 2) - Real.log s = -V / (2 * Real.sqrt V ^ 2) - Real.log (Real.sqrt V) →
      s = Real.sqrt V ∧ d = 0) := by
  have hsv : Real.sqrt V ^ 2 = V := Real.sq_sqrt hV.le
  have hlv : Real.log (Real.sqrt V) = Real.log V / 2 := Real.log_sqrt hV.le
  have ht : 0 < V / s ^ 2 := by positivity
  have h1 : Real.log (V / s ^ 2) = Real.log V - 2 * Real.log s := by
    rw [Real.log_div hV.ne' (by positivity), Real.log_pow]; push_cast; ring
  have h2 := Real.log_le_sub_one_of_pos ht
  have e1 : -(V + d ^ 2) / (2 * s ^ 2) = -(V / s ^ 2) / 2 - (d / s) ^ 2 / 2 := by field_simp; ring
  have e2 : -V / (2 * Real.sqrt V ^ 2) = -1 / 2 := by rw [hsv]; field_simp
  rw [e1, e2, hlv]
  constructor
  · nlinarith [sq_nonneg (d / s)]
  · intro heq
    have hd : (d / s) ^ 2 = 0 := le_antisymm (by nlinarith [sq_nonneg (d / s)]) (sq_nonneg _)
    have hl : Real.log (V / s ^ 2) = V / s ^ 2 - 1 := by nlinarith
    have hone : V / s ^ 2 = 1 := by
      by_contra hne
      have := Real.log_lt_sub_one_of_pos ht hne
      linarith
    have hd0 : d = 0 := by
      have : d / s = 0 := by simpa using hd
      rcases div_eq_zero_iff.1 this with h | h
      · exact h
      · exact absurd h hs.ne'
    refine ⟨?_, hd0⟩
    have : V = s ^ 2 := by rwa [div_eq_one_iff_eq (by positivity)] at hone
    rw [this, Real.sqrt_sq hs.le]

private theorem var_pos (l : List ℝ) (a b : ℝ) (ha : a ∈ l) (hb : b ∈ l) (hab : a ≠ b) :
    0 < mean (l.map (fun t => (t - mean l) ^ 2)) := by
  have hne : l ≠ [] := List.ne_nil_of_mem ha
  have hn : (0 : ℝ) < l.length := by exact_mod_cast List.length_pos_of_ne_nil hne
  unfold mean
  rw [List.length_map]
  apply div_pos _ hn
  set m := l.sum / (l.length : ℝ)
  have hnn : ∀ y ∈ l.map (fun t => (t - m) ^ 2), 0 ≤ y := by
    intro y hy
    obtain ⟨t, -, rfl⟩ := List.mem_map.1 hy
    exact sq_nonneg _
  have hle : ∀ t ∈ l, (t - m) ^ 2 ≤ (l.map (fun t => (t - m) ^ 2)).sum := fun t ht =>
    List.single_le_sum hnn _ (List.mem_map.2 ⟨t, ht, rfl⟩)
  by_cases h : a = m
  · have : b - m ≠ 0 := fun h0 => hab (by linarith)
    exact lt_of_lt_of_le (by positivity) (hle b hb)
  · have : a - m ≠ 0 := sub_ne_zero.2 h
    exact lt_of_lt_of_le (by positivity) (hle a ha)

/-- The maximum of the likelihood, and its only one. -/
private theorem maximiser (c : ℝ) (data : List ℝ) (hpos : ∀ x ∈ data, c < x) (a b : ℝ) (ha : a ∈ data) (hb : b ∈ data)
    (hab : a ≠ b) :
    let l := data.map (fun x => Real.log (x - c))
    Maximises (loglike lognormLogpdf { loc := c } data) [sd l, Real.exp (mean l)] ∧
    ∀ p : List ℝ, p.length = 2 → Maximises (loglike lognormLogpdf { loc := c } data) p → p = [sd l, Real.exp (mean l)] := by
  intro l
  have hne : data ≠ [] := List.ne_nil_of_mem ha
  have hn : (0 : ℝ) < l.length := by
    have : 0 < l.length := by simpa [l] using List.length_pos_of_ne_nil hne
    exact_mod_cast this
  set V := mean (l.map (fun t => (t - mean l) ^ 2)) with hV
  have hVp : 0 < V := by
    apply var_pos l (Real.log (a - c)) (Real.log (b - c)) (List.mem_map.2 ⟨a, ha, rfl⟩) (List.mem_map.2 ⟨b, hb, rfl⟩)
    intro h
    have := Real.log_injOn_pos (Set.mem_Ioi.2 (sub_pos.2 (hpos a ha))) (Set.mem_Ioi.2 (sub_pos.2 (hpos b hb))) h
    exact hab (by linarith)
  have hsd : sd l = Real.sqrt V := rfl
  have hsp : 0 < sd l := Real.sqrt_pos.2 hVp
  have hbest := loglike_value c data hne hpos (sd l) (Real.exp (mean l)) hsp (Real.exp_pos _)
  simp only at hbest
  rw [Real.log_exp] at hbest
  have key : ∀ s k, 0 < s → 0 < k →
      -(l.length * (V + (mean l - Real.log k) ^ 2)) / (2 * s ^ 2) - l.length * Real.log s - l.sum -
        l.length * Real.log (Real.sqrt (2 * Real.pi)) =
      l.length * (-(V + (mean l - Real.log k) ^ 2) / (2 * s ^ 2) - Real.log s) - l.sum -
        l.length * Real.log (Real.sqrt (2 * Real.pi)) := by intro s k hs _; ring
  have hval0 : -(l.length * (V + (mean l - mean l) ^ 2)) / (2 * sd l ^ 2) - l.length * Real.log (sd l) - l.sum -
        l.length * Real.log (Real.sqrt (2 * Real.pi)) =
      l.length * (-V / (2 * Real.sqrt V ^ 2) - Real.log (Real.sqrt V)) - l.sum -
        l.length * Real.log (Real.sqrt (2 * Real.pi)) := by
    rw [hsd]; ring
  refine ⟨⟨_, hbest, ?_⟩, ?_⟩
  · intro q w hq hw
    obtain ⟨s, k, rfl, r, hr, hcond⟩ := loglike_total c data q hq
    rw [hw] at hr
    cases hr
    obtain ⟨hs, hk, -⟩ := hcond hne w rfl
    rw [loglike_value c data hne hpos s k hs hk] at hw
    cases hw
    show _ ≤ -(l.length * (V + (mean l - mean l) ^ 2)) / (2 * sd l ^ 2) - l.length * Real.log (sd l) - l.sum -
        l.length * Real.log (Real.sqrt (2 * Real.pi))
    rw [hval0]
    show -(l.length * (V + (mean l - Real.log k) ^ 2)) / (2 * s ^ 2) - l.length * Real.log s - l.sum -
        l.length * Real.log (Real.sqrt (2 * Real.pi)) ≤ _
    rw [key s k hs hk]
    have := (best V (mean l - Real.log k) s hVp hs).1
    nlinarith [mul_le_mul_of_nonneg_left this hn.le]
  · intro p hp hmax
    obtain ⟨v, hv, hvm⟩ := hmax
    obtain ⟨s, k, rfl, r, hr, hcond⟩ := loglike_total c data p hp
    rw [hv] at hr
    cases hr
    obtain ⟨hs, hk, -⟩ := hcond hne v rfl
    rw [loglike_value c data hne hpos s k hs hk] at hv
    cases hv
    have h1 := hvm [sd l, Real.exp (mean l)] _ rfl hbest
    have h1' : -(l.length * (V + (mean l - mean l) ^ 2)) / (2 * sd l ^ 2) - l.length * Real.log (sd l) - l.sum -
        l.length * Real.log (Real.sqrt (2 * Real.pi)) ≤
        -(l.length * (V + (mean l - Real.log k) ^ 2)) / (2 * s ^ 2) - l.length * Real.log s - l.sum -
        l.length * Real.log (Real.sqrt (2 * Real.pi)) := h1
    rw [hval0, key s k hs hk] at h1'
    obtain ⟨hle, heq⟩ := best V (mean l - Real.log k) s hVp hs
    have : l.length * (-V / (2 * Real.sqrt V ^ 2) - Real.log (Real.sqrt V)) ≤
        l.length * (-(V + (mean l - Real.log k) ^ 2) / (2 * s ^ 2) - Real.log s) := by linarith
    have h2 := le_of_mul_le_mul_left this hn
    obtain ⟨e1, e2⟩ := heq (le_antisymm hle h2)
    rw [hsd, e1, show mean l = Real.log k by linarith, Real.exp_log hk]

/-- **C78.** For data above `loc` that are not all equal, the fit returns the closed-form
maximum-likelihood parameters: the standard deviation of `log (x - loc)` as width and `exp` of its mean as
scale, whatever the starting values.  Missing: both `loc` and `scale` fixed (`C78_both_fixed_violated`), and a free `loc`
(`C78_free_location_violated`). -/
theorem C78_fit_partial (sfit : List ℝ → Option ℝ → Option ℝ → Py (List ℝ))
    (opt : (List ℝ → Py (Option ℝ)) → List ℝ → Py (List ℝ)) (hopt : Optimiser opt) (c : ℝ) (data : List ℝ)
    (hfit : StartFit sfit data) (hpos : ∀ x ∈ data, c < x) (a b : ℝ) (ha : a ∈ data) (hb : b ∈ data) (hab : a ≠ b) :
    fitPdf sfit opt lognormLogpdf "mle" { loc := c } data =
      .ok [sd (data.map (fun x => Real.log (x - c))), Real.exp (mean (data.map (fun x => Real.log (x - c))))] := by
  obtain ⟨s, l, k, h0⟩ := hfit (some c) none
  have hi : initParams sfit { loc := c } data = .ok [s, k] := by
    unfold initParams
    simp only [h0, bind, Except.bind, pure, Except.pure, fromEnd, List.length_cons, List.length_nil]
    norm_num
  unfold fitPdf
  rw [if_neg (by simp), hi]
  simp only [bind, Except.bind]
  obtain ⟨hm, hu⟩ := maximiser c data hpos a b ha hb hab
  obtain ⟨p, hp, hl, hpm⟩ := hopt.2 (loglike lognormLogpdf { loc := c } data) [s, k]
    (fun q hq => by obtain ⟨_, _, _, r, hr, _⟩ := loglike_total c data q hq; exact ⟨r, hr⟩)
    ⟨[sd (data.map (fun x => Real.log (x - c))), Real.exp (mean (data.map (fun x => Real.log (x - c))))], rfl, hm⟩
  rw [hp, hu p hl hpm]

/-- A change of units leaves the width and multiplies the scale. -/
theorem C78_units (sfit : List ℝ → Option ℝ → Option ℝ → Py (List ℝ))
    (opt : (List ℝ → Py (Option ℝ)) → List ℝ → Py (List ℝ)) (hopt : Optimiser opt) (data : List ℝ) (u : ℝ) (hu : 0 < u)
    (hfit : StartFit sfit data) (hfit' : StartFit sfit (data.map (u * ·))) (hpos : ∀ x ∈ data, 0 < x) (a b : ℝ)
    (ha : a ∈ data) (hb : b ∈ data) (hab : a ≠ b) :
    ∃ s k, fitPdf sfit opt lognormLogpdf "mle" {} data = .ok [s, k] ∧
      fitPdf sfit opt lognormLogpdf "mle" {} (data.map (u * ·)) = .ok [s, u * k] := by
  refine ⟨_, _, C78_fit_partial sfit opt hopt 0 data hfit hpos a b ha hb hab, ?_⟩
  rw [C78_fit_partial sfit opt hopt 0 (data.map (u * ·)) hfit' (by
      intro x hx; obtain ⟨y, hy, rfl⟩ := List.mem_map.1 hx; exact mul_pos hu (hpos y hy)) (u * a) (u * b)
    (List.mem_map.2 ⟨a, ha, rfl⟩) (List.mem_map.2 ⟨b, hb, rfl⟩) (fun h => hab (mul_left_cancel₀ hu.ne' h))]
  have hl : (data.map (u * ·)).map (fun x => Real.log (x - 0)) =
      (data.map (fun x => Real.log (x - 0))).map (Real.log u + ·) := by
    rw [List.map_map, List.map_map]
    apply List.map_congr_left
    intro x hx
    simp only [Function.comp, sub_zero]
    rw [Real.log_mul hu.ne' (hpos x hx).ne']
  set l := data.map (fun x => Real.log (x - 0)) with hldef
  have hn : (l.length : ℝ) ≠ 0 := by
    have : 0 < l.length := by simpa [l] using List.length_pos_of_mem ha
    exact_mod_cast this.ne'
  have hsum : ∀ (l : List ℝ) (t : ℝ), (l.map (t + ·)).sum = l.length * t + l.sum := by
    intro l t
    induction l with
    | nil => simp
    | cons x r ih => simp only [List.map_cons, List.sum_cons, ih, List.length_cons]; push_cast; ring
  have hmean : mean (l.map (Real.log u + ·)) = Real.log u + mean l := by
    have : ∀ (l : List ℝ) (t : ℝ), (l.length : ℝ) ≠ 0 → mean (l.map (t + ·)) = t + mean l := by
      intro l t hn
      unfold mean
      rw [hsum, List.length_map]
      field_simp
    exact this l _ hn
  rw [hl]
  have hsd : sd (l.map (Real.log u + ·)) = sd l := by
    unfold sd
    rw [hmean, List.map_map]
    congr 2
    apply List.map_congr_left
    intro t _
    simp only [Function.comp]
    ring
  rw [hsd, hmean, Real.exp_add, Real.exp_log hu]

/-- Fixing both `loc` and `scale` always raises, whatever the distribution; an unknown fit type is refused. -/
theorem C78_both_fixed_violated (sfit : List ℝ → Option ℝ → Option ℝ → Py (List ℝ))
    (opt : (List ℝ → Py (Option ℝ)) → List ℝ → Py (List ℝ)) (hopt : Optimiser opt)
    (logpdf : List ℝ → ℝ → ℝ → ℝ → Option ℝ) (c k : ℝ) (data p0 : List ℝ) (hfit : sfit data none none = .ok p0) :
    fitPdf sfit opt logpdf "mle" ⟨true, c, true, k⟩ data = .error .unboundLocal := by
  unfold fitPdf
  rw [if_neg (by simp)]
  simp only [initParams, hfit, bind, Except.bind]
  exact hopt.1 _ _ _ rfl

theorem C78_fit_type (sfit : List ℝ → Option ℝ → Option ℝ → Py (List ℝ))
    (opt : (List ℝ → Py (Option ℝ)) → List ℝ → Py (List ℝ)) (logpdf : List ℝ → ℝ → ℝ → ℝ → Option ℝ) (t : String)
    (ht : t ≠ "mle" ∧ t ≠ "mcmc") (f : FitFixes) (data : List ℝ) :
    fitPdf sfit opt logpdf t f data = .error .valueError := by
  unfold fitPdf
  rw [if_pos ht]

/-- The parameters of the vector go where they belong: shapes first, then the free ones of `loc` and
`scale`; a fixed one keeps its given value. -/
theorem C78_parameters (f : FitFixes) (shapes : List ℝ) (l k : ℝ) (logpdf : List ℝ → ℝ → ℝ → ℝ → Option ℝ)
    (data : List ℝ) (h : ¬ (f.floc = true ∧ f.fscale = true)) :
    loglike logpdf f data (shapes ++ (if f.floc then [] else [l]) ++ (if f.fscale then [] else [k])) =
      .ok ((data.mapM (logpdf shapes (if f.floc then f.loc else l) (if f.fscale then f.scale else k))).map List.sum) := by
  obtain ⟨fl, lo, fs, sc⟩ := f
  have t1 : ∀ x : ℝ, (shapes ++ [x]).take ((shapes ++ [x]).length - 1) = shapes := fun x => by simp
  have g1 : ∀ x : ℝ, fromEnd (shapes ++ [x]) 1 = .ok x := fun x => by simp [fromEnd]
  have t2 : ∀ x y : ℝ, (shapes ++ [x] ++ [y]).take ((shapes ++ [x] ++ [y]).length - 2) = shapes := fun x y => by simp
  have g2 : ∀ x y : ℝ, fromEnd (shapes ++ [x] ++ [y]) 2 = .ok x := fun x y => by simp [fromEnd]
  have g3 : ∀ x y : ℝ, fromEnd (shapes ++ [x] ++ [y]) 1 = .ok y := fun x y => by simp [fromEnd]
  cases fl <;> cases fs
  · simp only [loglike, splitParams, Bool.false_eq_true, if_false, t2, g2, g3, bind, Except.bind, pure, Except.pure]
  · simp only [loglike, splitParams, Bool.false_eq_true, if_false, if_true, List.append_nil, t1, g1, bind, Except.bind,
      pure, Except.pure]
  · simp only [loglike, splitParams, Bool.false_eq_true, if_false, if_true, List.append_nil, t1, g1, bind, Except.bind,
      pure, Except.pure]
  · exact absurd ⟨rfl, rfl⟩ h

/-- Data at or below `loc` have no likelihood at any parameters. -/
theorem C78_nonpositive (c : ℝ) (data : List ℝ) (x : ℝ) (hx : x ∈ data) (hle : x ≤ c) (q : List ℝ)
    (hq : q.length = 2) : loglike lognormLogpdf { loc := c } data q = .ok none := by
  obtain ⟨s, k, rfl, r, hr, hcond⟩ := loglike_total c data q hq
  rw [hr]
  cases r with
  | none => rfl
  | some w => exact absurd ((hcond (List.ne_nil_of_mem hx) w rfl).2.2 x hx) (not_lt.2 hle)

private theorem sum_ge_with_peak (l : List ℝ) (f : ℝ → ℝ) (L T m : ℝ) (hT : 0 ≤ T) (hl : ∀ x ∈ l, L ≤ f x) (hm : m ∈ l) (hp : L + T ≤ f m) :
    l.length * L + T ≤ (l.map f).sum := by
  have low : ∀ l : List ℝ, (∀ x ∈ l, L ≤ f x) → l.length * L ≤ (l.map f).sum := by
    intro l hl
    induction l with
    | nil => simp
    | cons a t ih =>
      have h1 := hl a (by simp)
      have h2 := ih fun x hx => hl x (by simp [hx])
      simp only [List.map_cons, List.sum_cons, List.length_cons]
      push_cast
      linarith
  induction l with
  | nil => cases hm
  | cons a t ih =>
    have h1 := hl a (by simp)
    simp only [List.map_cons, List.sum_cons, List.length_cons]
    push_cast
    rcases List.mem_cons.1 hm with rfl | hm
    · have h2 := low t fun x hx => hl x (by simp [hx])
      linarith
    · have h2 := ih (fun x hx => hl x (by simp [hx])) hm
      linarith

/-- With a free location the likelihood has no maximum, whether or not the scale is fixed: for every data set that is not empty, every scale
and every bound there are a width and a location, just below the smallest value, whose likelihood is beyond the bound. -/
theorem C78_free_location_violated (data : List ℝ) (hne : data ≠ []) (k : ℝ) (hk : 0 < k) (l0 : ℝ) :
    (∀ B : ℝ, ∃ s c v, B < v ∧ loglike lognormLogpdf ⟨false, l0, false, k⟩ data [s, c, k] = .ok (some v) ∧
      loglike lognormLogpdf ⟨false, l0, true, k⟩ data [s, c] = .ok (some v)) ∧
    (¬ ∃ p : List ℝ, p.length = 3 ∧ Maximises (loglike lognormLogpdf ⟨false, l0, false, k⟩ data) p) ∧
    ¬ ∃ p : List ℝ, p.length = 2 ∧ Maximises (loglike lognormLogpdf ⟨false, l0, true, k⟩ data) p := by
  have main : ∀ B : ℝ, ∃ s c v, B < v ∧ loglike lognormLogpdf ⟨false, l0, false, k⟩ data [s, c, k] = .ok (some v) ∧
      loglike lognormLogpdf ⟨false, l0, true, k⟩ data [s, c] = .ok (some v) := by
    intro B
    obtain ⟨m, hm, hmin⟩ : ∃ m ∈ data, ∀ x ∈ data, m ≤ x := by
      induction data with
      | nil => exact absurd rfl hne
      | cons a t ih =>
        by_cases ht : t = []
        · subst ht
          exact ⟨a, by simp, by simp⟩
        · obtain ⟨m, hm, h⟩ := ih ht
          by_cases ham : a ≤ m
          · refine ⟨a, by simp, fun x hx => ?_⟩
            rcases List.mem_cons.1 hx with rfl | hx
            · exact le_rfl
            · exact ham.trans (h x hx)
          · refine ⟨m, by simp [hm], fun x hx => ?_⟩
            rcases List.mem_cons.1 hx with rfl | hx
            · exact (not_le.1 ham).le
            · exact h x hx
    obtain ⟨R, hR1, hR⟩ : ∃ R : ℝ, 1 ≤ R ∧ ∀ x ∈ data, x - m + 1 ≤ R := by
      clear hne hm hmin
      induction data with
      | nil => exact ⟨1, le_rfl, by simp⟩
      | cons a t ih =>
        obtain ⟨R, h1, h2⟩ := ih
        refine ⟨max R (a - m + 1), h1.trans (le_max_left _ _), ?_⟩
        intro x hx
        rcases List.mem_cons.1 hx with rfl | hx
        · exact le_max_right _ _
        · exact (h2 x hx).trans (le_max_left _ _)
    have hlR : 0 ≤ Real.log R := Real.log_nonneg hR1
    set n : ℝ := (data.length : ℝ) with hn
    have hn0 : 0 ≤ n := Nat.cast_nonneg _
    set C0 := Real.log (Real.sqrt (2 * Real.pi)) with hC0
    set Q := |B + n * (2 + Real.log R + C0)| with hQ
    have hQ0 : 0 ≤ Q := abs_nonneg _
    have hQ1 : B + n * (2 + Real.log R + C0) ≤ Q := le_abs_self _
    have hlk := abs_nonneg (Real.log k)
    set u := 2 * n + Q + 1 + Real.log R + |Real.log k| with hu
    have hu1 : 1 ≤ u := by linarith
    set T := u ^ 2 with hT
    have hTu : u ≤ T := by rw [hT]; nlinarith
    have hT0 : 0 < T := by linarith
    have hlogT : Real.log T ≤ 2 * u := by
      rw [hT, Real.log_pow]
      have := Real.log_le_sub_one_of_pos (by linarith : 0 < u)
      push_cast
      linarith
    set c := m - Real.exp (-T) with hc
    have hd0 : 0 < Real.exp (-T) := Real.exp_pos _
    have hd1 : Real.exp (-T) ≤ 1 := Real.exp_le_one_iff.2 (by linarith)
    have hpos : ∀ x ∈ data, c < x := fun x hx => by have := hmin x hx; linarith
    have hyl : ∀ x ∈ data, -T ≤ Real.log (x - c) := by
      intro x hx
      rw [Real.le_log_iff_exp_le (sub_pos.2 (hpos x hx))]
      have := hmin x hx
      linarith
    have hyu : ∀ x ∈ data, Real.log (x - c) ≤ Real.log R := by
      intro x hx
      exact Real.log_le_log (sub_pos.2 (hpos x hx)) (by have := hR x hx; linarith)
    have hval := loglike_eq c data hpos T k hT0 hk
    refine ⟨T, c, (data.map (fun x => -(Real.log (x - c) - Real.log k) ^ 2 / (2 * T ^ 2)
        - Real.log T - Real.log (x - c) - C0)).sum, ?gB, ?gF, ?gT⟩
    case gT =>
      have e := C78_parameters ⟨false, l0, true, k⟩ [T] c k lognormLogpdf data (by simp)
      have e' := C78_parameters { loc := c } [T] c k lognormLogpdf data (by simp)
      simp only [Bool.false_eq_true, if_false, if_true, List.append_nil, List.cons_append, List.nil_append] at e e'
      rw [e, ← e']
      exact hval
    case gF =>
      have e := C78_parameters ⟨false, l0, false, k⟩ [T] c k lognormLogpdf data (by simp)
      have e' := C78_parameters { loc := c } [T] c k lognormLogpdf data (by simp)
      simp only [Bool.false_eq_true, if_false, if_true, List.append_nil, List.cons_append, List.nil_append] at e e'
      rw [e, ← e']
      exact hval
    case gB =>
      have hsq : ∀ x ∈ data, -2 ≤ -(Real.log (x - c) - Real.log k) ^ 2 / (2 * T ^ 2) := by
        intro x hx
        have h1 := hyl x hx
        have h2 := hyu x hx
        have h3 := le_abs_self (Real.log k)
        have h4 := neg_abs_le (Real.log k)
        have hb : |Real.log (x - c) - Real.log k| ≤ 2 * T := abs_le.2 ⟨by linarith, by linarith⟩
        have hs : (Real.log (x - c) - Real.log k) ^ 2 ≤ (2 * T) ^ 2 := sq_le_sq' (by linarith [(abs_le.1 hb).1]) (abs_le.1 hb).2
        rw [le_div_iff₀ (by positivity)]
        nlinarith
      have hsum := sum_ge_with_peak data (fun x => -(Real.log (x - c) - Real.log k) ^ 2 / (2 * T ^ 2)
        - Real.log T - Real.log (x - c) - C0) (-2 - Real.log T - Real.log R - C0) T m hT0.le (by
          intro x hx
          have h1 := hsq x hx
          have h2 := hyu x hx
          linarith) hm (by
          have h1 := hsq m hm
          have h2 : Real.log (m - c) = -T := by rw [hc, show m - (m - Real.exp (-T)) = Real.exp (-T) by ring, Real.log_exp]
          rw [h2] at h1 ⊢
          linarith)
      refine lt_of_lt_of_le ?_ hsum
      rw [← hn]
      have h5 : n * Real.log T ≤ n * (2 * u) := mul_le_mul_of_nonneg_left hlogT hn0
      have h6 : Q + 1 ≤ u * (u - 2 * n) := by
        have : Q + 1 ≤ u - 2 * n := by linarith
        nlinarith
      have h7 : T - n * (2 * u) = u * (u - 2 * n) := by rw [hT]; ring
      nlinarith
  refine ⟨main, ?_, ?_⟩
  · rintro ⟨p, hp, v, -, hmax⟩
    obtain ⟨s, c, v', hv, h1, -⟩ := main v
    exact absurd (hmax _ _ (by rw [hp]; rfl) h1) (not_le.2 hv)
  · rintro ⟨p, hp, v, -, hmax⟩
    obtain ⟨s, c, v', hv, -, h1⟩ := main v
    exact absurd (hmax _ _ (by rw [hp]; rfl) h1) (not_le.2 hv)

open Classical in
/-- Non-vacuity: the assumptions on optimiser and starting fit can be met, and data `1, e` qualify. -/
example : (∃ opt, Optimiser opt) ∧ (∃ sfit, ∀ data, StartFit sfit data) ∧ (∀ x ∈ [1, Real.exp 1], (0 : ℝ) < x) ∧
    (1 : ℝ) ≠ Real.exp 1 := by
  refine ⟨⟨fun L p0 => match L p0 with
    | .error e => .error e
    | .ok _ => if h : ∃ p : List ℝ, p.length = p0.length ∧ Maximises L p then .ok h.choose else .ok p0, ?_, ?_⟩,
    ⟨fun _ _ _ => .ok [1, 0, 1], fun _ _ _ => ⟨1, 0, 1, rfl⟩⟩, ?_, ?_⟩
  · intro L p0 e h
    simp only [h]
  · intro L p0 ht h
    obtain ⟨r, hr⟩ := ht p0 rfl
    refine ⟨h.choose, ?_, h.choose_spec⟩
    simp only [hr, dif_pos h]
  · intro x hx
    simp only [List.mem_cons, List.not_mem_nil, or_false] at hx
    rcases hx with rfl | rfl
    · norm_num
    · exact Real.exp_pos 1
  · have := Real.add_one_lt_exp (show (1 : ℝ) ≠ 0 by norm_num)
    intro h; linarith

end TS
