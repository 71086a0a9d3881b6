import Verif.Model.PcaFit
import Verif.Lemmas.Odr
import Mathlib.Tactic.NormNum
import Mathlib.Tactic.FieldSimp

/-! C75: the size-linewidth fit of `PCA.fit_plaw`. -/

namespace TS
open Spec

namespace Spec

/-- A point as the regression receives it. -/
def OdrPt.toIn (q : OdrPt) : OdrIn := ⟨.fin q.x, .fin q.y, .fin q.sx, .fin q.sy⟩

/-- Contract of the external orthogonal regression: on finite points with positive errors it returns a
best line when there is one. -/
def OdrFit (odr : List OdrIn → Py ((ℝ × ℝ) × (ℝ × ℝ))) : Prop :=
  ∀ pts : List OdrPt, (∀ q ∈ pts, 0 < q.sx ∧ 0 < q.sy) → (∃ p, IsOdr pts p) →
    ∃ p e, odr (pts.map OdrPt.toIn) = .ok (p, e) ∧ IsOdr pts p

/-- Contract of `scipy.odr`: with finite weights, the parameters returned minimise the weighted sum of squares, when there is a minimum,
over all lines and all true abscissae. -/
def ScipyOdr (run : List OdrData → Py ((ℝ × ℝ) × (ℝ × ℝ))) : Prop :=
  ∀ (n : ℕ) (x y wd we : Fin n → ℝ),
    let cost := fun (p : ℝ × ℝ) (ξ : Fin n → ℝ) => ∑ i, (we i * (y i - (p.1 * ξ i + p.2)) ^ 2 + wd i * (x i - ξ i) ^ 2)
    let best := fun p => ∃ ξ, ∀ p' ξ', cost p ξ ≤ cost p' ξ'
    (∃ p, best p) → ∃ p e, run (List.ofFn fun i => ⟨.fin (x i), .fin (y i), .fin (wd i), .fin (we i)⟩) = .ok (p, e) ∧ best p

/-- A width inside optional limits. -/
def Inside (lo hi : Option ℝ) (w : ℝ) : Prop := (∀ l, lo = some l → l ≤ w) ∧ (∀ h, hi = some h → w ≤ h)

/-- A component whose four numbers are known and whose width is inside the limits. -/
def Usable (lo hi : Option ℝ) (p : WidthPt) : Prop :=
  p.ex.isSome ∧ p.y.isSome ∧ p.ey.isSome ∧ ∃ w, p.x = some w ∧ Inside lo hi w

/-- A component with known positive widths and errors. -/
structure Width where
  x : ℝ
  ex : ℝ
  y : ℝ
  ey : ℝ
  pos : 0 < x ∧ 0 < ex ∧ 0 < y ∧ 0 < ey

/-- As the program holds it. -/
def Width.pt (w : Width) : WidthPt := ⟨some w.x, some w.ex, some w.y, some w.ey⟩

/-- The decimal logarithms of the widths, with first-order errors (`log10 e ≈ 0.434`). -/
noncomputable def Width.log (w : Width) : OdrPt :=
  ⟨Real.logb 10 w.x, Real.logb 10 w.y, 0.434 * w.ex / w.x, 0.434 * w.ey / w.y⟩

/-- The same cloud on a grid with pixels `1/c` and channels `1/d` times as large. -/
noncomputable def Width.scale (c d : ℝ) (hc : 0 < c) (hd : 0 < d) (w : Width) : Width :=
  ⟨c * w.x, c * w.ex, d * w.y, d * w.ey, mul_pos hc w.pos.1, mul_pos hc w.pos.2.1,
    mul_pos hd w.pos.2.2.1, mul_pos hd w.pos.2.2.2⟩

end Spec

/-- **C75 (`leastsq_linear`).** The errors given are the weights used: `leastsq_linear` returns a line with the least sum of squared
distances in units of the errors of both variables. -/
theorem C75_leastsq (run : List OdrData → Py ((ℝ × ℝ) × (ℝ × ℝ))) (h : ScipyOdr run) : OdrFit (leastsqLinear run) := by
  intro pts hs hex
  have hcost : ∀ p ξ, odrCost pts p ξ = ∑ i, ((pts[i].sy ^ 2)⁻¹ * (pts[i].y - (p.1 * ξ i + p.2)) ^ 2 +
      (pts[i].sx ^ 2)⁻¹ * (pts[i].x - ξ i) ^ 2) := by
    intro p ξ
    unfold odrCost
    refine Finset.sum_congr rfl fun i _ => ?_
    rw [div_pow, div_pow, div_eq_inv_mul, div_eq_inv_mul]
  obtain ⟨p, e, hr, hb⟩ := h pts.length (fun i => pts[i].x) (fun i => pts[i].y) (fun i => (pts[i].sx ^ 2)⁻¹)
    (fun i => (pts[i].sy ^ 2)⁻¹) (by
      obtain ⟨p, ξ, hξ⟩ := hex
      refine ⟨p, ξ, fun p' ξ' => ?_⟩
      have := hξ p' ξ'
      rwa [hcost, hcost] at this)
  refine ⟨p, e, ?_, ?_⟩
  · rw [← hr]
    unfold leastsqLinear
    congr 1
    rw [List.map_map]
    refine List.ext_getElem (by simp) fun i h1 h2 => ?_
    have hi : i < pts.length := by simpa using h1
    have hp := hs pts[i] (List.getElem_mem _)
    simp [OdrPt.toIn, invSq, hp.1.ne', hp.2.ne']
  · obtain ⟨ξ, hξ⟩ := hb
    refine ⟨ξ, fun p' ξ' => ?_⟩
    rw [hcost, hcost]
    exact hξ p' ξ'

/-- Non-vacuity: there are routines that keep the contract of `scipy.odr`. -/
example : ∃ run, ScipyOdr run := by
  classical
  let P := fun (l : List OdrData) (p : ℝ × ℝ) => ∀ (n : ℕ) (x y wd we : Fin n → ℝ),
    l = List.ofFn (fun i => (⟨.fin (x i), .fin (y i), .fin (wd i), .fin (we i)⟩ : OdrData)) →
    ∃ ξ : Fin n → ℝ, ∀ (p' : ℝ × ℝ) (ξ' : Fin n → ℝ), ∑ i, (we i * (y i - (p.1 * ξ i + p.2)) ^ 2 + wd i * (x i - ξ i) ^ 2) ≤
      ∑ i, (we i * (y i - (p'.1 * ξ' i + p'.2)) ^ 2 + wd i * (x i - ξ' i) ^ 2)
  refine ⟨fun l => if h : ∃ p, P l p then .ok (h.choose, (0, 0)) else .error .valueError, ?_⟩
  intro n x y wd we cost best ⟨p, hp⟩
  have hP : ∃ p, P (List.ofFn (fun i => (⟨.fin (x i), .fin (y i), .fin (wd i), .fin (we i)⟩ : OdrData))) p := by
    refine ⟨p, fun n' x' y' wd' we' he => ?_⟩
    have hn : n = n' := by simpa using congrArg List.length he
    subst hn
    have hf := List.ofFn_injective he
    have e1 : x = x' := funext fun i => by have := congrFun hf i; simp only [OdrData.mk.injEq, FVal.fin.injEq] at this; exact this.1
    have e2 : y = y' := funext fun i => by have := congrFun hf i; simp only [OdrData.mk.injEq, FVal.fin.injEq] at this; exact this.2.1
    have e3 : wd = wd' := funext fun i => by have := congrFun hf i; simp only [OdrData.mk.injEq, FVal.fin.injEq] at this; exact this.2.2.1
    have e4 : we = we' := funext fun i => by have := congrFun hf i; simp only [OdrData.mk.injEq, FVal.fin.injEq] at this; exact this.2.2.2
    subst e1 e2 e3 e4
    exact hp
  refine ⟨hP.choose, (0, 0), ?_, hP.choose_spec n x y wd we rfl⟩
  exact dif_pos hP

private theorem leLog_iff {a b : ℝ} (ha : 0 ≤ a) (hb : 0 ≤ b) :
    leLog (log10F (some a)) (log10F (some b)) = true ↔ a ≤ b := by
  unfold log10F
  simp only [not_lt.2 ha, not_lt.2 hb, if_false]
  by_cases h1 : a = 0
  · simp only [h1, if_true]
    by_cases h2 : b = 0
    · simp [h2, leLog]
    · simp [h2, leLog, hb]
  · simp only [h1, if_false]
    have ha' : 0 < a := lt_of_le_of_ne ha (Ne.symm h1)
    by_cases h2 : b = 0
    · simp only [h2, if_true, leLog, Bool.false_eq_true, false_iff, not_le]
      exact ha'
    · have hb' : 0 < b := lt_of_le_of_ne hb (Ne.symm h2)
      simp only [h2, if_false, leLog, decide_eq_true_eq, log10]
      exact Real.logb_le_logb (by norm_num) ha' hb'

theorem inLimits_iff {lo hi : Option ℝ} (hlo : ∀ l, lo = some l → 0 ≤ l)
    (hhi : ∀ h, hi = some h → 0 ≤ h) {w : ℝ} (hw : 0 ≤ w) :
    inLimits lo hi (some w) = true ↔ Inside lo hi w := by
  unfold inLimits Inside
  rw [Bool.and_eq_true]
  refine and_congr ?_ ?_
  · cases lo with
    | none => simp
    | some l => simp only [Option.some.injEq, forall_eq']; exact leLog_iff (hlo l rfl) hw
  · cases hi with
    | none => simp
    | some h => simp only [Option.some.injEq, forall_eq']; exact leLog_iff hw (hhi h rfl)

private theorem keep_iff {lo hi : Option ℝ} (hlo : ∀ l, lo = some l → 0 ≤ l)
    (hhi : ∀ h, hi = some h → 0 ≤ h) {p : WidthPt} (hw : ∀ w, p.x = some w → 0 ≤ w) :
    (inLimits lo hi p.x && widthFinite p) = true ↔ Usable lo hi p := by
  unfold Usable widthFinite
  cases hx : p.x with
  | none => simp
  | some w =>
    rw [Bool.and_eq_true, inLimits_iff hlo hhi (hw w hx)]
    simp only [Option.isSome_some, Bool.and_true, Bool.and_eq_true, Option.some.injEq, exists_eq_left']
    tauto

open Classical in
/-- **C75 (limits).** With limits (in pixels, after conversion) `fit_plaw` gives the same result as
without limits on the components that are complete and inside; with fewer than two such components it
raises. -/
theorem C75_limits (odr : List OdrIn → Py ((ℝ × ℝ) × (ℝ × ℝ))) (s : Spatial) (xlow xhigh : WLim)
    (lo hi : Option ℝ) (h1 : limPix s xlow = .ok lo) (h2 : limPix s xhigh = .ok hi)
    (hlo : ∀ l, lo = some l → 0 ≤ l) (hhi : ∀ h, hi = some h → 0 ≤ h)
    (ws : List WidthPt) (hw : ∀ p ∈ ws, ∀ w, p.x = some w → 0 ≤ w) :
    (2 ≤ (ws.filter (fun p => decide (Usable lo hi p))).length →
      fitPlaw odr s xlow xhigh ws =
        fitPlaw odr s .absent .absent (ws.filter (fun p => decide (Usable lo hi p)))) ∧
    ((ws.filter (fun p => decide (Usable lo hi p))).length < 2 →
      fitPlaw odr s xlow xhigh ws = .error .valueError ∨
      fitPlaw odr s xlow xhigh ws = .error .warningRaised) := by
  have hf : ws.filter (fun p => inLimits lo hi p.x && widthFinite p) =
      ws.filter (fun p => decide (Usable lo hi p)) := by
    refine List.filter_congr (fun p hp => ?_)
    rw [Bool.eq_iff_iff, keep_iff hlo hhi (hw p hp), decide_eq_true_eq]
  have hL : fitPlaw odr s xlow xhigh ws = fitWidths odr lo hi ws := by
    unfold fitPlaw
    rw [h1, h2]; rfl
  constructor
  · intro hlen
    set kept := ws.filter (fun p => decide (Usable lo hi p)) with hk
    have hU : ∀ p ∈ kept, Usable lo hi p := fun p hp => of_decide_eq_true (List.mem_filter.1 hp).2
    have hR : fitPlaw odr s .absent .absent kept = fitWidths odr none none kept := rfl
    rw [hL, hR]
    unfold fitWidths
    have hne : ∃ p, p ∈ kept := List.length_pos_iff_exists_mem.1 (by omega)
    obtain ⟨p, hp⟩ := hne
    have ha : ws.any (fun p => inLimits lo hi p.x) = true := by
      refine List.any_eq_true.2 ⟨p, (List.mem_filter.1 hp).1, ?_⟩
      have := (keep_iff hlo hhi (hw p (List.mem_filter.1 hp).1)).2 (hU p hp)
      exact (Bool.and_eq_true _ _ ▸ this).1
    have hb : kept.any (fun p => inLimits none none p.x) = true :=
      List.any_eq_true.2 ⟨p, hp, rfl⟩
    have hfk : kept.filter (fun p => inLimits none none p.x && widthFinite p) = kept := by
      refine List.filter_eq_self.2 (fun q hq => ?_)
      have := (keep_iff hlo hhi (hw q (List.mem_filter.1 hq).1)).2 (hU q hq)
      simp only [Bool.and_eq_true] at this ⊢
      exact ⟨rfl, this.2⟩
    rw [if_pos ha, if_pos hb, hfk, hf]
  · intro hlen
    rw [hL]
    unfold fitWidths
    split
    · right
      rw [hf]
      simp only
      rw [if_pos hlen]
    · exact Or.inl rfl

private theorem odrPoint_pt (w : Width) : odrPoint w.pt = w.log.toIn := by
  unfold odrPoint Width.pt Width.log OdrPt.toIn log10F relErr log10
  simp only [not_lt.2 w.pos.1.le, not_lt.2 w.pos.2.2.1.le, w.pos.1.ne', w.pos.2.2.1.ne', if_false,
    Option.getD_some]

private theorem log_pos (ws : List Width) : ∀ q ∈ ws.map Width.log, 0 < q.sx ∧ 0 < q.sy := by
  intro q hq
  obtain ⟨w, _, rfl⟩ := List.mem_map.1 hq
  have := w.pos
  constructor
  · exact div_pos (mul_pos (by norm_num) this.2.1) this.1
  · exact div_pos (mul_pos (by norm_num) this.2.2.2) this.2.2.1

private theorem fit_full (odr : List OdrIn → Py ((ℝ × ℝ) × (ℝ × ℝ))) (s : Spatial) (ws : List Width)
    (h2 : 2 ≤ ws.length) (r : (ℝ × ℝ) × (ℝ × ℝ))
    (hr : odr ((ws.map Width.log).map OdrPt.toIn) = .ok r) :
    fitPlaw odr s .absent .absent (ws.map Width.pt) = .ok (storeFit r) := by
  have hR : fitPlaw odr s .absent .absent (ws.map Width.pt) = fitWidths odr none none (ws.map Width.pt) := rfl
  rw [hR]
  unfold fitWidths
  have hfk : (ws.map Width.pt).filter (fun p => inLimits none none p.x && widthFinite p) = ws.map Width.pt := by
    refine List.filter_eq_self.2 (fun q hq => ?_)
    obtain ⟨w, _, rfl⟩ := List.mem_map.1 hq
    rfl
  have hb : (ws.map Width.pt).any (fun p => inLimits none none p.x) = true := by
    obtain ⟨w, hw⟩ := List.length_pos_iff_exists_mem.1 (show 0 < ws.length by omega)
    exact List.any_eq_true.2 ⟨w.pt, List.mem_map.2 ⟨w, hw, rfl⟩, rfl⟩
  rw [if_pos hb, hfk]
  simp only [List.length_map]
  rw [if_neg (by omega)]
  have : (ws.map Width.pt).map odrPoint = (ws.map Width.log).map OdrPt.toIn := by
    rw [List.map_map, List.map_map]
    exact List.map_congr_left (fun w _ => odrPoint_pt w)
  rw [this, hr]; rfl

/-- **C75 (exact relation).** Widths that follow `v = v₀ l^α` exactly, at two different sizes at least,
give index `α` and intercept `v₀`, whatever the errors. -/
theorem C75_exact (odr : List OdrIn → Py ((ℝ × ℝ) × (ℝ × ℝ))) (hodr : OdrFit odr) (s : Spatial)
    (ws : List Width) (α v0 : ℝ) (hv : 0 < v0) (h : ∀ w ∈ ws, w.y = v0 * w.x ^ α)
    (hd : ∃ w ∈ ws, ∃ w' ∈ ws, w.x ≠ w'.x) :
    ∃ f, fitPlaw odr s .absent .absent (ws.map Width.pt) = .ok f ∧ f.index = α ∧ f.intercept = v0 := by
  have hline : ∀ q ∈ ws.map Width.log, q.y = (α, Real.logb 10 v0).1 * q.x + (α, Real.logb 10 v0).2 := by
    intro q hq
    obtain ⟨w, hw, rfl⟩ := List.mem_map.1 hq
    have := w.pos
    simp only [Width.log]
    rw [h w hw, Real.logb_mul hv.ne' (Real.rpow_pos_of_pos this.1 _).ne', Real.logb_rpow_eq_mul_logb_of_pos this.1]
    ring
  obtain ⟨p, e, hp, hb⟩ := hodr _ (log_pos ws) ⟨_, isOdr_of_exact hline⟩
  have hd' : ∃ q ∈ ws.map Width.log, ∃ r ∈ ws.map Width.log, q.x ≠ r.x := by
    obtain ⟨w, hw, w', hw', hne⟩ := hd
    refine ⟨_, List.mem_map.2 ⟨w, hw, rfl⟩, _, List.mem_map.2 ⟨w', hw', rfl⟩, fun h => hne ?_⟩
    exact Real.logb_injOn_pos (by norm_num) w.pos.1 w'.pos.1 h
  have hu := isOdr_unique hline (log_pos ws) hd' hb
  have h2 : 2 ≤ ws.length := by
    obtain ⟨w, hw, w', hw', hne⟩ := hd
    by_contra hlt
    match ws, hw, hw' with
    | [a], hw, hw' =>
      rw [List.mem_singleton] at hw hw'
      exact hne (by rw [hw, hw'])
    | _ :: _ :: _, _, _ => simp at hlt
  refine ⟨_, fit_full odr s ws h2 (p, e) hp, ?_, ?_⟩
  · simp [storeFit, hu]
  · simp only [storeFit, hu]
    exact Real.rpow_logb (by norm_num) (by norm_num) hv

/-- **C75 (grid).** When the best line is unique, the same cloud on another pixel and channel grid gives
the same index, and an intercept changed by the change of units. -/
theorem C75_grid (odr : List OdrIn → Py ((ℝ × ℝ) × (ℝ × ℝ))) (hodr : OdrFit odr) (s s' : Spatial)
    (ws : List Width) (h2 : 2 ≤ ws.length) (c d : ℝ) (hc : 0 < c) (hd : 0 < d)
    (p : ℝ × ℝ) (hp : IsOdr (ws.map Width.log) p) (hu : ∀ q, IsOdr (ws.map Width.log) q → q = p) :
    ∃ f f', fitPlaw odr s .absent .absent (ws.map Width.pt) = .ok f ∧
      fitPlaw odr s' .absent .absent ((ws.map (Width.scale c d hc hd)).map Width.pt) = .ok f' ∧
      f'.index = f.index ∧ f'.intercept = d * f.intercept / c ^ f.index := by
  have hmap : (ws.map (Width.scale c d hc hd)).map Width.log =
      (ws.map Width.log).map (OdrPt.shift (Real.logb 10 c) (Real.logb 10 d)) := by
    rw [List.map_map, List.map_map]
    refine List.map_congr_left (fun w _ => ?_)
    have := w.pos
    simp only [Function.comp, Width.log, Width.scale, OdrPt.shift, OdrPt.mk.injEq]
    refine ⟨?_, ?_, ?_, ?_⟩
    · rw [Real.logb_mul hc.ne' this.1.ne']; ring
    · rw [Real.logb_mul hd.ne' this.2.2.1.ne']; ring
    · have := this.1.ne'; field_simp
    · have := this.2.2.1.ne'; field_simp
  have hp' : IsOdr ((ws.map Width.log).map (OdrPt.shift (Real.logb 10 c) (Real.logb 10 d)))
      (p.1, p.2 - p.1 * Real.logb 10 c + Real.logb 10 d) := by
    have := isOdr_shift (-Real.logb 10 c) (-Real.logb 10 d)
      ((ws.map Width.log).map (OdrPt.shift (Real.logb 10 c) (Real.logb 10 d))) p
    have hid : ((ws.map Width.log).map (OdrPt.shift (Real.logb 10 c) (Real.logb 10 d))).map
        (OdrPt.shift (-Real.logb 10 c) (-Real.logb 10 d)) = ws.map Width.log := by
      rw [List.map_map]
      conv_rhs => rw [← List.map_id (ws.map Width.log)]
      refine List.map_congr_left (fun q _ => ?_)
      simp [Function.comp, OdrPt.shift]
    rw [hid] at this
    have := this hp
    convert this using 2
    ring
  obtain ⟨q, e, hq, hb⟩ := hodr _ (log_pos ws) ⟨p, hp⟩
  obtain ⟨q', e', hq', hb'⟩ := hodr _ (log_pos (ws.map (Width.scale c d hc hd))) ⟨_, hmap ▸ hp'⟩
  have e1 := hu q hb
  rw [hmap] at hb'
  have e2 := hu _ (isOdr_shift _ _ _ _ hb')
  refine ⟨_, _, fit_full odr s ws h2 (q, e) hq, fit_full odr s' _ (by simpa using h2) (q', e') hq', ?_, ?_⟩
  · have := congrArg Prod.fst e2
    simp only at this
    simp [storeFit, this, e1]
  · have h1 := congrArg Prod.fst e2
    have h3 := congrArg Prod.snd e2
    simp only at h1 h3
    simp only [storeFit, e1]
    have : q'.2 = Real.logb 10 d + p.2 - Real.logb 10 c * p.1 := by rw [h1] at h3; linarith
    rw [this, Real.rpow_sub (by norm_num), Real.rpow_add (by norm_num),
      Real.rpow_logb (by norm_num) (by norm_num) hd, Real.rpow_mul (by norm_num),
      Real.rpow_logb (by norm_num) (by norm_num) hc]

/-- Limits given in pixels, degrees or parsecs that denote the same size give the same fit. -/
theorem C75_limit_units (odr : List OdrIn → Py ((ℝ × ℝ) × (ℝ × ℝ))) (s : Spatial) (q q' r r' : SQ) (a b : ℝ)
    (hq : toPixel s q = .ok a) (hq' : toPixel s q' = .ok a) (hr : toPixel s r = .ok b) (hr' : toPixel s r' = .ok b)
    (ws : List WidthPt) :
    fitPlaw odr s (.quantity q) (.quantity r) ws = fitPlaw odr s (.quantity q') (.quantity r') ws := by
  have e : ∀ t v, toPixel s t = .ok v → limPix s (.quantity t) = .ok (some v) := by
    intro t v h
    simp only [limPix, h]; rfl
  unfold fitPlaw
  rw [e q a hq, e q' a hq', e r b hr, e r' b hr']

/-- Non-vacuity: the contract is met by some regression, and three widths on `v = 2 l^{1/2}`. -/
example : ∃ odr, OdrFit odr := by
  classical
  refine ⟨fun l => if h : ∃ pts : List OdrPt, pts.map OdrPt.toIn = l ∧ ∃ p, IsOdr pts p
    then .ok (h.choose_spec.2.choose, (0, 0)) else .error .runtimeError, fun pts _ hex => ?_⟩
  have h : ∃ pts' : List OdrPt, pts'.map OdrPt.toIn = pts.map OdrPt.toIn ∧ ∃ p, IsOdr pts' p := ⟨pts, rfl, hex⟩
  refine ⟨h.choose_spec.2.choose, (0, 0), dif_pos h, ?_⟩
  have hinj : Function.Injective OdrPt.toIn := by
    intro a b hab
    cases a; cases b
    simp only [OdrPt.toIn, OdrIn.mk.injEq, FVal.fin.injEq] at hab
    simp [hab]
  have heq : h.choose = pts := (List.map_injective_iff.2 hinj) h.choose_spec.1
  have key : ∀ l : List OdrPt, l = pts → ∀ p, IsOdr l p → IsOdr pts p := by
    rintro l rfl p hp; exact hp
  exact key _ heq _ h.choose_spec.2.choose_spec

example : ∃ ws : List Width, ws.length = 3 ∧ (∀ w ∈ ws, w.y = 2 * w.x ^ (1 / 2 : ℝ)) ∧
    ∃ w ∈ ws, ∃ w' ∈ ws, w.x ≠ w'.x :=
  let w := fun (t : ℝ) (ht : 0 < t) => (⟨t, 1, 2 * t ^ (1 / 2 : ℝ), 1, ht, one_pos, by positivity, one_pos⟩ : Width)
  ⟨[w 1 one_pos, w 2 two_pos, w 3 three_pos], rfl, by simp [w], w 1 one_pos, by simp, w 2 two_pos, by simp,
    by simp [w]⟩

/-- **C75 (ranges).** Whenever the fit succeeds, the stored index range is the index plus and minus the error that the
regression returns for the slope, and the intercept range is that of the logarithmic intercept, in linear units; both
contain the stored value when the errors are not negative. -/
theorem C75_ranges (odr : List OdrIn → Py ((ℝ × ℝ) × (ℝ × ℝ))) (s : Spatial) (lo hi : WLim) (ws : List WidthPt) (f : PcaFit)
    (h : fitPlaw odr s lo hi ws = .ok f) :
    ∃ pts a b da db, odr pts = .ok ((a, b), (da, db)) ∧ f.index = a ∧ f.indexRange = (a - da, a + da) ∧
      Real.logb 10 f.intercept = b ∧ Real.logb 10 f.interceptRange.1 = b - db ∧ Real.logb 10 f.interceptRange.2 = b + db ∧
      (0 ≤ da → f.indexRange.1 ≤ f.index ∧ f.index ≤ f.indexRange.2) ∧
      (0 ≤ db → f.interceptRange.1 ≤ f.intercept ∧ f.intercept ≤ f.interceptRange.2) := by
  unfold fitPlaw fitWidths at h
  simp only [bind, Except.bind, pure, Except.pure] at h
  cases h1 : limPix s lo with
  | error e => rw [h1] at h; simp at h
  | ok l =>
  cases h2 : limPix s hi with
  | error e => rw [h1, h2] at h; simp at h
  | ok u =>
  rw [h1, h2] at h
  simp only at h
  split_ifs at h with h3 h4
  generalize hp : (ws.filter (fun p => inLimits l u p.x && widthFinite p)).map odrPoint = pts at h
  cases h5 : odr pts with
  | error e => rw [h5] at h; simp at h
  | ok r =>
    rw [h5] at h
    simp only [Except.ok.injEq] at h
    subst h
    obtain ⟨⟨a, b⟩, da, db⟩ := r
    have hlb : ∀ z : ℝ, Real.logb 10 ((10 : ℝ) ^ z) = z := fun z => Real.logb_rpow (by norm_num) (by norm_num)
    refine ⟨pts, a, b, da, db, h5, rfl, rfl, hlb _, hlb _, hlb _, ?_, ?_⟩
    · intro hda
      simp only [storeFit]
      constructor <;> linarith
    · intro hdb
      simp only [storeFit]
      constructor <;> exact Real.rpow_le_rpow_of_exponent_le (by norm_num) (by linarith)

end TS
