import Verif.Model.MakeCube
import Verif.Lemmas.Scf
import Mathlib.Tactic.Linarith
import Mathlib.Tactic.FieldSimp

/-! C52 — synthetic spectra: linear in density, non-negative; velocity channels. -/

namespace TS
open Finset

namespace Spec

/-- Optically thin line of column density `density × depth`, centred on `v` with width `sigma`, at velocity `u`. -/
noncomputable def lineAt (density depth v sigma u : ℝ) : ℝ :=
  density * depth * (1 / (sigma * Real.sqrt (2 * Real.pi)) * Real.exp (-((u - v) ^ 2) / (2 * sigma ^ 2)))

/-- Strictly inside one of the channels delimited by `edges`. -/
def InsideAChannel (edges : Arr1 ℝ) (v : ℝ) : Prop := ∃ i, i + 1 < edges.n ∧ edges.get i < v ∧ v < edges.get (i + 1)

end Spec
open Spec

private theorem inner_fold (l : List ℕ) (t : ℕ → ℕ → ℝ) (s : ℕ → ℝ) (c : ℕ) :
    (l.foldl (fun s k => fun c => s c + t k c) s) c = s c + (l.map (fun k => t k c)).sum := by
  induction l generalizing s with
  | nil => simp
  | cons x xs ih => rw [List.foldl_cons, ih]; simp; ring

private theorem gen_get (vel dens edges cents dvdz : Arr1 ℝ) (vt pix : ℝ) (c : ℕ) :
    (generateSpectrum vel dens edges cents dvdz vt pix).get c =
      ∑ i ∈ range (edges.n - 1), ∑ k ∈ (range vel.n).filter (fun k => edges.get i < vel.get k ∧ vel.get k < edges.get (i + 1)),
        gaussTerm vel dens cents dvdz vt pix k c := by
  have outer : ∀ (l : List ℕ) (s : ℕ → ℝ), (l.foldl (fun s i => (contribCells vel edges i).foldl
      (fun s k => fun c => s c + gaussTerm vel dens cents dvdz vt pix k c) s) s) c =
      s c + (l.map (fun i => ((contribCells vel edges i).map (fun k => gaussTerm vel dens cents dvdz vt pix k c)).sum)).sum := by
    intro l
    induction l with
    | nil => intro s; simp
    | cons x xs ih => intro s; rw [List.foldl_cons, ih, inner_fold]; simp; ring
  unfold generateSpectrum
  simp only
  rw [outer, zero_add]
  have e : ∀ i, ((contribCells vel edges i).map (fun k => gaussTerm vel dens cents dvdz vt pix k c)).sum =
      ∑ k ∈ (range vel.n).filter (fun k => edges.get i < vel.get k ∧ vel.get k < edges.get (i + 1)),
        gaussTerm vel dens cents dvdz vt pix k c := by
    intro i
    unfold contribCells
    rw [← List.sum_toFinset _ (List.Nodup.filter _ List.nodup_range), List.toFinset_filter]
    congr 1
    ext k
    simp
  simp only [e]
  rw [← List.sum_toFinset _ List.nodup_range, List.toFinset_range]

private theorem term_eq (vel dens cents dvdz : Arr1 ℝ) (vt pix : ℝ) (k c : ℕ) :
    gaussTerm vel dens cents dvdz vt pix k c =
      lineAt (dens.get k) pix (vel.get k) (Real.sqrt ((dvdz.get k * pix) ^ 2 + vt)) (cents.get c) := by
  unfold gaussTerm lineAt
  simp only
  rw [neg_div, div_eq_mul_one_div, mul_comm (Real.sqrt (2 * Real.pi))]
  ring

open Classical in
/-- Each channel value is the sum of one Gaussian line per cell whose velocity lies strictly inside some channel. -/
theorem C52_value (vel dens edges cents dvdz : Arr1 ℝ) (vt pix : ℝ) (he : StrictEdges edges) (c : ℕ) :
    (generateSpectrum vel dens edges cents dvdz vt pix).n = edges.n - 1 ∧
    (generateSpectrum vel dens edges cents dvdz vt pix).get c =
      ∑ k ∈ range vel.n, if InsideAChannel edges (vel.get k) then
        lineAt (dens.get k) pix (vel.get k) (Real.sqrt ((dvdz.get k * pix) ^ 2 + vt)) (cents.get c) else 0 := by
  refine ⟨rfl, ?_⟩
  rw [gen_get]
  simp only [sum_filter]
  rw [sum_comm]
  apply sum_congr rfl
  intro k _
  by_cases h : InsideAChannel edges (vel.get k)
  · rw [if_pos h]
    obtain ⟨i, hi, h1, h2⟩ := h
    rw [sum_eq_single i]
    · rw [if_pos ⟨h1, h2⟩, term_eq]
    · intro j hj hne
      rw [if_neg]
      rintro ⟨h3, h4⟩
      have hjn : j + 1 < edges.n := by
        have := mem_range.1 hj; omega
      rcases Nat.lt_or_gt_of_ne hne with hlt | hgt
      · have : edges.get (j + 1) ≤ edges.get i := by
          rcases Nat.lt_or_ge (j + 1) i with h | h
          · exact (he _ _ h (by omega)).le
          · have : j + 1 = i := by omega
            rw [this]
        linarith
      · have : edges.get (i + 1) ≤ edges.get j := by
          rcases Nat.lt_or_ge (i + 1) j with h | h
          · exact (he _ _ h (by omega)).le
          · have : i + 1 = j := by omega
            rw [this]
        linarith
    · intro hni
      exact absurd (mem_range.2 (by omega)) hni
  · rw [if_neg h]
    apply sum_eq_zero
    intro i hi
    rw [if_neg]
    rintro ⟨h1, h2⟩
    have := mem_range.1 hi
    exact h ⟨i, by omega, h1, h2⟩

/-- Non-negative densities give non-negative spectra. -/
theorem C52_nonneg (vel dens edges cents dvdz : Arr1 ℝ) (vt pix : ℝ) (hp : 0 ≤ pix) (hd : ∀ k < vel.n, 0 ≤ dens.get k) (c : ℕ) :
    0 ≤ (generateSpectrum vel dens edges cents dvdz vt pix).get c := by
  rw [gen_get]
  apply sum_nonneg; intro i _
  apply sum_nonneg; intro k hk
  rw [mem_filter, mem_range] at hk
  have := hd k hk.1
  unfold gaussTerm
  simp only
  positivity

/-- A positive density strictly inside a channel gives a positive spectrum in every channel. -/
theorem C52_pos (vel dens edges cents dvdz : Arr1 ℝ) (vt pix : ℝ) (hp : 0 < pix) (hvt : 0 < vt) (he : StrictEdges edges)
    (hd : ∀ k < vel.n, 0 ≤ dens.get k) (k : ℕ) (hk : k < vel.n) (hpos : 0 < dens.get k) (hin : InsideAChannel edges (vel.get k)) (c : ℕ) :
    0 < (generateSpectrum vel dens edges cents dvdz vt pix).get c := by
  classical
  rw [(C52_value vel dens edges cents dvdz vt pix he c).2]
  have hs : ∀ k, 0 < Real.sqrt ((dvdz.get k * pix) ^ 2 + vt) := fun k => Real.sqrt_pos.2 (by positivity)
  have hpi := Real.pi_pos
  apply sum_pos'
  · intro j hj
    split_ifs
    · have := hd j (mem_range.1 hj)
      have := hs j
      unfold lineAt
      positivity
    · exact le_refl _
  · refine ⟨k, mem_range.2 hk, ?_⟩
    rw [if_pos hin]
    have := hs k
    unfold lineAt
    positivity

/-- Additive in density. -/
theorem C52_additive (vel d1 d2 edges cents dvdz : Arr1 ℝ) (vt pix : ℝ) (c : ℕ) :
    (generateSpectrum vel ⟨d1.n, fun k => d1.get k + d2.get k⟩ edges cents dvdz vt pix).get c =
      (generateSpectrum vel d1 edges cents dvdz vt pix).get c + (generateSpectrum vel d2 edges cents dvdz vt pix).get c := by
  simp only [gen_get]
  rw [← sum_add_distrib]
  apply sum_congr rfl; intro i _
  rw [← sum_add_distrib]
  apply sum_congr rfl; intro k _
  unfold gaussTerm
  simp only
  ring

/-- Homogeneous in density; zero density gives a zero spectrum. -/
theorem C52_homogeneous (vel dens edges cents dvdz : Arr1 ℝ) (vt pix a : ℝ) (c : ℕ) :
    (generateSpectrum vel (dens.map (a * ·)) edges cents dvdz vt pix).get c =
      a * (generateSpectrum vel dens edges cents dvdz vt pix).get c ∧
    (generateSpectrum vel (dens.map (fun _ => 0)) edges cents dvdz vt pix).get c = 0 := by
  simp only [gen_get]
  constructor
  · rw [mul_sum]
    apply sum_congr rfl; intro i _
    rw [mul_sum]
    apply sum_congr rfl; intro k _
    unfold gaussTerm Arr1.map
    simp only
    ring
  · apply sum_eq_zero; intro i _
    apply sum_eq_zero; intro k _
    unfold gaussTerm Arr1.map
    simp

/-- Gas exactly on a channel edge is lost: if every cell sits on an edge, the spectrum is zero whatever the density. -/
theorem C52_edge_lost (vel dens edges cents dvdz : Arr1 ℝ) (vt pix : ℝ) (he : StrictEdges edges)
    (h : ∀ k < vel.n, ∃ i < edges.n, vel.get k = edges.get i) (c : ℕ) :
    (generateSpectrum vel dens edges cents dvdz vt pix).get c = 0 := by
  rw [gen_get]
  apply sum_eq_zero; intro i hi
  apply sum_eq_zero; intro k hk
  rw [mem_filter, mem_range] at hk
  rw [mem_range] at hi
  obtain ⟨hk1, h1, h2⟩ := hk
  obtain ⟨j, hj, e⟩ := h k hk1
  exfalso
  rw [e] at h1 h2
  rcases Nat.lt_or_ge i j with hlt | hge
  · have : edges.get (i + 1) ≤ edges.get j := by
      rcases Nat.lt_or_ge (i + 1) j with h | h
      · exact (he _ _ h hj).le
      · have : i + 1 = j := by omega
        rw [this]
    linarith
  · have : edges.get j ≤ edges.get i := by
      rcases Nat.lt_or_ge j i with h | h
      · exact (he _ _ h (by omega)).le
      · have : i = j := by omega
        rw [this]
    linarith

/-! ### channels -/

private theorem edges_get {vmin vmax : VelArg} {U : ℝ} (hU : 0 < U) (h1 : vmin.unit = U) (h2 : vmax.unit = U) (n k : ℕ) :
    (velEdges vmin vmax n).get k = vmin.cgs + k * ((vmax.cgs - vmin.cgs) / n) := by
  unfold velEdges linspace Arr1.map VelArg.value
  simp only
  rw [h1, h2]
  push_cast
  have : U ≠ 0 := hU.ne'
  rw [add_sub_cancel_right]
  field_simp

/-- When both limits are in the same unit, the edges start at `v_min`, end at `v_max` and are equally spaced. Missing: limits in
different units (`C52_edges_violated`). -/
theorem C52_edges_partial (vmin vmax : VelArg) (U : ℝ) (hU : 0 < U) (h1 : vmin.unit = U) (h2 : vmax.unit = U) (n : ℕ) (hn : 0 < n) :
    (velEdges vmin vmax n).n = n + 1 ∧ (velEdges vmin vmax n).get 0 = vmin.cgs ∧ (velEdges vmin vmax n).get n = vmax.cgs ∧
      ∀ k, (velEdges vmin vmax n).get (k + 1) - (velEdges vmin vmax n).get k = (vmax.cgs - vmin.cgs) / n := by
  have hn' : (n : ℝ) ≠ 0 := by exact_mod_cast hn.ne'
  refine ⟨rfl, ?_, ?_, ?_⟩
  · rw [edges_get hU h1 h2]; simp
  · rw [edges_get hU h1 h2]; field_simp; ring
  · intro k
    rw [edges_get hU h1 h2, edges_get hU h1 h2]
    push_cast
    ring

/-- Limits in different units (1 km/s and 2000 m/s): the last edge is at 2000 km/s. -/
theorem C52_edges_violated : (velEdges ⟨1e5, 1e5, true⟩ ⟨2e5, 1e2, true⟩ 10).get 10 = 2e8 := by
  unfold velEdges linspace Arr1.map VelArg.value
  norm_num

/-- When the width is in the unit of the range, the number of channels is the ceiling of range / width. Missing: a width in another unit
(`C52_count_violated`). -/
theorem C52_count_partial (delV U : ℝ) (w : VelArg) (hU : 0 < U) (hw : w.unit = U) (hw0 : 0 < w.cgs) :
    chanCountGiven delV U w = .ok ⌈delV / w.cgs⌉ := by
  unfold chanCountGiven
  rw [if_neg hw0.ne', hw]
  simp only [div_self hU.ne', div_one, mul_one, pyInt_intCast]

/-- A range of 1 km/s cut into channels of 100 m/s gives 1000 channels, not 10. -/
theorem C52_count_violated : chanCountGiven 1e5 1e5 ⟨1e4, 1e2, true⟩ = .ok 1000 ∧ ⌈(1e5 : ℝ) / 1e4⌉ = 10 := by
  constructor
  · unfold chanCountGiven
    rw [if_neg (by norm_num)]
    simp only
    have h : ⌈(1e5 : ℝ) / 1e4 / (1e5 / 1e2)⌉ = 1 := by
      rw [Int.ceil_eq_iff]; norm_num
    rw [h]
    have : (((1 : ℤ) : ℝ) * (1e5 / 1e2)) = ((1000 : ℤ) : ℝ) := by norm_num
    rw [this, pyInt_intCast]
  · rw [Int.ceil_eq_iff]; norm_num

/-- Whole function, all velocities in one unit: the velocity axis has ⌈range/width⌉ channels, centred at
`v_min + (k + 1/2) Δ` with `N Δ = v_max − v_min`. Missing: velocities in different units (`C52_edges_violated`, `C52_count_violated`). -/
theorem C52_axis_partial (sch : Schedule) (init : ℕ → ℕ → ℕ → ℝ) (vel dens : Arr3 ℝ) (o : PpvOpts) (vmin vmax w : VelArg)
    (cube : Arr3 ℝ) (axis : Arr1 ℝ) (U : ℝ) (hU : 0 < U)
    (hmin : o.vMin = some vmin) (hmax : o.vMax = some vmax) (hwd : o.chanWidth = some w)
    (h1 : vmin.unit = U) (h2 : vmax.unit = U) (h3 : w.unit = U) (hw0 : 0 < w.cgs)
    (h : makePpv sch init vel dens o = .ok (cube, axis)) :
    vmin.cgs ≤ vmax.cgs ∧ (axis.n : ℤ) = ⌈(vmax.cgs - vmin.cgs) / w.cgs⌉ ∧ cube.n = axis.n ∧ axis.n ≤ o.maxChan ∧
      ∀ k < axis.n, axis.get k = vmin.cgs + ((k : ℝ) + 1 / 2) * ((vmax.cgs - vmin.cgs) / axis.n) := by
  unfold makePpv at h
  split_ifs at h with hneg
  cases hc : ppvChannels vel o with
  | error e => simp only [hc, bind, Except.bind] at h; cases h
  | ok r =>
    obtain ⟨a, b, n⟩ := r
    simp only [hc, bind, Except.bind] at h
    -- the limits and count
    have hfacts : a = vmin ∧ b = vmax ∧ vmin.cgs ≤ vmax.cgs ∧ n = ⌈(vmax.cgs - vmin.cgs) / w.cgs⌉ := by
      unfold ppvChannels at hc
      cases hl : losShape vel o.los with
      | error e => simp only [hl, bind, Except.bind] at hc; cases hc
      | ok L =>
        simp only [hl, bind, Except.bind] at hc
        cases hmn : npMin vel.values with
        | error e => simp only [hmn] at hc; cases hc
        | ok mn =>
          simp only [hmn] at hc
          cases hmx : npMax vel.values with
          | error e =>
            simp only [hmx, velLimit, hmin] at hc
            split_ifs at hc <;> cases hc
          | ok mx =>
            simp only [hmx, velLimit, hmin, hmax, hwd] at hc
            split_ifs at hc with i1 i2
            simp only at hc
            split_ifs at hc with i3
            rw [h2, C52_count_partial _ U w hU h3 hw0] at hc
            simp only [pure, Except.pure] at hc
            injection hc with hc
            injection hc with e1 hc
            injection hc with e2 e3
            exact ⟨e1.symm, e2.symm, not_lt.1 i3, e3.symm⟩
    obtain ⟨rfl, rfl, hle, hn⟩ := hfacts
    have hn0 : 0 ≤ n := by
      rw [hn]
      apply Int.ceil_nonneg
      exact div_nonneg (by linarith) hw0.le
    split_ifs at h with g1 g2
    cases hl : losShape vel o.los with
    | error e => simp only [hl] at h; cases h
    | ok L =>
      obtain ⟨L, p, q⟩ := L
      simp only [hl] at h
      cases hr : runTasks sch vel dens o.los (velEdges a b n.toNat) o.vThermSq (o.losLength / L) (skyTasks p q) with
      | error e => simp only [hr] at h; cases h
      | ok sp =>
        simp only [hr, pure, Except.pure] at h
        injection h with h
        injection h with e1 e2
        subst e1 e2
        have hax : (chanCents (velEdges a b n.toNat)).n = n.toNat := rfl
        refine ⟨hle, ?_, rfl, ?_, ?_⟩
        · rw [hax, ← hn]; omega
        · rw [hax]; omega
        · intro k hk
          rw [hax] at hk ⊢
          unfold chanCents
          simp only
          rw [edges_get hU h1 h2, edges_get hU h1 h2]
          push_cast
          ring

/-- Not vacuous: three cells, two of them inside the two channels [0,1], [1,2]. -/
example : InsideAChannel ⟨3, fun k => (k : ℝ)⟩ (3 / 2) ∧ ¬ InsideAChannel ⟨3, fun k => (k : ℝ)⟩ 1 ∧
    StrictEdges ⟨3, fun k => (k : ℝ)⟩ := by
  refine ⟨⟨1, by norm_num, by norm_num, by norm_num⟩, ?_, ?_⟩
  · rintro ⟨i, hi, h1, h2⟩
    simp only at hi h1 h2
    have h3 : i < 1 := by exact_mod_cast h1
    have h4 : 1 < i + 1 := by exact_mod_cast h2
    omega
  · intro i j hij _
    simp only
    exact_mod_cast hij

namespace Spec

/-- Velocity difference across one cell: central inside the line of sight, one-sided at its two ends. -/
noncomputable def velStep (v : ℕ → ℝ) (n k : ℕ) : ℝ :=
  if k = 0 then v 1 - v 0 else if k = n - 1 then v (n - 1) - v (n - 2) else (v (k + 1) - v (k - 1)) / 2

end Spec

open Classical in
/-- One line of sight: the brightness of a channel is the sum over the cells with a velocity strictly inside some channel of a
Gaussian line at the cell's velocity whose variance is the squared velocity step across the cell plus the thermal variance. -/
theorem C52_sightline (edges vel dens : Arr1 ℝ) (vt pix : ℝ) (hp : pix ≠ 0) (hn : 2 ≤ vel.n) (he : StrictEdges edges) :
    ∃ spec, spectrumMaker edges vel dens vt pix = .ok spec ∧ spec.n = edges.n - 1 ∧ ∀ c,
      spec.get c = (∑ k ∈ range vel.n, if InsideAChannel edges (vel.get k) then
        lineAt (dens.get k) pix (vel.get k) (Real.sqrt (velStep vel.get vel.n k ^ 2 + vt))
          ((edges.get c + edges.get (c + 1)) / 2) else 0) / 1.823e13 := by
  have hg : npGradient vel = .ok ⟨vel.n, velStep vel.get vel.n⟩ := by
    unfold npGradient
    rw [if_neg (by omega)]
    congr 2
    funext i
    unfold velStep
    by_cases h0 : i = 0
    · simp [h0]
    · by_cases h1 : i + 1 = vel.n
      · rw [if_neg h0, if_pos h1, if_neg h0, if_pos (by omega)]
      · rw [if_neg h0, if_neg h1, if_neg h0, if_neg (by omega)]
  unfold spectrumMaker
  simp only [hg, bind, Except.bind, pure, Except.pure]
  refine ⟨_, rfl, rfl, ?_⟩
  intro c
  have := (C52_value vel dens edges (chanCents edges) ((⟨vel.n, velStep vel.get vel.n⟩ : Arr1 ℝ).map (· / pix)) vt pix he c).2
  simp only [Arr1.map] at this ⊢
  rw [this]
  unfold convToK
  congr 1
  apply sum_congr rfl
  intro k _
  split_ifs
  · have e1 : velStep vel.get vel.n k / pix * pix = velStep vel.get vel.n k := by field_simp
    rw [e1]
    congr 1
    unfold chanCents
    simp only; ring
  · rfl

/-- The velocity axis written in the header is that of the cube: channel `k` is at `v0 + k dv`. Missing: velocities in different units,
as above. -/
theorem C52_header_partial (sch : Schedule) (init : ℕ → ℕ → ℕ → ℝ) (vel dens : Arr3 ℝ) (o : PpvOpts) (vmin vmax w : VelArg)
    (cube cube' : Arr3 ℝ) (axis : Arr1 ℝ) (dv v0 U : ℝ) (hU : 0 < U)
    (hmin : o.vMin = some vmin) (hmax : o.vMax = some vmax) (hwd : o.chanWidth = some w)
    (h1 : vmin.unit = U) (h2 : vmax.unit = U) (h3 : w.unit = U) (hw0 : 0 < w.cgs)
    (h : makePpv sch init vel dens o = .ok (cube, axis)) (hh : makePpvHdu sch init vel dens o = .ok (cube', dv, v0)) :
    cube' = cube ∧ ∀ k < axis.n, axis.get k = v0 + k * dv := by
  obtain ⟨-, -, -, -, hax⟩ := C52_axis_partial sch init vel dens o vmin vmax w cube axis U hU hmin hmax hwd h1 h2 h3 hw0 h
  unfold makePpvHdu at hh
  simp only [h, bind, Except.bind, pure, Except.pure] at hh
  split_ifs at hh with hlt
  simp only [Except.ok.injEq, Prod.mk.injEq] at hh
  obtain ⟨rfl, rfl, rfl⟩ := hh
  refine ⟨rfl, fun k hk => ?_⟩
  rw [hax k hk, hax 0 (by omega), hax 1 (by omega)]
  push_cast; ring

end TS
