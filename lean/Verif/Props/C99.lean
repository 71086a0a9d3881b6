import Verif.Model.BrokenFit
import Verif.Lemmas.Lsq
import Verif.Lemmas.Lsq4
import Verif.Lemmas.PlawFit
import Verif.Props.C12
import Verif.Props.C69

/-! C99 — the fit with a break: data that lie exactly on two joined lines give back the two slopes and
the break, and neither break nor slopes depend on the unit of brightness, on the unit of length, or on
the overall size of the weights.

The regressions are any least-squares solvers (`Spec.LeastSquares`, `Spec.LeastSquares4`). -/

namespace TS
open Spec

namespace Spec

/-- No abscissa of the data lies between `lo` and `hi` (ends included). -/
def Gap (pts : List (ℝ × ℝ × ℝ)) (lo hi : ℝ) : Prop := ∀ q ∈ pts, q.1 < lo ∨ hi < q.1

/-- The data lie on the line `p0 + s1 x` below `ψ` and on the line of slope `s2` joined to it at `ψ`
above; weights are positive. -/
def OnBrokenLine (pts : List (ℝ × ℝ × ℝ)) (p0 s1 s2 ψ : ℝ) : Prop :=
  ∀ q ∈ pts, q.2.1 = brokenLine p0 s1 s2 ψ q.1 ∧ 0 < q.2.2

/-- Sum of squared distances of all points, whatever their weight, from the broken line. -/
noncomputable def misfit (pts : List (ℝ × ℝ × ℝ)) (p0 s1 s2 ψ : ℝ) : ℝ :=
  (pts.map (fun q => (q.2.1 - brokenLine p0 s1 s2 ψ q.1) ^ 2)).sum

end Spec

/-! ### Exact data -/

/-- Data that lie on the broken line except for points without weight. -/
private def OnLineW (pts : List (ℝ × ℝ × ℝ)) (p0 s1 s2 ψ : ℝ) : Prop :=
  ∀ q ∈ pts, 0 ≤ q.2.2 ∧ (0 < q.2.2 → q.2.1 = brokenLine p0 s1 s2 ψ q.1)

private theorem onBroken_toW {pts : List (ℝ × ℝ × ℝ)} {p0 s1 s2 ψ : ℝ}
    (h : OnBrokenLine pts p0 s1 s2 ψ) : OnLineW pts p0 s1 s2 ψ ∧ misfit pts p0 s1 s2 ψ = 0 := by
  refine ⟨fun q hq => ⟨(h q hq).2.le, fun _ => (h q hq).1⟩, ?_⟩
  unfold misfit
  have : pts.map (fun q => (q.2.1 - brokenLine p0 s1 s2 ψ q.1) ^ 2) = pts.map (fun _ => (0 : ℝ)) := by
    apply List.map_congr_left
    intro q hq
    rw [(h q hq).1]; ring
  rw [this]; simp

/-- One regression of exact data with a break in the same gap as the true one. -/
private theorem regress_exact {lsq4 : List SegRow → Coef4} (hl : LeastSquares4 lsq4)
    {pts : List (ℝ × ℝ × ℝ)} {p0 s1 s2 ψ b lo hi : ℝ} (hon : OnLineW pts p0 s1 s2 ψ)
    (hres : Resolved pts b) (hg : Gap pts lo hi) (hψ : lo ≤ ψ ∧ ψ ≤ hi) (hb : lo ≤ b ∧ b ≤ hi) :
    segRegress lsq4 pts b = .ok (⟨p0, s1, s2 - s1, (s2 - s1) * (ψ - b)⟩, misfit pts p0 s1 s2 ψ) := by
  have hw : ∀ r ∈ segRows pts b, 0 ≤ r.w := by
    intro r hr
    obtain ⟨q, hq, rfl⟩ := List.mem_map.1 hr
    exact (hon q hq).1
  have hval : ∀ q ∈ pts, Coef4.at ⟨p0, s1, s2 - s1, (s2 - s1) * (ψ - b)⟩
      ⟨q.1, segU b q.1, segV b q.1, q.2.1, q.2.2⟩ = brokenLine p0 s1 s2 ψ q.1 := by
    intro q hq
    simp only [Coef4.at]
    unfold brokenLine
    rcases hg q hq with h | h
    · rw [if_pos (by linarith [hψ.1]), segU_left (by linarith [hb.1]), segV_left (by linarith [hb.1])]
      ring
    · rw [if_neg (by linarith [hψ.2]), segU_right (by linarith [hb.2]), segV_right (by linarith [hb.2])]
      ring
  have hzero : rss4 (segRows pts b) ⟨p0, s1, s2 - s1, (s2 - s1) * (ψ - b)⟩ = 0 := by
    unfold rss4
    have : (segRows pts b).map (fun r => r.w * (r.y - (p0 + s1 * r.x + (s2 - s1) * r.u +
        (s2 - s1) * (ψ - b) * r.v)) ^ 2) = (segRows pts b).map (fun _ => (0 : ℝ)) := by
      apply List.map_congr_left
      intro r hr
      obtain ⟨q, hq, rfl⟩ := List.mem_map.1 hr
      have e := hval q hq
      simp only [Coef4.at] at e
      simp only
      rcases (hon q hq).1.lt_or_eq with h | h
      · rw [(hon q hq).2 h, e]; ring
      · rw [← h]; ring
    rw [this]; simp
  have hp : lsq4 (segRows pts b) = ⟨p0, s1, s2 - s1, (s2 - s1) * (ψ - b)⟩ := by
    apply coef4_ext hres
    apply lsq4_agree hw (hl _ hw)
    intro t
    rw [hzero]
    exact rss4_nonneg hw t
  unfold segRegress
  obtain ⟨⟨p, hp', q, hq', -, -, h1, h2⟩, -⟩ := hres
  have hall : ¬ pts.all (fun q => decide (b ≤ q.1)) = true := by
    rw [List.all_eq_true]
    intro h
    have := of_decide_eq_true (h q hq')
    linarith
  rw [if_neg hall]
  simp only
  rw [hp]
  congr 2
  unfold residSum misfit segRows
  rw [List.map_map]
  congr 1
  apply List.map_congr_left
  intro q hq
  simp only [Function.comp]
  rw [hval q hq]

/-- No straight line goes through the data. -/
private theorem line_resid_pos {pts : List (ℝ × ℝ × ℝ)} {p0 s1 s2 ψ b lo hi : ℝ}
    (hon : OnBrokenLine pts p0 s1 s2 ψ) (hs : s1 ≠ s2) (hres : Resolved pts b) (hg : Gap pts lo hi)
    (hψ : lo ≤ ψ ∧ ψ ≤ hi) (hb : lo ≤ b ∧ b ≤ hi) (p : ℝ × ℝ) : 0 < lineResidSum pts p := by
  have h0 : 0 ≤ lineResidSum pts p := by
    apply List.sum_nonneg
    intro x hx
    obtain ⟨q, hq, rfl⟩ := List.mem_map.1 hx
    exact sq_nonneg _
  rcases h0.lt_or_eq with h | h
  · exact h
  exfalso
  have hz : ∀ q ∈ pts, q.2.1 = p.1 + p.2 * q.1 := by
    have : ∀ l : List (ℝ × ℝ × ℝ), (l.map (fun q => (q.2.1 - (p.1 + p.2 * q.1)) ^ 2)).sum = 0 →
        ∀ q ∈ l, q.2.1 = p.1 + p.2 * q.1 := by
      intro l
      induction l with
      | nil => intro _ q hq; cases hq
      | cons a l ih =>
        intro hs q hq
        rw [List.map_cons, List.sum_cons] at hs
        have h1 : 0 ≤ (l.map (fun q => (q.2.1 - (p.1 + p.2 * q.1)) ^ 2)).sum := by
          apply List.sum_nonneg
          intro x hx
          obtain ⟨q, hq, rfl⟩ := List.mem_map.1 hx
          exact sq_nonneg _
        have h2 := sq_nonneg (a.2.1 - (p.1 + p.2 * a.1))
        rcases List.mem_cons.1 hq with rfl | hq
        · have : (q.2.1 - (p.1 + p.2 * q.1)) ^ 2 = 0 := by linarith
          have := pow_eq_zero_iff (two_ne_zero) |>.1 this
          linarith
        · exact ih (by linarith) q hq
    exact this pts h.symm
  obtain ⟨⟨a1, ha1, a2, ha2, -, -, l1, l2⟩, ⟨a3, ha3, a4, ha4, -, -, l3, l4⟩⟩ := hres
  have below : ∀ q ∈ pts, q.1 < b → p.1 + p.2 * q.1 = p0 + s1 * q.1 := by
    intro q hq h
    rw [← hz q hq, (hon q hq).1]
    unfold brokenLine
    rw [if_pos]
    rcases hg q hq with h' | h'
    · linarith [hψ.1]
    · linarith [hb.2]
  have above : ∀ q ∈ pts, b ≤ q.1 → p.1 + p.2 * q.1 = p0 + s1 * ψ + s2 * (q.1 - ψ) := by
    intro q hq h
    rw [← hz q hq, (hon q hq).1]
    unfold brokenLine
    rw [if_neg]
    rcases hg q hq with h' | h'
    · linarith [hb.1]
    · linarith [hψ.2]
  have e1 := below a1 ha1 (l1.trans l2)
  have e2 := below a2 ha2 l2
  have e3 := above a3 ha3 l3
  have e4 := above a4 ha4 (l3.trans l4.le)
  have g1 : (p.2 - s1) * (a2.1 - a1.1) = 0 := by linear_combination e2 - e1
  have g2 : (p.2 - s2) * (a4.1 - a3.1) = 0 := by linear_combination e4 - e3
  rcases mul_eq_zero.1 g1 with g1 | g1
  · rcases mul_eq_zero.1 g2 with g2 | g2
    · exact hs (by linarith)
    · linarith
  · linarith

private theorem resolved_gap {pts : List (ℝ × ℝ × ℝ)} {b b' lo hi : ℝ} (hres : Resolved pts b)
    (hg : Gap pts lo hi) (hb : lo ≤ b ∧ b ≤ hi) (hb' : lo ≤ b' ∧ b' ≤ hi) : Resolved pts b' := by
  obtain ⟨⟨a1, ha1, a2, ha2, w1, w2, l1, l2⟩, ⟨a3, ha3, a4, ha4, w3, w4, l3, l4⟩⟩ := hres
  refine ⟨⟨a1, ha1, a2, ha2, w1, w2, l1, ?_⟩, ⟨a3, ha3, a4, ha4, w3, w4, ?_, l4⟩⟩
  · rcases hg a2 ha2 with h | h <;> linarith [hb.1, hb.2, hb'.1, hb'.2]
  · rcases hg a3 ha3 with h | h <;> linarith [hb.1, hb.2, hb'.1, hb'.2]

private theorem points_x {m : LmSeg} {q : ℝ × ℝ × ℝ} (hq : q ∈ m.points) : q.1 ∈ m.x := by
  unfold LmSeg.points at hq
  cases hw : m.weights with
  | none =>
    rw [hw] at hq
    obtain ⟨p, hp, rfl⟩ := List.mem_map.1 hq
    exact (List.of_mem_zip hp).1
  | some w =>
    rw [hw] at hq
    obtain ⟨p, hp, rfl⟩ := List.mem_map.1 hq
    exact (List.of_mem_zip (List.of_mem_zip hp).1).1

private theorem inside_gap {m : LmSeg} {b b' lo hi : ℝ} (hres : Resolved m.points b)
    (hg : Gap m.points lo hi) (hb : lo ≤ b ∧ b ≤ hi) (hb' : lo ≤ b' ∧ b' ≤ hi) :
    segInside m.x (some b') = true := by
  obtain ⟨⟨a1, ha1, a2, ha2, -, -, l1, l2⟩, ⟨a3, ha3, a4, ha4, -, -, l3, l4⟩⟩ :=
    resolved_gap hres hg hb hb'
  simp only [segInside, Bool.and_eq_true, List.any_eq_true, decide_eq_true_eq, Bool.not_eq_true',
    List.all_eq_false]
  exact ⟨⟨a4.1, points_x ha4, lt_of_le_of_lt l3 l4⟩, a2.1, points_x ha2, by simpa using l2.le⟩

/-- One pass of the loop on exact data. -/
private theorem body_exact {m : LmSeg} {b b' ψ Δ R : ℝ} (o : SegOpts) (s : SegSt) (hΔ : Δ ≠ 0)
    (hsb : s.brk = b) (hb' : b' = b + s.hStep * (ψ - b)) (hin : segInside m.x (some b') = true) :
    segBody m.x o ⟨Δ, Δ * (ψ - b), R⟩ s =
      some { brk := b', hStep := s.hStep, epsil := (R - s.dev0) / (s.dev0 + 1e-3), dev0 := R,
             it := s.it + 1, failed := s.failed, fitRss := some R, count := s.count + 1 } := by
  have e : optAdd (some s.brk) (segStep s.hStep (Δ * (ψ - b)) Δ) = some b' := by
    unfold segStep optAdd
    rw [if_neg hΔ]
    simp only [Option.bind_eq_bind, Option.bind_some, Option.pure_def, Option.some.injEq]
    rw [hsb, hb']
    field_simp
  simp only [segBody, e, hin, if_true]
  rfl

/-- The state after the loop, for exact data. -/
private theorem loop_exact {lsq4 : List SegRow → Coef4} (hl4 : LeastSquares4 lsq4)
    (o : SegOpts) (ho : 0 ≤ o.tol ∧ o.tol < o.epsil0 ∧ 1 ≤ o.iterMax) (m : LmSeg) (init : ℝ)
    (p0 s1 s2 ψ lo hi : ℝ) (hs : s1 ≠ s2) (hon : OnLineW m.points p0 s1 s2 ψ)
    (hres : Resolved m.points m.brk) (hg : Gap m.points lo hi) (hψ : lo ≤ ψ ∧ ψ ≤ hi)
    (hb : lo ≤ m.brk ∧ m.brk ≤ hi)
    (h1 : lo ≤ m.brk + o.hStep * (ψ - m.brk) ∧ m.brk + o.hStep * (ψ - m.brk) ≤ hi)
    (h2 : 0 ≤ o.hStep ∧ o.hStep ≤ 2) :
    ∃ n c h e d it, (n = 1 ∨ n = 2) ∧ c - ψ = (1 - o.hStep) ^ n * (m.brk - ψ) ∧ (lo ≤ c ∧ c ≤ hi) ∧
      segFitModel m o init (fun _ b => segLoopFit lsq4 m.points b) (o.iterMax + 1) =
        some (segFinish m init ⟨c, h, e, d, it, false, some (misfit m.points p0 s1 s2 ψ), n⟩) := by
  set b := m.brk with hbdef
  set R := misfit m.points p0 s1 s2 ψ with hR
  set b1 := b + o.hStep * (ψ - b) with hb1
  set b2 := b1 + o.hStep * (ψ - b1) with hb2
  have hΔ : s2 - s1 ≠ 0 := sub_ne_zero.2 (Ne.symm hs)
  have hb2r : lo ≤ b2 ∧ b2 ≤ hi := by
    have e : b2 = ψ + (1 - o.hStep) ^ 2 * (b - ψ) := by rw [hb2, hb1]; ring
    have k0 : 0 ≤ (1 - o.hStep) ^ 2 := sq_nonneg _
    have k1 : (1 - o.hStep) ^ 2 ≤ 1 := by nlinarith [h2.1, h2.2]
    rw [e]
    constructor
    · nlinarith [hψ.1, hb.1]
    · nlinarith [hψ.2, hb.2]
  have f0 := regress_exact hl4 hon hres hg hψ hb
  have f1 := regress_exact hl4 hon (resolved_gap hres hg hb h1) hg hψ h1
  have i1 := inside_gap hres hg hb h1
  have i2 := inside_gap hres hg hb hb2r
  have hep : ¬ o.epsil0 < o.tol := not_lt.2 ho.2.1.le
  have hlp : ∀ c, segRegress lsq4 m.points c = .ok (⟨p0, s1, s2 - s1, (s2 - s1) * (ψ - c)⟩, R) →
      segLoopFit lsq4 m.points c = .ok ⟨s2 - s1, (s2 - s1) * (ψ - c), R⟩ := by
    intro c hc; unfold segLoopFit; rw [hc]; rfl
  have hgo : o.tol < |o.epsil0| := lt_of_lt_of_le ho.2.1 (le_abs_self _)
  have hB0 := body_exact (m := m) (R := R) o
    (⟨m.brk, o.hStep, o.epsil0, init, 0, false, none, 0⟩ : SegSt) hΔ rfl hb1 i1
  unfold segFitModel
  rw [if_neg hep]
  have hit : ¬ o.iterMax < 0 + 1 := by omega
  have hB0' : segBody m.x o ⟨s2 - s1, (s2 - s1) * (ψ - b), R⟩
      (⟨m.brk, o.hStep, o.epsil0, init, 0, false, none, 0⟩ : SegSt) = _ := hB0
  simp only [segLoop, hgo, if_true, hlp _ f0, ← hbdef] at hB0' ⊢
  rw [hB0']
  simp only [hit, if_false]
  cases hk : o.iterMax with
  | zero => omega
  | succ k =>
    simp only [segLoop, hk]
    by_cases ht : o.tol < |(R - init) / (init + 1e-3)|
    · have hB1 := body_exact (m := m) (R := R) o
        (⟨b1, o.hStep, (R - init) / (init + 1e-3), R, 0 + 1, false, some R, 0 + 1⟩ : SegSt) hΔ rfl hb2 i2
      simp only [ht, if_true, hlp _ f1, hB1]
      have hz : ¬ o.tol < |(R - R) / (R + 1e-3)| := by simp [ho.1]
      have hloop : ∀ fuel, segLoop m.x o (fun _ b => segLoopFit lsq4 m.points b) fuel
          ⟨b2, o.hStep, (R - R) / (R + 1e-3), R, 0 + 1 + 1, false, some R, 0 + 1 + 1⟩ =
          some (.ok ⟨b2, o.hStep, (R - R) / (R + 1e-3), R, 0 + 1 + 1, false, some R, 0 + 1 + 1⟩) := by
        intro fuel
        cases fuel <;> simp only [segLoop, hz, if_false]
      rw [hloop, ite_self]
      exact ⟨2, b2, _, _, _, _, Or.inr rfl, by rw [hb2, hb1]; ring, hb2r, rfl⟩
    · simp only [ht, if_false]
      exact ⟨1, b1, _, _, _, _, Or.inl rfl, by rw [hb1]; ring, h1, rfl⟩

private theorem weights_any {m : LmSeg} (hwl : ∀ w, m.weights = some w → w.length = m.x.length) :
    m.weights.any (fun w => decide (w.length ≠ m.x.length)) = false := by
  cases hw : m.weights with
  | none => rfl
  | some w => simp [hwl w hw]

/-- **C99 (rate).** Exact data, guess and true break in the same gap of the abscissae (with the point the
first step leads to): the two slopes are found exactly, after one or two passes, and every pass
multiplies the distance of the break from the true one by `1 - h_step`. -/
theorem C99_rate (lsq : List (ℝ × ℝ × ℝ) → ℝ × ℝ) (lsq4 : List SegRow → Coef4) (hl4 : LeastSquares4 lsq4)
    (o : SegOpts) (ho : 0 ≤ o.tol ∧ o.tol < o.epsil0 ∧ 1 ≤ o.iterMax) (m : LmSeg)
    (hwl : ∀ w, m.weights = some w → w.length = m.x.length)
    (p0 s1 s2 ψ lo hi : ℝ) (hs : s1 ≠ s2) (hon : OnBrokenLine m.points p0 s1 s2 ψ)
    (hres : Resolved m.points m.brk) (hg : Gap m.points lo hi) (hψ : lo ≤ ψ ∧ ψ ≤ hi)
    (hb : lo ≤ m.brk ∧ m.brk ≤ hi)
    (h1 : lo ≤ m.brk + o.hStep * (ψ - m.brk) ∧ m.brk + o.hStep * (ψ - m.brk) ≤ hi)
    (h2 : 0 ≤ o.hStep ∧ o.hStep ≤ 2) :
    ∃ r, lmSegFit lsq lsq4 o m = .ok r ∧ r.failed = false ∧ r.slopes = [s1, s2] ∧
      (r.count = 1 ∨ r.count = 2) ∧ r.brk - ψ = (1 - o.hStep) ^ r.count * (m.brk - ψ) := by
  obtain ⟨honw, hmis⟩ := onBroken_toW hon
  set init := lineResidSum m.points (lsq m.points) with hinit
  have hpos : 0 < init := line_resid_pos hon hs hres hg hψ hb _
  obtain ⟨n, c, h, e, d, it, hn, hc, hcr, hm⟩ :=
    loop_exact hl4 o ho m init p0 s1 s2 ψ lo hi hs honw hres hg hψ hb h1 h2
  have hfin : segFinish m init ⟨c, h, e, d, it, false, some (misfit m.points p0 s1 s2 ψ), n⟩ =
      .ok ⟨c, false, n⟩ := by
    rw [hmis]
    simp only [segFinish, Bool.false_eq_true, if_false, bind, Except.bind, not_le.2 hpos, decide_false,
      pure, Except.pure]
  have hc' := regress_exact hl4 honw (resolved_gap hres hg hb hcr) hg hψ hcr
  have hfinal : segFinal lsq lsq4 m.points ⟨c, false, n⟩ =
      .ok ⟨c, false, n, [p0, s1, s2 - s1, (s2 - s1) * (ψ - c), c], [s1, s2]⟩ := by
    simp only [segFinal, hc', bind, Except.bind, Bool.false_eq_true, if_false, segSlopes, pure, Except.pure]
    rw [sub_add_cancel]
  unfold lmSegFit
  rw [weights_any hwl, ← hinit, hm, hfin]
  simp only [Bool.false_eq_true, if_false, hfinal]
  exact ⟨_, rfl, rfl, rfl, hn, hc⟩

/-- **C99 (slopes).** Exact data, default options: both slopes are found exactly for every guess such that
no abscissa lies between the guess and its mirror image about the true break. Missing: other guesses and data with noise. -/
theorem C99_slopes_partial (lsq : List (ℝ × ℝ × ℝ) → ℝ × ℝ) (lsq4 : List SegRow → Coef4)
    (hl4 : LeastSquares4 lsq4) (m : LmSeg) (hwl : ∀ w, m.weights = some w → w.length = m.x.length)
    (p0 s1 s2 ψ lo hi : ℝ) (hs : s1 ≠ s2) (hon : OnBrokenLine m.points p0 s1 s2 ψ)
    (hres : Resolved m.points m.brk) (hg : Gap m.points lo hi)
    (hb : lo ≤ m.brk ∧ m.brk ≤ hi) (hb' : lo ≤ 2 * ψ - m.brk ∧ 2 * ψ - m.brk ≤ hi) :
    ∃ r, lmSegFit lsq lsq4 SegOpts.default m = .ok r ∧ r.failed = false ∧ r.slopes = [s1, s2] := by
  have e : m.brk + SegOpts.default.hStep * (ψ - m.brk) = 2 * ψ - m.brk := by
    simp only [SegOpts.default]; ring
  obtain ⟨r, h1, h2, h3, -⟩ := C99_rate lsq lsq4 hl4 SegOpts.default
    (by simp only [SegOpts.default]; norm_num) m hwl p0 s1 s2 ψ lo hi hs hon hres hg
    ⟨by linarith [hb.1, hb'.1], by linarith [hb.2, hb'.2]⟩ hb (by rw [e]; exact hb')
    (by simp only [SegOpts.default]; norm_num)
  exact ⟨r, h1, h2, h3⟩

/-- **C99 (break).** With `h_step = 1` instead of the default 2, exact data give the true break exactly, for
every guess with no abscissa between it and the true break.  Missing compared with the full property:
the default (see `C99_break_violated`), and no caller can change it. -/
theorem C99_break_partial (lsq : List (ℝ × ℝ × ℝ) → ℝ × ℝ) (lsq4 : List SegRow → Coef4)
    (hl4 : LeastSquares4 lsq4) (m : LmSeg) (hwl : ∀ w, m.weights = some w → w.length = m.x.length)
    (p0 s1 s2 ψ lo hi : ℝ) (hs : s1 ≠ s2) (hon : OnBrokenLine m.points p0 s1 s2 ψ)
    (hres : Resolved m.points m.brk) (hg : Gap m.points lo hi)
    (hb : lo ≤ m.brk ∧ m.brk ≤ hi) (hψ : lo ≤ ψ ∧ ψ ≤ hi) :
    ∃ r, lmSegFit lsq lsq4 { SegOpts.default with hStep := 1 } m = .ok r ∧ r.failed = false ∧ r.brk = ψ ∧
      r.slopes = [s1, s2] := by
  obtain ⟨r, h1, h2, h3, h4, h5⟩ := C99_rate lsq lsq4 hl4 { SegOpts.default with hStep := 1 }
    (by simp only [SegOpts.default]; norm_num) m hwl p0 s1 s2 ψ lo hi hs hon hres hg hψ hb
    (by simp only; rw [one_mul, add_sub_cancel]; exact hψ) (by norm_num)
  refine ⟨r, h1, h2, ?_, h3⟩
  simp only [sub_self] at h5
  rcases h4 with h | h <;> rw [h] at h5 <;> norm_num at h5 <;> linarith

/-- **C99 (violation).** With the default step the break is never refined: for exact data the reported break
is exactly as far from the true break as the guess was — on either side of it. -/
theorem C99_break_violated (lsq : List (ℝ × ℝ × ℝ) → ℝ × ℝ) (lsq4 : List SegRow → Coef4)
    (hl4 : LeastSquares4 lsq4) (m : LmSeg) (hwl : ∀ w, m.weights = some w → w.length = m.x.length)
    (p0 s1 s2 ψ lo hi : ℝ) (hs : s1 ≠ s2) (hon : OnBrokenLine m.points p0 s1 s2 ψ)
    (hres : Resolved m.points m.brk) (hg : Gap m.points lo hi)
    (hb : lo ≤ m.brk ∧ m.brk ≤ hi) (hb' : lo ≤ 2 * ψ - m.brk ∧ 2 * ψ - m.brk ≤ hi) :
    ∃ r, lmSegFit lsq lsq4 SegOpts.default m = .ok r ∧ r.failed = false ∧ |r.brk - ψ| = |m.brk - ψ| := by
  have e : m.brk + SegOpts.default.hStep * (ψ - m.brk) = 2 * ψ - m.brk := by
    simp only [SegOpts.default]; ring
  obtain ⟨r, h1, h2, h3, h4, h5⟩ := C99_rate lsq lsq4 hl4 SegOpts.default
    (by simp only [SegOpts.default]; norm_num) m hwl p0 s1 s2 ψ lo hi hs hon hres hg
    ⟨by linarith [hb.1, hb'.1], by linarith [hb.2, hb'.2]⟩ hb (by rw [e]; exact hb')
    (by simp only [SegOpts.default]; norm_num)
  refine ⟨r, h1, h2, ?_⟩
  rw [h5, abs_mul, abs_pow]
  simp only [SegOpts.default]
  norm_num

/-- Two points on `y = x`, two on the line of slope 3 joined to it at 2; guess 1.5. -/
private noncomputable def fourPts (w : Option (List ℝ)) : LmSeg := ⟨[0, 1, 3, 4], [0, 1, 5, 8], 1.5, w⟩

private theorem fourPts_on : OnBrokenLine (fourPts none).points 0 1 3 2 ∧
    Resolved (fourPts none).points 1.5 ∧ Gap (fourPts none).points 1.5 2.5 := by
  have hp : (fourPts none).points = [(0, 0, 1), (1, 1, 1), (3, 5, 1), (4, 8, 1)] := rfl
  rw [hp]
  refine ⟨?_, ⟨⟨(0, 0, 1), by simp, (1, 1, 1), by simp, by norm_num⟩,
    ⟨(3, 5, 1), by simp, (4, 8, 1), by simp, by norm_num⟩⟩, ?_⟩
  · intro q hq
    simp only [List.mem_cons, List.not_mem_nil, or_false] at hq
    rcases hq with rfl | rfl | rfl | rfl <;> norm_num [brokenLine]
  · intro q hq
    simp only [List.mem_cons, List.not_mem_nil, or_false] at hq
    rcases hq with rfl | rfl | rfl | rfl <;> norm_num

/-- Non-vacuity: the break is at 2, the guess 1.5, the reported break is off by 0.5. -/
example : ∃ lsq4, LeastSquares4 lsq4 ∧ ∃ r, lmSegFit lsqFormula lsq4 SegOpts.default (fourPts none) = .ok r ∧
    r.slopes = [1, 3] ∧ |r.brk - 2| = 0.5 := by
  obtain ⟨lsq4, h4⟩ := exists_leastSquares4
  obtain ⟨h1, h2, h3⟩ := fourPts_on
  obtain ⟨r, hr, -, hr3⟩ := C99_break_violated lsqFormula lsq4 h4 (fourPts none) (by intro w hw; cases hw)
    0 1 3 2 1.5 2.5 (by norm_num) h1 h2 h3 (by norm_num [fourPts]) (by norm_num [fourPts])
  obtain ⟨r', hr', -, hs'⟩ := C99_slopes_partial lsqFormula lsq4 h4 (fourPts none) (by intro w hw; cases hw)
    0 1 3 2 1.5 2.5 (by norm_num) h1 h2 h3 (by norm_num [fourPts]) (by norm_num [fourPts])
  rw [hr] at hr'
  cases hr'
  refine ⟨lsq4, h4, r, hr, hs', ?_⟩
  rw [hr3]
  norm_num [fourPts, abs_of_neg]

/-! ### Points without weight -/

private theorem lsq_of_min {lsq : List (ℝ × ℝ × ℝ) → ℝ × ℝ} (hl : LeastSquares lsq)
    {pts : List (ℝ × ℝ × ℝ)} (hw : ∀ q ∈ pts, 0 ≤ q.2.2) {a b : ℝ × ℝ × ℝ} (ha : a ∈ pts) (hb : b ∈ pts)
    (hwa : 0 < a.2.2) (hwb : 0 < b.2.2) (hab : a.1 ≠ b.1) {p : ℝ × ℝ}
    (hp : ∀ r, rss pts p ≤ rss pts r) : lsq pts = p :=
  lsq_unique hw ha hb hwa hwb hab (hl pts hw) hp

/-- **C99 (violation).** A point without weight decides whether there is a break.  Four points lie exactly
on two joined lines; the fit finds their slopes 0 and 1.  A fifth point of weight 0 (an infinite error)
makes the fit report a single line of slope 1/2, because the two models are compared by sums of
residuals that ignore the weights. -/
theorem C99_weightless_violated (lsq : List (ℝ × ℝ × ℝ) → ℝ × ℝ) (hl : LeastSquares lsq)
    (lsq4 : List SegRow → Coef4) (hl4 : LeastSquares4 lsq4) :
    (∃ r, lmSegFit lsq lsq4 SegOpts.default ⟨[0, 1, 3, 4], [0, 0, 1, 2], 1.5, some [1, 1, 1, 1]⟩ = .ok r ∧
      r.failed = false ∧ r.slopes = [0, 1]) ∧
    (∃ r, lmSegFit lsq lsq4 SegOpts.default
        ⟨[0, 1, 3, 4, 12], [0, 0, 1, 2, 0], 1.5, some [1, 1, 1, 1, 0]⟩ = .ok r ∧
      r.failed = true ∧ r.slopes = [1 / 2]) := by
  constructor
  · have hp : LmSeg.points ⟨[0, 1, 3, 4], [0, 0, 1, 2], 1.5, some [1, 1, 1, 1]⟩ =
        [(0, 0, 1), (1, 0, 1), (3, 1, 1), (4, 2, 1)] := rfl
    refine C99_slopes_partial lsq lsq4 hl4 _ (by intro w hw; cases hw; rfl) 0 0 1 2 1.5 2.5 (by norm_num)
      ?_ ?_ ?_ (by norm_num) (by norm_num) <;> rw [hp]
    · intro q hq
      simp only [List.mem_cons, List.not_mem_nil, or_false] at hq
      rcases hq with rfl | rfl | rfl | rfl <;> norm_num [brokenLine]
    · exact ⟨⟨(0, 0, 1), by simp, (1, 0, 1), by simp, by norm_num⟩,
        ⟨(3, 1, 1), by simp, (4, 2, 1), by simp, by norm_num⟩⟩
    · intro q hq
      simp only [List.mem_cons, List.not_mem_nil, or_false] at hq
      rcases hq with rfl | rfl | rfl | rfl <;> norm_num
  · set m : LmSeg := ⟨[0, 1, 3, 4, 12], [0, 0, 1, 2, 0], 1.5, some [1, 1, 1, 1, 0]⟩ with hm
    have hp : m.points = [(0, 0, 1), (1, 0, 1), (3, 1, 1), (4, 2, 1), (12, 0, 0)] := rfl
    have hline : lsq m.points = (-1 / 4, 1 / 2) := by
      rw [hp]
      apply lsq_of_min hl (a := (0, 0, 1)) (b := (1, 0, 1)) _ (by simp) (by simp) (by norm_num)
        (by norm_num) (by norm_num)
      · intro r
        have e : rss [(0, 0, 1), (1, 0, 1), (3, 1, 1), (4, 2, 1), (12, 0, 0)] r =
            rss [(0, 0, 1), (1, 0, 1), (3, 1, 1), (4, 2, 1), (12, 0, 0)] (-1 / 4, 1 / 2) +
            ((r.1 + 1 / 4) ^ 2 + (r.1 + 1 / 4 + (r.2 - 1 / 2)) ^ 2 +
              (r.1 + 1 / 4 + 3 * (r.2 - 1 / 2)) ^ 2 + (r.1 + 1 / 4 + 4 * (r.2 - 1 / 2)) ^ 2) := by
          simp only [rss, List.map_cons, List.map_nil, List.sum_cons, List.sum_nil]
          ring
        rw [e]
        linarith [sq_nonneg (r.1 + 1 / 4), sq_nonneg (r.1 + 1 / 4 + (r.2 - 1 / 2)),
          sq_nonneg (r.1 + 1 / 4 + 3 * (r.2 - 1 / 2)), sq_nonneg (r.1 + 1 / 4 + 4 * (r.2 - 1 / 2))]
      · intro q hq
        simp only [List.mem_cons, List.not_mem_nil, or_false] at hq
        rcases hq with rfl | rfl | rfl | rfl | rfl <;> norm_num
    have hinit : lineResidSum m.points (lsq m.points) = 533 / 16 := by
      rw [hline, hp]
      simp only [lineResidSum, List.map_cons, List.map_nil, List.sum_cons, List.sum_nil]
      norm_num
    have hmis : misfit m.points 0 0 1 2 = 100 := by
      rw [hp]
      simp only [misfit, List.map_cons, List.map_nil, List.sum_cons, List.sum_nil, brokenLine]
      norm_num
    obtain ⟨n, c, h, e, d, it, hn, hc, hcr, hml⟩ :=
      loop_exact hl4 SegOpts.default (by simp only [SegOpts.default]; norm_num) m
        (lineResidSum m.points (lsq m.points)) 0 0 1 2 1.5 2.5 (by norm_num)
        (by
          rw [hp]
          intro q hq
          simp only [List.mem_cons, List.not_mem_nil, or_false] at hq
          rcases hq with rfl | rfl | rfl | rfl | rfl <;> norm_num [brokenLine])
        (by
          rw [hp]
          exact ⟨⟨(0, 0, 1), by simp, (1, 0, 1), by simp, by norm_num [hm]⟩,
            ⟨(3, 1, 1), by simp, (4, 2, 1), by simp, by norm_num [hm]⟩⟩)
        (by
          rw [hp]
          intro q hq
          simp only [List.mem_cons, List.not_mem_nil, or_false] at hq
          rcases hq with rfl | rfl | rfl | rfl | rfl <;> norm_num)
        (by norm_num) (by norm_num [hm]) (by norm_num [hm, SegOpts.default])
        (by norm_num [SegOpts.default])
    have hmax : npMax m.x = .ok 12 := by
      apply npMax_eq
      · simp [hm]
      · intro y hy
        simp only [hm, List.mem_cons, List.not_mem_nil, or_false] at hy
        rcases hy with rfl | rfl | rfl | rfl | rfl <;> norm_num
    unfold lmSegFit
    rw [weights_any (by intro w hw; cases hw; rfl), hml, hmis, hinit]
    have hfin : segFinish m (533 / 16) ⟨c, h, e, d, it, false, some 100, n⟩ = .ok ⟨12, true, n⟩ := by
      simp only [segFinish, Bool.false_eq_true, if_false, bind, Except.bind, hmax, pure, Except.pure]
      norm_num
    rw [hfin]
    simp only [Bool.false_eq_true, if_false, segFinal, if_true, bind, Except.bind, segSlopes, hline, pure,
      Except.pure]
    exact ⟨_, rfl, rfl, rfl⟩

/-! ### Units -/

namespace Spec

/-- The same data in other units: `d` added to every (logarithmic) abscissa and to the guess, `c` to every
(logarithmic) ordinate, weights multiplied by `k`. -/
def inUnits (d c k : ℝ) (m : LmSeg) : LmSeg :=
  ⟨m.x.map (· + d), m.y.map (· + c), m.brk + d, m.weights.map (List.map (k * ·))⟩

/-- The states that `fit_model` goes through, from the first one. -/
inductive Visits (x : List ℝ) (o : SegOpts) (fit : ℕ → ℝ → Py SegFit) (s0 : SegSt) : SegSt → Prop
  | start : Visits x o fit s0 s0
  | next {s s' : SegSt} {f : SegFit} : Visits x o fit s0 s → o.tol < |s.epsil| →
      fit s.count s.brk = .ok f → segBody x o f s = some s' → s'.it ≤ o.iterMax → Visits x o fit s0 s'

/-- Whenever `fit_model` runs a regression with a break, the data determine its coefficients: in every pass
through the loop and in the final fit. -/
def AlwaysResolved (lsq : List (ℝ × ℝ × ℝ) → ℝ × ℝ) (lsq4 : List SegRow → Coef4) (o : SegOpts)
    (m : LmSeg) : Prop :=
  (∀ s, Visits m.x o (fun _ b => segLoopFit lsq4 m.points b)
      ⟨m.brk, o.hStep, o.epsil0, lineResidSum m.points (lsq m.points), 0, false, none, 0⟩ s →
    o.tol < |s.epsil| → Resolved m.points s.brk) ∧
  (∀ r, segFitModel m o (lineResidSum m.points (lsq m.points))
      (fun _ b => segLoopFit lsq4 m.points b) (o.iterMax + 1) = some (.ok r) → r.failed = false →
    Resolved m.points r.brk)

end Spec

/-- The points in other units. -/
private def mvPts (d c κ : ℝ) (pts : List (ℝ × ℝ × ℝ)) : List (ℝ × ℝ × ℝ) :=
  pts.map (fun q => (q.1 + d, q.2.1 + c, κ * q.2.2))

private theorem inUnits_points (d c k : ℝ) (hk : 0 < k) (m : LmSeg) :
    ∃ κ, 0 < κ ∧ (inUnits d c k m).points = mvPts d c κ m.points := by
  unfold LmSeg.points inUnits mvPts
  cases hw : m.weights with
  | none =>
    refine ⟨1, one_pos, ?_⟩
    simp only [Option.map_none, List.zip_map, List.map_map]
    apply List.map_congr_left
    intro p _
    simp
  | some w =>
    refine ⟨k, hk, ?_⟩
    simp only [Option.map_some, List.zip_map, List.map_map]
    apply List.map_congr_left
    intro p _
    rfl

private theorem mv_weights {d c κ : ℝ} (hκ : 0 < κ) {pts : List (ℝ × ℝ × ℝ)} (hw : ∀ q ∈ pts, 0 ≤ q.2.2) :
    ∀ q ∈ mvPts d c κ pts, 0 ≤ q.2.2 := by
  intro q hq
  obtain ⟨r, hr, rfl⟩ := List.mem_map.1 hq
  exact mul_nonneg hκ.le (hw r hr)

private theorem lsq_mv {lsq : List (ℝ × ℝ × ℝ) → ℝ × ℝ} (hl : LeastSquares lsq)
    {pts : List (ℝ × ℝ × ℝ)} (hw : ∀ q ∈ pts, 0 ≤ q.2.2) {a b : ℝ × ℝ × ℝ}
    (ha : a ∈ pts) (hb : b ∈ pts) (hwa : 0 < a.2.2) (hwb : 0 < b.2.2) (hab : a.1 ≠ b.1) (d c κ : ℝ)
    (hκ : 0 < κ) :
    lsq (mvPts d c κ pts) = ((lsq pts).1 + c - (lsq pts).2 * d, (lsq pts).2) := by
  have hr : ∀ p : ℝ × ℝ, rss (mvPts d c κ pts) p = κ * rss pts (p.1 - c + p.2 * d, p.2) := by
    intro p
    simp only [mvPts, rss, List.map_map, ← List.sum_map_mul_left]
    congr 1
    apply List.map_congr_left
    intro q _
    simp only [Function.comp]
    ring
  have hu : ((lsq (mvPts d c κ pts)).1 - c + (lsq (mvPts d c κ pts)).2 * d, (lsq (mvPts d c κ pts)).2) =
      lsq pts := by
    apply lsq_unique hw ha hb hwa hwb hab _ (hl pts hw)
    intro r
    have := hl _ (mv_weights (d := d) (c := c) hκ hw) (r.1 + c - r.2 * d, r.2)
    rw [hr, hr] at this
    have e : ((r.1 + c - r.2 * d, r.2).1 - c + (r.1 + c - r.2 * d, r.2).2 * d,
      (r.1 + c - r.2 * d, r.2).2) = r := by
      apply Prod.ext <;> simp only <;> ring
    rw [e] at this
    exact le_of_mul_le_mul_left this hκ
  rw [← hu]
  apply Prod.ext <;> simp only <;> ring

private theorem segU_add (d b x : ℝ) : segU (b + d) (x + d) = segU b x := by
  unfold segU
  simp only [add_lt_add_iff_right]
  split_ifs <;> ring

private theorem segV_add (d b x : ℝ) : segV (b + d) (x + d) = segV b x := by
  unfold segV
  simp only [add_lt_add_iff_right]

private theorem regress_mv {lsq4 : List SegRow → Coef4} (hl : LeastSquares4 lsq4)
    {pts : List (ℝ × ℝ × ℝ)} (hw : ∀ q ∈ pts, 0 ≤ q.2.2) (d c κ : ℝ) (hκ : 0 < κ) (b : ℝ)
    (hres : Resolved pts b) :
    segRegress lsq4 (mvPts d c κ pts) (b + d) =
      (segRegress lsq4 pts b).map (fun p => (⟨p.1.c0 + c - p.1.c1 * d, p.1.c1, p.1.c2, p.1.c3⟩, p.2)) := by
  have hrows : segRows (mvPts d c κ pts) (b + d) =
      (segRows pts b).map (fun r => ⟨r.x + d, r.u, r.v, r.y + c, κ * r.w⟩) := by
    simp only [segRows, mvPts, List.map_map]
    apply List.map_congr_left
    intro q _
    simp only [Function.comp, segU_add, segV_add]
  have hw1 : ∀ r ∈ segRows pts b, 0 ≤ r.w := by
    intro r hr
    obtain ⟨q, hq, rfl⟩ := List.mem_map.1 hr
    exact hw q hq
  have hw2 : ∀ r ∈ segRows (mvPts d c κ pts) (b + d), 0 ≤ r.w := by
    rw [hrows]
    intro r hr
    obtain ⟨q, hq, rfl⟩ := List.mem_map.1 hr
    exact mul_nonneg hκ.le (hw1 q hq)
  have hr : ∀ p : Coef4, rss4 (segRows (mvPts d c κ pts) (b + d)) p =
      κ * rss4 (segRows pts b) ⟨p.c0 - c + p.c1 * d, p.c1, p.c2, p.c3⟩ := by
    intro p
    rw [hrows]
    simp only [rss4, List.map_map, ← List.sum_map_mul_left]
    congr 1
    apply List.map_congr_left
    intro q _
    simp only [Function.comp]
    ring
  set p' := lsq4 (segRows (mvPts d c κ pts) (b + d)) with hp'
  set p := lsq4 (segRows pts b) with hp
  have hu : (⟨p'.c0 - c + p'.c1 * d, p'.c1, p'.c2, p'.c3⟩ : Coef4) = p := by
    apply coef4_ext hres
    apply lsq4_agree hw1 _ (hl _ hw1)
    intro t
    have := hl _ hw2 ⟨t.c0 + c - t.c1 * d, t.c1, t.c2, t.c3⟩
    rw [hr, hr] at this
    have e : t.c0 + c - t.c1 * d - c + t.c1 * d = t.c0 := by ring
    simp only [e] at this
    exact le_of_mul_le_mul_left this hκ
  have hpe : p' = ⟨p.c0 + c - p.c1 * d, p.c1, p.c2, p.c3⟩ := by
    rw [← hu]
    cases p'
    simp only [Coef4.mk.injEq, and_true]
    ring
  have hall : (mvPts d c κ pts).all (fun q => decide (b + d ≤ q.1)) = pts.all (fun q => decide (b ≤ q.1)) := by
    unfold mvPts
    rw [List.all_map]
    congr 1
    funext q
    simp
  unfold segRegress
  rw [hall]
  split_ifs
  · rfl
  · simp only [← hp', ← hp, Except.map]
    congr 2
    rw [hrows]
    simp only [residSum, List.map_map]
    congr 1
    apply List.map_congr_left
    intro q _
    simp only [Function.comp, Coef4.at, hpe]
    ring

private theorem loopFit_mv {lsq4 : List SegRow → Coef4} (hl : LeastSquares4 lsq4)
    {pts : List (ℝ × ℝ × ℝ)} (hw : ∀ q ∈ pts, 0 ≤ q.2.2) (d c κ : ℝ) (hκ : 0 < κ) (b : ℝ)
    (hres : Resolved pts b) :
    segLoopFit lsq4 (mvPts d c κ pts) (b + d) = segLoopFit lsq4 pts b := by
  unfold segLoopFit
  rw [regress_mv hl hw d c κ hκ b hres]
  cases segRegress lsq4 pts b <;> rfl

/-- A state with its break moved. -/
private def mvSt (d : ℝ) (s : SegSt) : SegSt := { s with brk := s.brk + d }

private theorem inside_mv (d : ℝ) (x : List ℝ) (b : Option ℝ) :
    segInside (x.map (· + d)) (b.map (· + d)) = segInside x b := by
  cases b with
  | none => rfl
  | some b =>
    simp only [Option.map_some, segInside, List.any_map, List.all_map, Function.comp_def,
      add_lt_add_iff_right]

private theorem optAdd_mv (d : ℝ) (a b : Option ℝ) : optAdd (a.map (· + d)) b = (optAdd a b).map (· + d) := by
  cases a <;> cases b <;> simp [optAdd]; ring

private theorem optSub_mv (d : ℝ) (a b : Option ℝ) : optSub (a.map (· + d)) b = (optSub a b).map (· + d) := by
  cases a <;> cases b <;> simp [optSub]; ring

private theorem halve_mv (d : ℝ) (x : List ℝ) (g bt : ℝ) : ∀ (fuel : ℕ) (nb : Option ℝ) (h : ℝ) (k : ℕ),
    segHalve (x.map (· + d)) g bt fuel (nb.map (· + d)) h k =
      (segHalve x g bt fuel nb h k).map (fun r => (r.1.map (· + d), r.2))
  | 0, _, _, _ => rfl
  | fuel + 1, nb, h, k => by
    simp only [segHalve, optSub_mv, optAdd_mv, inside_mv]
    split_ifs
    · rfl
    · rfl
    · exact halve_mv d x g bt fuel _ _ _

private theorem body_mv (d : ℝ) (x : List ℝ) (o : SegOpts) (f : SegFit) (s : SegSt) :
    segBody (x.map (· + d)) o f (mvSt d s) = (segBody x o f s).map (mvSt d) := by
  have e : optAdd (some (s.brk + d)) (segStep s.hStep f.gamma f.beta) =
      (optAdd (some s.brk) (segStep s.hStep f.gamma f.beta)).map (· + d) :=
    optAdd_mv d (some s.brk) _
  simp only [segBody, mvSt, e, inside_mv, halve_mv]
  by_cases hin : segInside x (optAdd (some s.brk) (segStep s.hStep f.gamma f.beta)) = true
  · simp only [hin, if_true]
    cases hn : optAdd (some s.brk) (segStep s.hStep f.gamma f.beta) with
    | none => rw [hn] at hin; cases hin
    | some v => simp [mvSt]
  · simp only [hin, Bool.false_eq_true, if_false]
    cases segHalve x f.gamma f.beta 5 (optAdd (some s.brk) (segStep s.hStep f.gamma f.beta)) s.hStep 0 with
    | none => rfl
    | some r =>
      obtain ⟨r1, r2⟩ := r
      cases r1 <;> rfl

private theorem loop_mv (d : ℝ) (x : List ℝ) (o : SegOpts) (fit fit' : ℕ → ℝ → Py SegFit) (s0 : SegSt)
    (hfit : ∀ s, Visits x o fit s0 s → o.tol < |s.epsil| → ∀ k, fit' k (s.brk + d) = fit k s.brk) :
    ∀ (fuel : ℕ) (s : SegSt), Visits x o fit s0 s →
      segLoop (x.map (· + d)) o fit' fuel (mvSt d s) =
        (segLoop x o fit fuel s).map (fun r => r.map (mvSt d))
  | 0, s, _ => by
    have e1 : (mvSt d s).epsil = s.epsil := rfl
    simp only [segLoop, e1]
    by_cases ht : o.tol < |s.epsil|
    · simp only [ht, if_true]; rfl
    · simp only [ht, if_false]; rfl
  | fuel + 1, s, hv => by
    have e1 : (mvSt d s).epsil = s.epsil := rfl
    have e2 : (mvSt d s).count = s.count := rfl
    have e3 : (mvSt d s).brk = s.brk + d := rfl
    simp only [segLoop, e1, e2, e3]
    by_cases ht : o.tol < |s.epsil|
    · simp only [ht, if_true, hfit s hv ht s.count]
      cases hf : fit s.count s.brk with
      | error e => rfl
      | ok f =>
        simp only [body_mv]
        cases hb : segBody x o f s with
        | none => rfl
        | some s' =>
          simp only [Option.map_some]
          have e4 : (mvSt d s').it = s'.it := rfl
          rw [e4]
          by_cases hi : o.iterMax < s'.it
          · simp only [hi, if_true, Option.map_some, Except.map]
          · simp only [hi, if_false]
            exact loop_mv d x o fit fit' s0 hfit fuel s' (Visits.next hv ht hf hb (not_lt.1 hi))
    · simp only [ht, if_false]; rfl

private theorem npMax_mv (d : ℝ) (x : List ℝ) : npMax (x.map (· + d)) = (npMax x).map (· + d) := by
  cases x with
  | nil => rfl
  | cons a l =>
    obtain ⟨v, hv⟩ : ∃ v, npMax (a :: l) = .ok v := ⟨_, rfl⟩
    obtain ⟨hmem, hmax⟩ := npMax_spec hv
    rw [hv]
    apply npMax_eq
    · exact List.mem_map.2 ⟨v, hmem, rfl⟩
    · intro y hy
      obtain ⟨z, hz, rfl⟩ := List.mem_map.1 hy
      simpa using hmax z hz

private theorem finish_mv (d c k : ℝ) (m : LmSeg) (init : ℝ) (s : SegSt) :
    segFinish (inUnits d c k m) init (mvSt d s) =
      (segFinish m init s).map (fun r => ⟨r.brk + d, r.failed, r.count⟩) := by
  have hx : (inUnits d c k m).x = m.x.map (· + d) := rfl
  have e1 : (mvSt d s).failed = s.failed := rfl
  have e2 : (mvSt d s).fitRss = s.fitRss := rfl
  have e3 : (mvSt d s).brk = s.brk + d := rfl
  have e4 : (mvSt d s).count = s.count := rfl
  unfold segFinish
  rw [hx, npMax_mv, e1, e2, e3, e4]
  cases hf : s.failed with
  | true =>
    simp only [if_true, bind, Except.bind, pure, Except.pure]
    cases npMax m.x <;> rfl
  | false =>
    cases hr : s.fitRss with
    | none => rfl
    | some r =>
      simp only [Bool.false_eq_true, if_false, bind, Except.bind, pure, Except.pure]
      by_cases h : init ≤ r
      · simp only [h, decide_true, if_true]
        cases npMax m.x <;> rfl
      · simp only [h, decide_false, Bool.false_eq_true, if_false]
        rfl

private theorem lineResid_mv {lsq : List (ℝ × ℝ × ℝ) → ℝ × ℝ} (hl : LeastSquares lsq)
    {pts : List (ℝ × ℝ × ℝ)} (hw : ∀ q ∈ pts, 0 ≤ q.2.2) {a b : ℝ × ℝ × ℝ}
    (ha : a ∈ pts) (hb : b ∈ pts) (hwa : 0 < a.2.2) (hwb : 0 < b.2.2) (hab : a.1 ≠ b.1) (d c κ : ℝ)
    (hκ : 0 < κ) :
    lineResidSum (mvPts d c κ pts) (lsq (mvPts d c κ pts)) = lineResidSum pts (lsq pts) := by
  rw [lsq_mv hl hw ha hb hwa hwb hab d c κ hκ]
  simp only [lineResidSum, mvPts, List.map_map]
  congr 1
  apply List.map_congr_left
  intro q _
  simp only [Function.comp]
  ring

namespace Spec

/-- Two fits of the same data in other units: the break moves with the abscissae, slopes, the choice between
one line and two and the number of passes are the same. -/
def SameFit (d : ℝ) (r r' : SegModel) : Prop :=
  r'.brk = r.brk + d ∧ r'.slopes = r.slopes ∧ r'.failed = r.failed ∧ r'.count = r.count

/-- Both raise the same exception, or both return and the results are related. -/
def PyRel {α β : Type*} (R : α → β → Prop) : Py α → Py β → Prop
  | .ok a, .ok b => R a b
  | .error e, .error e' => e = e'
  | _, _ => False

end Spec

/-- **C99 (units).** Neither the unit of the scales, nor that of the intensities, nor the unit of the errors
changes what the fit says: adding a constant to all logarithms of the scales (and to the guess) moves the
break by it; adding one to all logarithms of the values, or multiplying all weights by a positive number,
changes neither the break nor the slopes nor whether a break is reported.  For all data for which the
regressions that are run have a unique solution. Missing: data for which a regression has no unique solution. -/
theorem C99_units_partial (lsq : List (ℝ × ℝ × ℝ) → ℝ × ℝ) (hl : LeastSquares lsq)
    (lsq4 : List SegRow → Coef4) (hl4 : LeastSquares4 lsq4) (o : SegOpts) (m : LmSeg)
    (hw : ∀ q ∈ m.points, 0 ≤ q.2.2)
    (htwo : ∃ a ∈ m.points, ∃ b ∈ m.points, 0 < a.2.2 ∧ 0 < b.2.2 ∧ a.1 ≠ b.1)
    (hres : AlwaysResolved lsq lsq4 o m) (d c k : ℝ) (hk : 0 < k) :
    PyRel (SameFit d) (lmSegFit lsq lsq4 o m) (lmSegFit lsq lsq4 o (inUnits d c k m)) := by
  obtain ⟨a, ha, b, hb, hwa, hwb, hab⟩ := htwo
  obtain ⟨κ, hκ, hp⟩ := inUnits_points d c k hk m
  obtain ⟨hvis, hfin⟩ := hres
  have hany : (inUnits d c k m).weights.any (fun w => decide (w.length ≠ (inUnits d c k m).x.length)) =
      m.weights.any (fun w => decide (w.length ≠ m.x.length)) := by
    unfold inUnits
    cases m.weights <;> simp
  unfold lmSegFit
  rw [hany, hp, lineResid_mv hl hw ha hb hwa hwb hab d c κ hκ]
  split_ifs
  · rfl
  have hx : (inUnits d c k m).x = m.x.map (· + d) := rfl
  have hb' : (inUnits d c k m).brk = m.brk + d := rfl
  set init := lineResidSum m.points (lsq m.points) with hinit
  have hmodel : segFitModel (inUnits d c k m) o init
      (fun _ b => segLoopFit lsq4 (mvPts d c κ m.points) b) (o.iterMax + 1) =
      (segFitModel m o init (fun _ b => segLoopFit lsq4 m.points b) (o.iterMax + 1)).map
        (fun r => r.map (fun r => (⟨r.brk + d, r.failed, r.count⟩ : SegResult))) := by
    unfold segFitModel
    by_cases he : o.epsil0 < o.tol
    · simp only [he, if_true]; rfl
    simp only [he, if_false]
    have hloop := loop_mv d m.x o (fun _ b => segLoopFit lsq4 m.points b)
      (fun _ b => segLoopFit lsq4 (mvPts d c κ m.points) b)
      ⟨m.brk, o.hStep, o.epsil0, init, 0, false, none, 0⟩
      (fun s hs ht _ => loopFit_mv hl4 hw d c κ hκ s.brk (hvis s hs ht)) (o.iterMax + 1) _ Visits.start
    rw [hx, hb']
    have e : mvSt d ⟨m.brk, o.hStep, o.epsil0, init, 0, false, none, 0⟩ =
      ⟨m.brk + d, o.hStep, o.epsil0, init, 0, false, none, 0⟩ := rfl
    rw [e] at hloop
    rw [hloop]
    cases segLoop m.x o (fun _ b => segLoopFit lsq4 m.points b) (o.iterMax + 1)
        ⟨m.brk, o.hStep, o.epsil0, init, 0, false, none, 0⟩ with
    | none => rfl
    | some r =>
      cases r with
      | error e => rfl
      | ok s =>
        simp only [Option.map_some, Except.map]
        rw [finish_mv]
        rfl
  rw [hmodel]
  cases hr : segFitModel m o init (fun _ b => segLoopFit lsq4 m.points b) (o.iterMax + 1) with
  | none => rfl
  | some r =>
    cases r with
    | error e => rfl
    | ok r =>
      simp only [Option.map_some, Except.map]
      have hslope := (lsq_mv hl hw ha hb hwa hwb hab d c κ hκ)
      obtain ⟨rb, rf, rc⟩ := r
      cases rf with
      | true =>
        simp only [segFinal, if_true, bind, Except.bind, segSlopes, pure, Except.pure, hslope]
        exact ⟨rfl, rfl, rfl, rfl⟩
      | false =>
        have hR := hfin _ hr rfl
        have hreg := regress_mv hl4 hw d c κ hκ rb hR
        simp only [segFinal, Bool.false_eq_true, if_false, bind, Except.bind, hreg]
        cases segRegress lsq4 m.points rb with
        | error e => rfl
        | ok p => exact ⟨rfl, rfl, rfl, rfl⟩

/-- Exact data meet the hypothesis of `C99_units_partial`. -/
theorem exact_alwaysResolved (lsq : List (ℝ × ℝ × ℝ) → ℝ × ℝ) (lsq4 : List SegRow → Coef4)
    (hl4 : LeastSquares4 lsq4) (m : LmSeg)
    (p0 s1 s2 ψ lo hi : ℝ) (hs : s1 ≠ s2) (hon : OnBrokenLine m.points p0 s1 s2 ψ)
    (hres : Resolved m.points m.brk) (hg : Gap m.points lo hi)
    (hb : lo ≤ m.brk ∧ m.brk ≤ hi) (hb' : lo ≤ 2 * ψ - m.brk ∧ 2 * ψ - m.brk ≤ hi) :
    AlwaysResolved lsq lsq4 SegOpts.default m := by
  obtain ⟨honw, -⟩ := onBroken_toW hon
  have hψ : lo ≤ ψ ∧ ψ ≤ hi := ⟨by linarith [hb.1, hb'.1], by linarith [hb.2, hb'.2]⟩
  constructor
  · intro s hs' ht
    clear ht
    have key : (lo ≤ s.brk ∧ s.brk ≤ hi) ∧ (lo ≤ 2 * ψ - s.brk ∧ 2 * ψ - s.brk ≤ hi) ∧ s.hStep = 2 := by
      induction hs' with
      | start => exact ⟨hb, hb', rfl⟩
      | @next s t f _ _ hf hbody _ ih =>
        obtain ⟨h1, h2, h3⟩ := ih
        have hR := resolved_gap hres hg hb h1
        have e := regress_exact hl4 honw hR hg hψ h1
        simp only [segLoopFit, e, Except.map, Except.ok.injEq] at hf
        have hbe := body_exact (m := m) (b := s.brk) (b' := 2 * ψ - s.brk) (ψ := ψ)
          (R := misfit m.points p0 s1 s2 ψ) SegOpts.default s (sub_ne_zero.2 (Ne.symm hs)) rfl
          (by rw [h3]; ring) (inside_gap hR hg h1 h2)
        rw [← hf, hbe] at hbody
        cases hbody
        exact ⟨h2, ⟨by simp only; linarith [h1.1], by simp only; linarith [h1.2]⟩, h3⟩
    exact resolved_gap hres hg hb key.1
  · intro r hr hf
    obtain ⟨n, c, h, e, d, it, hn, hc, hcr, hml⟩ :=
      loop_exact hl4 SegOpts.default (by simp only [SegOpts.default]; norm_num) m
        (lineResidSum m.points (lsq m.points)) p0 s1 s2 ψ lo hi hs honw hres hg hψ hb
        (by
          have e : m.brk + SegOpts.default.hStep * (ψ - m.brk) = 2 * ψ - m.brk := by
            simp only [SegOpts.default]; ring
          rw [e]; exact hb')
        (by simp only [SegOpts.default]; norm_num)
    rw [hml] at hr
    simp only [Option.some.injEq, segFinish, Bool.false_eq_true, if_false, bind, Except.bind, pure,
      Except.pure] at hr
    by_cases hle : lineResidSum m.points (lsq m.points) ≤ misfit m.points p0 s1 s2 ψ
    · simp only [hle, decide_true, if_true] at hr
      cases hx : npMax m.x with
      | error e => rw [hx] at hr; cases hr
      | ok mx => rw [hx] at hr; cases hr; cases hf
    · simp only [hle, decide_false, Bool.false_eq_true, if_false] at hr
      cases hr
      exact resolved_gap hres hg hb hcr

/-- Without weights a model with a break never fits worse than the straight line, so the fit gives the break
up only when the search left the range of the data or when the two are equally good. -/
theorem C99_nested (lsq : List (ℝ × ℝ × ℝ) → ℝ × ℝ)
    (lsq4 : List SegRow → Coef4) (hl4 : LeastSquares4 lsq4) (m : LmSeg) (hw : m.weights = none) (b : ℝ)
    (p : Coef4 × ℝ) (h : segRegress lsq4 m.points b = .ok p) :
    p.2 ≤ lineResidSum m.points (lsq m.points) := by
  have hone : ∀ q ∈ m.points, q.2.2 = 1 := by
    intro q hq
    unfold LmSeg.points at hq
    rw [hw] at hq
    obtain ⟨t, _, rfl⟩ := List.mem_map.1 hq
    rfl
  have hw1 : ∀ r ∈ segRows m.points b, r.w = 1 := by
    intro r hr
    obtain ⟨q, hq, rfl⟩ := List.mem_map.1 hr
    exact hone q hq
  unfold segRegress at h
  split_ifs at h
  simp only [Except.ok.injEq] at h
  subst h
  have hmin := hl4 (segRows m.points b) (fun r hr => by rw [hw1 r hr]; exact zero_le_one)
    ⟨(lsq m.points).1, (lsq m.points).2, 0, 0⟩
  have e1 : ∀ t : Coef4, rss4 (segRows m.points b) t = residSum (segRows m.points b) t := by
    intro t
    simp only [rss4, residSum]
    congr 1
    apply List.map_congr_left
    intro r hr
    rw [hw1 r hr]
    simp only [Coef4.at]
    ring
  have e2 : residSum (segRows m.points b) ⟨(lsq m.points).1, (lsq m.points).2, 0, 0⟩ =
      lineResidSum m.points (lsq m.points) := by
    simp only [residSum, lineResidSum, segRows, List.map_map]
    congr 1
    apply List.map_congr_left
    intro q _
    simp only [Function.comp, Coef4.at]
    ring
  rw [e1, e1, e2] at hmin
  exact hmin

/-! ### The fits of the statistics -/

namespace Spec

/-- What `Lm_Seg` is given determines every regression it runs. -/
def WellPosed (lsq : List (ℝ × ℝ × ℝ) → ℝ × ℝ) (lsq4 : List SegRow → Coef4) (m : LmSeg) : Prop :=
  (∀ q ∈ m.points, 0 ≤ q.2.2) ∧
  (∃ a ∈ m.points, ∃ b ∈ m.points, 0 < a.2.2 ∧ 0 < b.2.2 ∧ a.1 ≠ b.1) ∧
  AlwaysResolved lsq lsq4 SegOpts.default m

/-- So do the points for the straight line: weights are not negative, and two points of different abscissa
have positive ones. -/
def TwoApart (pts : List FitPt) : Prop :=
  (∀ q ∈ pts, ∀ w, q.w = .fin w → 0 ≤ w) ∧
  ∃ q ∈ pts, ∃ r ∈ pts, ∃ x y w x' y' w', q = ⟨.fin x, .fin y, .fin w⟩ ∧ r = ⟨.fin x', .fin y', .fin w'⟩ ∧
    0 < w ∧ 0 < w' ∧ x ≠ x'

end Spec

/-- A finite entry times `k`. -/
private def FVal.times (k : ℝ) : FVal → FVal
  | .fin v => .fin (k * v)
  | .inf => .inf
  | .nan => .nan

/-- A point with its ordinate moved and its weight multiplied. -/
private def mvPt (c k : ℝ) (p : FitPt) : FitPt := ⟨p.x, p.y.shift c, FVal.times k p.w⟩

private theorem lineFit_mv {lsq : List (ℝ × ℝ × ℝ) → ℝ × ℝ} (hl : LeastSquares lsq) (pts : List FitPt)
    (h2 : TwoApart pts) (c k : ℝ) (hk : 0 < k) :
    lineFit lsq (pts.map (mvPt c k)) = (lineFit lsq pts).map (Option.map (fun p => (p.1 + c, p.2))) := by
  obtain ⟨hw, q, hq, r, hr, x, y, w, x', y', w', rfl, rfl, hwq, hwr, hne⟩ := h2
  have hdrop : dropMissing (pts.map (mvPt c k)) = (dropMissing pts).map (mvPt c k) := by
    unfold dropMissing
    rw [List.filter_map]
    congr 1
    apply List.filter_congr
    intro p _
    obtain ⟨a, b, e⟩ := p
    cases a <;> cases b <;> cases e <;> rfl
  unfold lineFit
  simp only [hdrop, List.length_map, List.any_map, Function.comp_def]
  have e1 : ((dropMissing pts).any fun p => (mvPt c k p).x.isInf) =
      (dropMissing pts).any fun p => p.x.isInf := rfl
  have e2 : ((dropMissing pts).any fun p => (mvPt c k p).y.isInf || (mvPt c k p).w.isInf) =
      (dropMissing pts).any fun p => p.y.isInf || p.w.isInf := by
    congr 1; funext p
    obtain ⟨a, b, e⟩ := p
    cases b <;> cases e <;> rfl
  rw [e1, e2]
  by_cases h0 : (dropMissing pts).length = 0
  · simp only [h0, if_true]; rfl
  by_cases h1 : (dropMissing pts).any (fun p => p.x.isInf) = true
  · simp only [h0, h1, if_true, if_false]; rfl
  by_cases h2 : (dropMissing pts).any (fun p => p.y.isInf || p.w.isInf) = true
  · simp only [h0, h1, h2, if_true, if_false]; rfl
  simp only [h0, h1, h2, if_false]
  simp only [Bool.false_eq_true, if_false, Except.map, Option.map]
  have hfin : ∀ t ∈ dropMissing pts, ∃ x y w, t.usable x y w := by
    intro t ht
    have hm := (dropMissing_mem.1 ht).2
    have hx : t.x.isInf = false := by
      by_contra hc
      exact h1 (List.any_eq_true.2 ⟨t, ht, eq_true_of_ne_false hc⟩)
    have hyw : (t.y.isInf || t.w.isInf) = false := by
      by_contra hc
      exact h2 (List.any_eq_true.2 ⟨t, ht, eq_true_of_ne_false hc⟩)
    rw [Bool.or_eq_false_iff] at hyw
    obtain ⟨a, b, e⟩ := t
    unfold FitPt.missing at hm
    cases a <;> cases b <;> cases e <;> simp_all [FVal.isInf, FitPt.usable]
  have hmap : ((dropMissing pts).map (mvPt c k)).map (fun p => (p.x.val, p.y.val, p.w.val)) =
      mvPts 0 c k ((dropMissing pts).map (fun p => (p.x.val, p.y.val, p.w.val))) := by
    unfold mvPts
    rw [List.map_map, List.map_map]
    apply List.map_congr_left
    intro t ht
    obtain ⟨x, y, w, rfl⟩ := hfin t ht
    simp [mvPt, FVal.shift, FVal.times, FVal.val]
  rw [hmap]
  have hmem : ∀ t ∈ pts, ¬ t.missing → (t.x.val, t.y.val, t.w.val) ∈
      (dropMissing pts).map (fun p => (p.x.val, p.y.val, p.w.val)) := by
    intro t ht hm
    exact List.mem_map.2 ⟨t, dropMissing_mem.2 ⟨ht, hm⟩, rfl⟩
  have hres := lsq_mv hl (pts := (dropMissing pts).map (fun p => (p.x.val, p.y.val, p.w.val)))
    (by
      intro t ht
      obtain ⟨s, hs, rfl⟩ := List.mem_map.1 ht
      obtain ⟨x, y, w, hu⟩ := hfin s hs
      have := hw s (dropMissing_mem.1 hs).1 w (by rw [hu])
      rw [hu]; exact this)
    (hmem _ hq (by simp [FitPt.missing])) (hmem _ hr (by simp [FitPt.missing])) hwq hwr hne 0 c k hk
  rw [hres]
  simp

/-- The range check of `Lm_Seg.__init__`. -/
private noncomputable def segOutside (x : List (Option ℝ)) (b : ℝ) : Py Bool :=
  if x = [] then .error .valueError
  else if x.all Option.isSome then
    (do
      let mx ← npMax (x.filterMap id)
      let mn ← npMin (x.filterMap id)
      .ok (decide (mx < b) || decide (b < mn)))
  else .ok false

/-- The rest of it. -/
private noncomputable def segRest (x y : List (Option ℝ)) (b : ℝ) (weights : Option (List (Option ℝ)))
    (outside : Bool) : Py LmSeg := do
  if outside then .error .valueError
  match weights with
  | none => pure ()
  | some w =>
    if x.length ≠ w.length then .error .valueError
    if !(w.all Option.isSome) then .error .valueError
  if x.length ≠ y.length then .error .valueError
  let good := (x.zip y).filter (fun p => p.2.isSome && p.1.isSome)
  let xs := good.filterMap (fun p => p.1)
  let ys := good.filterMap (fun p => p.2)
  if xs.length ≤ 3 ∨ ys.length ≤ 3 then .error .warningRaised
  return ⟨xs, ys, b, weights.map (·.filterMap id)⟩

private theorem lmSegInit_eq (x y : List (Option ℝ)) (b : ℝ) (w : Option (List (Option ℝ))) :
    lmSegInit x y (some b) w = (match segOutside x b with
      | .error e => .error e
      | .ok o => segRest x y b w o) := by
  unfold lmSegInit segOutside
  by_cases h1 : x = []
  · simp only [h1, if_true]; rfl
  · by_cases h2 : x.all Option.isSome = true
    · simp only [h1, h2, if_true, if_false, bind, Except.bind]
      cases npMax (x.filterMap id) <;> cases npMin (x.filterMap id) <;> rfl
    · simp only [h1, h2, if_false, bind, Except.bind]; rfl

private theorem segOfPoints_mv (weighted : Bool) (pts : List FitPt) (b c k : ℝ) :
    segOfPoints weighted (pts.map (mvPt c k)) b = (segOfPoints weighted pts b).map (inUnits 0 c k) := by
  have hx : (pts.map (mvPt c k)).map (fun p => p.x.finite) = pts.map (fun p => p.x.finite) := by
    rw [List.map_map]; rfl
  have hy : (pts.map (mvPt c k)).map (fun p => p.y.finite) =
      (pts.map (fun p => p.y.finite)).map (Option.map (· + c)) := by
    rw [List.map_map, List.map_map]
    apply List.map_congr_left
    intro p _
    obtain ⟨a, b, e⟩ := p
    cases b <;> rfl
  have hwt : (pts.map (mvPt c k)).map (fun p => p.w.finite) =
      (pts.map (fun p => p.w.finite)).map (Option.map (k * ·)) := by
    rw [List.map_map, List.map_map]
    apply List.map_congr_left
    intro p _
    obtain ⟨a, b, e⟩ := p
    cases e <;> rfl
  unfold segOfPoints
  rw [hx, hy, hwt]
  generalize pts.map (fun p => p.x.finite) = xs
  generalize pts.map (fun p => p.y.finite) = ys
  generalize pts.map (fun p => p.w.finite) = ws
  have hgood : (xs.zip (ys.map (Option.map (· + c)))).filter (fun p => p.2.isSome && p.1.isSome) =
      ((xs.zip ys).filter (fun p => p.2.isSome && p.1.isSome)).map (fun p => (p.1, p.2.map (· + c))) := by
    rw [List.zip_map_right, List.filter_map]
    congr 1
    apply List.filter_congr
    intro p _
    simp
  have hgx : (((xs.zip ys).filter (fun p => p.2.isSome && p.1.isSome)).map
      (fun p => (p.1, p.2.map (· + c)))).filterMap (fun p => p.1) =
      ((xs.zip ys).filter (fun p => p.2.isSome && p.1.isSome)).filterMap (fun p => p.1) := by
    rw [List.filterMap_map]; rfl
  have hgy : (((xs.zip ys).filter (fun p => p.2.isSome && p.1.isSome)).map
      (fun p => (p.1, p.2.map (· + c)))).filterMap (fun p => p.2) =
      (((xs.zip ys).filter (fun p => p.2.isSome && p.1.isSome)).filterMap (fun p => p.2)).map (· + c) := by
    rw [List.filterMap_map, List.map_filterMap]; rfl
  have hwf : (ws.map (Option.map (k * ·))).filterMap id = (ws.filterMap id).map (k * ·) := by
    rw [List.filterMap_map, List.map_filterMap]; rfl
  have hwa : (ws.map (Option.map (k * ·))).all Option.isSome = ws.all Option.isSome := by
    rw [List.all_map]
    congr 1
    funext p
    simp
  rw [lmSegInit_eq, lmSegInit_eq]
  cases segOutside xs b with
  | error e => rfl
  | ok o =>
    cases o
    · cases weighted
      · simp only [segRest, hgood, hgx, hgy, List.length_map, bind, Except.bind, pure, Except.pure,
          Bool.false_eq_true, if_false]
        split_ifs <;> simp [Except.map, inUnits]
      · simp only [segRest, hgood, hgx, hgy, List.length_map, bind, Except.bind, pure, Except.pure, if_true,
          hwa, hwf, Option.map_some, Bool.false_eq_true, if_false]
        split_ifs <;> simp [Except.map, inUnits]
    · rfl

/-- Five parameters with a break, three without. -/
private theorem params_length {lsq : List (ℝ × ℝ × ℝ) → ℝ × ℝ} {lsq4 : List SegRow → Coef4} {o : SegOpts}
    {m : LmSeg} {r : SegModel} (h : lmSegFit lsq lsq4 o m = .ok r) :
    r.params.length = if r.failed then 3 else 5 := by
  unfold lmSegFit at h
  split_ifs at h
  split at h
  · cases h
  · cases h
  · rename_i q _
    obtain ⟨qb, qf, qc⟩ := q
    cases qf with
    | true =>
      simp only [segFinal, if_true, bind, Except.bind, segSlopes, pure, Except.pure, Except.ok.injEq] at h
      rw [← h]; rfl
    | false =>
      simp only [segFinal, Bool.false_eq_true, if_false, bind, Except.bind] at h
      cases hp : segRegress lsq4 m.points qb with
      | error e => rw [hp] at h; cases h
      | ok p =>
        rw [hp] at h
        simp only [segSlopes, pure, Except.pure, Bool.false_eq_true, if_false, Except.ok.injEq] at h
        rw [← h]; rfl

private theorem fitLine_mv {lsq : List (ℝ × ℝ × ℝ) → ℝ × ℝ} (hl : LeastSquares lsq) (pts : List FitPt)
    (h2 : TwoApart pts) (c k : ℝ) (hk : 0 < k) : fitLine lsq (pts.map (mvPt c k)) = fitLine lsq pts := by
  unfold fitLine
  rw [lineFit_mv hl pts h2 c k hk]
  cases lineFit lsq pts with
  | error e => rfl
  | ok l => cases l <;> rfl

private theorem fitBroken_mv {lsq : List (ℝ × ℝ × ℝ) → ℝ × ℝ} (hl : LeastSquares lsq)
    {lsq4 : List SegRow → Coef4} (hl4 : LeastSquares4 lsq4) (minPts : ℕ) (weighted : Bool)
    (pts : List FitPt) (b : Option ℝ) (h2 : TwoApart pts)
    (hm : ∀ b', b = some b' → ∀ m, segOfPoints weighted pts b' = .ok m → WellPosed lsq lsq4 m) (c k : ℝ)
    (hk : 0 < k) :
    fitBroken lsq lsq4 minPts weighted (pts.map (mvPt c k)) b = fitBroken lsq lsq4 minPts weighted pts b := by
  cases b with
  | none => exact fitLine_mv hl pts h2 c k hk
  | some b =>
    have hx : (pts.map (mvPt c k)).filterMap (fun p => p.x.finite) = pts.filterMap (fun p => p.x.finite) := by
      rw [List.filterMap_map]; rfl
    simp only [fitBroken, segOfPoints_mv, hx, fitLine_mv hl pts h2 c k hk]
    cases hs : segOfPoints weighted pts b with
    | error e => rfl
    | ok m =>
      obtain ⟨h3, h4, h5⟩ := hm b rfl m hs
      have hu := C99_units_partial lsq hl lsq4 hl4 SegOpts.default m h3 h4 h5 0 c k hk
      simp only [bind, Except.bind, Except.map]
      cases hr : lmSegFit lsq lsq4 SegOpts.default m with
      | error e =>
        cases hr' : lmSegFit lsq lsq4 SegOpts.default (inUnits 0 c k m) with
        | error e' => rw [hr, hr'] at hu; rw [show e = e' from hu]
        | ok r' => rw [hr, hr'] at hu; cases hu
      | ok r =>
        cases hr' : lmSegFit lsq lsq4 SegOpts.default (inUnits 0 c k m) with
        | error e' => rw [hr, hr'] at hu; cases hu
        | ok r' =>
          rw [hr, hr'] at hu
          obtain ⟨u1, u2, u3, -⟩ := hu
          rw [add_zero] at u1
          have hlen : r'.params.length = r.params.length := by
            rw [params_length hr, params_length hr', u3]
          simp only [u1, u2, hlen]

namespace Spec

/-- A bin of the power spectrum of an image `k` times as bright squared: power and its standard deviation. -/
def brighterBin (k : ℝ) (b : PsBin) : PsBin := ⟨b.freq, b.power.map (k * ·), b.std.map (k * ·)⟩

/-- A value of a structure curve and its error, both times `k`. -/
def brighterLag (k : ℝ) (p : LagPt) : LagPt := ⟨p.lag, p.value.map (k * ·), p.err.map (k * ·)⟩

end Spec

private theorem psPoints_brighter (weighted : Bool) {k : ℝ} (hk : 0 < k) (lo hi : ℝ) (bins : List PsBin) :
    psPoints weighted lo hi (bins.map (brighterBin k)) =
      (psPoints weighted lo hi bins).map (mvPt (log10 k) 1) := by
  unfold psPoints
  rw [List.filter_map, List.map_map, List.map_map]
  have : ((fun b : PsBin => clipFunc lo hi (some b.freq)) ∘ brighterBin k) =
      fun b => clipFunc lo hi (some b.freq) := rfl
  rw [this]
  apply List.map_congr_left
  intro b hb
  clear hb
  simp only [Function.comp, mvPt, brighterBin, log10F_scale hk, FitPt.mk.injEq, true_and]
  obtain ⟨f, p, s⟩ := b
  cases weighted
  · simp [psWeight, FVal.times]
  · cases p <;> cases s <;> simp only [psWeight, Option.map_none, Option.map_some, if_true, FVal.times]
    rename_i p s
    by_cases hs : s = 0
    · simp [hs]
    · by_cases hp : p = 0
      · simp [hs, hp, hk.ne']
      · have e : 0.434 * (k * s) / (k * p) = 0.434 * s / p := by
          rw [mul_left_comm, mul_div_mul_left _ _ hk.ne']
        simp only [mul_eq_zero, hk.ne', hs, hp, or_self, if_false, e, invSqF]
        split_ifs <;> simp

/-- **C99 (brightness, power spectra).** `fit_pspec` with or without a break, weighted or not, gives the same
break and the same slopes for an image of another brightness, and raises the same exception, whenever the
regressions that are run have a unique solution. Missing: data for which a regression has no unique solution. -/
theorem C99_brightness_pspec_partial (lsq : List (ℝ × ℝ × ℝ) → ℝ × ℝ) (hl : LeastSquares lsq)
    (lsq4 : List SegRow → Coef4) (hl4 : LeastSquares4 lsq4) (minPts : ℕ) (weighted : Bool) (lo hi : ℝ)
    (bins : List PsBin) (brk : Option ℝ) (h2 : TwoApart (psPoints weighted lo hi bins))
    (hm : ∀ b, brk = some b → ∀ m, segOfPoints weighted (psPoints weighted lo hi bins) b = .ok m →
      WellPosed lsq lsq4 m) (k : ℝ) (hk : 0 < k) :
    fitBroken lsq lsq4 minPts weighted (psPoints weighted lo hi (bins.map (brighterBin k))) brk =
      fitBroken lsq lsq4 minPts weighted (psPoints weighted lo hi bins) brk := by
  rw [psPoints_brighter weighted hk]
  exact fitBroken_mv hl hl4 minPts weighted _ brk h2 hm _ _ one_pos

/-- The points of a fit of delta-variance or wavelet transform. -/
private noncomputable def lagPoints (w : LagWeights) (scale : ℝ) (xlow xhigh : Option ℝ) (pts : List LagPt) :
    List FitPt :=
  (lagSelect scale xlow xhigh pts).map
    (fun p => ⟨log10F (some (p.lag * scale)), log10F p.value, lagWeight w p⟩)

private theorem lagPoints_brighter (w : LagWeights) {k : ℝ} (hk : 0 < k) (scale : ℝ) (xlow xhigh : Option ℝ)
    (pts : List LagPt) :
    lagPoints w scale xlow xhigh (pts.map (brighterLag k)) =
      (lagPoints w scale xlow xhigh pts).map
        (mvPt (log10 k) (match w with | .invSqErr => 1 / k ^ 2 | _ => 1)) := by
  have hsel : lagSelect scale xlow xhigh (pts.map (brighterLag k)) =
      (lagSelect scale xlow xhigh pts).map (brighterLag k) := by
    unfold lagSelect
    rw [List.filter_map]
    rfl
  unfold lagPoints
  rw [hsel, List.map_map, List.map_map]
  apply List.map_congr_left
  intro b hb
  clear hb
  simp only [Function.comp, mvPt, brighterLag, log10F_scale hk, FitPt.mk.injEq, true_and]
  obtain ⟨f, p, s⟩ := b
  cases w
  · simp [lagWeight, FVal.times]
  · cases s with
    | none => rfl
    | some s =>
      by_cases hs : s = 0
      · simp [hs, lagWeight, invSqF, FVal.times]
      · simp only [lagWeight, Option.map_some, invSqF, mul_eq_zero, hk.ne', hs, or_self, if_false, FVal.times,
          FVal.fin.injEq]
        rw [mul_pow, one_div_mul_one_div]
  · cases p <;> cases s <;> simp only [lagWeight, Option.map_none, Option.map_some, FVal.times]
    rename_i p s
    by_cases hp : p = 0
    · by_cases hs : s = 0
      · simp [hs, hp]
      · simp [hs, hp, hk.ne']
    · by_cases hs : s = 0
      · simp [hs, hp, hk.ne']
      · have e : 0.434 * (k * s) / (k * p) = 0.434 * s / p := by
          rw [mul_left_comm, mul_div_mul_left _ _ hk.ne']
        simp only [mul_eq_zero, hk.ne', hs, hp, or_self, if_false, e, invSqF]
        split_ifs <;> simp

/-- **C99 (brightness, delta-variance and wavelets).** The same for the fits of the delta-variance curve
(weights `err ** -2`) and of the wavelet transform (no weights, or relative errors): multiplying values and
errors by a positive number changes neither break nor slopes. Missing: data for which a regression has no unique solution. -/
theorem C99_brightness_lags_partial (lsq : List (ℝ × ℝ × ℝ) → ℝ × ℝ) (hl : LeastSquares lsq)
    (lsq4 : List SegRow → Coef4) (hl4 : LeastSquares4 lsq4) (minPts : ℕ) (w : LagWeights) (weighted : Bool)
    (scale : ℝ) (xlow xhigh : Option ℝ) (pts : List LagPt) (brk : Option ℝ)
    (h2 : TwoApart ((lagSelect scale xlow xhigh pts).map
      (fun p => ⟨log10F (some (p.lag * scale)), log10F p.value, lagWeight w p⟩)))
    (hm : ∀ b, brk = some b → ∀ m, segOfPoints weighted ((lagSelect scale xlow xhigh pts).map
      (fun p => ⟨log10F (some (p.lag * scale)), log10F p.value, lagWeight w p⟩)) b = .ok m →
      WellPosed lsq lsq4 m) (k : ℝ) (hk : 0 < k) :
    fitBroken lsq lsq4 minPts weighted ((lagSelect scale xlow xhigh (pts.map (brighterLag k))).map
      (fun p => ⟨log10F (some (p.lag * scale)), log10F p.value, lagWeight w p⟩)) brk =
      fitBroken lsq lsq4 minPts weighted ((lagSelect scale xlow xhigh pts).map
      (fun p => ⟨log10F (some (p.lag * scale)), log10F p.value, lagWeight w p⟩)) brk := by
  have h := lagPoints_brighter w hk scale xlow xhigh pts
  unfold lagPoints at h
  rw [h]
  apply fitBroken_mv hl hl4 minPts weighted _ brk h2 hm
  cases w
  · exact one_pos
  · positivity
  · exact one_pos

/-- **C99 (violation).** A weighted fit of a power spectrum with a break needs an error for every bin: one bin
in the fitted range without a standard deviation, or with a standard deviation of 0 (a bin with one sample),
makes it raise ValueError.  The same fit without a break leaves such bins out. -/
theorem C99_zero_error_violated (lsq : List (ℝ × ℝ × ℝ) → ℝ × ℝ) (lsq4 : List SegRow → Coef4) (minPts : ℕ)
    (lo hi : ℝ) (bins : List PsBin) (b : ℝ) (q : PsBin) (hq : q ∈ bins) (hr : lo < q.freq ∧ q.freq ≤ hi)
    (hs : q.std = none ∨ q.std = some 0) :
    fitBroken lsq lsq4 minPts true (psPoints true lo hi bins) (some b) = .error .valueError := by
  have hmem : (⟨log10F (some q.freq), log10F q.power, .nan⟩ : FitPt) ∈ psPoints true lo hi bins := by
    unfold psPoints
    refine List.mem_map.2 ⟨q, List.mem_filter.2 ⟨hq, by simp [clipFunc, hr.1, hr.2]⟩, ?_⟩
    have : psWeight true q = .nan := by
      unfold psWeight
      rcases hs with h | h <;> rw [h]
      · rfl
      · cases q.power <;> simp
    rw [this]
  have hseg : segOfPoints true (psPoints true lo hi bins) b = .error .valueError := by
    have hall : ¬ ((psPoints true lo hi bins).map (fun p => p.w.finite)).all Option.isSome = true := by
      rw [List.all_eq_true]
      intro h
      have := h _ (List.mem_map.2 ⟨_, hmem, rfl⟩)
      cases this
    unfold segOfPoints
    rw [lmSegInit_eq]
    generalize hS : segOutside _ b = S
    cases S with
    | error e =>
      unfold segOutside at hS
      split_ifs at hS with h1 h2
      · cases hS; rfl
      · simp only [bind, Except.bind] at hS
        cases hx : (psPoints true lo hi bins).map (fun p => p.x.finite) with
        | nil => exact absurd hx h1
        | cons a t =>
          rw [hx] at hS h2
          cases a with
          | none => cases h2
          | some v => cases hS
    | ok o =>
      cases o
      · simp only [segRest, bind, Except.bind, Bool.false_eq_true, if_false, if_true, List.length_map, ne_eq,
          not_true_eq_false, hall, Bool.not_false, pure, Except.pure]
      · rfl
  simp only [fitBroken, hseg, bind, Except.bind]

/-- **C99 (violation).** A weighted fit with a break drops the points that are not finite but keeps their weights: `Lm_Seg` accepts the
data, and `fit_model` then raises ValueError for every data set with one such point. -/
theorem C99_dropped_violated (lsq : List (ℝ × ℝ × ℝ) → ℝ × ℝ) (lsq4 : List SegRow → Coef4) (o : SegOpts)
    (x y w : List (Option ℝ)) (b : ℝ) (m : LmSeg) (hm : lmSegInit x y (some b) (some w) = .ok m)
    (hbad : ∃ p ∈ x.zip y, p.1 = none ∨ p.2 = none) :
    lmSegFit lsq lsq4 o m = .error .valueError := by
  have hlen : ∀ l : List (Option ℝ), l.all Option.isSome = true → (l.filterMap id).length = l.length := by
    intro l hl
    induction l with
    | nil => rfl
    | cons a l ih =>
      cases a with
      | none => simp at hl
      | some v => simpa using ih (by simpa using hl)
  have hne : ∃ w', m.weights = some w' ∧ w'.length ≠ m.x.length := by
    rw [lmSegInit_eq] at hm
    generalize segOutside x b = S at hm
    cases S with
    | error e => cases hm
    | ok o =>
      cases o
      · simp only [segRest, bind, Except.bind, Bool.false_eq_true, if_false, pure, Except.pure] at hm
        split_ifs at hm with h1 h2 h3 h4
        all_goals first | (cases hm; done) | skip
        injection hm with hm
        subst hm
        have h2' : w.all Option.isSome = true := by
          cases hv : w.all Option.isSome with
          | true => rfl
          | false => exact absurd (by rw [hv]; rfl) h2
        refine ⟨_, rfl, ?_⟩
        show (w.filterMap id).length ≠ _
        rw [hlen w h2']
        obtain ⟨p, hp, hn⟩ := hbad
        have hl : ((x.zip y).filter (fun p => p.2.isSome && p.1.isSome)).length < (x.zip y).length := by
          refine List.length_filter_lt_length_iff_exists.2 ⟨p, hp, ?_⟩
          rcases hn with h | h <;> simp [h]
        have hle := List.length_filterMap_le (fun p : Option ℝ × Option ℝ => p.1)
          ((x.zip y).filter (fun p => p.2.isSome && p.1.isSome))
        rw [List.length_zip] at hl
        have hx : x.length = w.length := by simpa using h1
        have hlt := (hle.trans_lt hl).trans_le (Nat.min_le_left x.length y.length)
        rw [hx] at hlt
        exact hlt.ne'
      · cases hm
  obtain ⟨w', hw, hl⟩ := hne
  unfold lmSegFit
  rw [hw]
  simp [hl]

/-- One missing value among five. -/
example : ∃ m, lmSegInit [some 0, some 1, some 2, some 3, some 4] [some 0, some 1, none, some 1, some 0] (some 2)
      (some [some 1, some 1, some 1, some 1, some 1]) = .ok m ∧
    ∃ p ∈ [some (0 : ℝ), some 1, some 2, some 3, some 4].zip [some (0 : ℝ), some 1, none, some 1, some 0], p.1 = none ∨ p.2 = none := by
  refine ⟨⟨[0, 1, 3, 4], [0, 1, 1, 0], 2, some [1, 1, 1, 1, 1]⟩, ?_, (some 2, none), by simp, Or.inr rfl⟩
  rw [lmSegInit_eq]
  have : segOutside [some 0, some 1, some 2, some 3, some 4] 2 = .ok false := by
    simp [segOutside, npMax, npMin, bind, Except.bind]
  rw [this]
  simp [segRest, bind, Except.bind, pure, Except.pure]

namespace Spec

/-- Two power laws joined at `ψ`. -/
noncomputable def brokenPlaw (A s1 s2 ψ f : ℝ) : ℝ :=
  if f < ψ then A * f ^ s1 else A * ψ ^ (s1 - s2) * f ^ s2

end Spec

private theorem log_brokenPlaw {A s1 s2 ψ f : ℝ} (hA : 0 < A) (hψ : 0 < ψ) (hf : 0 < f) :
    0 < brokenPlaw A s1 s2 ψ f ∧
      log10 (brokenPlaw A s1 s2 ψ f) = brokenLine (log10 A) s1 s2 (log10 ψ) (log10 f) := by
  have hlt : log10 f < log10 ψ ↔ f < ψ := by
    rw [← not_le, ← not_le, log10_le_iff hψ hf]
  unfold brokenPlaw brokenLine
  by_cases h : f < ψ
  · have h' := hlt.2 h
    simp only [h, if_true]
    refine ⟨mul_pos hA (Real.rpow_pos_of_pos hf _), ?_⟩
    rw [log10_rpow hA hf, if_pos h']
  · have h' : ¬ log10 f < log10 ψ := fun hc => h (hlt.1 hc)
    simp only [h, if_false]
    have hB : 0 < A * ψ ^ (s1 - s2) := mul_pos hA (Real.rpow_pos_of_pos hψ _)
    refine ⟨mul_pos hB (Real.rpow_pos_of_pos hf _), ?_⟩
    rw [log10_rpow hB hf, log10_rpow hA hψ, if_neg h']
    ring

open Classical in
/-- **C99 (recovery).** A power spectrum that is exactly two power laws joined at `ψ`: `fit_pspec` with a guess
`b` for the break, not weighted, returns the two exponents.  Conditions: two bins of the fitted range below and
two above a gap that contains no bin but both `b` and its mirror image `ψ² / b`, and `min_fits_pts` bins below
it.  The break that is reported is the guess or its mirror image.  Missing for the full property: guesses
farther from the break, data with noise, weights, and the break itself (`C99_break_violated`). -/
theorem C99_recover_partial (lsq : List (ℝ × ℝ × ℝ) → ℝ × ℝ) (lsq4 : List SegRow → Coef4)
    (hl4 : LeastSquares4 lsq4) (minPts : ℕ) (bins : List PsBin) (lo hi A s1 s2 ψ b g1 g2 : ℝ)
    (hA : 0 < A) (hψ : 0 < ψ) (hs : s1 ≠ s2) (hg0 : 0 < g1)
    (hbin : ∀ q ∈ bins, 0 < q.freq ∧ q.power = some (brokenPlaw A s1 s2 ψ q.freq))
    (hgap : ∀ q ∈ bins, q.freq < g1 ∨ g2 < q.freq)
    (hb : g1 ≤ b ∧ b ≤ g2) (hb' : g1 ≤ ψ ^ 2 / b ∧ ψ ^ 2 / b ≤ g2)
    (F : List ℝ) (hF : F = (bins.map (·.freq)).filter (fun f => lo < f ∧ f ≤ hi))
    (f1 f2 f3 f4 : ℝ) (hf : f1 ∈ F ∧ f2 ∈ F ∧ f3 ∈ F ∧ f4 ∈ F) (hord : f1 < f2 ∧ f2 < g1 ∧ g2 < f3 ∧ f3 < f4)
    (hmin : minPts ≤ (F.filter (fun f => f < g1)).length) :
    ∃ β, (β = b ∨ β = ψ ^ 2 / b) ∧
      fitBroken lsq lsq4 minPts false (psPoints false lo hi bins) (some (log10 b)) =
        .ok (some (log10 β), some [s1, s2]) := by
  have hb0 : 0 < b := lt_of_lt_of_le hg0 hb.1
  have hmir : 0 < ψ ^ 2 / b := by positivity
  have hlmir : log10 (ψ ^ 2 / b) = 2 * log10 ψ - log10 b := by
    unfold log10
    rw [Real.logb_div (by positivity) hb0.ne', Real.logb_pow]
    norm_num
  have hlt : ∀ {u v : ℝ}, 0 < u → 0 < v → (log10 u < log10 v ↔ u < v) := by
    intro u v hu hv
    rw [← not_le, ← not_le, log10_le_iff hv hu]
  have hFmem : ∀ f ∈ F, 0 < f ∧ (f < g1 ∨ g2 < f) := by
    intro f hf
    rw [hF] at hf
    obtain ⟨q, hq, rfl⟩ := List.mem_map.1 (List.mem_filter.1 hf).1
    exact ⟨(hbin q hq).1, hgap q hq⟩
  have hg2 : 0 < g2 := lt_of_lt_of_le hb0 hb.2
  -- the points
  have hpts : psPoints false lo hi bins =
      F.map (fun f => ⟨.fin (log10 f), .fin (log10 (brokenPlaw A s1 s2 ψ f)), .fin 1⟩) := by
    rw [hF, List.filter_map, List.map_map]
    unfold psPoints
    have hfl : (bins.filter (fun b => clipFunc lo hi (some b.freq))) =
        bins.filter ((fun f => decide (lo < f ∧ f ≤ hi)) ∘ fun q => q.freq) := by
      apply List.filter_congr
      intro q _
      simp [clipFunc]
    rw [hfl]
    apply List.map_congr_left
    intro q hq
    obtain ⟨h1, h2⟩ := hbin q (List.mem_filter.1 hq).1
    simp only [Function.comp, psWeight, Bool.false_eq_true, if_false, FitPt.mk.injEq, and_true]
    refine ⟨log10F_pos h1, ?_⟩
    rw [h2, log10F_pos (log_brokenPlaw hA hψ h1).1]
  have hlen : 4 ≤ F.length := by
    have hsub : ({f1, f2, f3, f4} : Finset ℝ) ⊆ F.toFinset := by
      intro x hx
      simp only [Finset.mem_insert, Finset.mem_singleton] at hx
      rw [List.mem_toFinset]
      rcases hx with rfl | rfl | rfl | rfl
      exacts [hf.1, hf.2.1, hf.2.2.1, hf.2.2.2]
    have h23 : f2 < f3 := by linarith [hord.2.1, hord.2.2.1, hb.1, hb.2]
    have hc : ({f1, f2, f3, f4} : Finset ℝ).card = 4 := by
      rw [Finset.card_insert_of_notMem, Finset.card_insert_of_notMem, Finset.card_insert_of_notMem,
        Finset.card_singleton]
      · simp only [Finset.mem_singleton]; linarith [hord.2.2.2]
      · simp only [Finset.mem_insert, Finset.mem_singleton, not_or]
        exact ⟨h23.ne, (h23.trans hord.2.2.2).ne⟩
      · simp only [Finset.mem_insert, Finset.mem_singleton, not_or]
        exact ⟨hord.1.ne, (hord.1.trans h23).ne, (hord.1.trans (h23.trans hord.2.2.2)).ne⟩
    calc 4 = ({f1, f2, f3, f4} : Finset ℝ).card := hc.symm
      _ ≤ F.toFinset.card := Finset.card_le_card hsub
      _ ≤ F.length := List.toFinset_card_le F
  set m : LmSeg := ⟨F.map log10, F.map (fun f => log10 (brokenPlaw A s1 s2 ψ f)), log10 b, none⟩ with hm
  have hseg : segOfPoints false (psPoints false lo hi bins) (log10 b) = .ok m := by
    rw [hpts]
    unfold segOfPoints
    rw [lmSegInit_eq]
    simp only [List.map_map, Function.comp_def, FVal.finite, Bool.false_eq_true, if_false]
    have hfm : (F.map (fun f => some (log10 f))).filterMap id = F.map log10 := by
      rw [List.filterMap_map]
      simp [Function.comp_def]
    have hne : F.map (fun f => some (log10 f)) ≠ [] := by
      intro h
      rw [List.map_eq_nil_iff] at h
      rw [h] at hlen
      simp at hlen
    have hall : (F.map (fun f => some (log10 f))).all Option.isSome = true := by simp
    have hout : segOutside (F.map (fun f => some (log10 f))) (log10 b) = .ok false := by
      unfold segOutside
      rw [if_neg hne, if_pos hall, hfm]
      cases hmx : npMax (F.map log10) with
      | error e =>
        cases hFc : F with
        | nil => rw [hFc] at hlen; simp at hlen
        | cons a t => rw [hFc] at hmx; cases hmx
      | ok mx =>
        cases hmn : npMin (F.map log10) with
        | error e =>
          cases hFc : F with
          | nil => rw [hFc] at hlen; simp at hlen
          | cons a t => rw [hFc] at hmn; cases hmn
        | ok mn =>
          simp only [bind, Except.bind]
          have h1 : log10 f4 ≤ mx := (npMax_spec hmx).2 _ (List.mem_map.2 ⟨f4, hf.2.2.2, rfl⟩)
          have h2 : mn ≤ log10 f1 := (npMin_spec hmn).2 _ (List.mem_map.2 ⟨f1, hf.1, rfl⟩)
          have h3 : log10 b < log10 f4 :=
            (hlt hb0 (hFmem _ hf.2.2.2).1).2 (by linarith [hb.2, hord.2.2.1, hord.2.2.2])
          have h4 : log10 f1 < log10 b :=
            (hlt (hFmem _ hf.1).1 hb0).2 (by linarith [hb.1, hord.1, hord.2.1])
          rw [decide_eq_false (by linarith), decide_eq_false (by linarith)]
          rfl
    rw [hout]
    have hzip : ((F.map (fun f => some (log10 f))).zip
        (F.map (fun f => some (log10 (brokenPlaw A s1 s2 ψ f))))).filter (fun p => p.2.isSome && p.1.isSome) =
        F.map (fun f => (some (log10 f), some (log10 (brokenPlaw A s1 s2 ψ f)))) := by
      rw [List.zip_map', List.filter_eq_self]
      intro p hp
      obtain ⟨f, _, rfl⟩ := List.mem_map.1 hp
      rfl
    have hx' : (F.map (fun f => (some (log10 f), some (log10 (brokenPlaw A s1 s2 ψ f))))).filterMap
        (fun p => p.1) = F.map log10 := by
      rw [List.filterMap_map]; simp [Function.comp_def]
    have hy' : (F.map (fun f => (some (log10 f), some (log10 (brokenPlaw A s1 s2 ψ f))))).filterMap
        (fun p => p.2) = F.map (fun f => log10 (brokenPlaw A s1 s2 ψ f)) := by
      rw [List.filterMap_map]; simp [Function.comp_def]
    simp only [segRest, hzip, hx', hy', List.length_map, Bool.false_eq_true, if_false, bind, Except.bind, pure,
      Except.pure, ne_eq, not_true_eq_false, Option.map_none]
    rw [if_neg (by omega)]
  have hmp : m.points = F.map (fun f => (log10 f, log10 (brokenPlaw A s1 s2 ψ f), 1)) := by
    simp only [LmSeg.points, hm]
    rw [List.zip_map', List.map_map]
    rfl
  have hmem : ∀ f ∈ F, (log10 f, log10 (brokenPlaw A s1 s2 ψ f), (1 : ℝ)) ∈ m.points := by
    intro f hf
    rw [hmp]
    exact List.mem_map.2 ⟨f, hf, rfl⟩
  have hon : OnBrokenLine m.points (log10 A) s1 s2 (log10 ψ) := by
    rw [hmp]
    intro q hq
    obtain ⟨f, hf', rfl⟩ := List.mem_map.1 hq
    exact ⟨(log_brokenPlaw hA hψ (hFmem f hf').1).2, one_pos⟩
  have hres : Resolved m.points m.brk := by
    refine ⟨⟨_, hmem f1 hf.1, _, hmem f2 hf.2.1, one_pos, one_pos, ?_, ?_⟩,
      ⟨_, hmem f3 hf.2.2.1, _, hmem f4 hf.2.2.2, one_pos, one_pos, ?_, ?_⟩⟩
    · exact (hlt (hFmem _ hf.1).1 (hFmem _ hf.2.1).1).2 hord.1
    · exact (hlt (hFmem _ hf.2.1).1 hb0).2 (by linarith [hord.2.1, hb.1])
    · exact ((hlt hb0 (hFmem _ hf.2.2.1).1).2 (by linarith [hord.2.2.1, hb.2])).le
    · exact (hlt (hFmem _ hf.2.2.1).1 (hFmem _ hf.2.2.2).1).2 hord.2.2.2
  have hgl : Gap m.points (log10 g1) (log10 g2) := by
    rw [hmp]
    intro q hq
    obtain ⟨f, hf', rfl⟩ := List.mem_map.1 hq
    obtain ⟨h0, h1 | h1⟩ := hFmem f hf'
    · exact Or.inl ((hlt h0 hg0).2 h1)
    · exact Or.inr ((hlt hg2 h0).2 h1)
  have hbl : log10 g1 ≤ m.brk ∧ m.brk ≤ log10 g2 :=
    ⟨(log10_le_iff hg0 hb0).2 hb.1, (log10_le_iff hb0 hg2).2 hb.2⟩
  have hbl' : log10 g1 ≤ 2 * log10 ψ - m.brk ∧ 2 * log10 ψ - m.brk ≤ log10 g2 := by
    have : 2 * log10 ψ - m.brk = log10 (ψ ^ 2 / b) := hlmir.symm
    rw [this]
    exact ⟨(log10_le_iff hg0 hmir).2 hb'.1, (log10_le_iff hmir hg2).2 hb'.2⟩
  obtain ⟨r, hr, hrf, hrs⟩ := C99_slopes_partial lsq lsq4 hl4 m (by intro w hw; cases hw) (log10 A) s1 s2
    (log10 ψ) (log10 g1) (log10 g2) hs hon hres hgl hbl hbl'
  obtain ⟨r', hr', _, hrb⟩ := C99_break_violated lsq lsq4 hl4 m (by intro w hw; cases hw) (log10 A) s1 s2
    (log10 ψ) (log10 g1) (log10 g2) hs hon hres hgl hbl hbl'
  rw [hr] at hr'
  cases hr'
  have hbrk : ∃ β, (β = b ∨ β = ψ ^ 2 / b) ∧ r.brk = log10 β ∧ 0 < β ∧ g1 ≤ β ∧ β ≤ g2 := by
    have hmb : m.brk = log10 b := rfl
    rcases abs_eq_abs.1 hrb with h | h
    · exact ⟨b, Or.inl rfl, by rw [← hmb]; linarith, hb0, hb.1, hb.2⟩
    · exact ⟨ψ ^ 2 / b, Or.inr rfl, by rw [hlmir, ← hmb]; linarith, hmir, hb'.1, hb'.2⟩
  obtain ⟨β, hβ, hrβ, hβ0, hβ1, hβ2⟩ := hbrk
  refine ⟨β, hβ, ?_⟩
  have hfew : tooFewBelow ((psPoints false lo hi bins).filterMap (fun p => p.x.finite)) r.brk minPts = false := by
    unfold tooFewBelow
    rw [hpts, List.filterMap_map]
    have e : F.filterMap ((fun p : FitPt => p.x.finite) ∘ fun f =>
        ⟨.fin (log10 f), .fin (log10 (brokenPlaw A s1 s2 ψ f)), .fin 1⟩) = F.map log10 := by
      simp [Function.comp_def, FVal.finite]
    rw [e, List.filter_map, List.length_map, hrβ]
    have e2 : F.filter ((fun v => decide (v < log10 β)) ∘ log10) = F.filter (fun f => decide (f < g1)) := by
      apply List.filter_congr
      intro f hf'
      obtain ⟨h0, h1⟩ := hFmem f hf'
      simp only [Function.comp, hlt h0 hβ0]
      congr 1
      apply propext
      constructor
      · intro h
        rcases h1 with h1 | h1
        · exact h1
        · linarith
      · intro h; linarith
    rw [e2, decide_eq_false (not_lt.2 hmin)]
  simp only [fitBroken, hseg, hr, bind, Except.bind, params_length hr, hrf, hfew, pure, Except.pure]
  rw [hrβ, hrs]
  rfl

/-! ### The hypotheses are met -/

/-- Four bins of `f` below 1 and `f²` above, the guess 1.1 (mirror image 0.909…), `min_fits_pts = 2`. -/
example (lsq : List (ℝ × ℝ × ℝ) → ℝ × ℝ) (lsq4 : List SegRow → Coef4) (hl4 : LeastSquares4 lsq4) :
    ∃ β, (β = 1.1 ∨ β = 1 ^ 2 / 1.1) ∧
      fitBroken lsq lsq4 2 false (psPoints false 0 4
        [⟨1 / 4, some (brokenPlaw 1 1 2 1 (1 / 4)), none⟩, ⟨1 / 2, some (brokenPlaw 1 1 2 1 (1 / 2)), none⟩,
         ⟨2, some (brokenPlaw 1 1 2 1 2), none⟩, ⟨4, some (brokenPlaw 1 1 2 1 4), none⟩]) (some (log10 1.1)) =
        .ok (some (log10 β), some [1, 2]) := by
  refine C99_recover_partial lsq lsq4 hl4 2 _ 0 4 1 1 2 1 1.1 0.9 1.2 (by norm_num) (by norm_num) (by norm_num)
    (by norm_num) ?_ ?_ (by norm_num) (by norm_num) [1 / 4, 1 / 2, 2, 4] ?_ (1 / 4) (1 / 2) 2 4 (by simp)
    (by norm_num) ?_
  · intro q hq
    simp only [List.mem_cons, List.not_mem_nil, or_false] at hq
    rcases hq with rfl | rfl | rfl | rfl <;> exact ⟨by norm_num, rfl⟩
  · intro q hq
    simp only [List.mem_cons, List.not_mem_nil, or_false] at hq
    rcases hq with rfl | rfl | rfl | rfl <;> norm_num
  · simp only [List.map_cons, List.map_nil]
    rw [List.filter_eq_self.2]
    intro f hf
    simp only [List.mem_cons, List.not_mem_nil, or_false] at hf
    rcases hf with rfl | rfl | rfl | rfl <;> norm_num
  · norm_num [List.filter]

/-- Data for which `C99_units_partial` and the brightness theorems apply: exact ones, for example. -/
example (lsq : List (ℝ × ℝ × ℝ) → ℝ × ℝ) (lsq4 : List SegRow → Coef4) (hl4 : LeastSquares4 lsq4) :
    WellPosed lsq lsq4 ⟨[0, 1, 3, 4], [0, 0, 1, 2], 1.5, some [1, 1, 1, 1]⟩ := by
  have hp : LmSeg.points ⟨[0, 1, 3, 4], [0, 0, 1, 2], 1.5, some [1, 1, 1, 1]⟩ =
      [(0, 0, 1), (1, 0, 1), (3, 1, 1), (4, 2, 1)] := rfl
  refine ⟨?_, ?_, exact_alwaysResolved lsq lsq4 hl4 _ 0 0 1 2 1.5 2.5 (by norm_num) ?_ ?_ ?_ (by norm_num)
    (by norm_num)⟩ <;> rw [hp]
  · intro q hq
    simp only [List.mem_cons, List.not_mem_nil, or_false] at hq
    rcases hq with rfl | rfl | rfl | rfl <;> norm_num
  · exact ⟨(0, 0, 1), by simp, (1, 0, 1), by simp, by norm_num⟩
  · intro q hq
    simp only [List.mem_cons, List.not_mem_nil, or_false] at hq
    rcases hq with rfl | rfl | rfl | rfl <;> norm_num [brokenLine]
  · exact ⟨⟨(0, 0, 1), by simp, (1, 0, 1), by simp, by norm_num⟩,
      ⟨(3, 1, 1), by simp, (4, 2, 1), by simp, by norm_num⟩⟩
  · intro q hq
    simp only [List.mem_cons, List.not_mem_nil, or_false] at hq
    rcases hq with rfl | rfl | rfl | rfl <;> norm_num

end TS
