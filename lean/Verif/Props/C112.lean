import Verif.Lemmas.DvInterp
import Mathlib.Analysis.Complex.ExponentialBounds

/-! C112: delta-variance with interpolation over missing pixels. -/

namespace TS
open Finset

namespace Spec

/-- The share of a kernel at pixel `q` that lies on the pixels where `P` holds, and on the margin of the grid when `margin` is set (what
the normalised kernel leaves over). -/
noncomputable def kernelShare (k : ℕ → ℕ → ℕ → ℕ → ℝ) (n m : ℕ) (P : ℕ → ℕ → Bool) (margin : Bool) (q : ℕ × ℕ) : ℝ :=
  (∑ p ∈ (range n ×ˢ range m).filter (fun p => P p.1 p.2), k q.1 q.2 p.1 p.2) +
    if margin then 1 - ∑ p ∈ range n ×ˢ range m, k q.1 q.2 p.1 p.2 else 0

/-- Every pixel has a value. -/
def Complete (img : Arr2 (Option ℝ)) : Prop := ∀ i < img.n, ∀ j < img.m, img.get i j ≠ none

end Spec

/-! ### Rearrangements -/

theorem validShare_rearranged {n' m' : ℕ} {σ : ℕ × ℕ → ℕ × ℕ} {a b : Arr2 (Option ℝ)} (h : PixelMap n' m' a.n a.m σ) (hn : b.n = n')
    (hm : b.m = m') (hr : Rearranged σ b a) {coef' coef : ℕ → ℕ → ℕ → ℕ → ℝ} (hc : Follows n' m' σ coef' coef) (bd : DvBoundary)
    {i j : ℕ} (hi : i < n') (hj : j < m') :
    validShare coef' bd b i j = validShare coef bd a (σ (i, j)).1 (σ (i, j)).2 := by
  subst hn hm
  unfold validShare
  have e1 : ∑ u ∈ range b.n, ∑ v ∈ range b.m, coef' i j u v * (if (b.get u v).isSome then 1 else 0)
      = ∑ u ∈ range a.n, ∑ v ∈ range a.m, coef (σ (i, j)).1 (σ (i, j)).2 u v * (if (a.get u v).isSome then 1 else 0) := by
    rw [← h.sum]
    refine sum_congr rfl fun u hu => sum_congr rfl fun v hv => ?_
    rw [hc i hi j hj u (mem_range.1 hu) v (mem_range.1 hv), hr u (mem_range.1 hu) v (mem_range.1 hv)]
  have e2 : ∑ u ∈ range b.n, ∑ v ∈ range b.m, coef' i j u v
      = ∑ u ∈ range a.n, ∑ v ∈ range a.m, coef (σ (i, j)).1 (σ (i, j)).2 u v := by
    rw [← h.sum]
    refine sum_congr rfl fun u hu => sum_congr rfl fun v hv => ?_
    rw [hc i hi j hj u (mem_range.1 hu) v (mem_range.1 hv)]
  rw [e1, e2]

theorem applyI_rearranged {n' m' : ℕ} {σ : ℕ × ℕ → ℕ × ℕ} {a b : Arr2 (Option ℝ)} (h : PixelMap n' m' a.n a.m σ) (hn : b.n = n') (hm : b.m = m')
    (hr : Rearranged σ b a) {coef' coef : ℕ → ℕ → ℕ → ℕ → ℝ} (hc : Follows n' m' σ coef' coef) (bd : DvBoundary) :
    Rearranged σ (applyI coef' bd b) (applyI coef bd a) := by
  intro i hi j hj
  have hi' : i < b.n := hi
  have hj' : j < b.m := hj
  have hr0 : Rearranged σ (b.map fun v => v.getD 0) (a.map fun v => v.getD 0) := by
    intro i hi j hj
    show (b.get i j).getD 0 = _
    rw [hr i hi j hj]
    rfl
  have c1 := applyK_rearranged (a := a.map fun v => v.getD 0) (b := b.map fun v => v.getD 0) h hn hm hr0 hc i hi j hj
  have c2 := validShare_rearranged h hn hm hr hc bd (hn ▸ hi') (hm ▸ hj')
  simp only [applyI, c1, c2]

theorem dvFilterI_rearranged {n' m' : ℕ} {σ : ℕ × ℕ → ℕ × ℕ} {pi pi' : Arr2 (Option ℝ)} {pw pw' : Arr2 ℝ} (h : PixelMap n' m' pi.n pi.m σ)
    (hwn : pw.n = pi.n) (hwm : pw.m = pi.m)
    (hn : pi'.n = n') (hm : pi'.m = m') (hn' : pw'.n = n') (hm' : pw'.m = m') (hr : Rearranged σ pi' pi) (hw : Rearranged σ pw' pw)
    {core core' ann ann' : ℕ → ℕ → ℕ → ℕ → ℝ} (hc : Follows n' m' σ core' core) (ha : Follows n' m' σ ann' ann) (bd : DvBoundary) (cut : ℝ)
    (preserve : Bool) :
    Rearranged σ (dvFilterI core' ann' bd cut preserve pi' pw').1 (dvFilterI core ann bd cut preserve pi pw).1 ∧
    Rearranged σ (dvFilterI core' ann' bd cut preserve pi' pw').2 (dvFilterI core ann bd cut preserve pi pw).2 := by
  have hw0 : Rearranged σ (pw'.map some) (pw.map some) := by
    intro i hi j hj
    show some (pw'.get i j) = _
    rw [hw i hi j hj]
    rfl
  have c1 := applyI_rearranged h hn hm hr hc bd
  have c2 := applyI_rearranged h hn hm hr ha bd
  have hp : PixelMap n' m' (pw.map some).n (pw.map some).m σ := by
    show PixelMap n' m' pw.n pw.m σ
    rw [hwn, hwm]
    exact h
  have c3 := applyI_rearranged (b := pw'.map some) hp hn' hm' hw0 hc bd
  have c4 := applyI_rearranged (b := pw'.map some) hp hn' hm' hw0 ha bd
  constructor
  · intro i hi j hj
    have hi' : i < pi'.n := hi
    have hj' : j < pi'.m := hj
    show (if preserve ∧ (pi'.get i j).isNone then none else _) = (if preserve ∧ (pi.get _ _).isNone then none else _)
    rw [hr i hi' j hj', c1 i hi' j hj', c2 i hi' j hj', c3 i (by show i < pw'.n; omega) j (by show j < pw'.m; omega),
      c4 i (by show i < pw'.n; omega) j (by show j < pw'.m; omega)]
  · intro i hi j hj
    have hi' : i < pi'.n := hi
    have hj' : j < pi'.m := hj
    show mulO _ _ = mulO _ _
    rw [c3 i (by show i < pw'.n; omega) j (by show j < pw'.m; omega), c4 i (by show i < pw'.n; omega) j (by show j < pw'.m; omega)]

set_option maxHeartbeats 1000000 in
/-- The general statement: a move that is a symmetry of both convolutions leaves the delta-variance at a lag as it is. -/
private theorem lag_move_interp (t : DvMove) (junkI junkI' : ℕ → ℕ → Option ℝ) (junkW junkW' : ℕ → ℕ → ℝ) (b : DvBoundary) (frac : ℝ) (preserve : Bool)
    (ratio : ℝ) {lag : ℝ} (hlag : 1 ≤ lag) (img : Arr2 (Option ℝ)) (w : Arr2 ℝ) (hwn : w.n = img.n) (hwm : w.m = img.m)
    (hfit : t.fits b (coreKernel lag) img.n) :
    deltaVarLagI junkI' junkW' b frac preserve ratio lag (t.on img) (t.on w) = deltaVarLagI junkI junkW b frac preserve ratio lag img w := by
  obtain ⟨i1, i2, -⟩ := C86_isotropic lag ratio 1
  have hmax : npMax (t.on w).ravel = npMax w.ravel := npMax_perm (ravel_perm (dv_move_map t w) rfl rfl (dv_move_rearranged t w))
  unfold deltaVarLagI deltaVarAtI
  rw [hmax]
  cases b with
  | wrap =>
    simp only [dvPad, bind, Except.bind, pure, Except.pure]
    cases npMax w.ravel with
    | error e => rfl
    | ok wm =>
      simp only
      congr 1
      set pi : Arr2 (Option ℝ) := ⟨img.n, img.m, fun i j => mulO (img.get i j) (some (w.get i j))⟩ with hpi
      have hσ : t.σ img.n = t.σ w.n := by rw [hwn]
      have hpi' : (⟨(t.on img).n, (t.on img).m, fun i j => mulO ((t.on img).get i j) (some ((t.on w).get i j))⟩ : Arr2 (Option ℝ))
          = t.on pi := by
        cases t with
        | mirror => simp only [DvMove.on, Spec.mirror0, hpi, hwn]
        | swap => simp only [DvMove.on, Spec.transposed, hpi]
        | roll s => simp only [DvMove.on, Arr2.roll0, hpi, hwn]
      rw [hpi']
      have hon : (t.on w).n = (t.on pi).n ∧ (t.on w).m = (t.on pi).m := by
        cases t
        · exact ⟨hwn, hwm⟩
        · exact ⟨hwm, hwn⟩
        · exact ⟨hwn, hwm⟩
      have hmw : Rearranged (t.σ pi.n) (t.on w) w := by
        have := dv_move_rearranged t w
        rwa [hwn] at this
      have f1 := dv_follows_coef t .wrap i1 pi (by cases t <;> first | trivial | exact hfit)
      have f2 := dv_follows_coef t .wrap i2 pi (by cases t <;> first | trivial | exact hfit)
      have hon2 : (t.on pi).n = (t.on img).n ∧ (t.on pi).m = (t.on img).m := by cases t <;> exact ⟨rfl, rfl⟩
      rw [hon2.1, hon2.2] at f1 f2
      obtain ⟨d1, d2⟩ := dvFilterI_rearranged (n' := (t.on img).n) (m' := (t.on img).m) (pi := pi) (pi' := t.on pi) (pw := w) (pw' := t.on w)
        (σ := t.σ pi.n) (by rw [← hon2.1, ← hon2.2]; exact dv_move_map t pi) hwn hwm hon2.1 hon2.2 (hon.1.trans hon2.1) (hon.2.trans hon2.2) (dv_move_rearranged t pi) hmw
        f1 f2 .wrap (frac * wm) preserve
      have hmp : PixelMap (t.on img).n (t.on img).m pi.n pi.m (t.σ pi.n) := by rw [← hon2.1, ← hon2.2]; exact dv_move_map t pi
      have hfin := fun h1 h2 h3 h4 h5 h6 h7 => delvar_rearranged (n' := (t.on img).n) (m' := (t.on img).m) h1 h2 h3 h4 h5 h6 h7 d1 d2 lag
      exact hfin hmp rfl rfl hon2.1 hon2.2 hon2.1 hon2.2
  | fill =>
    have ht : ∀ s, t ≠ .roll s := by
      rintro s rfl
      exact absurd hfit.1 (by simp)
    have hp : 0 < (pyInt lag).toNat := by
      have h1 : (1 : ℤ) ≤ ⌊lag⌋ := Int.le_floor.2 (by simpa using hlag)
      have : pyInt lag = ⌊lag⌋ := by
        unfold pyInt
        rw [if_pos (by linarith)]
      rw [this]
      omega
    set p := (pyInt lag).toNat with hpdef
    simp only [dvPad, bind, Except.bind, pure, Except.pure, ← hpdef]
    cases npMax w.ravel with
    | error e => rfl
    | ok wm =>
      simp only
      congr 1
      set pw := npPad2 junkW (padWith 0) w p with hpw
      set pw' := npPad2 junkW' (padWith 0) (t.on w) p with hpw'
      set qi := npPad2 junkI (padWith (some 0)) img p with hqi
      set qi' := npPad2 junkI' (padWith (some 0)) (t.on img) p with hqi'
      set pi : Arr2 (Option ℝ) := ⟨qi.n, qi.m, fun i j => mulO (qi.get i j) (some (pw.get i j))⟩ with hpi
      have r1 : Rearranged (t.σ qi.n) qi' qi := dv_pad_rearranged t ht junkI junkI' (some 0) img p hp
      have r2 : Rearranged (t.σ pw.n) pw' pw := dv_pad_rearranged t ht junkW junkW' 0 w p hp
      obtain ⟨s1, s2⟩ := dv_pad_size t junkI junkI' (padWith (some 0)) img p
      obtain ⟨s3, s4⟩ := dv_pad_size t junkW junkW' (padWith 0) w p
      have hpn : pw.n = qi.n := by show w.n + 2 * p = img.n + 2 * p; rw [hwn]
      have hpm : pw.m = qi.m := by show w.m + 2 * p = img.m + 2 * p; rw [hwm]
      have hsz : pw'.n = qi'.n ∧ pw'.m = qi'.m := by
        constructor
        · show (t.on w).n + 2 * p = (t.on img).n + 2 * p
          cases t <;> simp [DvMove.on, Spec.mirror0, Spec.transposed, Arr2.roll0, hwn, hwm]
        · show (t.on w).m + 2 * p = (t.on img).m + 2 * p
          cases t <;> simp [DvMove.on, Spec.mirror0, Spec.transposed, Arr2.roll0, hwn, hwm]
      rw [hpn] at r2
      have r3 : Rearranged (t.σ pi.n) (⟨qi'.n, qi'.m, fun i j => mulO (qi'.get i j) (some (pw'.get i j))⟩ : Arr2 (Option ℝ)) pi := by
        intro i hi j hj
        have hi' : i < qi'.n := hi
        have hj' : j < qi'.m := hj
        show mulO (qi'.get i j) (some (pw'.get i j)) = _
        rw [r1 i hi' j hj', r2 i (by rw [hsz.1]; exact hi') j (by rw [hsz.2]; exact hj')]
      have hmap : PixelMap qi'.n qi'.m pi.n pi.m (t.σ pi.n) := by
        have := dv_move_map t qi
        rw [← s1, ← s2] at this
        exact this
      have f1 := dv_follows_coef t .fill i1 qi (by cases t <;> first | trivial | exact absurd rfl (ht _))
      have f2 := dv_follows_coef t .fill i2 qi (by cases t <;> first | trivial | exact absurd rfl (ht _))
      rw [← s1, ← s2] at f1 f2
      obtain ⟨d1, d2⟩ := dvFilterI_rearranged (n' := qi'.n) (m' := qi'.m) (pi := pi)
        (pi' := ⟨qi'.n, qi'.m, fun i j => mulO (qi'.get i j) (some (pw'.get i j))⟩) (pw := pw) (pw' := pw')
        (σ := t.σ pi.n) hmap hpn hpm rfl rfl hsz.1 hsz.2 r3 r2 f1 f2 .fill (frac * wm) preserve
      have hfin := fun h1 h2 h3 h4 h5 h6 h7 => delvar_rearranged (n' := qi'.n) (m' := qi'.m) h1 h2 h3 h4 h5 h6 h7 d1 d2 lag
      exact hfin hmap rfl rfl rfl rfl rfl rfl
  | other => rfl

/-- Turning the map upside down, exchanging its sides or exchanging rows and columns (with the weights) leaves the curve as it is, with
either boundary and all options. -/
theorem C112_symmetry (junkI junkI' : ℕ → ℕ → Option ℝ) (junkW junkW' : ℕ → ℕ → ℝ) (b : DvBoundary) (frac : ℝ) (preserve : Bool) (ratio : ℝ)
    {lags : List ℝ} (hl : ∀ l ∈ lags, 1 ≤ l) (img : Arr2 (Option ℝ)) (w : Arr2 ℝ) (hwn : w.n = img.n) (hwm : w.m = img.m) :
    computeDeltavarNan true junkI' junkW' b frac preserve ratio lags (Spec.mirror0 img) (Spec.mirror0 w)
      = computeDeltavarNan true junkI junkW b frac preserve ratio lags img w ∧
    computeDeltavarNan true junkI' junkW' b frac preserve ratio lags (Spec.transposed img) (Spec.transposed w)
      = computeDeltavarNan true junkI junkW b frac preserve ratio lags img w := by
  simp only [computeDeltavarNan, if_true]
  exact ⟨dv_mapM_ext fun l hl' => lag_move_interp .mirror junkI junkI' junkW junkW' b frac preserve ratio (hl l hl') img w hwn hwm trivial,
    dv_mapM_ext fun l hl' => lag_move_interp .swap junkI junkI' junkW junkW' b frac preserve ratio (hl l hl') img w hwn hwm trivial⟩

/-- With `boundary='wrap'` the curve does not depend on where along the first axis the map is cut out of the period, for lags whose
kernel fits (with `C112_symmetry`, also along the second).  Missing: larger kernels, see `C86_wrap_violated`. -/
theorem C112_roll_partial (junkI junkI' : ℕ → ℕ → Option ℝ) (junkW junkW' : ℕ → ℕ → ℝ) (frac : ℝ) (preserve : Bool) (ratio : ℝ) {lags : List ℝ}
    (hl : ∀ l ∈ lags, 1 ≤ l) (img : Arr2 (Option ℝ)) (w : Arr2 ℝ) (hwn : w.n = img.n) (hwm : w.m = img.m)
    (hfit : ∀ l ∈ lags, 2 * (coreKernel l).r + 1 ≤ img.n) (s : ℤ) :
    computeDeltavarNan true junkI' junkW' .wrap frac preserve ratio lags (img.roll0 s) (w.roll0 s)
      = computeDeltavarNan true junkI junkW .wrap frac preserve ratio lags img w := by
  simp only [computeDeltavarNan, if_true]
  exact dv_mapM_ext fun l hl' => lag_move_interp (.roll s) junkI junkI' junkW junkW' .wrap frac preserve ratio (hl l hl') img w hwn hwm
    ⟨rfl, hfit l hl'⟩

/-! ### Complete maps -/

/-- A map without missing pixels has the same curve as with `nan_treatment='fill'`, with `boundary='wrap'`, for all weights, lags and
options. -/
theorem C112_complete (junkI : ℕ → ℕ → Option ℝ) (junkW : ℕ → ℕ → ℝ) (frac : ℝ) (preserve : Bool) (ratio : ℝ) (lags : List ℝ)
    (img : Arr2 (Option ℝ)) (w : Arr2 ℝ) (hwn : w.n = img.n) (hwm : w.m = img.m) (himg : Spec.Complete img) :
    computeDeltavarNan true junkI junkW .wrap frac preserve ratio lags img w
      = computeDeltavarNan false junkI junkW .wrap frac preserve ratio lags img w := by
  simp only [computeDeltavarNan, if_true, Bool.false_eq_true, if_false, computeDeltavar]
  refine dv_mapM_ext fun l _ => ?_
  unfold deltaVarLagI deltaVarLag deltaVarAtI deltaVarAt
  simp only [dvPad, bind, Except.bind, pure, Except.pure]
  cases npMax w.ravel with
  | error e => rfl
  | ok wm =>
    simp only
    congr 1
    set pi : Arr2 (Option ℝ) := ⟨img.n, img.m, fun i j => mulO (img.get i j) (some (w.get i j))⟩ with hpi
    have hp : ∀ u < pi.n, ∀ v < pi.m, pi.get u v ≠ none := by
      intro u hu v hv
      have := himg u hu v hv
      cases h : img.get u v <;> simp_all [mulO]
    have k1 : ∀ coef : ℕ → ℕ → ℕ → ℕ → ℝ, ∀ i j, (applyI coef .wrap pi).get i j = some ((applyK coef (pi.map fun v => v.getD 0)).get i j) := by
      intro coef i j
      simp only [applyI, validShare_wrap coef pi i j hp]
      norm_num
    have k2 : ∀ coef : ℕ → ℕ → ℕ → ℕ → ℝ, ∀ i j, (applyI coef .wrap (w.map some)).get i j = some ((applyK coef w).get i j) := by
      intro coef i j
      have hv := validShare_wrap coef (w.map some) i j (by intro u _ v _; simp [Arr2.map])
      simp only [applyI, hv]
      norm_num
      rfl
    congr 1 <;> simp only [dvFilterI, dvFilter, k1, k2, Option.bind]

/-- Padding a complete map leaves it complete. -/
private theorem dv_pad_complete {junkI : ℕ → ℕ → Option ℝ} {junkW : ℕ → ℕ → ℝ} {b : DvBoundary} {lag : ℝ} (hlag : 1 ≤ lag)
    {img : Arr2 (Option ℝ)} {w : Arr2 ℝ} (hw : w.n = img.n ∧ w.m = img.m) (hall : Spec.Complete img) {pi : Arr2 (Option ℝ)} {pw : Arr2 ℝ}
    (h : dvPad junkI junkW b lag img w = .ok (pi, pw)) : ∀ i < pi.n, ∀ j < pi.m, pi.get i j ≠ none := by
  cases b with
  | wrap =>
    simp only [dvPad, Except.ok.injEq, Prod.mk.injEq] at h
    obtain ⟨rfl, -⟩ := h
    intro i hi j hj
    have := hall i hi j hj
    cases hh : img.get i j <;> simp_all [mulO]
  | fill =>
    have hp : 0 < (pyInt lag).toNat := by
      have : (1 : ℤ) ≤ pyInt lag := by
        unfold pyInt
        rw [if_pos (by linarith)]
        exact Int.le_floor.2 (by exact_mod_cast hlag)
      omega
    simp only [dvPad, Except.ok.injEq, Prod.mk.injEq] at h
    obtain ⟨rfl, -⟩ := h
    intro i hi j hj
    set p := (pyInt lag).toNat
    obtain ⟨hn, hm, hin, hout⟩ := C23_pad_image junkI (some 0) img p hp
    have : (npPad2 junkI (padWith (some 0)) img p).get i j ≠ none := by
      by_cases hc : p ≤ i ∧ i < img.n + p ∧ p ≤ j ∧ j < img.m + p
      · have h1 := hin (i - p) (by omega) (j - p) (by omega)
        rw [show i - p + p = i by omega, show j - p + p = j by omega] at h1
        rw [h1]
        exact hall _ (by omega) _ (by omega)
      · rw [hout i hi j hj (by omega)]
        simp
    simp only
    cases hh : (npPad2 junkI (padWith (some 0)) img p).get i j with
    | none => exact absurd hh this
    | some x => simp [mulO]
  | other => simp [dvPad] at h

private theorem filterI_rel (core ann : ℕ → ℕ → ℕ → ℕ → ℝ) (b : DvBoundary) (cut : ℝ) (preserve : Bool)
    {img img' : Arr2 (Option ℝ)} {w : Arr2 ℝ} {c a : ℝ} (h : DvPadRel img img' w c a)
    (hcase : a = 0 ∨ ∀ i < img.n, ∀ j < img.m, img.get i j ≠ none) (i j : ℕ)
    (hi : i < img.n) (hj : j < img.m) :
    (dvFilterI core ann b cut preserve img' w).1.get i j =
      ((dvFilterI core ann b cut preserve img w).1.get i j).map (c * ·) ∧
    (dvFilterI core ann b cut preserve img' w).2.get i j = (dvFilterI core ann b cut preserve img w).2.get i j := by
  obtain ⟨hn, hm, hwn, hwm, hv⟩ := h
  have key : ∀ coef : ℕ → ℕ → ℕ → ℕ → ℝ,
      divO ((applyI coef b img').get i j) (((applyI coef b (w.map some)).get i j).bind (dvMask cut)) =
      (divO ((applyI coef b img).get i j) (((applyI coef b (w.map some)).get i j).bind (dvMask cut))).map (fun x => c * x + a) := by
    intro coef
    rcases hcase with rfl | hall
    · have := applyI_lin coef b (x := img) (y := img) (z := img') (c := c) (d := 0) rfl rfl hn hm
        (fun u hu v hv' => ⟨rfl, (hv u hu v hv').1, by rw [(hv u hu v hv').2]; ring⟩) i j
      rcases this with ⟨-, h1, -, h3⟩ | ⟨p, q, h1, h2, h3⟩
      · rw [h1, h3]; simp [divO]
      · rw [h1, h3]
        cases ((applyI coef b (w.map some)).get i j).bind (dvMask cut) with
        | none => simp [divO]
        | some y =>
          by_cases hy : y = 0
          · simp [divO, hy]
          · simp [divO, hy]
            ring
    · have := applyI_lin coef b (x := img) (y := w.map some) (z := img') (c := c) (d := a) hwn hwm hn hm
        (fun u hu v hv' => ⟨by
          have := hall u hu v hv'
          cases hh : img.get u v <;> simp_all [Arr2.map], (hv u hu v hv').1, (hv u hu v hv').2⟩) i j
      rcases this with ⟨-, h1, h2, h3⟩ | ⟨p, q, h1, h2, h3⟩
      · rw [h1, h3]; simp [divO]
      · rw [h1, h2, h3]
        simp only [Option.bind, dvMask]
        by_cases hq : q ≤ cut
        · simp [divO, hq]
        · by_cases hy : q = 0
          · simp [divO, hy]
            split_ifs <;> simp
          · simp only [divO, hq, if_false, bind, Option.bind, hy, Option.map]
            congr 1
            field_simp
  refine ⟨?_, rfl⟩
  unfold dvFilterI
  simp only [(hv i hi j hj).1]
  split_ifs with hp
  · rfl
  · rw [key core, key ann]
    generalize divO ((applyI core b img).get i j) _ = A
    generalize divO ((applyI ann b img).get i j) _ = B
    cases A <;> cases B <;> simp [subO]
    ring

private theorem deltaVarI_rel (junkI junkI' : ℕ → ℕ → Option ℝ) (junkW : ℕ → ℕ → ℝ)
    (core ann : ℕ → ℕ → ℕ → ℕ → ℝ) (b : DvBoundary) (frac : ℝ) (preserve : Bool) (lag : ℝ)
    (hlag : 1 ≤ lag) (img img' : Arr2 (Option ℝ)) (w : Arr2 ℝ) (c a : ℝ) (hc : c ≠ 0)
    (hn : img'.n = img.n) (hm : img'.m = img.m) (hw : w.n = img.n ∧ w.m = img.m)
    (h : ∀ i < img.n, ∀ j < img.m, ((img'.get i j).isNone = (img.get i j).isNone) ∧
      (mulO (img'.get i j) (some (w.get i j))).getD 0 =
        c * (mulO (img.get i j) (some (w.get i j))).getD 0 + a * w.get i j) (hcase : a = 0 ∨ Spec.Complete img) :
    deltaVarAtI junkI' junkW core ann b frac preserve lag img' w =
      (deltaVarAtI junkI junkW core ann b frac preserve lag img w).map
        (Option.map (fun r => (c ^ 2 * r.1, Spec.scaleErr (c ^ 2) r.2))) := by
  unfold deltaVarAtI
  rcases dv_pad_rel junkI junkI' junkW b lag hlag img img' w c a hn hm hw h with ⟨_, h1, h2⟩ |
    ⟨pi, pi', pw, h1, h2, hr⟩
  · rw [h1, h2]; rfl
  · rw [h1, h2]
    simp only [bind, Except.bind]
    cases hx : npMax w.ravel with
    | error e => rfl
    | ok mx =>
      simp only [pure, Except.pure, Except.map]
      congr 1
      have hcase' : a = 0 ∨ ∀ i < pi.n, ∀ j < pi.m, pi.get i j ≠ none := by
        refine hcase.imp_right fun hall => ?_
        exact dv_pad_complete hlag hw hall h1
      have hf := filterI_rel core ann b (frac * mx) preserve hr hcase'
      exact dv_delvar_scale lag c hc hr.1 hr.2.1 rfl rfl hr.1 hr.2.1
        (fun i hi j hj => (hf i j hi hj).1) (fun i hi j hj => (hf i j hi hj).2)

/-- Multiplying the map by `c ≠ 0` multiplies values and errors by `c²`, with or without missing pixels. -/
theorem C112_scale (junkI junkI' : ℕ → ℕ → Option ℝ) (junkW : ℕ → ℕ → ℝ)
    (b : DvBoundary) (frac : ℝ) (preserve : Bool) (ratio lag : ℝ)
    (hlag : 1 ≤ lag) (img : Arr2 (Option ℝ)) (w : Arr2 ℝ) (hw : w.n = img.n ∧ w.m = img.m) (c : ℝ)
    (hc : c ≠ 0) :
    deltaVarLagI junkI' junkW b frac preserve ratio lag (Spec.scaled c img) w =
      (deltaVarLagI junkI junkW b frac preserve ratio lag img w).map
        (Option.map (fun r => (c ^ 2 * r.1, Spec.scaleErr (c ^ 2) r.2))) := by
  apply deltaVarI_rel junkI junkI' junkW _ _ b frac preserve lag hlag img (Spec.scaled c img) w c 0 hc
    rfl rfl hw _ (Or.inl rfl)
  intro i hi j hj
  cases h : img.get i j with
  | none => simp [Spec.scaled, Arr2.map, h, mulO]
  | some x => simp [Spec.scaled, Arr2.map, h, mulO]; ring

/-- Adding a constant to a map without missing pixels changes nothing, with either boundary and for all weights. Missing: maps with
missing pixels (`C112_offset_violated`). -/
theorem C112_offset_partial (junkI junkI' : ℕ → ℕ → Option ℝ) (junkW : ℕ → ℕ → ℝ)
    (b : DvBoundary) (frac : ℝ) (preserve : Bool) (ratio lag : ℝ)
    (hlag : 1 ≤ lag) (img : Arr2 (Option ℝ)) (w : Arr2 ℝ) (hw : w.n = img.n ∧ w.m = img.m) (himg : Spec.Complete img) (a : ℝ) :
    deltaVarLagI junkI' junkW b frac preserve ratio lag (Spec.shifted a img) w = deltaVarLagI junkI junkW b frac preserve ratio lag img w := by
  unfold deltaVarLagI
  rw [show (Spec.shifted a img).n = img.n from rfl, show (Spec.shifted a img).m = img.m from rfl]
  rw [deltaVarI_rel junkI junkI' junkW _ _ b frac preserve lag hlag img (Spec.shifted a img) w 1 a
    one_ne_zero rfl rfl hw ?_ (Or.inr himg)]
  · cases deltaVarAtI junkI junkW ((coreKernel lag).normalised.coef b img.n img.m) ((annulusKernel lag ratio).normalised.coef b img.n img.m) b frac
      preserve lag img w with
    | error e => rfl
    | ok r =>
      cases r with
      | none => rfl
      | some r =>
        obtain ⟨v, e⟩ := r
        cases e <;> simp [Except.map, Spec.scaleErr]
  · intro i hi j hj
    cases h : img.get i j with
    | none => exact absurd h (himg i hi j hj)
    | some x => simp [Spec.shifted, Arr2.map, h, mulO]; ring

/-! ### The value -/

private theorem share_eq (k : ℕ → ℕ → ℕ → ℕ → ℝ) (b : DvBoundary) (a : Arr2 (Option ℝ)) (q : ℕ × ℕ) :
    validShare k b a q.1 q.2 = Spec.kernelShare k a.n a.m (fun u v => (a.get u v).isSome) (b = .wrap) q := by
  unfold validShare Spec.kernelShare
  rw [sum_filter, sum_product, sum_product]
  simp only [mul_ite, mul_one, mul_zero, decide_eq_true_eq]

/-- The value.  The smoothed map is the sum over the pixels with a value divided by the share of the kernel on such pixels (`F`), and it is
divided again by the smoothed weights (`G`); the difference `D` between core and annulus is taken where both smoothed weights exceed the
cut-off (`T`) and both kernels reach a value (`S`).  The value is the weighted mean square of the deviations of `D` from their mean, except
that the weights of all pixels of `T` are in the denominator.  With `preserve_nan=True` missing pixels are not in `S`. -/
theorem C112_value (junkI : ℕ → ℕ → Option ℝ) (junkW : ℕ → ℕ → ℝ)
    (core ann : ℕ → ℕ → ℕ → ℕ → ℝ) (b : DvBoundary) (frac wmax : ℝ) (preserve : Bool) (lag : ℝ)
    (img : Arr2 (Option ℝ)) (w : Arr2 ℝ) (pi : Arr2 (Option ℝ)) (pw : Arr2 ℝ)
    (hpad : dvPad junkI junkW b lag img w = .ok (pi, pw)) (hmax : npMax w.ravel = .ok wmax)
    (hcut : 0 ≤ frac * wmax) (v : ℝ) (e : ErrVal)
    (h : deltaVarAtI junkI junkW core ann b frac preserve lag img w = .ok (some (v, e))) :
    let share := fun k q => Spec.kernelShare k pi.n pi.m (fun u v => (pi.get u v).isSome) (b = .wrap) q
    let share1 := fun k q => Spec.kernelShare k pw.n pw.m (fun _ _ => true) (b = .wrap) q
    let F := fun k q => Spec.smooth k pi.n pi.m (fun u v => (pi.get u v).getD 0) q / share k q
    let G := fun k q => Spec.smooth k pw.n pw.m pw.get q / share1 k q
    let T := (range pi.n ×ˢ range pi.m).filter (fun q => (0 < share1 core q ∧ frac * wmax < G core q) ∧ 0 < share1 ann q ∧ frac * wmax < G ann q)
    let S := T.filter (fun q => (0 < share core q ∧ 0 < share ann q) ∧ (preserve = true → pi.get q.1 q.2 ≠ none))
    let D := fun q => F core q / G core q - F ann q / G ann q
    let W := fun q => G core q * G ann q
    let mom := fun p : ℕ => (∑ q ∈ S, W q * (D q - (∑ r ∈ S, D r) / S.card) ^ p) / ∑ q ∈ T, W q
    0 < v ∧ v = mom 2 ∧
    ∀ x, e = .fin x → x = Real.sqrt (mom 4 - v ^ 2) / Real.sqrt ((S.card / kernArea lag : ℕ) : ℝ) := by
  intro share share1 F G T S D W mom
  unfold deltaVarAtI at h
  simp only [hpad, hmax, bind, Except.bind, pure, Except.pure, Except.ok.injEq] at h
  have hF : ∀ k, ∀ q : ℕ × ℕ, (applyI k b pi).get q.1 q.2 = if share k q ≤ 0 then none else some (F k q) := by
    intro k q
    simp only [applyI, share_eq]
    rfl
  have hG : ∀ k, ∀ q : ℕ × ℕ, (applyI k b (pw.map some)).get q.1 q.2 = if share1 k q ≤ 0 then none else some (G k q) := by
    intro k q
    simp only [applyI, share_eq]
    rfl
  have hmask : ∀ k, ∀ q : ℕ × ℕ, ((applyI k b (pw.map some)).get q.1 q.2).bind (dvMask (frac * wmax)) =
      if 0 < share1 k q ∧ frac * wmax < G k q then some (G k q) else none := by
    intro k q
    rw [hG]
    by_cases h1 : share1 k q ≤ 0
    · rw [if_pos h1, if_neg fun hh => absurd hh.1 (not_lt.2 h1)]
      rfl
    · rw [if_neg h1]
      simp only [Option.bind, dvMask]
      by_cases h2 : G k q ≤ frac * wmax
      · rw [if_pos h2, if_neg fun hh => absurd hh.2 (not_lt.2 h2)]
      · rw [if_neg h2, if_pos ⟨not_le.1 h1, not_le.1 h2⟩]
  have hmem : ∀ q ∈ range pi.n ×ˢ range pi.m, (q ∈ T ↔ (0 < share1 core q ∧ frac * wmax < G core q) ∧ 0 < share1 ann q ∧ frac * wmax < G ann q) := by
    intro q hq
    simp only [T, mem_filter, hq, true_and]
  have hmemS : ∀ q, q ∈ S ↔ q ∈ T ∧ (0 < share core q ∧ 0 < share ann q) ∧ (preserve = true → pi.get q.1 q.2 ≠ none) := by
    intro q
    simp only [S, mem_filter]
  refine dv_delvar_supp (dvFilterI core ann b (frac * wmax) preserve pi pw).1 (dvFilterI core ann b (frac * wmax) preserve pi pw).2
    ?_ ?_ lag S T (filter_subset _ _) (filter_subset _ _) D W ?_ ?_ v e h
  · rfl
  · rfl
  · intro q hq
    show (if preserve ∧ (pi.get q.1 q.2).isNone then none
      else subO (divO ((applyI core b pi).get q.1 q.2) (((applyI core b (pw.map some)).get q.1 q.2).bind (dvMask (frac * wmax))))
        (divO ((applyI ann b pi).get q.1 q.2) (((applyI ann b (pw.map some)).get q.1 q.2).bind (dvMask (frac * wmax))))) = _
    rw [hmask, hmask, hF, hF]
    by_cases hpn : preserve = true ∧ (pi.get q.1 q.2).isNone = true
    · rw [if_pos hpn, if_neg]
      intro hS
      have := ((hmemS q).1 hS).2.2 hpn.1
      cases hh : pi.get q.1 q.2 <;> simp_all
    rw [if_neg hpn]
    have hpn' : preserve = true → pi.get q.1 q.2 ≠ none := fun h1 h2 => hpn ⟨h1, by rw [h2]; rfl⟩
    by_cases hS : q ∈ T
    · have hc := (hmem q hq).1 hS
      have g1 : G core q ≠ 0 := (hcut.trans_lt hc.1.2).ne'
      have g2 : G ann q ≠ 0 := (hcut.trans_lt hc.2.2).ne'
      rw [if_pos hc.1, if_pos hc.2]
      by_cases hr1 : share core q ≤ 0
      · rw [if_pos hr1, if_neg fun hh => absurd ((hmemS q).1 hh).2.1.1 (not_lt.2 hr1)]
        by_cases hr2 : share ann q ≤ 0 <;> simp [divO, subO, hr2]
      · by_cases hr2 : share ann q ≤ 0
        · rw [if_pos hr2, if_neg hr1, if_neg fun hh => absurd ((hmemS q).1 hh).2.1.2 (not_lt.2 hr2)]
          simp [divO, subO]
        · rw [if_neg hr1, if_neg hr2, if_pos ((hmemS q).2 ⟨hS, ⟨not_le.1 hr1, not_le.1 hr2⟩, hpn'⟩)]
          simp only [divO, subO, bind, Option.bind, g1, g2, if_false]
          rfl
    · rw [if_neg fun hh => hS ((hmemS q).1 hh).1]
      have hc := fun hh => hS ((hmem q hq).2 hh)
      by_cases c1 : 0 < share1 core q ∧ frac * wmax < G core q
      · have c2 : ¬ (0 < share1 ann q ∧ frac * wmax < G ann q) := fun c2 => hc ⟨c1, c2⟩
        rw [if_pos c1, if_neg c2]
        by_cases hs1 : share core q ≤ 0 <;> by_cases hs2 : share ann q ≤ 0 <;> simp [divO, subO, hs1, hs2]
      · rw [if_neg c1]
        by_cases hs1 : share core q ≤ 0 <;> simp [divO, subO, hs1]
  · intro q hq
    show mulO (((applyI core b (pw.map some)).get q.1 q.2).bind (dvMask (frac * wmax)))
      (((applyI ann b (pw.map some)).get q.1 q.2).bind (dvMask (frac * wmax))) = _
    rw [hmask, hmask]
    by_cases hS : q ∈ T
    · have hc := (hmem q hq).1 hS
      rw [if_pos hS, if_pos hc.1, if_pos hc.2]
      rfl
    · rw [if_neg hS]
      have hc := fun hh => hS ((hmem q hq).2 hh)
      by_cases c1 : 0 < share1 core q ∧ frac * wmax < G core q
      · rw [if_pos c1, if_neg fun c2 => hc ⟨c1, c2⟩]
        rfl
      · rw [if_neg c1]
        simp [mulO]

/-! ### Maps with missing pixels -/

private theorem radius_pos {lag : ℝ} (hlag : 1 ≤ lag) : 0 < (coreKernel lag).r := by
  have h8 : (2 : ℝ) < 8 * (lag / (2 * Real.sqrt 2)) := by
    have h2 : Real.sqrt 2 < 2 := by
      rw [Real.sqrt_lt' (by norm_num)]
      norm_num
    have h0 : 0 < Real.sqrt 2 := by positivity
    rw [mul_div_assoc', lt_div_iff₀ (by positivity)]
    nlinarith
  have hc : 2 < ⌈8 * (lag / (2 * Real.sqrt 2))⌉₊ := Nat.lt_ceil.2 (by exact_mod_cast h8)
  show 0 < (roundUpOdd (8 * (lag / (2 * Real.sqrt 2))) - 1) / 2
  unfold roundUpOdd
  split_ifs <;> omega

/-- Adding a constant changes nothing when all pixels, the missing ones too, have the same weight, the boundary is 'wrap' and the kernels
fit into the map.  Missing for the full claim: other weights, the default ones among them (`C112_offset_violated`). -/
theorem C112_even_weights_partial (junkI junkI' : ℕ → ℕ → Option ℝ) (junkW : ℕ → ℕ → ℝ)
    (frac : ℝ) (preserve : Bool) (ratio : ℝ) (hratio : 1 < ratio) (lag : ℝ)
    (hlag : 1 ≤ lag) (img : Arr2 (Option ℝ)) (w : Arr2 ℝ) (hw : w.n = img.n ∧ w.m = img.m) (x : ℝ)
    (hx : ∀ i < img.n, ∀ j < img.m, w.get i j = x) (hfit : 2 * (coreKernel lag).r + 1 ≤ min img.n img.m) (a : ℝ) :
    deltaVarLagI junkI' junkW .wrap frac preserve ratio lag (Spec.shifted a img) w
      = deltaVarLagI junkI junkW .wrap frac preserve ratio lag img w := by
  obtain ⟨-, hc1, hann⟩ := C86_weights (by linarith : 0 < lag) hratio
  have ha1 := (hann (radius_pos hlag)).2
  unfold deltaVarLagI deltaVarAtI
  rw [show (Spec.shifted a img).n = img.n from rfl, show (Spec.shifted a img).m = img.m from rfl]
  simp only [dvPad, bind, Except.bind, pure, Except.pure]
  cases npMax w.ravel with
  | error e => rfl
  | ok wm =>
    simp only
    congr 1
    set pi : Arr2 (Option ℝ) := ⟨img.n, img.m, fun i j => mulO (img.get i j) (some (w.get i j))⟩ with hpi
    set pi' : Arr2 (Option ℝ) := ⟨(Spec.shifted a img).n, (Spec.shifted a img).m, fun i j =>
      mulO ((Spec.shifted a img).get i j) (some (w.get i j))⟩ with hpi'
    set cut := frac * wm
    have hnone : ∀ u < pi.n, ∀ v < pi.m, (pi'.get u v).isNone = (pi.get u v).isNone := by
      intro u hu v hv
      simp only [hpi, hpi', Spec.shifted, Arr2.map]
      cases img.get u v <;> simp [mulO]
    have key : ∀ k : Kern, k.sum = 1 → 2 * k.r + 1 ≤ min img.n img.m → ∀ i j,
        divO ((applyI (k.coef .wrap img.n img.m) .wrap pi').get i j) (((applyI (k.coef .wrap img.n img.m) .wrap (w.map some)).get i j).bind (dvMask cut)) =
        (divO ((applyI (k.coef .wrap img.n img.m) .wrap pi).get i j)
          (((applyI (k.coef .wrap img.n img.m) .wrap (w.map some)).get i j).bind (dvMask cut))).map (· + a) := by
      intro k hk hf i j
      set K := k.coef .wrap img.n img.m with hK
      have hone : ∑ u ∈ range img.n, ∑ v ∈ range img.m, K i j u v = 1 := wrap_share_sum hk hf i j
      have hs : validShare K .wrap pi' i j = validShare K .wrap pi i j := validShare_congr (a := pi) (a' := pi') K .wrap rfl rfl hnone i j
      have hshare : validShare K .wrap pi i j = ∑ u ∈ range img.n, ∑ v ∈ range img.m, K i j u v * (if (pi.get u v).isSome then 1 else 0) := by
        unfold validShare
        rw [if_pos rfl, show pi.n = img.n from rfl, show pi.m = img.m from rfl, hone]
        ring
      have hwt : (applyI K .wrap (w.map some)).get i j = some x := by
        have hv := validShare_wrap K (w.map some) i j (by intro u _ v _; simp [Arr2.map])
        simp only [applyI, hv]
        rw [if_neg (by norm_num), div_one]
        congr 1
        show ∑ u ∈ range w.n, ∑ v ∈ range w.m, K i j u v * w.get u v = x
        rw [hw.1, hw.2, sum_congr rfl fun u hu => sum_congr rfl fun v hv => by rw [hx u (mem_range.1 hu) v (mem_range.1 hv)]]
        simp only [← sum_mul, hone, one_mul]
      have hsum : (applyK K (pi'.map fun v => v.getD 0)).get i j = (applyK K (pi.map fun v => v.getD 0)).get i j + a * x * validShare K .wrap pi i j := by
        rw [hshare, mul_sum]
        show ∑ u ∈ range img.n, ∑ v ∈ range img.m, K i j u v * (pi'.get u v).getD 0 = (∑ u ∈ range img.n, ∑ v ∈ range img.m, K i j u v * (pi.get u v).getD 0) + _
        rw [← sum_add_distrib]
        refine sum_congr rfl fun u hu => ?_
        rw [mul_sum, ← sum_add_distrib]
        refine sum_congr rfl fun v hv => ?_
        simp only [hpi, hpi', Spec.shifted, Arr2.map, hx u (mem_range.1 hu) v (mem_range.1 hv)]
        cases img.get u v <;> simp [mulO]
        ring
      rw [hwt]
      simp only [Option.bind, dvMask, applyI, hs, hsum]
      by_cases h1 : validShare K .wrap pi i j ≤ 0
      · simp [divO, h1]
      · by_cases h2 : x ≤ cut
        · simp [divO, h2]
        · by_cases h3 : x = 0
          · simp [divO, h1, h3]
            split_ifs <;> simp
          · have h1' : validShare K .wrap pi i j ≠ 0 := fun h0 => h1 h0.le
            simp only [divO, h1, h2, h3, if_false, bind, Option.bind, Option.map]
            congr 1
            field_simp
    have hr := key (coreKernel lag).normalised hc1 hfit
    have hs := key (annulusKernel lag ratio).normalised ha1 hfit
    have hsame := dv_delvar_scale (arr := (dvFilterI ((coreKernel lag).normalised.coef .wrap img.n img.m) ((annulusKernel lag ratio).normalised.coef .wrap img.n img.m) .wrap cut preserve pi w).1)
      (arr' := (dvFilterI ((coreKernel lag).normalised.coef .wrap img.n img.m) ((annulusKernel lag ratio).normalised.coef .wrap img.n img.m) .wrap cut preserve pi' w).1)
      (wt := (dvFilterI ((coreKernel lag).normalised.coef .wrap img.n img.m) ((annulusKernel lag ratio).normalised.coef .wrap img.n img.m) .wrap cut preserve pi w).2)
      (wt' := (dvFilterI ((coreKernel lag).normalised.coef .wrap img.n img.m) ((annulusKernel lag ratio).normalised.coef .wrap img.n img.m) .wrap cut preserve pi' w).2)
      lag 1 one_ne_zero rfl rfl rfl rfl rfl rfl (by
        intro i hi j hj
        simp only [dvFilterI, hr, hs, hnone i hi j hj]
        split_ifs
        · rfl
        · generalize divO ((applyI ((coreKernel lag).normalised.coef .wrap img.n img.m) .wrap pi).get i j) _ = A
          generalize divO ((applyI ((annulusKernel lag ratio).normalised.coef .wrap img.n img.m) .wrap pi).get i j) _ = B
          cases A <;> cases B <;> simp [subO]) (fun i hi j hj => rfl)
    rw [hsame]
    cases delvar _ _ lag with
    | none => rfl
    | some r =>
      obtain ⟨v, e⟩ := r
      cases e <;> simp [Spec.scaleErr]

/-! ### The default weights: missing pixels are corrected for twice -/

private theorem radius_one : kernRadius ((1 : ℝ) / (2 * Real.sqrt 2)) = 1 := by
  have h := radius_pos (le_refl (1 : ℝ))
  have h' : 0 < kernRadius ((1 : ℝ) / (2 * Real.sqrt 2)) := h
  have h8 : 8 * ((1 : ℝ) / (2 * Real.sqrt 2)) ≤ 3 := by
    have h0 : 0 < Real.sqrt 2 := by positivity
    have h2 : (1.4 : ℝ) ≤ Real.sqrt 2 := by
      rw [Real.le_sqrt' (by norm_num)]
      norm_num
    rw [mul_div_assoc', div_le_iff₀ (by positivity)]
    nlinarith
  have hc : ⌈8 * ((1 : ℝ) / (2 * Real.sqrt 2))⌉₊ ≤ 3 := Nat.ceil_le.2 (by exact_mod_cast h8)
  revert h'
  unfold kernRadius roundUpOdd
  split_ifs <;> omega

private theorem wrapCoef_centre {k : Kern} (hk : k.r = 1) {i j : ℕ} (hi : i < 3) (hj : j < 3) :
    k.wrapCoef 3 3 i j 1 1 = k.val ((i : ℤ) - 1) ((j : ℤ) - 1) := by
  unfold Kern.wrapCoef
  rw [hk]
  rw [sum_eq_single ((i : ℤ) - 1), sum_eq_single ((j : ℤ) - 1)]
  · rw [if_pos]
    constructor <;> simp
  · intro b hb hne
    rw [mem_Icc] at hb
    rw [if_neg]
    rintro ⟨-, h⟩
    norm_num at h
    push_cast at hb
    omega
  · intro hb
    exact absurd (mem_Icc.2 (by push_cast; omega)) hb
  · intro a ha hne
    rw [mem_Icc] at ha
    refine sum_eq_zero fun b _ => if_neg ?_
    rintro ⟨h, -⟩
    norm_num at h
    push_cast at ha
    omega
  · intro hb
    exact absurd (mem_Icc.2 (by push_cast; omega)) hb

private theorem sum_Icc_one (f : ℤ → ℝ) : ∑ a ∈ Icc (-((1 : ℕ) : ℤ)) ((1 : ℕ) : ℤ), f a = f (-1) + f 0 + f 1 := by
  have : Icc (-((1 : ℕ) : ℤ)) ((1 : ℕ) : ℤ) = {-1, 0, 1} := by decide
  rw [this]
  simp [add_assoc]

/-- The normalised kernels for a lag of one pixel and the default ratio: the core, an edge neighbour and a corner neighbour. -/
private theorem kernels_one :
    ∃ K0 K1 K2 A1 A2 : ℝ, (0 < K0 ∧ K0 < 19 / 20) ∧ (0 ≤ K1 ∧ K1 < A1 ∧ A1 ≤ 1 / 4) ∧ (0 ≤ K2 ∧ K2 < A2 ∧ A2 ≤ 1 / 4) ∧
      (∀ i j : ℤ, (i = -1 ∨ i = 0 ∨ i = 1) → (j = -1 ∨ j = 0 ∨ j = 1) →
        (coreKernel 1).normalised.val i j = (if i = 0 ∧ j = 0 then K0 else if i = 0 ∨ j = 0 then K1 else K2) ∧
        (annulusKernel 1 (3 / 2)).normalised.val i j = (if i = 0 ∧ j = 0 then 0 else if i = 0 ∨ j = 0 then A1 else A2)) := by
  have hs2 : ((1 : ℝ) / (2 * Real.sqrt 2)) ^ 2 = 1 / 8 := by
    rw [div_pow, mul_pow, Real.sq_sqrt (by norm_num)]
    norm_num
  set q := Real.exp (-4) with hq
  set t := Real.exp (-(16 / 9)) with ht
  have hq0 : 0 < q := Real.exp_pos _
  have ht0 : 0 < t := Real.exp_pos _
  have hqt : q < t := Real.exp_lt_exp.2 (by norm_num)
  have ht1 : t ≤ 1 := Real.exp_le_one_iff.2 (by norm_num)
  have e4 : q * Real.exp 1 ^ 4 = 1 := by
    rw [← Real.exp_nat_mul, hq, ← Real.exp_add]
    norm_num
  have hq16 : q < 1 / 16 := by
    have h2 : (2 : ℝ) < Real.exp 1 := by have := Real.exp_one_gt_d9; linarith
    have : (2 : ℝ) ^ 4 < Real.exp 1 ^ 4 := pow_lt_pow_left₀ h2 (by norm_num) (by norm_num)
    nlinarith
  have hq81 : 1 / 75 < q := by
    have h2 : Real.exp 1 < 2.8 := by have := Real.exp_one_lt_d9; linarith
    have : Real.exp 1 ^ 4 < (2.8 : ℝ) ^ 4 := pow_lt_pow_left₀ h2 (Real.exp_pos _).le (by norm_num)
    have h62 : Real.exp 1 ^ 4 < 62 := this.trans (by norm_num)
    by_contra hh
    have h4 := mul_le_mul_of_nonneg_right (not_lt.1 hh) (by positivity : (0 : ℝ) ≤ Real.exp 1 ^ 4)
    rw [e4] at h4
    linarith
  set C := 1 / (2 * Real.pi * ((1 : ℝ) / (2 * Real.sqrt 2)) ^ 2) with hC
  have hC0 : 0 < C := by
    rw [hC, hs2]
    have := Real.pi_pos
    positivity
  have hcv : ∀ a b : ℤ, (coreKernel 1).val a b = C * Real.exp (-4 * ((a : ℝ) ^ 2 + (b : ℝ) ^ 2)) := by
    intro a b
    show C * Real.exp (-((a : ℝ) ^ 2 + (b : ℝ) ^ 2) / (2 * ((1 : ℝ) / (2 * Real.sqrt 2)) ^ 2)) = _
    rw [hs2]
    congr 2
    ring
  set B := annulusAmp ((1 : ℝ) / (2 * Real.sqrt 2)) (3 / 2) with hB
  have hB0 : 0 < B := by
    rw [hB]
    unfold annulusAmp
    rw [hs2]
    have := Real.pi_pos
    norm_num
    positivity
  have hav : ∀ a b : ℤ, (annulusKernel 1 (3 / 2)).val a b =
      B * (Real.exp (-(16 / 9) * ((a : ℝ) ^ 2 + (b : ℝ) ^ 2)) - Real.exp (-4 * ((a : ℝ) ^ 2 + (b : ℝ) ^ 2))) := by
    intro a b
    show B * (Real.exp (-((a : ℝ) ^ 2 + (b : ℝ) ^ 2) / (2 * (3 / 2 * ((1 : ℝ) / (2 * Real.sqrt 2))) ^ 2)) -
      Real.exp (-((a : ℝ) ^ 2 + (b : ℝ) ^ 2) / (2 * ((1 : ℝ) / (2 * Real.sqrt 2)) ^ 2))) = _
    rw [mul_pow, hs2]
    congr 3 <;> ring
  have q2 : Real.exp (-8) = q ^ 2 := by
    rw [hq, ← Real.exp_nat_mul]
    norm_num
  have t2 : Real.exp (-(32 / 9)) = t ^ 2 := by
    rw [ht, ← Real.exp_nat_mul]
    norm_num
  have hcsum : (coreKernel 1).sum = C * (1 + 2 * q) ^ 2 := by
    unfold Kern.sum
    rw [show (coreKernel 1).r = 1 from radius_one]
    simp only [sum_Icc_one, hcv]
    norm_num
    rw [q2, ← hq]
    ring
  have hasum : (annulusKernel 1 (3 / 2)).sum = 4 * B * ((t - q) * (1 + t + q)) := by
    unfold Kern.sum
    rw [show (annulusKernel 1 (3 / 2)).r = 1 from radius_one]
    simp only [sum_Icc_one, hav]
    norm_num
    rw [q2, t2, ← hq, ← ht]
    ring
  have hd : 0 < (1 + 2 * q) ^ 2 := by positivity
  have hd' : 0 < 4 * (1 + t + q) := by positivity
  have htq : t - q ≠ 0 := (sub_pos.2 hqt).ne'
  refine ⟨1 / (1 + 2 * q) ^ 2, q / (1 + 2 * q) ^ 2, q ^ 2 / (1 + 2 * q) ^ 2, 1 / (4 * (1 + t + q)), (t + q) / (4 * (1 + t + q)),
    ⟨by positivity, ?_⟩, ⟨by positivity, ?_, ?_⟩, ⟨by positivity, ?_, ?_⟩, ?_⟩
  · rw [div_lt_iff₀ hd]
    nlinarith
  · rw [div_lt_div_iff₀ hd hd']
    nlinarith
  · rw [div_le_iff₀ hd']
    nlinarith
  · rw [div_lt_div_iff₀ hd hd']
    nlinarith [mul_pos hq0 ht0, mul_pos hq0 hq0, mul_pos (mul_pos hq0 hq0) ht0]
  · rw [div_le_iff₀ hd']
    nlinarith
  · intro i j hi hj
    show (coreKernel 1).val i j / (coreKernel 1).sum = _ ∧ (annulusKernel 1 (3 / 2)).val i j / (annulusKernel 1 (3 / 2)).sum = _
    rw [hcsum, hasum, hcv, hav]
    have hC1 := hC0.ne'
    have hB1 := hB0.ne'
    have hd1 := hd.ne'
    have hd1' : 1 + t + q ≠ 0 := by positivity
    rcases hi with rfl | rfl | rfl <;> rcases hj with rfl | rfl | rfl <;> norm_num <;> (try rw [q2]) <;> (try rw [t2]) <;>
      (try rw [← hq]) <;> (try rw [← ht]) <;> (try constructor) <;> field_simp <;> (try ring)

/-- A map of one value with a missing pixel.  With the default weights (0 at the missing pixel) and boundary 'wrap', the map of zeros has
no delta-variance and the map of ones has a positive one: adding a constant matters, and a map without any structure is reported to have
some.  astropy has already divided by the share of the kernel on pixels with a value when the code divides by the smoothed weights. -/
theorem C112_offset_violated (junkI : ℕ → ℕ → Option ℝ) (junkW : ℕ → ℕ → ℝ) :
    ∃ img : Arr2 (Option ℝ), (img.n = 3 ∧ img.m = 3 ∧ ∀ i < 3, ∀ j < 3, img.get i j = if i = 1 ∧ j = 1 then none else some 0) ∧
      deltaVarLagI junkI junkW .wrap (1 / 100) false (3 / 2) 1 img (dvDefaultWeights img) = .ok none ∧
      ∃ v e, deltaVarLagI junkI junkW .wrap (1 / 100) false (3 / 2) 1 (Spec.shifted 1 img) (dvDefaultWeights (Spec.shifted 1 img))
        = .ok (some (v, e)) ∧ 0 < v := by
  set img : Arr2 (Option ℝ) := ⟨3, 3, fun i j => if i = 1 ∧ j = 1 then none else some 0⟩ with himg
  obtain ⟨K0, K1, K2, A1, A2, hK0, hK1, hK2, hval⟩ := kernels_one
  obtain ⟨-, hc1, hann⟩ := C86_weights (by norm_num : (0 : ℝ) < 1) (by norm_num : (1 : ℝ) < 3 / 2)
  have ha1 := (hann (radius_pos le_rfl)).2
  set w := dvDefaultWeights img with hw
  have hw' : dvDefaultWeights (Spec.shifted 1 img) = w := by
    simp only [hw, himg, dvDefaultWeights, Spec.shifted, Arr2.map]
    congr 1
    funext i j
    split_ifs <;> simp_all
  have hmax : npMax w.ravel = .ok 1 := by
    refine npMax_eq ?_ ?_ <;> simp [hw, himg, dvDefaultWeights, Arr2.map, Arr2.ravel, List.range_succ]
  refine ⟨img, ⟨rfl, rfl, fun i _ j _ => rfl⟩, ?_, ?_⟩
  · have hok : ∃ r, deltaVarLagI junkI junkW .wrap (1 / 100) false (3 / 2) 1 img w = .ok r := by
      unfold deltaVarLagI deltaVarAtI
      simp only [dvPad, hmax, bind, Except.bind, pure, Except.pure]
      exact ⟨_, rfl⟩
    obtain ⟨r, hr⟩ := hok
    cases r with
    | none => exact hr
    | some ve =>
      exfalso
      obtain ⟨v, e⟩ := ve
      have hv := C112_value junkI junkW _ _ .wrap (1 / 100) 1 false 1 img w _ _ rfl hmax (by norm_num) v e hr
      have hz : ∀ u v, ((⟨img.n, img.m, fun i j => mulO (img.get i j) (some (w.get i j))⟩ : Arr2 (Option ℝ)).get u v).getD 0 = 0 := by
        intro u v
        simp only [himg]
        split_ifs <;> simp [mulO]
      have h1 := hv.1
      rw [hv.2.1] at h1
      simp [Spec.smooth, hz] at h1
  · rw [hw']
    have hr1 : (coreKernel 1).normalised.r = 1 := radius_one
    have hr2 : (annulusKernel 1 (3 / 2)).normalised.r = 1 := radius_one
    unfold deltaVarLagI deltaVarAtI
    simp only [dvPad, hmax, bind, Except.bind, pure, Except.pure, mul_one]
    set pi : Arr2 (Option ℝ) := ⟨(Spec.shifted 1 img).n, (Spec.shifted 1 img).m, fun i j =>
      mulO ((Spec.shifted 1 img).get i j) (some (w.get i j))⟩ with hpi
    have hpv : ∀ u v, pi.get u v = if u = 1 ∧ v = 1 then none else some 1 := by
      intro u v
      simp only [hpi, Spec.shifted, Arr2.map, himg, hw, dvDefaultWeights]
      by_cases huv : u = 1 ∧ v = 1 <;> simp [huv, mulO]
    have hwv : ∀ u v, w.get u v = if u = 1 ∧ v = 1 then 0 else 1 := by
      intro u v
      simp only [himg, hw, dvDefaultWeights, Arr2.map]
      split_ifs <;> simp_all
    have hsub : ∀ f : ℕ → ℕ → ℝ, ∑ u ∈ range 3, ∑ v ∈ range 3, f u v * (if u = 1 ∧ v = 1 then 0 else 1) =
        (∑ u ∈ range 3, ∑ v ∈ range 3, f u v) - f 1 1 := by
      intro f
      simp [sum_range_succ]
      ring
    have key : ∀ k : Kern, k.sum = 1 → k.r = 1 → ∀ i : ℕ, i < 3 → ∀ j : ℕ, j < 3 → k.val ((i : ℤ) - 1) ((j : ℤ) - 1) < 1 →
        (applyI (k.coef .wrap 3 3) .wrap pi).get i j = some 1 ∧
        (applyI (k.coef .wrap 3 3) .wrap (w.map some)).get i j = some (1 - k.val ((i : ℤ) - 1) ((j : ℤ) - 1)) := by
      intro k hk hr i hi j hj hlt
      have hone : ∑ u ∈ range 3, ∑ v ∈ range 3, k.coef .wrap 3 3 i j u v = 1 := wrap_share_sum hk (by rw [hr]; norm_num) i j
      have hc : k.coef .wrap 3 3 i j 1 1 = k.val ((i : ℤ) - 1) ((j : ℤ) - 1) := wrapCoef_centre hr hi hj
      have hshare : validShare (k.coef .wrap 3 3) .wrap pi i j = 1 - k.val ((i : ℤ) - 1) ((j : ℤ) - 1) := by
        have e : ∀ u v, (if (pi.get u v).isSome then (1 : ℝ) else 0) = if u = 1 ∧ v = 1 then 0 else 1 := by
          intro u v
          rw [hpv]
          split_ifs <;> simp_all
        unfold validShare
        simp only [e]
        show (∑ u ∈ range 3, ∑ v ∈ range 3, _) + (if DvBoundary.wrap = DvBoundary.wrap then 1 - ∑ u ∈ range 3, ∑ v ∈ range 3, _ else 0) = _
        rw [hsub (k.coef .wrap 3 3 i j), hone, hc, if_pos rfl]
        ring
      have hconv : (applyK (k.coef .wrap 3 3) (pi.map fun v => v.getD 0)).get i j = 1 - k.val ((i : ℤ) - 1) ((j : ℤ) - 1) := by
        have e : ∀ u v, (pi.get u v).getD 0 = if u = 1 ∧ v = 1 then 0 else 1 := by
          intro u v
          rw [hpv]
          split_ifs <;> rfl
        show ∑ u ∈ range 3, ∑ v ∈ range 3, k.coef .wrap 3 3 i j u v * (pi.get u v).getD 0 = _
        simp only [e]
        rw [hsub (k.coef .wrap 3 3 i j), hone, hc]
      have hwc : (applyK (k.coef .wrap 3 3) ((w.map some).map fun v => v.getD 0)).get i j = 1 - k.val ((i : ℤ) - 1) ((j : ℤ) - 1) := by
        show ∑ u ∈ range 3, ∑ v ∈ range 3, k.coef .wrap 3 3 i j u v * w.get u v = _
        simp only [hwv]
        rw [hsub (k.coef .wrap 3 3 i j), hone, hc]
      have hw1 := validShare_wrap (k.coef .wrap 3 3) (w.map some) i j (by intro u _ v _; simp [Arr2.map])
      constructor
      · simp only [applyI, hshare, hconv]
        rw [if_neg (by linarith), div_self (by linarith)]
      · simp only [applyI, hw1, hwc]
        rw [if_neg (by norm_num), div_one]
    have hcases : ∀ i < 3, ((i : ℕ) : ℤ) - 1 = -1 ∨ ((i : ℕ) : ℤ) - 1 = 0 ∨ ((i : ℕ) : ℤ) - 1 = 1 := by
      intro i hi
      omega
    set kc : ℕ → ℕ → ℝ := fun i j => (coreKernel 1).normalised.val ((i : ℤ) - 1) ((j : ℤ) - 1) with hkc
    set ka : ℕ → ℕ → ℝ := fun i j => (annulusKernel 1 (3 / 2)).normalised.val ((i : ℤ) - 1) ((j : ℤ) - 1) with hka
    have hb : ∀ i < 3, ∀ j < 3, kc i j < 19 / 20 ∧ ka i j < 19 / 20 := by
      intro i hi j hj
      obtain ⟨h1, h2⟩ := hval _ _ (hcases i hi) (hcases j hj)
      simp only [hkc, hka, h1, h2]
      constructor <;> split_ifs <;> linarith
    have hfc := fun (i : ℕ) (hi : i < 3) (j : ℕ) (hj : j < 3) => key _ hc1 hr1 i hi j hj (by have := (hb i hi j hj).1; simp only [hkc] at this; linarith)
    have hfa := fun (i : ℕ) (hi : i < 3) (j : ℕ) (hj : j < 3) => key _ ha1 hr2 i hi j hj (by have := (hb i hi j hj).2; simp only [hka] at this; linarith)
    obtain ⟨v, e, hve, hv0⟩ := delvar_defined
      (dvFilterI ((coreKernel 1).normalised.coef .wrap 3 3) ((annulusKernel 1 (3 / 2)).normalised.coef .wrap 3 3) .wrap (1 / 100) false pi w).1
      (dvFilterI ((coreKernel 1).normalised.coef .wrap 3 3) ((annulusKernel 1 (3 / 2)).normalised.coef .wrap 3 3) .wrap (1 / 100) false pi w).2
      rfl rfl 1 (fun i j => 1 / (1 - kc i j) - 1 / (1 - ka i j)) (fun i j => (1 - kc i j) * (1 - ka i j)) (by
        intro i hi j hj
        have hi' : i < 3 := hi
        have hj' : j < 3 := hj
        have h1 := (hb i hi' j hj').1
        have h2 := (hb i hi' j hj').2
        simp only [dvFilterI, (hfc i hi' j hj').1, (hfc i hi' j hj').2, (hfa i hi' j hj').1, (hfa i hi' j hj').2, Option.bind, dvMask]
        rw [if_neg (by simp), if_neg (by simp only [hkc] at h1; linarith), if_neg (by simp only [hka] at h2; linarith)]
        simp only [divO, subO, bind, Option.bind]
        rw [if_neg (by simp only [hkc] at h1; linarith), if_neg (by simp only [hka] at h2; linarith)]
        rfl) (by
        intro i hi j hj
        have hi' : i < 3 := hi
        have hj' : j < 3 := hj
        have h1 := (hb i hi' j hj').1
        have h2 := (hb i hi' j hj').2
        simp only [dvFilterI, (hfc i hi' j hj').2, (hfa i hi' j hj').2, Option.bind, dvMask]
        rw [if_neg (by simp only [hkc] at h1; linarith), if_neg (by simp only [hka] at h2; linarith)]
        rfl) (by
        intro i hi j hj
        have h1 := (hb i hi j hj).1
        have h2 := (hb i hi j hj).2
        exact mul_pos (by linarith) (by linarith)) (by
        intro μ hμ
        have hμ' : μ * (3 * 3) = ∑ i ∈ range 3, ∑ j ∈ range 3, (1 / (1 - kc i j) - 1 / (1 - ka i j)) := by exact_mod_cast hμ
        have v : ∀ i < 3, ∀ j < 3, kc i j = (if i = 1 ∧ j = 1 then K0 else if i = 1 ∨ j = 1 then K1 else K2) ∧
            ka i j = (if i = 1 ∧ j = 1 then 0 else if i = 1 ∨ j = 1 then A1 else A2) := by
          intro i hi j hj
          obtain ⟨h1, h2⟩ := hval _ _ (hcases i hi) (hcases j hj)
          have ei : ((i : ℤ) - 1 = 0) ↔ i = 1 := by omega
          have ej : ((j : ℤ) - 1 = 0) ↔ j = 1 := by omega
          constructor
          · show (coreKernel 1).normalised.val ((i : ℤ) - 1) ((j : ℤ) - 1) = _
            rw [h1]
            simp only [ei, ej]
          · show (annulusKernel 1 (3 / 2)).normalised.val ((i : ℤ) - 1) ((j : ℤ) - 1) = _
            rw [h2]
            simp only [ei, ej]
        set D := fun i j => 1 / (1 - kc i j) - 1 / (1 - ka i j) with hD
        set c := 1 / (1 - K0) - 1 with hc
        set e := 1 / (1 - K1) - 1 / (1 - A1) with he
        set f := 1 / (1 - K2) - 1 / (1 - A2) with hf
        have dv : ∀ i < 3, ∀ j < 3, D i j = if i = 1 ∧ j = 1 then c else if i = 1 ∨ j = 1 then e else f := by
          intro i hi j hj
          simp only [hD, v i hi j hj]
          split_ifs <;> simp [hc, he, hf]
        have hcp : 0 < c := by
          rw [hc, sub_pos, lt_div_iff₀ (by linarith)]
          linarith
        have hep : e < 0 := by
          rw [he, sub_neg]
          exact one_div_lt_one_div_of_lt (by linarith) (by linarith)
        have hfp : f < 0 := by
          rw [hf, sub_neg]
          exact one_div_lt_one_div_of_lt (by linarith) (by linarith)
        have hsum : μ * 9 = c + 4 * e + 4 * f := by
          have : ∑ i ∈ range 3, ∑ j ∈ range 3, D i j = c + 4 * e + 4 * f := by
            simp only [sum_range_succ, range_zero, sum_empty]
            rw [dv 0 (by norm_num) 0 (by norm_num), dv 0 (by norm_num) 1 (by norm_num), dv 0 (by norm_num) 2 (by norm_num),
              dv 1 (by norm_num) 0 (by norm_num), dv 1 (by norm_num) 1 (by norm_num), dv 1 (by norm_num) 2 (by norm_num),
              dv 2 (by norm_num) 0 (by norm_num), dv 2 (by norm_num) 1 (by norm_num), dv 2 (by norm_num) 2 (by norm_num)]
            norm_num
            ring
          linarith
        by_cases h1 : (D 1 1 - μ) ^ 2 = (D 0 1 - μ) ^ 2
        · refine ⟨1, by show 1 < 3; norm_num, 1, by show 1 < 3; norm_num, 0, by show 0 < 3; norm_num, 0, by show 0 < 3; norm_num, fun h2 => ?_⟩
          rw [dv 1 (by norm_num) 1 (by norm_num), dv 0 (by norm_num) 1 (by norm_num)] at h1
          have h2' : (D 1 1 - μ) ^ 2 = (D 0 0 - μ) ^ 2 := h2
          rw [dv 1 (by norm_num) 1 (by norm_num), dv 0 (by norm_num) 0 (by norm_num)] at h2'
          norm_num at h1 h2'
          have a1 : (c - e) * (c + e - 2 * μ) = 0 := by linear_combination h1
          have a2 : (c - f) * (c + f - 2 * μ) = 0 := by linear_combination h2'
          have b1 : c + e - 2 * μ = 0 := (mul_eq_zero.1 a1).resolve_left (by linarith)
          have b2 : c + f - 2 * μ = 0 := (mul_eq_zero.1 a2).resolve_left (by linarith)
          linarith
        · exact ⟨1, by show 1 < 3; norm_num, 1, by show 1 < 3; norm_num, 0, by show 0 < 3; norm_num, 1, by show 1 < 3; norm_num, h1⟩)
    exact ⟨v, e, by rw [← hve]; rfl, hv0⟩

/-- A map with a missing pixel, large enough for the kernels of a lag of three pixels, and weights of one: the hypotheses of
`C112_even_weights_partial` (and those of `C112_roll_partial`) are met by a map that is not complete. -/
example : ∃ (img : Arr2 (Option ℝ)) (w : Arr2 ℝ), ¬ Spec.Complete img ∧ (w.n = img.n ∧ w.m = img.m) ∧ (∀ i < img.n, ∀ j < img.m, w.get i j = 1) ∧
    2 * (coreKernel 3).r + 1 ≤ min img.n img.m := by
  refine ⟨⟨11, 11, fun i j => if i = 4 ∧ j = 5 then none else some (i * j)⟩, ⟨11, 11, fun _ _ => 1⟩, fun h => ?_, ⟨rfl, rfl⟩, fun _ _ _ _ => rfl, ?_⟩
  · exact h 4 (by show 4 < 11; norm_num) 5 (by show 5 < 11; norm_num) (by simp)
  · have h : 8 * ((3 : ℝ) / (2 * Real.sqrt 2)) ≤ 9 := by
      have h0 : 0 < Real.sqrt 2 := by positivity
      have h2 : (1.4 : ℝ) ≤ Real.sqrt 2 := by
        rw [Real.le_sqrt' (by norm_num)]
        norm_num
      rw [mul_div_assoc', div_le_iff₀ (by positivity)]
      nlinarith
    have hc : ⌈8 * ((3 : ℝ) / (2 * Real.sqrt 2))⌉₊ ≤ 9 := Nat.ceil_le.2 (by exact_mod_cast h)
    show 2 * ((roundUpOdd (8 * ((3 : ℝ) / (2 * Real.sqrt 2))) - 1) / 2) + 1 ≤ 11
    unfold roundUpOdd
    split_ifs <;> omega

/-- The hypotheses of `C112_value` are met: by `C112_offset_violated` there is a map with a missing pixel that has a value. -/
example (junkI : ℕ → ℕ → Option ℝ) (junkW : ℕ → ℕ → ℝ) : ∃ (core ann : ℕ → ℕ → ℕ → ℕ → ℝ) (img : Arr2 (Option ℝ)) (w : Arr2 ℝ) (v : ℝ) (e : ErrVal),
    ¬ Spec.Complete img ∧ deltaVarAtI junkI junkW core ann .wrap (1 / 100) false 1 img w = .ok (some (v, e)) := by
  obtain ⟨img, ⟨hn, hm, hi⟩, -, v, e, h, -⟩ := C112_offset_violated junkI junkW
  refine ⟨_, _, _, _, v, e, fun hc => ?_, h⟩
  refine hc 1 (by show 1 < img.n; omega) 1 (by show 1 < img.m; omega) ?_
  simp [Spec.shifted, Arr2.map, hi 1 (by norm_num) 1 (by norm_num)]

end TS
