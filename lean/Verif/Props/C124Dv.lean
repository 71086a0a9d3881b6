import Verif.Props.C124

/-! C124: a periodic map or cube shown over several periods. Delta-variance with interpolation over missing pixels. -/

namespace TS
open Finset

private theorem interp_tiled (k : Kern) {p q : ℕ} (hp : 0 < p) (hq : 0 < q) {a A : Arr2 (Option ℝ)} (hn : 2 * k.r + 1 ≤ a.n) (hm : 2 * k.r + 1 ≤ a.m)
    (hA : A.n = p * a.n) (hB : A.m = q * a.m) (h : ∀ i < A.n, ∀ j < A.m, A.get i j = a.get (i % a.n) (j % a.m)) {i j : ℕ} (hi : i < A.n) (hj : j < A.m) :
    (applyI (k.coef .wrap A.n A.m) .wrap A).get i j = (applyI (k.coef .wrap a.n a.m) .wrap a).get (i % a.n) (j % a.m) := by
  have e : ∀ f : Option ℝ → ℝ, (applyK (k.coef .wrap A.n A.m) (A.map f)).get i j = (applyK (k.coef .wrap a.n a.m) (a.map f)).get (i % a.n) (j % a.m) :=
    fun f => wrap_tiled k hp hq (a := a.map f) (A := A.map f) hn hm hA hB (fun i hi j hj => congrArg f (h i hi j hj)) hi hj
  have one : ∑ u ∈ range A.n, ∑ v ∈ range A.m, k.coef .wrap A.n A.m i j u v =
      ∑ u ∈ range a.n, ∑ v ∈ range a.m, k.coef .wrap a.n a.m (i % a.n) (j % a.m) u v := by
    have e1 := e fun _ => 1
    have t : ∀ (c : ℕ → ℕ → ℕ → ℕ → ℝ) (b : Arr2 (Option ℝ)) (i j : ℕ), (applyK c (b.map fun _ => (1 : ℝ))).get i j =
        ∑ u ∈ range b.n, ∑ v ∈ range b.m, c i j u v := by
      intro c b i j
      show ∑ u ∈ range b.n, ∑ v ∈ range b.m, c i j u v * 1 = _
      simp only [mul_one]
    rw [t, t] at e1
    exact e1
  have share : validShare (k.coef .wrap A.n A.m) .wrap A i j = validShare (k.coef .wrap a.n a.m) .wrap a (i % a.n) (j % a.m) := by
    unfold validShare
    rw [one]
    congr 1
    exact e fun x => if x.isSome then 1 else 0
  show (if validShare (k.coef .wrap A.n A.m) .wrap A i j ≤ 0 then none else
      some ((applyK (k.coef .wrap A.n A.m) (A.map (fun v => v.getD 0))).get i j / validShare (k.coef .wrap A.n A.m) .wrap A i j)) =
    if validShare (k.coef .wrap a.n a.m) .wrap a (i % a.n) (j % a.m) ≤ 0 then none else
      some ((applyK (k.coef .wrap a.n a.m) (a.map (fun v => v.getD 0))).get (i % a.n) (j % a.m) /
        validShare (k.coef .wrap a.n a.m) .wrap a (i % a.n) (j % a.m))
  rw [share, e]

private theorem lag_tiled_interp {p q : ℕ} (hp : 0 < p) (hq : 0 < q) (junkI : ℕ → ℕ → Option ℝ) (junkW : ℕ → ℕ → ℝ) (frac : ℝ) (preserve : Bool)
    (ratio lag : ℝ) {a : Arr2 (Option ℝ)} {w : Arr2 ℝ} (hn : w.n = a.n) (hm : w.m = a.m) (h1 : 2 * (coreKernel lag).r + 1 ≤ a.n)
    (h2 : 2 * (coreKernel lag).r + 1 ≤ a.m) :
    (deltaVarLagI junkI junkW .wrap frac preserve ratio lag (Spec.tiled p q a) (Spec.tiled p q w)).map (Option.map Prod.fst) =
      (deltaVarLagI junkI junkW .wrap frac preserve ratio lag a w).map (Option.map Prod.fst) := by
  unfold deltaVarLagI deltaVarAtI
  rw [max_tiled hp hq]
  simp only [dvPad, bind, Except.bind, pure, Except.pure]
  cases npMax w.ravel with
  | error e => rfl
  | ok wm =>
    simp only [Except.map]
    congr 1
    set pi : Arr2 (Option ℝ) := ⟨a.n, a.m, fun i j => mulO (a.get i j) (some (w.get i j))⟩ with hpi
    set pi' : Arr2 (Option ℝ) := ⟨(Spec.tiled p q a).n, (Spec.tiled p q a).m, fun i j => mulO ((Spec.tiled p q a).get i j)
      (some ((Spec.tiled p q w).get i j))⟩ with hpi'
    have hg : ∀ i j, pi'.get i j = pi.get (i % a.n) (j % a.m) := by
      intro i j
      show mulO (a.get (i % a.n) (j % a.m)) (some (w.get (i % w.n) (j % w.m))) = _
      rw [hn, hm]
    refine delvar_tiled hp hq lag rfl rfl rfl rfl rfl rfl ?_
    intro i hi j hj
    have conv : ∀ k : Kern, k.r = (coreKernel lag).r →
        (applyI (k.coef .wrap (p * a.n) (q * a.m)) .wrap pi').get i j = (applyI (k.coef .wrap a.n a.m) .wrap pi).get (i % a.n) (j % a.m) ∧
        (applyI (k.coef .wrap (p * a.n) (q * a.m)) .wrap ((Spec.tiled p q w).map some)).get i j =
          (applyI (k.coef .wrap a.n a.m) .wrap (w.map some)).get (i % a.n) (j % a.m) := by
      intro k hk
      constructor
      · exact interp_tiled k hp hq (a := pi) (A := pi') (by rw [hk]; exact h1) (by rw [hk]; exact h2) rfl rfl (fun i _ j _ => hg i j) hi hj
      · have := interp_tiled k hp hq (a := w.map some) (A := (Spec.tiled p q w).map some) (by rw [hk]; exact hn ▸ h1) (by rw [hk]; exact hm ▸ h2) rfl rfl
          (fun i _ j _ => rfl) (i := i) (j := j) (show i < p * w.n by rw [hn]; exact hi) (show j < q * w.m by rw [hm]; exact hj)
        rw [show ((Spec.tiled p q w).map some).n = p * a.n from congrArg (p * ·) hn, show ((Spec.tiled p q w).map some).m = q * a.m from congrArg (q * ·) hm,
          show (w.map some).n = a.n from hn, show (w.map some).m = a.m from hm] at this
        exact this
    obtain ⟨c1, c2⟩ := conv (coreKernel lag).normalised rfl
    obtain ⟨c3, c4⟩ := conv (annulusKernel lag ratio).normalised rfl
    constructor
    · show (if preserve ∧ (pi'.get i j).isNone then none
        else subO (divO ((applyI ((coreKernel lag).normalised.coef .wrap (p * a.n) (q * a.m)) .wrap pi').get i j)
          (((applyI ((coreKernel lag).normalised.coef .wrap (p * a.n) (q * a.m)) .wrap ((Spec.tiled p q w).map some)).get i j).bind (dvMask (frac * wm))))
          (divO ((applyI ((annulusKernel lag ratio).normalised.coef .wrap (p * a.n) (q * a.m)) .wrap pi').get i j)
          (((applyI ((annulusKernel lag ratio).normalised.coef .wrap (p * a.n) (q * a.m)) .wrap ((Spec.tiled p q w).map some)).get i j).bind
            (dvMask (frac * wm))))) = _
      rw [c1, c2, c3, c4, hg]
      rfl
    · show mulO (((applyI ((coreKernel lag).normalised.coef .wrap (p * a.n) (q * a.m)) .wrap ((Spec.tiled p q w).map some)).get i j).bind
          (dvMask (frac * wm)))
        (((applyI ((annulusKernel lag ratio).normalised.coef .wrap (p * a.n) (q * a.m)) .wrap ((Spec.tiled p q w).map some)).get i j).bind
          (dvMask (frac * wm))) = _
      rw [c2, c4]
      rfl

/-- **Delta-variance with interpolation.** The same as `C124_delta_variance` for both values of the option `nan_treatment`. -/
theorem C124_delta_variance_nan {p q : ℕ} (hp : 0 < p) (hq : 0 < q) (interpolate : Bool) (junkI : ℕ → ℕ → Option ℝ) (junkW : ℕ → ℕ → ℝ) (frac : ℝ)
    (preserve : Bool) (ratio : ℝ) (lags : List ℝ) {a : Arr2 (Option ℝ)} {w : Arr2 ℝ} (hn : w.n = a.n) (hm : w.m = a.m)
    (hfit : ∀ lag ∈ lags, 2 * kernRadius (lag / (2 * Real.sqrt 2)) + 1 ≤ min a.n a.m) :
    (computeDeltavarNan interpolate junkI junkW .wrap frac preserve ratio lags (Spec.tiled p q a) (Spec.tiled p q w)).map (List.map (Option.map Prod.fst)) =
      (computeDeltavarNan interpolate junkI junkW .wrap frac preserve ratio lags a w).map (List.map (Option.map Prod.fst)) := by
  unfold computeDeltavarNan
  cases interpolate with
  | false =>
    rw [if_neg Bool.false_ne_true, if_neg Bool.false_ne_true]
    exact C124_delta_variance hp hq junkI junkW frac preserve ratio lags hn hm hfit
  | true =>
    rw [if_pos rfl, if_pos rfl]
    refine mapM_same _ _ _ lags fun lag hl => ?_
    have h := fit_core (hfit lag hl)
    exact lag_tiled_interp hp hq junkI junkW frac preserve ratio lag hn hm (h.trans (min_le_left _ _)) (h.trans (min_le_right _ _))

/-- A map of 9 by 10 pixels is wide enough at a lag of 3 pixels. -/
example (v : ℕ → ℕ → Option ℝ) (w : ℕ → ℕ → ℝ) (junkI : ℕ → ℕ → Option ℝ) (junkW : ℕ → ℕ → ℝ) :
    (computeDeltavarNan true junkI junkW .wrap 0.01 true 1.5 [3] (Spec.tiled 2 3 ⟨9, 10, v⟩) (Spec.tiled 2 3 ⟨9, 10, w⟩)).map (List.map (Option.map Prod.fst)) =
      (computeDeltavarNan true junkI junkW .wrap 0.01 true 1.5 [3] ⟨9, 10, v⟩ ⟨9, 10, w⟩).map (List.map (Option.map Prod.fst)) := by
  refine C124_delta_variance_nan (by norm_num) (by norm_num) true junkI junkW 0.01 true 1.5 [3] rfl rfl fun lag h => ?_
  rw [List.mem_singleton.1 h, kernRadius_three]
  norm_num

end TS
