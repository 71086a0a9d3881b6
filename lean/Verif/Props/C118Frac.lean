import Verif.Props.C118Scf
import Verif.Props.C120

/-! C118, spectral correlation function at lags of a fraction of a pixel, continuous boundaries. -/

namespace TS
open Finset

/-- A cube without missing voxels has none after a move. -/
private theorem noGaps_moved (t : DvMove) {c : Arr3 (Option ℝ)} (h : Spec.NoGaps c) : Spec.NoGaps (Spec.moveCube t c) := by
  intro v hv i hi j hj
  cases t with
  | mirror =>
    have hi : i < c.m := hi
    exact h v hv (c.m - 1 - i) (by omega) j hj
  | swap => exact h v hv j hj i hi
  | roll s =>
    have hi : i < c.m := hi
    exact h v hv (rollIx c.m s i) (rollIx_lt (by omega) s i) j hj

/-- **SCF surface, fractions of a pixel.** With continuous boundaries and any real lags that are the same in both directions, the correlation surface of
the moved cube is the moved surface. An exchange of the sky axes is allowed for cubes without missing voxels (for others see `C120_exchange_violated`). -/
theorem C118_scf_surface_fractional (c : Arr3 (Option ℝ)) (lags : Arr1 ℝ) (hsym : ∀ k < lags.n, lags.get (lags.n - 1 - k) = -lags.get k)
    (ms : List DvMove) (hg : Spec.NoGaps c ∨ DvMove.swap ∉ ms) :
    ∃ s s', scfSurface "continuous" c lags = .ok s ∧ scfSurface "continuous" (Spec.movedCube ms c) lags = .ok s' ∧ s'.Same (Spec.movedSurface ms s) := by
  have key : (∃ s s', scfSurface "continuous" c lags = .ok s ∧ scfSurface "continuous" (Spec.movedCube ms c) lags = .ok s' ∧
      s'.Same (Spec.movedSurface ms s)) ∧ (Spec.NoGaps c → Spec.NoGaps (Spec.movedCube ms c)) := by
    induction ms with
    | nil =>
      obtain ⟨s, e, -⟩ := scfSurface_lags c lags
      exact ⟨⟨s, s, e, e, rfl, rfl, fun _ _ _ _ => rfl⟩, id⟩
    | cons t ms ih =>
      obtain ⟨⟨s, s₁, e, e₁, b1, b2, b3⟩, hng⟩ := ih (hg.imp_right fun h hu => h (by simp [hu]))
      refine ⟨?_, fun h => noGaps_moved t (hng h)⟩
      obtain ⟨s₂, f₁, n₁, m₁, g₁⟩ := scfSurface_lags (Spec.movedCube ms c) lags
      rw [e₁] at f₁
      cases f₁
      obtain ⟨s', e', n', m', g'⟩ := scfSurface_lags (Spec.moveCube t (Spec.movedCube ms c)) lags
      have w := fun x y => scfValue_turned (Spec.movedCube ms c) x y
      refine ⟨s, s', e, e', ?_⟩
      cases t with
      | mirror =>
        refine ⟨n'.trans (n₁.symm.trans b1), m'.trans (m₁.symm.trans b2), fun j hj i hi => ?_⟩
        rw [n'] at hj
        rw [m'] at hi
        show s'.get j i = (Spec.movedSurface ms s).get j ((Spec.movedSurface ms s).m - 1 - i)
        rw [← b2, m₁, ← b3 j (by omega) _ (by omega)]
        refine Except.ok.inj ((g' j hj i hi).symm.trans (((w _ _).1).trans ?_))
        rw [← hsym i hi]
        exact g₁ j hj _ (by omega)
      | swap =>
        have h0 : Spec.NoGaps c := hg.resolve_right fun h => h (by simp)
        refine ⟨n'.trans (m₁.symm.trans b2), m'.trans (n₁.symm.trans b1), fun j hj i hi => ?_⟩
        rw [n'] at hj
        rw [m'] at hi
        show s'.get j i = (Spec.movedSurface ms s).get i j
        rw [← b3 i (by omega) j (by omega)]
        exact Except.ok.inj ((g' j hj i hi).symm.trans (((w _ _).2.2 (hng h0)).trans (g₁ i hi j hj)))
      | roll x =>
        refine ⟨n'.trans (n₁.symm.trans b1), m'.trans (m₁.symm.trans b2), fun j hj i hi => ?_⟩
        rw [n'] at hj
        rw [m'] at hi
        show s'.get j i = (Spec.movedSurface ms s).get j i
        rw [← b3 j (by omega) i (by omega)]
        exact Except.ok.inj ((g' j hj i hi).symm.trans (((w _ _).2.1 x).trans (g₁ j hj i hi)))
  exact key.1

private theorem shape {c : Arr3 (Option ℝ)} {lags : Arr1 ℝ} {s : Arr2 (Option ℝ)} (e : scfSurface "continuous" c lags = .ok s) :
    s.n = lags.n ∧ s.m = lags.n := by
  obtain ⟨u, f, h1, h2, -⟩ := scfSurface_lags c lags
  rw [e] at f
  cases f
  exact ⟨h1, h2⟩

/-- **SCF spectrum, fractions of a pixel.** The spectrum without azimuthal limits does not depend on the position and orientation of the cube, whether the
surface was computed before with continuous boundaries or is computed on the way. Missing: lags that are different in the two directions, exchanges of the
sky axes of cubes with missing voxels, and azimuthal limits (which should be turned with the cube). -/
theorem C118_scf_spectrum_fractional_partial (o : ScfObj) (c : Arr3 (Option ℝ)) (kw : ScfSpecKw) (hsize : o.size = o.rollLags.n) (hodd : o.rollLags.n % 2 = 1)
    (hsym : ∀ k < o.pixLags.n, o.pixLags.get (o.pixLags.n - 1 - k) = -o.pixLags.get k) (ht : kw.theta0.join = none) (ms : List DvMove)
    (hg : Spec.NoGaps c ∨ DvMove.swap ∉ ms) :
    ((do let o' ← o.computeSurface "continuous" (Spec.movedCube ms c)
         o'.computeSpectrum (Spec.movedCube ms c) kw : Py ScfObj).map fun o => (o.lags, o.spectrum, o.azim)) =
    ((do let o' ← o.computeSurface "continuous" c
         o'.computeSpectrum c kw : Py ScfObj).map fun o => (o.lags, o.spectrum, o.azim)) ∧
    (o.surface = none → ((o.computeSpectrum (Spec.movedCube ms c) kw).map fun o => (o.lags, o.spectrum, o.azim)) =
      ((o.computeSpectrum c kw).map fun o => (o.lags, o.spectrum, o.azim))) := by
  obtain ⟨s, s', e, e', hs⟩ := C118_scf_surface_fractional c o.pixLags hsym ms hg
  have h := scfSpectrum_moved o (kw := kw) (N := o.pixLags.n) hsize hodd e e' (shape e) ms hs ht
  refine ⟨h, fun hnew => ?_⟩
  rw [scfSpectrum_default hnew, scfSpectrum_default hnew] at h
  exact h

/-- **SCF distance, fractions of a pixel.** Moving both cubes alike leaves the distance of their surfaces as it is, at any real lags that are the same in
both directions. -/
theorem C118_scf_distance_fractional (weighted : Bool) (c₁ c₂ : Arr3 (Option ℝ)) (lags : Arr1 ℝ) (hodd : lags.n % 2 = 1)
    (hsym : ∀ k < lags.n, lags.get (lags.n - 1 - k) = -lags.get k) (ms : List DvMove) (hg : (Spec.NoGaps c₁ ∧ Spec.NoGaps c₂) ∨ DvMove.swap ∉ ms)
    (s₁ s₂ s₁' s₂' : Arr2 (Option ℝ)) (e₁ : scfSurface "continuous" c₁ lags = .ok s₁) (e₂ : scfSurface "continuous" c₂ lags = .ok s₂)
    (e₁' : scfSurface "continuous" (Spec.movedCube ms c₁) lags = .ok s₁') (e₂' : scfSurface "continuous" (Spec.movedCube ms c₂) lags = .ok s₂') :
    scfDistance weighted lags.n s₁' s₂' = scfDistance weighted lags.n s₁ s₂ := by
  have same : ∀ (c : Arr3 (Option ℝ)) (s s' : Arr2 (Option ℝ)), (Spec.NoGaps c ∨ DvMove.swap ∉ ms) → scfSurface "continuous" c lags = .ok s →
      scfSurface "continuous" (Spec.movedCube ms c) lags = .ok s' → s'.Same (Spec.movedSurface ms s) := by
    intro c s s' h e e'
    obtain ⟨u, u', f, f', hs⟩ := C118_scf_surface_fractional c lags hsym ms h
    rw [e] at f
    rw [e'] at f'
    cases f
    cases f'
    exact hs
  exact scfDistance_moved weighted hodd ms (shape e₁).1 (shape e₁).2 (shape e₂).1 (shape e₂).2 (same c₁ s₁ s₁' (hg.imp_left And.left) e₁ e₁')
    (same c₂ s₂ s₂' (hg.imp_left And.right) e₂ e₂')

/-- A case that meets the hypotheses: lags of -1/2, 0 and 1/2 pixel, a cube whose three rows differ, and a quarter turn. -/
example : (∀ k < halfLags.n, halfLags.get (halfLags.n - 1 - k) = -halfLags.get k) ∧ halfLags.n % 2 = 1 ∧ Spec.NoGaps rampCube ∧
    (Spec.movedCube [.mirror, .swap] rampCube).get 0 0 1 ≠ rampCube.get 0 0 1 := by
  refine ⟨?_, rfl, fun v _ i _ j _ => rfl, ?_⟩
  · intro k hk
    have hk : k < 3 := hk
    interval_cases k <;> norm_num [halfLags]
  · norm_num [Spec.movedCube, Spec.moveCube, rampCube]

end TS
