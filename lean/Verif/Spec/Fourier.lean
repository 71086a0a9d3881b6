import Verif.Np.Dft

/-!
Specification vocabulary for Fourier amplitudes: the full DFT amplitude of a real array.
Independent of the code under study (only the textbook DFT sum of `Np/Dft.lean`).
-/

namespace TS.Spec
open TS

/-- `|fftn(a)|`, 2D, full frequency range. -/
noncomputable def fftAbs2 (a : Arr2 ℝ) : Arr2 ℝ :=
  ⟨a.n, a.m, fun k l => ‖dft2 a.n a.m (fun i j => (a.get i j : ℂ)) k l‖⟩

/-- `|fftn(a)|`, 3D, full frequency range. -/
noncomputable def fftAbs3 (a : Arr3 ℝ) : Arr3 ℝ :=
  ⟨a.n, a.m, a.p, fun k l q => ‖dft3 a.n a.m a.p (fun i j t => (a.get i j t : ℂ)) k l q‖⟩

end TS.Spec

namespace TS.Spec
open TS

/-- Power of a real image at integer frequency `(k, l)` (periodic in both): `|fft2(a)|²`. -/
noncomputable def power2 (a : Arr2 ℝ) (k l : ℤ) : ℝ :=
  ‖dft2 a.n a.m (fun i j => (a.get i j : ℂ)) k l‖ ^ 2

/-- `ps` is the centred power spectrum of `a`: same shape, zero frequency at
`(n // 2, m // 2)`, entry `(i, j)` the power at frequency `(i - n//2, j - m//2)`. -/
def IsCentredPower (ps a : Arr2 ℝ) : Prop :=
  ps.n = a.n ∧ ps.m = a.m ∧
    ∀ i < a.n, ∀ j < a.m, ps.get i j = power2 a ((i : ℤ) - (a.n / 2 : ℕ)) ((j : ℤ) - (a.m / 2 : ℕ))

/-- Image multiplied by a constant. -/
def scale2 (c : ℝ) (a : Arr2 ℝ) : Arr2 ℝ := ⟨a.n, a.m, fun i j => c * a.get i j⟩

/-- Image circularly shifted by `(s, t)`: pixel `(i, j)` moves to `(i + s, j + t)`. -/
def shift2 (s t : ℤ) (a : Arr2 ℝ) : Arr2 ℝ :=
  ⟨a.n, a.m, fun i j => a.get (((i : ℤ) - s) % a.n).toNat (((j : ℤ) - t) % a.m).toNat⟩

/-- One channel of a cube as an image. -/
def channel (a : Arr3 ℝ) (c : ℕ) : Arr2 ℝ := ⟨a.m, a.p, fun i j => a.get c i j⟩

/-- One spectrum of a cube. -/
def losSpectrum (a : Arr3 ℝ) (i j : ℕ) : ℕ → ℝ := fun c => a.get c i j

/-- Power of one spectrum of a cube at spectral frequency `k`. -/
noncomputable def specPower (a : Arr3 ℝ) (i j : ℕ) (k : ℤ) : ℝ :=
  ‖dft1 a.n (fun c => (losSpectrum a i j c : ℂ)) k‖ ^ 2

/-- `v` is the largest of the first `n` values of `f`. -/
def LargestIs (n : ℕ) (f : ℕ → ℝ) (v : ℝ) : Prop := (∃ a < n, f a = v) ∧ ∀ a < n, f a ≤ v

end TS.Spec
