import Verif.Model.FftOptions

/-! Specification of the options of the Fourier transforms (C117). -/

namespace TS.Spec
open TS

/-- Keywords meant for pyfftw: each given once, none of them an argument of `rfft_to_fft` itself, and a number of threads, if there is
one, is not `None`. -/
def ForFftw (kw : KwArgs) : Prop :=
  (kw.map (·.1)).Nodup ∧ "image" ∉ kw.map (·.1) ∧ "keep_rfft" ∉ kw.map (·.1) ∧ "use_pyfftw" ∉ kw.map (·.1) ∧ ("threads", OVal.none) ∉ kw

/-- With these keywords pyfftw's transform of real arrays is the one of numpy. -/
def SameRfftn (lib : Option Fftw) (kw : KwArgs) : Prop := ∀ L, lib = some L → ∀ image, L.rfftn kw image = npRfftn image

/-- With these keywords pyfftw's two-dimensional transform is the discrete Fourier transform. -/
def SameFft2 (lib : Option Fftw) (kw : KwArgs) : Prop :=
  ∀ L, lib = some L → ∀ d : Arr2 ℝ, L.fft2 kw d = .ok ⟨d.n, d.m, fun k l => dft2 d.n d.m (fun i j => (d.get i j : ℂ)) k l⟩

/-- The keywords without `name`. -/
def kwWithout (kw : KwArgs) (name : String) : KwArgs := kw.filter fun p => decide (p.1 ≠ name)

/-- Warnings due when `n` transforms or convolutions are set up one by one: one each if pyfftw is asked for and missing. -/
def dueWarnings (lib : Option Fftw) (o : FftOpts) (n : ℕ) : ℕ := if o.usePyfftw.truthy = true ∧ lib.isNone = true then n else 0

end TS.Spec
