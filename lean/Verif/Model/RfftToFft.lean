import Verif.Np.Dft

/-! Model of `turbustat/statistics/rfft_to_fft.py`. -/

namespace TS
open Finset

/-- A numpy array by number of axes (2D and 3D carry their entries, the others only `ndim`,
because the modelled code rejects them at once). -/
inductive NdArr (α : Type*) where
  | d2 (a : Arr2 α)
  | d3 (a : Arr3 α)
  | other (ndim : ℕ)

/-- `np.fft.rfftn` on a 2D real array (external): the DFT with the last axis cut to
`m // 2 + 1` non-negative frequencies; an empty axis raises ValueError. -/
noncomputable def rfftn2 (a : Arr2 ℝ) : Py (Arr2 ℂ) :=
  if a.n = 0 ∨ a.m = 0 then .error .valueError
  else .ok ⟨a.n, a.m / 2 + 1, fun k l => dft2 a.n a.m (fun i j => (a.get i j : ℂ)) k l⟩

/-- `np.fft.rfftn` on a 3D real array (external). -/
noncomputable def rfftn3 (a : Arr3 ℝ) : Py (Arr3 ℂ) :=
  if a.n = 0 ∨ a.m = 0 ∨ a.p = 0 then .error .valueError
  else .ok ⟨a.n, a.m, a.p / 2 + 1,
    fun k l q => dft3 a.n a.m a.p (fun i j t => (a.get i j t : ℂ)) k l q⟩

/-- rfft_to_fft.py:66-74, the 2D branch after `np.abs(np.fft.rfftn(image))`:
mirror the half spectrum and append it. -/
def expand2 (lastDim : ℕ) (fftAbs : Arr2 ℝ) : Py (Arr2 ℝ) := do
  let star0 : Arr2 ℝ :=
    if lastDim % 2 = 0 then fftAbs.slice1 ⟨some (-2), some 0, -1⟩   -- [:, -2:0:-1]
    else fftAbs.slice1 ⟨some (-1), some 0, -1⟩                      -- [:, -1:0:-1]
  let star ← star0.setSlice0 ⟨some 1, none, 1⟩                      -- [1::, :] =
    (star0.slice0 ⟨none, some 0, -1⟩)                               --   [:0:-1, :]
  fftAbs.concat1 star

/-- rfft_to_fft.py:76-85, the 3D branch. -/
def expand3 (lastDim : ℕ) (fftAbs : Arr3 ℝ) : Py (Arr3 ℝ) := do
  let star0 : Arr3 ℝ :=
    if lastDim % 2 = 0 then fftAbs.slice2 ⟨some (-2), some 0, -1⟩   -- [:, :, -2:0:-1]
    else fftAbs.slice2 ⟨some (-1), some 0, -1⟩                      -- [:, :, -1:0:-1]
  let star1 ← star0.setSlice0 ⟨some 1, none, 1⟩                     -- [1::, :, :] =
    (star0.slice0 ⟨none, some 0, -1⟩)                               --   [:0:-1, :, :]
  let star2 ← star1.setSlice1 ⟨some 1, none, 1⟩                     -- [:, 1::, :] =
    (star1.slice1 ⟨none, some 0, -1⟩)                               --   [:, :0:-1, :]
  fftAbs.concat2 star2

/-- rfft_to_fft.py:21-85 `rfft_to_fft`.  Simplified: the pyfftw branch (53-58) computes the
same transform and is not distinguished. -/
noncomputable def rfftToFft (image : NdArr ℝ) (keepRfft : Bool := false) : Py (NdArr ℝ) :=
  match image with
  | .other _ => .error .typeError                       -- lines 48-49
  | .d2 a => do
      let r ← rfftn2 a                                  -- line 61
      let fftAbs := r.map (fun z => ‖z‖)
      if keepRfft then return .d2 fftAbs                -- lines 63-64
      return .d2 (← expand2 a.m fftAbs)
  | .d3 a => do
      let r ← rfftn3 a
      let fftAbs := r.map (fun z => ‖z‖)
      if keepRfft then return .d3 fftAbs
      return .d3 (← expand3 a.p fftAbs)

end TS
