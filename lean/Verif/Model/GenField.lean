import Verif.Model.Psds
import Verif.Np.Dft
import Mathlib.Analysis.SpecialFunctions.Pow.Complex

/-! Model of turbustat/simulator/gen_field.py. -/

namespace TS
open Finset

/-- One axis of a numpy index: an integer or a slice. -/
inductive PySel where
  | at (i : ℤ)
  | sl (s : PySlice)

/-- Entries selected on an axis of length `n`; an integer is a selection of one entry (negative ones count
from the end; out-of-range integers do not occur in the modelled code). -/
def PySel.resolve (n : ℕ) : PySel → SliceIx
  | .at i => ⟨if i < 0 then n + i else i, 1, 1⟩
  | .sl s => s.resolve n

/-- `a[d0, d1] = f(a[s0, s1])`; the right-hand side is a new array, so it is read first.  Different shapes
raise ValueError. -/
def Arr2.assignSel {α : Type*} (f : α → α) (a : Arr2 α) (d0 d1 s0 s1 : PySel) : Py (Arr2 α) :=
  let D0 := d0.resolve a.n
  let D1 := d1.resolve a.m
  let S0 := s0.resolve a.n
  let S1 := s1.resolve a.m
  if D0.len = S0.len ∧ D1.len = S1.len then
    .ok ⟨a.n, a.m, fun i j => match D0.find i, D1.find j with
      | some k, some l => f (a.get (S0.ix k) (S1.ix l))
      | _, _ => a.get i j⟩
  else .error .valueError

/-- `a[d0, d1, d2] = f(a[s0, s1, s2])`. -/
def Arr3.assignSel {α : Type*} (f : α → α) (a : Arr3 α) (d0 d1 d2 s0 s1 s2 : PySel) : Py (Arr3 α) :=
  let D0 := d0.resolve a.n
  let D1 := d1.resolve a.m
  let D2 := d2.resolve a.p
  let S0 := s0.resolve a.n
  let S1 := s1.resolve a.m
  let S2 := s2.resolve a.p
  if D0.len = S0.len ∧ D1.len = S1.len ∧ D2.len = S2.len then
    .ok ⟨a.n, a.m, a.p, fun i j t => match D0.find i, D1.find j, D2.find t with
      | some k, some l, some q => f (a.get (S0.ix k) (S1.ix l) (S2.ix q))
      | _, _, _ => a.get i j t⟩
  else .error .valueError

/-- `np.conj`. -/
noncomputable def cconj (z : ℂ) : ℂ := (starRingEnd ℂ) z

/-- `z.real + 1j * 0.0`. -/
noncomputable def realPart (z : ℂ) : ℂ := (z.re : ℂ)

/-- gen_field.py:47, 204 `(imsize - 1) // 2 if imsize % 2 != 0 else imsize // 2`. -/
def np1 (n : ℕ) : ℕ := if n % 2 ≠ 0 then (n - 1) / 2 else n / 2

/-- `1:b`. -/
def upTo (b : ℤ) : PySel := .sl ⟨some 1, some b, 1⟩

/-- `imsize:Np1:-1`. -/
def downTo (n : ℕ) : PySel := .sl ⟨some (n : ℤ), some (np1 n : ℤ), -1⟩

/-- One row of the list of assignments: destination and source of the first axes, and the plane (0 or -1)
of the last axis. -/
structure SymStep where
  d : PySel
  s : PySel
  c : ℤ

/-- gen_field.py:220-228 the conjugate assignments of `make_extended`. -/
def symSteps2 (n : ℕ) : List SymStep :=
  if n % 2 = 0 then
    [⟨upTo (np1 n), downTo n, 0⟩,                               -- line 221
     ⟨upTo (np1 n), downTo n, -1⟩]                              -- line 222
  else
    [⟨upTo (np1 n + 1), downTo n, 0⟩,                           -- line 227
     ⟨upTo (np1 n + 1), downTo n, -1⟩]                          -- line 228

/-- gen_field.py:223-224, 231-232 the entries made real. -/
def realSteps2 (n : ℕ) : List (ℤ × ℤ) :=
  (if n % 2 = 0 then [((np1 n : ℤ), 0), ((np1 n : ℤ), -1)] else []) ++ [(0, -1), (0, 0)]

/-- gen_field.py:218-232 "Impose symmetry" in 2D. -/
noncomputable def imposeSym2 (n : ℕ) (a : Arr2 ℂ) : Py (Arr2 ℂ) := do
  let b ← (symSteps2 n).foldlM (fun a st => a.assignSel cconj st.d (.at st.c) st.s (.at st.c)) a
  (realSteps2 n).foldlM (fun a p => a.assignSel realPart (.at p.1) (.at p.2) (.at p.1) (.at p.2)) b

/-- gen_field.py:181-200 radius of frequency `(i, j)` in the half plane. -/
noncomputable def extRadius (n : ℕ) (theta ellip : ℝ) (i j : ℕ) : ℝ :=
  let y := (fftfreq n).get i
  let x : ℝ := (j : ℝ) / n
  if ellip < 1 then
    Real.sqrt ((ellip * (x * Real.cos theta - y * Real.sin theta)) ^ 2 + (x * Real.sin theta + y * Real.cos theta) ^ 2)
  else Real.sqrt (x ^ 2 + y ^ 2)

/-- gen_field.py:199-200, 214-216 `rr ** (-powerlaw / 2)`, zero where the radius is zero. -/
noncomputable def plawAmp (powerlaw r : ℝ) : ℝ := if r = 0 then 0 else r ^ (-powerlaw / 2)

/-- gen_field.py:209 `cos(angles) + 1j sin(angles)`. -/
noncomputable def unitPhase (t : ℝ) : ℂ := Complex.cos t + Complex.I * Complex.sin t

/-- gen_field.py:212 the *complex* number the phases are divided by: the square root of the mean of the
squared phases. -/
noncomputable def phaseNorm (n : ℕ) (angles : ℕ → ℕ → ℝ) : ℂ :=
  ((∑ i ∈ range n, ∑ j ∈ range (np1 n + 1), unitPhase (angles i j) ^ 2) / ((n * (np1 n + 1) : ℕ) : ℂ)) ^ (1 / 2 : ℂ)

/-- gen_field.py:204-216 amplitudes times rescaled random phases (`angles` are the drawn angles; a zero
divisor gives NaN, replaced by 0 in line 216, as in Lean's division). -/
noncomputable def extRaw (n : ℕ) (powerlaw theta ellip : ℝ) (angles : ℕ → ℕ → ℝ) : Arr2 ℂ :=
  ⟨n, np1 n + 1, fun i j =>
    (plawAmp powerlaw (extRadius n theta ellip i j) : ℂ) * (unitPhase (angles i j) / phaseNorm n angles)⟩

/-- gen_field.py:239-251 the full map from the half plane. -/
noncomputable def fullPowermap (n : ℕ) (out : Arr2 ℂ) : Py (Arr2 ℂ) := do
  let star0 : Arr2 ℂ :=
    if n % 2 = 0 then (out.slice1 ⟨some (-2), some 0, -1⟩).map cconj
    else (out.slice1 ⟨some (-1), some 0, -1⟩).map cconj
  let star ← star0.setSlice0 ⟨some 1, none, 1⟩ (star0.slice0 ⟨none, some 0, -1⟩)
  let full ← out.concat1 star
  if full.m ≠ n then .error .valueError else return full

/-- Half spectrum of length `N` extended by conjugation (`N` even); the imaginary parts of the first and last
entries are ignored, as numpy's complex-to-real transform does. -/
noncomputable def hermExt (N : ℕ) (F : ℕ → ℂ) (l : ℕ) : ℂ :=
  if l = 0 ∨ 2 * l = N then realPart (F l) else if 2 * l < N then F l else cconj (F (N - l))

/-- `np.fft.irfft(F, N)` (external). -/
noncomputable def irfft1 (N : ℕ) (F : ℕ → ℂ) (j : ℕ) : ℝ := (idft1 N (hermExt N F) j).re

/-- `np.fft.irfft2(a)` (external): inverse transform of the first axis, then `irfft` of the last axis to
`2 (m - 1)` values; none left raises ValueError. -/
noncomputable def irfft2 (a : Arr2 ℂ) : Py (Arr2 ℝ) :=
  if a.n = 0 ∨ a.m ≤ 1 then .error .valueError
  else .ok ⟨a.n, 2 * (a.m - 1), fun i j => irfft1 (2 * (a.m - 1)) (fun l => idft1 a.n (fun k => a.get k l) i) j⟩

/-- Result of `make_extended`: an image or a Fourier map. -/
inductive ExtOut where
  | image (a : Arr2 ℝ)
  | fft (a : Arr2 ℂ)

/-- gen_field.py:137-257 `make_extended`; the random angles are a parameter. -/
noncomputable def makeExtended (n : ℕ) (powerlaw theta ellip : ℝ) (returnFft fullFft : Bool) (angles : ℕ → ℕ → ℝ) :
    Py ExtOut :=
  if ellip > 1 ∨ ellip ≤ 0 then .error .valueError
  else do
    let out ← imposeSym2 n (extRaw n powerlaw theta ellip angles)
    if returnFft then
      if ¬ fullFft then return .fft out
      return .fft (← fullPowermap n out).fftshift
    return .image (← irfft2 out)

/-! ### 3D -/

/-- One assignment of `make_3dfield`: destination and source on the first two axes and the plane. -/
structure SymStep3 where
  d0 : PySel
  d1 : PySel
  s0 : PySel
  s1 : PySel
  c : ℤ

/-- gen_field.py:60-119 the conjugate assignments of `make_3dfield`, in order. -/
def symSteps3 (n : ℕ) : List SymStep3 :=
  if n % 2 = 0 then
    let u := upTo (np1 n)
    let d := downTo n
    let z := PySel.at 0
    let h := PySel.at (np1 n)
    [⟨u, u, d, d, 0⟩, ⟨u, u, d, d, -1⟩,                         -- lines 64-67
     ⟨u, d, d, u, 0⟩, ⟨u, d, d, u, -1⟩,                         -- lines 70-73
     ⟨u, d, d, u, 0⟩, ⟨u, d, d, u, -1⟩,                         -- lines 74-77
     ⟨u, h, d, h, 0⟩, ⟨u, h, d, h, -1⟩,                         -- lines 80-81
     ⟨h, u, h, d, 0⟩, ⟨h, u, h, d, -1⟩,                         -- lines 82-83
     ⟨u, z, d, z, 0⟩, ⟨u, z, d, z, -1⟩,                         -- lines 85-86
     ⟨z, u, z, d, 0⟩, ⟨z, u, z, d, -1⟩]                         -- lines 87-88
  else
    let u := upTo (np1 n + 1)
    let d := downTo n
    let z := PySel.at 0
    [⟨u, u, d, d, 0⟩, ⟨u, u, d, d, -1⟩,                         -- lines 100-103
     ⟨u, d, d, u, 0⟩, ⟨u, d, d, u, -1⟩,                         -- lines 106-109
     ⟨u, d, d, u, 0⟩, ⟨u, d, d, u, -1⟩,                         -- lines 110-113
     ⟨u, z, d, z, 0⟩, ⟨u, z, d, z, -1⟩,                         -- lines 116-117
     ⟨z, u, z, d, 0⟩, ⟨z, u, z, d, -1⟩]                         -- lines 118-119

/-- gen_field.py:91-96, 122-123 the entries made real. -/
def realSteps3 (n : ℕ) : List (ℤ × ℤ × ℤ) :=
  let h : ℤ := np1 n
  (if n % 2 = 0 then [(h, 0, 0), (h, 0, -1), (0, h, 0), (0, h, -1), (h, h, 0), (h, h, -1)] else []) ++
    [(0, 0, 0), (0, 0, -1)]

/-- gen_field.py:58-123 "Impose symmetry" in 3D. -/
noncomputable def imposeSym3 (n : ℕ) (a : Arr3 ℂ) : Py (Arr3 ℂ) := do
  let b ← (symSteps3 n).foldlM (fun a st => a.assignSel cconj st.d0 st.d1 (.at st.c) st.s0 st.s1 (.at st.c)) a
  (realSteps3 n).foldlM (fun a p => a.assignSel realPart (.at p.1) (.at p.2.1) (.at p.2.2) (.at p.1) (.at p.2.1) (.at p.2.2)) b

/-- gen_field.py:36-43 radius of a 3D frequency. -/
noncomputable def fieldRadius (n : ℕ) (i j t : ℕ) : ℝ :=
  Real.sqrt ((fftfreq n).get j ^ 2 + (fftfreq n).get i ^ 2 + ((t : ℝ) / n) ^ 2)

/-- gen_field.py:47-56 amplitudes times random phases (not rescaled in 3D). -/
noncomputable def fieldRaw (n : ℕ) (powerlaw : ℝ) (angles : ℕ → ℕ → ℕ → ℝ) : Arr3 ℂ :=
  ⟨n, n, np1 n + 1, fun i j t => (plawAmp powerlaw (fieldRadius n i j t) : ℂ) * unitPhase (angles i j t)⟩

/-- `np.fft.irfftn(a)` (external). -/
noncomputable def irfft3 (a : Arr3 ℂ) : Py (Arr3 ℝ) :=
  if a.n = 0 ∨ a.m = 0 ∨ a.p ≤ 1 then .error .valueError
  else .ok ⟨a.n, a.m, 2 * (a.p - 1), fun i j t => irfft1 (2 * (a.p - 1))
    (fun l => idft1 a.n (fun k1 => idft1 a.m (fun k2 => a.get k1 k2 l) j) i) t⟩

/-- gen_field.py:128 root mean square of the field. -/
noncomputable def rms3 (a : Arr3 ℝ) : ℝ :=
  Real.sqrt (∑ i ∈ range a.n, ∑ j ∈ range a.m, ∑ t ∈ range a.p, a.get i j t ^ 2) / Real.sqrt ((a.n * a.m * a.p : ℕ) : ℝ)

/-- gen_field.py:128 the normalisation (a zero field gives NaN in the code, 0 here). -/
noncomputable def normalise3 (amp : ℝ) (a : Arr3 ℝ) : Arr3 ℝ := a.map (fun x => x / (rms3 a / amp))

/-- gen_field.py:130-132 `make_3dfield` with `return_fft=True`: `np.fft.rfftn` of the normalised field. -/
noncomputable def rfft3 (a : Arr3 ℝ) : Arr3 ℂ :=
  ⟨a.n, a.m, a.p / 2 + 1, fun k l q => dft3 a.n a.m a.p (fun i j t => (a.get i j t : ℂ)) k l q⟩

/-- gen_field.py:6-134 `make_3dfield` with `return_fft=False`. -/
noncomputable def make3dfield (n : ℕ) (powerlaw amp : ℝ) (angles : ℕ → ℕ → ℕ → ℝ) : Py (Arr3 ℝ) := do
  let out ← imposeSym3 n (fieldRaw n powerlaw angles)
  return normalise3 amp (← irfft3 out)

/-- gen_field.py:6-132 `make_3dfield` with `return_fft=True`. -/
noncomputable def make3dfieldFft (n : ℕ) (powerlaw amp : ℝ) (angles : ℕ → ℕ → ℕ → ℝ) : Py (Arr3 ℂ) := do
  return rfft3 (← make3dfield n powerlaw amp angles)

end TS
