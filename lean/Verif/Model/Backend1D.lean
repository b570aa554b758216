import Verif.Model.Core1D
import Mathlib.Analysis.SpecialFunctions.Complex.Log
import Mathlib.Analysis.SpecialFunctions.Trigonometric.Basic

/-!
# The numpy backend, `kymatio/scattering1d/backend/numpy_backend.py`

Arrays are lists.  A tensor of shape `(B, 1, N)` is a list of `B` signals; all operations act on
the last axis, so the backend below is for one signal and `batchBackend` lifts it to a list of
signals.  Floats are exact reals.  The dtype checks (`complex_check`, `real_check`) are
enforced by the types `List ℝ`, `List ℂ`.
-/

namespace Verif

open Finset Complex

/-- The array `[f 0, ..., f (n-1)]`. -/
def tab {α : Type} (n : Nat) (f : Nat → α) : List α := (List.range n).map f

/-- `exp(2*pi*i*m/N)`. -/
noncomputable def tw (N : Nat) (m : Int) : ℂ := Complex.exp (2 * Real.pi * I * m / N)

/-- `np.fft.fft` on one signal (numpy_backend.py L86-96). -/
noncomputable def dft (x : List ℂ) : List ℂ :=
  tab x.length fun k => ∑ n ∈ range x.length, x.getD n 0 * tw x.length (-((k : Int) * n))

/-- `scipy.fft.ifft` on one signal (numpy_backend.py L104-108). -/
noncomputable def idft (x : List ℂ) : List ℂ :=
  tab x.length fun n => (∑ k ∈ range x.length, x.getD k 0 * tw x.length ((k : Int) * n)) / x.length

/-- `rfft` (numpy_backend.py L92-96): the full complex FFT of a real signal. -/
noncomputable def npRfft (x : List ℝ) : List ℂ := dft (x.map fun r : ℝ => (r : ℂ))

/-- `irfft` (numpy_backend.py L98-102): `ifft(x).real`. -/
noncomputable def npIrfft (x : List ℂ) : List ℝ := (idft x).map Complex.re

/-- `modulus` (backend/numpy_backend.py L44-62). -/
noncomputable def npModulus (x : List ℂ) : List ℝ := x.map fun z => ‖z‖

/-- `cdgmm` (backend/numpy_backend.py L64-95) with a real 1-D filter: shape check, then pointwise
product. -/
noncomputable def npCdgmm (A : List ℂ) (f : List ℝ) : Py (List ℂ) :=
  if A.length ≠ f.length then .error .runtime
  else .ok (List.zipWith (fun a (b : ℝ) => a * (b : ℂ)) A f)

/-- `subsample_fourier` (numpy_backend.py L5-32): `x.reshape(k, N // k).mean(axis=0)`.
`N // k` raises `ZeroDivisionError` for `k = 0`; `reshape` raises `ValueError` when
`k * (N // k) ≠ N`. -/
noncomputable def npSubsampleFourier (x : List ℂ) (k : Nat) : Py (List ℂ) :=
  if k = 0 then .error .zeroDiv
  else if k * (x.length / k) ≠ x.length then .error .value
  else .ok (tab (x.length / k) fun m =>
    (∑ i ∈ range k, x.getD (i * (x.length / k) + m) 0) / k)

/-- `np.pad(x, (l, r), mode='reflect')` on one signal after the check of
numpy_backend.py L56-58.  The input index read at output position `i` is `|i - l|` up to the last
sample and `2(N-1) - (i-l)` after it, valid because both pads are below `N`. -/
def reflectIndex (N l i : Nat) : Nat :=
  if i < l then l - i
  else if i - l < N then i - l
  else 2 * (N - 1) - (i - l)

/-- `pad` (numpy_backend.py L34-65), default mode. -/
def npPad {α : Type} [Zero α] (x : List α) (l r : Nat) : Py (List α) :=
  if l ≥ x.length ∨ r ≥ x.length then .error .value
  else .ok (tab (l + x.length + r) fun i => x.getD (reflectIndex x.length l i) 0)

/-- `unpad` (numpy_backend.py L67-84): the slice `x[i0:i1]`, `0 ≤ i0`, `0 ≤ i1`. -/
def npUnpad {α : Type} (x : List α) (i0 i1 : Nat) : List α := (x.take i1).drop i0

/-- `average_global` (numpy_backend.py L110-114): sum over the last axis, kept with length one. -/
noncomputable def npAverageGlobal (x : List ℝ) : List ℝ := [x.sum]

/-- The numpy backend acting on one signal. -/
noncomputable abbrev npBackend : Backend1D where
  R := List ℝ
  C := List ℂ
  F := List ℝ
  rfft x := .ok (npRfft x)
  ifft x := .ok (idft x)
  irfft x := .ok (npIrfft x)
  modulus x := .ok (npModulus x)
  cdgmm := npCdgmm
  subsample x e := npSubsampleFourier x (2 ^ e)

/-- The dry backend used by `meta()` (frontend/base_frontend.py, `_DryBackend`): every operation
returns `None`. -/
abbrev dryBackend (F : Type) : Backend1D where
  R := Unit
  C := Unit
  F := F
  rfft _ := .ok ()
  ifft _ := .ok ()
  irfft _ := .ok ()
  modulus _ := .ok ()
  cdgmm _ _ := .ok ()
  subsample _ _ := .ok ()

end Verif
