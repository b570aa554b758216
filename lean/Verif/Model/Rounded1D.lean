import Verif.Model.Object1D

/-!
# The 1-D transform with inexact arithmetic

`Model/Backend1D` computes with exact reals.  Here every array operation of the numpy backend is replaced by an
arbitrary function, standing for what the floating-point routine returns; what is kept of the code is the order in which
the operations are called and the checks of shapes, which involve no rounding.
-/

namespace Verif

/-- The array operations of the numpy backend whose results are rounded: `rfft`, `ifft`, `irfft`
(scattering1d/backend/numpy_backend.py L92-108), `modulus` (backend/numpy_backend.py L44-62), the product of `cdgmm`
(L64-95; the second argument is the exact filter, so that the error of the stored filter counts as an error of the
product), `x.reshape(k, N // k).mean(axis=0)` of `subsample_fourier` (scattering1d/backend/numpy_backend.py L5-32), and
the sum of `average_global` (L110-114).  `pad` and `unpad` only copy samples. -/
structure Rounded where
  rfft : List ℝ → List ℂ
  ifft : List ℂ → List ℂ
  irfft : List ℂ → List ℝ
  modulus : List ℂ → List ℝ
  mul : List ℂ → List ℝ → List ℂ
  mean : List ℂ → Nat → List ℂ
  sum : List ℝ → ℝ

/-- The exact operations. -/
noncomputable def Rounded.exact : Rounded where
  rfft := npRfft
  ifft := idft
  irfft := npIrfft
  modulus := npModulus
  mul A f := List.zipWith (fun a (b : ℝ) => a * (b : ℂ)) A f
  mean x k := tab (x.length / k) fun m => (∑ i ∈ Finset.range k, x.getD (i * (x.length / k) + m) 0) / k
  sum := List.sum

/-- The numpy backend with these operations: the checks of `npCdgmm` and `npSubsampleFourier`. -/
abbrev Rounded.backend (R : Rounded) : Backend1D where
  R := List ℝ
  C := List ℂ
  F := List ℝ
  rfft x := .ok (R.rfft x)
  ifft x := .ok (R.ifft x)
  irfft x := .ok (R.irfft x)
  modulus x := .ok (R.modulus x)
  cdgmm A f := if A.length ≠ f.length then .error .runtime else .ok (R.mul A f)
  subsample x e := if 2 ^ e = 0 then .error .zeroDiv
    else if 2 ^ e * (x.length / 2 ^ e) ≠ x.length then .error .value
    else .ok (R.mean x (2 ^ e))

/-- `npFront` with the rounded sum. -/
noncomputable def Rounded.front (R : Rounded) : FrontOps (List ℝ) where
  pad := npPad
  unpad x i0 i1 := npUnpad x i0 i1
  averageGlobal x := [R.sum x]
  size := List.length

/-- `Scattering1D(J, shape, Q, ...)(x)` with rounded operations.  The construction of the object (lengths, scales,
filters) is that of `Args1D.make`. -/
noncomputable def Args1D.runRounded (a : Args1D) (R : Rounded) (x : List ℝ) : Py (Out1D (List ℝ)) := do
  let s ← a.make
  Front1D.scattering R.backend R.front (a.obj s) x

end Verif
