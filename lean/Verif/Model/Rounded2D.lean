import Verif.Model.Object2D

/-!
# The 2-D transform with inexact arithmetic

As in `Model/Rounded1D`, every array operation of the numpy backend is replaced by an arbitrary function, standing for
what the floating-point routine returns; what is kept of the code is the order in which the operations are called and the
checks of shapes, which involve no rounding.
-/

namespace Verif

open Finset

/-- The array operations of the 2-D numpy backend whose results are rounded: `rfft`, `ifft`, `irfft`
(scattering2d/backend/numpy_backend.py L86-99), `modulus` and the product of `cdgmm` (backend/numpy_backend.py L44-95; the
second argument is the exact filter, so that the error of the stored filter counts as an error of the product), and the
mean of `subsample_fourier` (scattering2d/backend/numpy_backend.py L48-76).  `pad` and `unpad` only copy pixels. -/
structure Rounded2 where
  rfft : Img ℝ → Img ℂ
  ifft : Img ℂ → Img ℂ
  irfft : Img ℂ → Img ℝ
  modulus : Img ℂ → Img ℝ
  mul : Img ℂ → Img ℝ → Img ℂ
  mean : Img ℂ → Nat → Img ℂ

/-- The exact operations. -/
noncomputable def Rounded2.exact : Rounded2 where
  rfft := np2Rfft
  ifft := idft2
  irfft := np2Irfft
  modulus := np2Modulus
  mul A f := Img.tab A.h A.w fun i j => A.px i j * (f.px i j : ℂ)
  mean x k := Img.tab (x.h / k) (x.w / k) fun r c =>
    (∑ i ∈ range k, ∑ j ∈ range k, x.px (i * (x.h / k) + r) (j * (x.w / k) + c)) / (k * k)

/-- The numpy backend with these operations: the checks of `np2Cdgmm` and `np2Subsample`. -/
abbrev Rounded2.backend (R : Rounded2) : Backend1D where
  R := Img ℝ
  C := Img ℂ
  F := Img ℝ
  rfft x := .ok (R.rfft x)
  ifft x := .ok (R.ifft x)
  irfft x := .ok (R.irfft x)
  modulus x := .ok (R.modulus x)
  cdgmm A f := if A.h ≠ f.h ∨ A.w ≠ f.w then .error .runtime else .ok (R.mul A f)
  subsample x e := if 2 ^ e = 0 then .error .zeroDiv
    else if 2 ^ e * (x.h / 2 ^ e) ≠ x.h ∨ 2 ^ e * (x.w / 2 ^ e) ≠ x.w then .error .value
    else .ok (R.mean x (2 ^ e))

/-- `Scattering2D(J, (M, N), L, ...)(x)` with rounded operations.  The construction of the object (sizes, filters) is that
of `Args2D.make`. -/
noncomputable def Args2D.runRounded (a : Args2D) (R : Rounded2) (x : Img ℝ) : Py (Out2D (Img ℝ)) := do
  let s ← a.make
  a.check s x.h x.w
  Core2D.scattering2d R.backend (a.ops s) x a.J s.phi s.psi a.maxOrder
    (decide (a.outType = .array))

end Verif
