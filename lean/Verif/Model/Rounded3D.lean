import Verif.Model.Object3D

/-!
# The 3-D transform with inexact arithmetic

As in `Model/Rounded1D` and `Model/Rounded2D`, every array operation of the numpy backend is replaced by an arbitrary
function, standing for what the floating-point routine returns; what is kept of the code is the order in which the
operations are called and the checks of shapes, which involve no rounding.
-/

namespace Verif

open Finset

/-- The array operations of the 3-D numpy backend whose results are rounded: `rfft`, `ifft`, `modulus_rotation` and one
entry of `compute_integrals`, with its cast to `float32` (scattering3d/backend/numpy_backend.py L6-69), and `modulus` and
the product of `cdgmm` (backend/numpy_backend.py L44-95; the second argument is the exact filter, so that the error of the
stored filter counts as an error of the product). -/
structure Rounded3 where
  rfft : Vol ℝ → Vol ℂ
  ifft : Vol ℂ → Vol ℂ
  mul : Vol ℂ → Vol ℂ → Vol ℂ
  modulus : Vol ℂ → Vol ℝ
  modRot : Vol ℂ → Option (Vol ℝ) → Vol ℝ
  integral : ℝ → Vol ℝ → ℝ

/-- The exact operations. -/
noncomputable def Rounded3.exact : Rounded3 where
  rfft x := dft3 (x.map fun r : ℝ => (r : ℂ))
  ifft := idft3
  mul A f := Vol.tab A.shape fun i => A.vx i * f.vx i
  modulus x := x.map fun z => ‖z‖
  modRot := np3ModRot
  integral q x := ∑ i ∈ box x.shape, x.vx i ^ q

/-- The numpy backend with these operations: the checks of `np3Cdgmm` and `np3Averaging`. -/
noncomputable abbrev Rounded3.backend (R : Rounded3) (qs : List ℝ) : Backend3D where
  R := Vol ℝ
  C := Vol ℂ
  F := Vol ℂ
  A := List ℝ
  rfft x := .ok (R.rfft x)
  ifft x := .ok (R.ifft x)
  cdgmm3d A f := if A.shape ≠ f.shape then .error .runtime else .ok (R.mul A f)
  modulus x := .ok (R.modulus x)
  modulusRotation x m := .ok (R.modRot x m)
  averaging x := if qs = [] then .error .value else .ok (qs.map fun q => R.integral q x)

/-- `Args3D.run` with these operations. -/
noncomputable def Args3D.runRounded (a : Args3D) (R : Rounded3) (Y : ℤ → ℕ → ℝ → ℝ → ℂ) (x : Vol ℝ) :
    Py (List (List (List ℝ))) :=
  if x.shape ≠ a.shape then .error .runtime
  else Core3D.scattering3d (R.backend a.powers) x (a.filters Y) a.rot a.L a.J a.maxOrder

end Verif
