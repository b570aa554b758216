import Verif.Model.Rounded1D
import Verif.Model.ObjectJTFS

/-!
# Joint time-frequency scattering with inexact arithmetic

`Model/BackendJTFS` computes with exact reals.  As in `Model/Rounded1D`, every array operation of the numpy backend is
replaced by an arbitrary function.
-/

namespace Verif

/-- The array operations whose results are rounded: those on signals (`sig`) and those on stacks of signals, which act
along the last axis: `rfft`, `cfft`, `ifft`, `irfft` (scattering1d/backend/numpy_backend.py L92-108), `modulus`
(backend/numpy_backend.py L44-62), the product of `cdgmm` (L64-95; the second argument is the exact filter), the mean of
`subsample_fourier` (scattering1d/backend/numpy_backend.py L5-32) and the sums of `average_global` (L110-114).
Stacking, `swap_time_frequency`, `pad_frequency`, `unpad_frequency`, `split_frequency_axis`, `pad` and `unpad` only copy
samples (L117-132). -/
structure RoundedJ where
  sig : Rounded
  rfft : Img ℝ → Img ℂ
  cfft : Img ℂ → Img ℂ
  ifft : Img ℂ → Img ℂ
  irfft : Img ℂ → Img ℝ
  modulus : Img ℂ → Img ℝ
  mul : Img ℂ → List ℝ → Img ℂ
  mean : Img ℂ → Nat → Img ℂ
  sum : Img ℝ → Img ℝ

/-- The exact operations. -/
noncomputable def RoundedJ.exact : RoundedJ where
  sig := .exact
  rfft x := rowDft (x.map fun r : ℝ => (r : ℂ))
  cfft := rowDft
  ifft := rowIdft
  irfft x := (rowIdft x).map Complex.re
  modulus x := x.map fun z => ‖z‖
  mul A f := Img.tab A.h A.w fun i j => A.px i j * ((f.getD j 0 : ℝ) : ℂ)
  mean x k := Img.tab x.h (x.w / k) fun i m => (∑ r ∈ Finset.range k, x.px i (r * (x.w / k) + m)) / k
  sum := rowAverage

/-- The numpy backend with these operations: the checks of `npCdgmm`, `npSubsampleFourier`, `rowCdgmm` and
`rowSubsample`. -/
noncomputable abbrev RoundedJ.backend (R : RoundedJ) : JBackend where
  R := List ℝ
  C := List ℂ
  F := List ℝ
  RS := Img ℝ
  CS := Img ℂ
  rfft x := .ok (R.sig.rfft x)
  ifft x := .ok (R.sig.ifft x)
  irfft x := .ok (R.sig.irfft x)
  modulus x := .ok (R.sig.modulus x)
  cdgmm A f := if A.length ≠ f.length then .error .runtime else .ok (R.sig.mul A f)
  subsample x e := if e < 0 then .error .type
    else if 2 ^ e.toNat = 0 then .error .zeroDiv
    else if 2 ^ e.toNat * (x.length / 2 ^ e.toNat) ≠ x.length then .error .value
    else .ok (R.sig.mean x (2 ^ e.toNat))
  averageGlobal x := .ok [R.sig.sum x]
  stackR := stackImg
  stackC := stackImg
  swapR x := .ok x.swap
  swapC x := .ok x.swap
  padFrequencyR := padFrequencyImg
  padFrequencyC := padFrequencyImg
  rfftS x := .ok (R.rfft x)
  cfftS x := .ok (R.cfft x)
  ifftS x := .ok (R.ifft x)
  irfftS x := .ok (R.irfft x)
  modulusS x := .ok (R.modulus x)
  cdgmmS A f := if A.w ≠ f.length then .error .runtime else .ok (R.mul A f)
  subsampleS x e := if e < 0 then .error .type
    else if 2 ^ e.toNat * (x.w / 2 ^ e.toNat) ≠ x.w then .error .value
    else .ok (R.mean x (2 ^ e.toNat))
  averageGlobalS x := .ok (R.sum x)
  unpadFrequency := unpadFrequencyImg
  split x _ _ := .ok (splitImg x)

/-- `TimeFrequencyScattering(...)(x)` with rounded operations.  The construction of the object is that of
`JArgs.make`. -/
noncomputable def JArgs.runRounded (a : JArgs) (R : RoundedJ) (x : List ℝ) : Py (JOut (List ℝ) (Img ℝ)) := do
  let s ← a.make
  let Q ← parseQ a.Q
  FrontJ.scattering R.backend npFrontJ (a.obj s Q.1.toNat) x

end Verif
