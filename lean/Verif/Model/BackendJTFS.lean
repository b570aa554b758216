import Verif.Model.CoreJTFS
import Verif.Model.Backend2D

/-!
# Backends for joint time-frequency scattering

`kymatio/scattering1d/backend/numpy_backend.py` on stacks of signals.  A stack of shape
`(frequency, time)` is an `Img`; operations on the last axis act on each row.  Signals are lists, as in
`Backend1D`.
-/

namespace Verif

open Finset

/-- `np.stack(arrays, axis=2)` of signals: `ValueError` if there is none or the lengths differ. -/
def stackImg {α : Type} [Zero α] (l : List (List α)) : Py (Img α) :=
  match l with
  | [] => .error .value
  | a :: _ =>
    if l.all (fun b => b.length == a.length) then .ok (Img.tab l.length a.length fun i j => (l.getD i []).getD j 0)
    else .error .value

/-- `swap_time_frequency` (L121-123). -/
def Img.swap {α : Type} [Zero α] (x : Img α) : Img α := Img.tab x.w x.h fun i j => x.px j i

/-- `pad_frequency` (L117-119): zeros on the right of the last axis.  `np.pad` raises `ValueError` for a
negative width. -/
def padFrequencyImg {α : Type} [Zero α] (x : Img α) (p : Int) : Py (Img α) :=
  if p < 0 then .error .value
  else .ok (Img.tab x.h (x.w + p.toNat) fun i j => if j < x.w then x.px i j else 0)

/-- `np.fft.fft` along the last axis. -/
noncomputable def rowDft (x : Img ℂ) : Img ℂ :=
  Img.tab x.h x.w fun i k => ∑ n ∈ range x.w, x.px i n * tw x.w (-((k : Int) * n))

/-- `scipy.fft.ifft` along the last axis. -/
noncomputable def rowIdft (x : Img ℂ) : Img ℂ :=
  Img.tab x.h x.w fun i n => (∑ k ∈ range x.w, x.px i k * tw x.w ((k : Int) * n)) / x.w

/-- `cdgmm` of a stack with a real 1-D filter (backend/numpy_backend.py L64-95). -/
noncomputable def rowCdgmm (A : Img ℂ) (f : List ℝ) : Py (Img ℂ) :=
  if A.w ≠ f.length then .error .runtime
  else .ok (Img.tab A.h A.w fun i j => A.px i j * ((f.getD j 0 : ℝ) : ℂ))

/-- `subsample_fourier(x, 2 ** e)` of a stack.  With `e < 0` the shape `(..., 2**e, ...)` contains a
float and `reshape` raises `TypeError`. -/
noncomputable def rowSubsample (x : Img ℂ) (e : Int) : Py (Img ℂ) :=
  if e < 0 then .error .type
  else if 2 ^ e.toNat * (x.w / 2 ^ e.toNat) ≠ x.w then .error .value
  else .ok (Img.tab x.h (x.w / 2 ^ e.toNat) fun i m =>
    (∑ r ∈ range (2 ^ e.toNat), x.px i (r * (x.w / 2 ^ e.toNat) + m)) / (2 ^ e.toNat : Nat))

/-- `average_global` of a stack (L110-114). -/
noncomputable def rowAverage (x : Img ℝ) : Img ℝ := Img.tab x.h 1 fun i _ => ∑ j ∈ range x.w, x.px i j

/-- `unpad_frequency` (L125-128): the first `1 + n1_max // n1_stride` rows. -/
def unpadFrequencyImg {α : Type} [Zero α] (x : Img α) (n1Max n1Stride : Nat) : Py (Img α) :=
  if n1Stride = 0 then .error .zeroDiv
  else .ok (Img.tab (min x.h (1 + n1Max / n1Stride)) x.w x.px)

/-- `split_frequency_axis` (L130-132): the rows. -/
def splitImg {α : Type} (x : Img α) : List (List α) := tab x.h fun i => tab x.w fun j => x.px i j

/-- The numpy backend. -/
noncomputable abbrev npJ : JBackend where
  R := List ℝ
  C := List ℂ
  F := List ℝ
  RS := Img ℝ
  CS := Img ℂ
  rfft x := .ok (npRfft x)
  ifft x := .ok (idft x)
  irfft x := .ok (npIrfft x)
  modulus x := .ok (npModulus x)
  cdgmm := npCdgmm
  subsample x e := if e < 0 then .error .type else npSubsampleFourier x (2 ^ e.toNat)
  averageGlobal x := .ok (npAverageGlobal x)
  stackR := stackImg
  stackC := stackImg
  swapR x := .ok x.swap
  swapC x := .ok x.swap
  padFrequencyR := padFrequencyImg
  padFrequencyC := padFrequencyImg
  rfftS x := .ok (rowDft (x.map fun r : ℝ => (r : ℂ)))
  cfftS x := .ok (rowDft x)
  ifftS x := .ok (rowIdft x)
  irfftS x := .ok ((rowIdft x).map Complex.re)
  modulusS x := .ok (x.map fun z => ‖z‖)
  cdgmmS := rowCdgmm
  subsampleS := rowSubsample
  averageGlobalS x := .ok (rowAverage x)
  unpadFrequency := unpadFrequencyImg
  split x _ _ := .ok (splitImg x)

/-- The dry backend of `meta()`: every operation returns `None`, and `time_formatting` makes a list of
`None` (timefrequency_scattering.py L377-379). -/
abbrev dryJ (F : Type) : JBackend where
  R := Unit
  C := Unit
  F := F
  RS := Unit
  CS := Unit
  rfft _ := .ok ()
  ifft _ := .ok ()
  irfft _ := .ok ()
  modulus _ := .ok ()
  cdgmm _ _ := .ok ()
  subsample _ _ := .ok ()
  averageGlobal _ := .ok ()
  stackR _ := .ok ()
  stackC _ := .ok ()
  swapR _ := .ok ()
  swapC _ := .ok ()
  padFrequencyR _ _ := .ok ()
  padFrequencyC _ _ := .ok ()
  rfftS _ := .ok ()
  cfftS _ := .ok ()
  ifftS _ := .ok ()
  irfftS _ := .ok ()
  modulusS _ := .ok ()
  cdgmmS _ _ := .ok ()
  subsampleS _ _ := .ok ()
  averageGlobalS _ := .ok ()
  unpadFrequency _ _ _ := .ok ()
  split _ n1Max n1Stride :=
    if n1Stride = 0 then .error .zeroDiv else .ok (List.replicate (1 + n1Max / n1Stride) ())

end Verif
