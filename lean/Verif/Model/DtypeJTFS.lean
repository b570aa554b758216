import Verif.Model.Dtype
import Verif.Model.ObjectJTFS

/-!
# Dtype checks in joint time-frequency scattering, and its TensorFlow frontend

`kymatio/scattering1d/backend/numpy_backend.py` and `tensorflow_backend.py` on signals and stacks that carry their
dtype as a tag (see `Model/Dtype.lean`), `kymatio/scattering1d/frontend/tensorflow_frontend.py` L35-71.
-/

namespace Verif

open Finset

/-- Stacks of shape `(frequency, time)` with a dtype. -/
abbrev TensS := Tens (Img ℝ) (Img ℂ) (Img ℤ)

/-- An operation that accepts every dtype and keeps it. -/
def Tens.each {R C I R' C' I' : Type} (f : R → Py R') (g : C → Py C') (h : I → Py I') : Tens R C I → Py (Tens R' C' I')
  | .real x => do
    let y ← f x
    .ok (.real y)
  | .complex x => do
    let y ← g x
    .ok (.complex y)
  | .int x => do
    let y ← h x
    .ok (.int y)

/-- The entries as integers; used only when the dtype is an integer dtype. -/
def Tens1.toI : Tens1 → List ℤ
  | .int x => x
  | _ => []

/-- The entries as reals; used only when the dtype is not complex. -/
noncomputable def Tens1.toR : Tens1 → List ℝ
  | .real x => x
  | .int x => x.map fun v => (v : ℝ)
  | .complex _ => []

/-- The entries as complex numbers. -/
noncomputable def Tens1.toC : Tens1 → List ℂ
  | .real x => x.map fun v => (v : ℂ)
  | .int x => x.map fun v => (v : ℂ)
  | .complex x => x

def Tens.isInt {R C I : Type} : Tens R C I → Bool
  | .int _ => true
  | _ => false

def Tens.isReal {R C I : Type} : Tens R C I → Bool
  | .real _ => true
  | _ => false

def Tens.isComplex {R C I : Type} : Tens R C I → Bool
  | .complex _ => true
  | _ => false

/-- `np.stack(arrays, axis=2)` (backend/numpy_backend.py L40-42): the dtypes are promoted. -/
noncomputable def npStackT (l : List Tens1) : Py TensS :=
  if l.all Tens.isInt then do
    let y ← stackImg (l.map Tens1.toI)
    .ok (.int y)
  else if l.all (fun t => !t.isComplex) then do
    let y ← stackImg (l.map Tens1.toR)
    .ok (.real y)
  else do
    let y ← stackImg (l.map Tens1.toC)
    .ok (.complex y)

/-- `tf.stack(arrays, axis=2)` (backend/tensorflow_backend.py L8-10): the dtypes must agree. -/
noncomputable def tfStackT (l : List Tens1) : Py TensS :=
  if l.all Tens.isInt then do
    let y ← stackImg (l.map Tens1.toI)
    .ok (.int y)
  else if l.all Tens.isReal then do
    let y ← stackImg (l.map Tens1.toR)
    .ok (.real y)
  else if l.all Tens.isComplex then do
    let y ← stackImg (l.map Tens1.toC)
    .ok (.complex y)
  else .error .value

/-- The backend with dtypes.  `rfft`, `average_global` call `real_check`; `cfft`, `ifft`, `irfft`, `subsample_fourier`
call `complex_check`; `cdgmm` wants a complex first input (the filters are real); `modulus`, `swap_time_frequency`,
`pad_frequency`, `unpad_frequency`, `split_frequency_axis` accept every dtype.  numpy_backend.py L6-32, L86-132.  The
TensorFlow operations (tensorflow_backend.py L8-35, L88-133) are the same functions of the entries, checked in the same
way: `tf.signal.fft`, `tf.signal.ifft`, `tf.math.real`, `tf.math.reduce_sum`, `tf.reduce_mean`, `tf.pad` (which
refuses negative widths), `tf.linalg.matrix_transpose`, `x[:, :, :n, :]`, `tf.split`; `complex64` is taken as exact.
`np.split` and `tf.split` refuse to cut nothing into no pieces; stacks have at least one row, so the case is left out.
What differs between the two is `stack`, the parameter. -/
noncomputable abbrev dtypeJ (stack : List Tens1 → Py TensS) : JBackend where
  R := Tens1
  C := Tens1
  F := List ℝ
  RS := TensS
  CS := TensS
  rfft t := match t with
    | .real x => .ok (.complex (npRfft x))
    | _ => .error .type
  ifft t := match t with
    | .complex z => .ok (.complex (idft z))
    | _ => .error .type
  irfft t := match t with
    | .complex z => .ok (.real (npIrfft z))
    | _ => .error .type
  modulus t := match t with
    | .complex z => .ok (.real (npModulus z))
    | .real x => .ok (.real (x.map fun v => |v|))
    | .int n => .ok (.int (n.map fun v => |v|))
  cdgmm t f := match t with
    | .complex z => do
      let c ← npCdgmm z f
      .ok (.complex c)
    | _ => .error .type
  subsample t e := match t with
    | .complex z => do
      let c ← npJ.subsample z e
      .ok (.complex c)
    | _ => .error .type
  averageGlobal t := match t with
    | .real x => .ok (.real (npAverageGlobal x))
    | _ => .error .type
  stackR := stack
  stackC := stack
  swapR := Tens.each (fun x => .ok x.swap) (fun x => .ok x.swap) (fun x => .ok x.swap)
  swapC := Tens.each (fun x => .ok x.swap) (fun x => .ok x.swap) (fun x => .ok x.swap)
  padFrequencyR t p := t.each (padFrequencyImg · p) (padFrequencyImg · p) (padFrequencyImg · p)
  padFrequencyC t p := t.each (padFrequencyImg · p) (padFrequencyImg · p) (padFrequencyImg · p)
  rfftS t := match t with
    | .real x => .ok (.complex (rowDft (x.map fun r : ℝ => (r : ℂ))))
    | _ => .error .type
  cfftS t := match t with
    | .complex z => .ok (.complex (rowDft z))
    | _ => .error .type
  ifftS t := match t with
    | .complex z => .ok (.complex (rowIdft z))
    | _ => .error .type
  irfftS t := match t with
    | .complex z => .ok (.real ((rowIdft z).map Complex.re))
    | _ => .error .type
  modulusS t := match t with
    | .complex z => .ok (.real (z.map fun v => ‖v‖))
    | .real x => .ok (.real (x.map fun v => |v|))
    | .int n => .ok (.int (n.map fun v => |v|))
  cdgmmS t f := match t with
    | .complex z => do
      let c ← rowCdgmm z f
      .ok (.complex c)
    | _ => .error .type
  subsampleS t e := match t with
    | .complex z => do
      let c ← rowSubsample z e
      .ok (.complex c)
    | _ => .error .type
  averageGlobalS t := match t with
    | .real x => .ok (.real (rowAverage x))
    | _ => .error .type
  unpadFrequency t n s := t.each (unpadFrequencyImg · n s) (unpadFrequencyImg · n s) (unpadFrequencyImg · n s)
  split t _ _ := match t with
    | .real x => .ok ((splitImg x).map .real)
    | .complex x => .ok ((splitImg x).map .complex)
    | .int x => .ok ((splitImg x).map .int)

/-- `x[..., i0:i1]` of a stack. -/
def unpadImg {α : Type} [Zero α] (x : Img α) (i0 i1 : Nat) : Img α :=
  Img.tab x.h (min i1 x.w - i0) fun i j => x.px i (i0 + j)

/-- `pad`, `unpad` of the frontend, from those of the 1-D frontend; `reshape_output` keeps the dtype. -/
noncomputable def dtypeFrontJ (f : FrontOps Tens1) : JFrontOps Tens1 TensS where
  pad := f.pad
  unpad := f.unpad
  unpadS t i0 i1 := match t with
    | .real x => .real (unpadImg x i0 i1)
    | .complex x => .complex (unpadImg x i0 i1)
    | .int x => .int (unpadImg x i0 i1)
  size := f.size
  sizeS t := match t with
    | .real x => (x.h, x.w)
    | .complex x => (x.h, x.w)
    | .int x => (x.h, x.w)

/-- `TimeFrequencyScattering(...)(x)` with the numpy backend on one signal of any dtype.  The final
`np.stack` of `assemble` is that of `FrontJ.stackEq`: it looks at the shapes only. -/
noncomputable def JArgs.runDtype (a : JArgs) (x : Tens1) : Py (JOut Tens1 TensS) := do
  let s ← a.make
  let Q ← parseQ a.Q
  FrontJ.scattering (dtypeJ npStackT) (dtypeFrontJ npDtypeFront) (a.obj s Q.1.toNat) x

/-- `TimeFrequencyScattering(...)(x)` of `kymatio.tensorflow` on one signal (tensorflow_frontend.py L35-71): the shared
constructor and `scattering`, with the TensorFlow backend. -/
noncomputable def JArgs.runTf (a : JArgs) (x : Tens1) : Py (JOut Tens1 TensS) := do
  let s ← a.make
  let Q ← parseQ a.Q
  FrontJ.scattering (dtypeJ tfStackT) (dtypeFrontJ tfFront) (a.obj s Q.1.toNat) x

end Verif
