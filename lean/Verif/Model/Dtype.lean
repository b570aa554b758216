import Verif.Model.Object1D
import Verif.Model.Torch2D
import Verif.Model.Object3D

/-!
# Dtype checks, and the TensorFlow frontends

`real_check`, `complex_check` and `cdgmm` of `kymatio/backend/numpy_backend.py` (L22-38, L84-95) compare dtypes at run
time.  In the models of the numpy backends the dtype is a type; here it is a tag carried by the tensor, and every
operation inspects the tag.  The TensorFlow backends (`kymatio/*/backend/tensorflow_backend.py`) inherit the checks.
-/

namespace Verif

open Finset

/-- A tensor with its dtype: `float32`/`float64`, `complex64`/`complex128`, or an integer dtype. -/
inductive Tens (R C I : Type) where
  | real (x : R)
  | complex (z : C)
  | int (n : I)

/-- A backend with dtype tags.  `rfft` calls `real_check`; `ifft`, `irfft` and `subsample_fourier` call
`complex_check`; `cdgmm` raises `TypeError` unless its first input is complex (the filters are real); `modulus` is
`np.abs`/`tf.abs`, which accepts every dtype. -/
abbrev dtypeBackend (B : Backend1D) (I : Type) (absR : B.R → B.R) (absI : I → I) : Backend1D where
  R := Tens B.R B.C I
  C := Tens B.R B.C I
  F := B.F
  rfft t := match t with
    | .real x => do
      let c ← B.rfft x
      .ok (.complex c)
    | _ => .error .type
  ifft t := match t with
    | .complex z => do
      let c ← B.ifft z
      .ok (.complex c)
    | _ => .error .type
  irfft t := match t with
    | .complex z => do
      let r ← B.irfft z
      .ok (.real r)
    | _ => .error .type
  modulus t := match t with
    | .complex z => do
      let r ← B.modulus z
      .ok (.real r)
    | .real x => .ok (.real (absR x))
    | .int n => .ok (.int (absI n))
  cdgmm t f := match t with
    | .complex z => do
      let c ← B.cdgmm z f
      .ok (.complex c)
    | _ => .error .type
  subsample t e := match t with
    | .complex z => do
      let c ← B.subsample z e
      .ok (.complex c)
    | _ => .error .type

/-! ## One dimension -/

/-- One-dimensional tensors. -/
abbrev Tens1 := Tens (List ℝ) (List ℂ) (List ℤ)

/-- The numpy backend, scattering1d/backend/numpy_backend.py, with dtypes. -/
noncomputable abbrev npDtype : Backend1D := dtypeBackend npBackend (List ℤ) (List.map fun v => |v|) (List.map fun v => |v|)

/-- `pad`, `unpad` (numpy_backend.py L34-84) work on every dtype.  `average_global` (L110-114) calls `real_check`; the
type of `FrontOps.averageGlobal` leaves no room for an exception, so other dtypes are returned unchanged here.  The
case is not reached: what is averaged is the result of `irfft` or `modulus` of a complex tensor. -/
noncomputable def npDtypeFront : FrontOps Tens1 where
  pad t l r := match t with
    | .real x => do
      let y ← npPad x l r
      .ok (.real y)
    | .complex x => do
      let y ← npPad x l r
      .ok (.complex y)
    | .int x => do
      let y ← npPad x l r
      .ok (.int y)
  unpad t i0 i1 := match t with
    | .real x => .real (npUnpad x i0 i1)
    | .complex x => .complex (npUnpad x i0 i1)
    | .int x => .int (npUnpad x i0 i1)
  averageGlobal t := match t with
    | .real x => .real (npAverageGlobal x)
    | t => t
  size t := match t with
    | .real x => x.length
    | .complex x => x.length
    | .int x => x.length

/-- `Scattering1D(...)(x)` with the numpy backend, dtypes included. -/
noncomputable def Args1D.runDtype (a : Args1D) (x : Tens1) : Py (Out1D Tens1) := do
  let s ← a.make
  Front1D.scattering npDtype npDtypeFront (a.obj s) x

/-- `tf.pad(x, [[l, r]], mode='reflect')` after the check of tensorflow_backend.py (1-D) L60-62. -/
def tfPad {α : Type} [Zero α] (x : List α) (l r : Nat) : Py (List α) :=
  if l ≥ x.length ∨ r ≥ x.length then .error .value
  else .ok (((x.drop 1).take l).reverse ++ x ++ ((x.dropLast).drop (x.length - 1 - r)).reverse)

/-- The frontend operations of the TensorFlow backend (scattering1d/backend/tensorflow_backend.py L37-86,
L113-117). -/
noncomputable def tfFront : FrontOps Tens1 where
  pad t l r := match t with
    | .real x => do
      let y ← tfPad x l r
      .ok (.real y)
    | .complex x => do
      let y ← tfPad x l r
      .ok (.complex y)
    | .int x => do
      let y ← tfPad x l r
      .ok (.int y)
  unpad t i0 i1 := match t with
    | .real x => .real (npUnpad x i0 i1)
    | .complex x => .complex (npUnpad x i0 i1)
    | .int x => .int (npUnpad x i0 i1)
  averageGlobal t := match t with
    | .real x => .real (npAverageGlobal x)
    | t => t
  size t := match t with
    | .real x => x.length
    | .complex x => x.length
    | .int x => x.length

/-- `subsample_fourier` of the TensorFlow backend (tensorflow_backend.py L8-35): reshape to `(k, N // k)`, mean over the
first of the two axes. -/
noncomputable def tfSubsample (x : List ℂ) (k : Nat) : Py (List ℂ) :=
  if k = 0 then .error .zeroDiv
  else if k * (x.length / k) ≠ x.length then .error .value
  else .ok (tab (x.length / k) fun m => (∑ i ∈ range k, x.getD (i * (x.length / k) + m) 0) / k)

/-- The TensorFlow operations before the dtype checks: `tf.signal.fft(tf.cast(x, complex64))`, `tf.signal.ifft`,
`tf.math.real(tf.signal.ifft(x))`, `tf.abs`, the inherited `cdgmm` and `subsample_fourier`.  `complex64` is taken as
exact. -/
noncomputable abbrev tfRaw : Backend1D where
  R := List ℝ
  C := List ℂ
  F := List ℝ
  rfft x := .ok (dft (x.map fun r : ℝ => (r : ℂ)))
  ifft x := .ok (idft x)
  irfft x := .ok ((idft x).map Complex.re)
  modulus x := .ok (x.map fun z => ‖z‖)
  cdgmm := npCdgmm
  subsample x e := tfSubsample x (2 ^ e)

/-- The TensorFlow backend. -/
noncomputable abbrev tfDtype : Backend1D := dtypeBackend tfRaw (List ℤ) (List.map fun v => |v|) (List.map fun v => |v|)

/-- `Scattering1D(...)(x)` of `kymatio.tensorflow` (scattering1d/frontend/tensorflow_frontend.py L8-29): the shared
constructor and `scattering`, with the TensorFlow backend. -/
noncomputable def Args1D.runTf (a : Args1D) (x : Tens1) : Py (Out1D Tens1) := do
  let s ← a.make
  Front1D.scattering tfDtype tfFront (a.obj s) x

/-! ## Two dimensions -/

/-- Images with a dtype. -/
abbrev Tens2 := Tens (Img ℝ) (Img ℂ) (Img ℤ)

/-- The numpy backend with dtypes; the TensorFlow operations (scattering2d/backend/tensorflow_backend.py L66-113) are
the same functions: `fft2d`, `ifft2d`, real part, `abs`, mean over the two axes of length `k`. -/
noncomputable abbrev npDtype2 : Backend1D :=
  dtypeBackend np2Backend (Img ℤ) (fun x => x.map fun v => |v|) (fun x => x.map fun v => |v|)

/-- The shape of an image. -/
def Tens2.size : Tens2 → Nat × Nat
  | .real x => (x.h, x.w)
  | .complex x => (x.h, x.w)
  | .int x => (x.h, x.w)

/-- `in_[..., 1:-1, 1:-1]`. -/
def Tens2.unpad : Tens2 → Tens2
  | .real x => .real (np2Unpad x)
  | .complex x => .complex (np2Unpad x)
  | .int x => .int (np2Unpad x)

/-- `self.pad` of the numpy object. -/
def Args2D.padDtype (a : Args2D) (s : Sc2D) (t : Tens2) : Py Tens2 :=
  if a.prePad then .ok t
  else
    let p1 := (s.Mp - a.M) / 2
    let p2 := (s.Mp - a.M + 1) / 2
    let p3 := (s.Np - a.N) / 2
    let p4 := (s.Np - a.N + 1) / 2
    match t with
    | .real x => do
      let y ← np2Pad p1 p2 p3 p4 x
      .ok (.real y)
    | .complex x => do
      let y ← np2Pad p1 p2 p3 p4 x
      .ok (.complex y)
    | .int x => do
      let y ← np2Pad p1 p2 p3 p4 x
      .ok (.int y)

/-- `Scattering2D(...)(x)` with the numpy backend, dtypes included. -/
noncomputable def Args2D.runDtype (a : Args2D) (x : Tens2) : Py (Out2D Tens2) := do
  let s ← a.make
  a.check s x.size.1 x.size.2
  Core2D.scattering2d npDtype2 ⟨a.padDtype s, Tens2.unpad, Tens2.size⟩ x a.J s.phi s.psi a.maxOrder
    (decide (a.outType = .array))

/-- `tf.cast(x, tf.complex64)`. -/
noncomputable def Tens2.castComplex : Tens2 → Tens2
  | .real x => .complex (x.map fun v : ℝ => (v : ℂ))
  | .complex z => .complex z
  | .int n => .complex (n.map fun v : ℤ => (v : ℂ))

/-- `self.pad` of the TensorFlow object: `Pad` of tensorflow_backend.py L6-48 (the same sequence as the torch one), or
with `pre_pad` the cast to complex of tensorflow_frontend.py L16-18. -/
noncomputable def Args2D.padTf (a : Args2D) (s : Sc2D) (t : Tens2) : Py Tens2 :=
  if a.prePad then .ok t.castComplex
  else
    let p1 := (s.Mp - a.M) / 2
    let p2 := (s.Mp - a.M + 1) / 2
    let p3 := (s.Np - a.N) / 2
    let p4 := (s.Np - a.N + 1) / 2
    match t with
    | .real x => do
      let y ← torch2Pad p1 p2 p3 p4 a.M a.N x
      .ok (.real y)
    | .complex x => do
      let y ← torch2Pad p1 p2 p3 p4 a.M a.N x
      .ok (.complex y)
    | .int x => do
      let y ← torch2Pad p1 p2 p3 p4 a.M a.N x
      .ok (.int y)

/-- `Scattering2D(...)(x)` of `kymatio.tensorflow` (scattering2d/frontend/tensorflow_frontend.py L7-66) on one image. -/
noncomputable def Args2D.runTf (a : Args2D) (x : Tens2) : Py (Out2D Tens2) := do
  let s ← a.make
  a.check s x.size.1 x.size.2
  Core2D.scattering2d npDtype2 ⟨a.padTf s, Tens2.unpad, Tens2.size⟩ x a.J s.phi s.psi a.maxOrder
    (decide (a.outType = .array))

/-! ## Three dimensions -/

/-- Volumes with a dtype. -/
abbrev Tens3 := Tens (Vol ℝ) (Vol ℂ) (Vol ℤ)

/-- The shape of a volume. -/
def Tens3.shape : Tens3 → Idx3
  | .real x => x.shape
  | .complex x => x.shape
  | .int x => x.shape

/-- `|x|` on any dtype; integers and reals keep their dtype. -/
noncomputable def Tens3.abs : Tens3 → Tens3
  | .real x => .real (x.map fun v => |v|)
  | .complex z => .real (z.map fun v => ‖v‖)
  | .int n => .int (n.map fun v => |v|)

/-- The complex volume with the same values. -/
noncomputable def Tens3.toComplex : Tens3 → Vol ℂ
  | .real x => x.map fun v : ℝ => (v : ℂ)
  | .complex z => z
  | .int n => n.map fun v : ℤ => (v : ℂ)

/-- `modulus_rotation(x, module)`: no dtype check, `|x|` of any dtype.  A `module` that is not real does not occur (it is
always a previous result) and is reported as `TypeError`. -/
noncomputable def modRotDtype (t : Tens3) (m : Option Tens3) : Py Tens3 :=
  match m with
  | none => .ok (.real (np3ModRot t.toComplex none))
  | some (.real m) => .ok (.real (np3ModRot t.toComplex (some m)))
  | some _ => .error .type

/-- `compute_integrals`: no dtype check; only real volumes occur, the others are reported as `TypeError`. -/
noncomputable def averagingDtype (qs : List ℝ) (t : Tens3) : Py (List ℝ) :=
  match t with
  | .real x => np3Averaging qs x
  | _ => .error .type

/-- The numpy backend, scattering3d/backend/numpy_backend.py, with dtypes. -/
noncomputable abbrev npDtype3 (qs : List ℝ) : Backend3D where
  R := Tens3
  C := Tens3
  F := Vol ℂ
  A := List ℝ
  rfft t := match t with
    | .real x => .ok (.complex (dft3 (x.map fun r : ℝ => (r : ℂ))))
    | _ => .error .type
  ifft t := match t with
    | .complex z => .ok (.complex (idft3 z))
    | _ => .error .type
  cdgmm3d t f := match t with
    | .complex z => do
      let c ← np3Cdgmm z f
      .ok (.complex c)
    | _ => .error .type
  modulus t := .ok t.abs
  modulusRotation := modRotDtype
  averaging := averagingDtype qs

/-- `cdgmm3d` of the TensorFlow backend (scattering3d/backend/tensorflow_backend.py L70-96): real and imaginary parts
computed apart and recombined; no dtype check.  Shapes that differ are refused here; TensorFlow would broadcast an
axis of length one, but the filters always have the shape of the object, which the input was checked to have. -/
noncomputable def tf3Cdgmm (A f : Vol ℂ) : Py (Vol ℂ) :=
  if A.shape ≠ f.shape then .error .runtime
  else
    let Cr : Vol ℂ := Vol.tab A.shape fun i => (((A.vx i).re * (f.vx i).re - (A.vx i).im * (f.vx i).im : ℝ) : ℂ)
    let Ci : Vol ℂ := Vol.tab A.shape fun i => (((A.vx i).re * (f.vx i).im + (A.vx i).im * (f.vx i).re : ℝ) : ℂ)
    .ok (Vol.tab A.shape fun i => Cr.vx i + 1 * Complex.I * Ci.vx i)

/-- `modulus_rotation` of the TensorFlow backend (L13-37). -/
noncomputable def tf3ModRot (x : Vol ℂ) : Option (Vol ℝ) → Vol ℝ
  | none => Vol.tab x.shape fun i => Real.sqrt (‖x.vx i‖ ^ 2)
  | some m => Vol.tab x.shape fun i => Real.sqrt (m.vx i ^ 2 + ‖x.vx i‖ ^ 2)

/-- The TensorFlow backend, scattering3d/backend/tensorflow_backend.py; `tf.stack([])` raises `ValueError`. -/
noncomputable abbrev tfDtype3 (qs : List ℝ) : Backend3D where
  R := Tens3
  C := Tens3
  F := Vol ℂ
  A := List ℝ
  rfft t := match t with
    | .real x => .ok (.complex (dft3 (x.map fun r : ℝ => (r : ℂ))))
    | _ => .error .type
  ifft t := match t with
    | .complex z => .ok (.complex (idft3 z))
    | _ => .error .type
  cdgmm3d t f := do
    let c ← tf3Cdgmm t.toComplex f
    .ok (.complex c)
  modulus t := .ok t.abs
  modulusRotation t m := match m with
    | none => .ok (.real (tf3ModRot t.toComplex none))
    | some (.real m) => .ok (.real (tf3ModRot t.toComplex (some m)))
    | some _ => .error .type
  averaging := averagingDtype qs

/-- `scattering` of the numpy frontend on one volume, dtypes included. -/
noncomputable def Args3D.runDtype (a : Args3D) (Y : ℤ → ℕ → ℝ → ℝ → ℂ) (x : Tens3) : Py (List (List (List ℝ))) :=
  if x.shape ≠ a.shape then .error .runtime
  else Core3D.scattering3d (npDtype3 a.powers) x (a.filters Y) a.rot a.L a.J a.maxOrder

/-- `scattering` of the TensorFlow frontend (scattering3d/frontend/tensorflow_frontend.py L28-72) on one volume; `method`
is checked. -/
noncomputable def Args3D.runTf (a : Args3D) (Y : ℤ → ℕ → ℝ → ℝ → ℂ) (x : Tens3) : Py (List (List (List ℝ))) :=
  if x.shape ≠ a.shape then .error .runtime
  else if ¬ a.methodOk then .error .value
  else Core3D.scattering3d (tfDtype3 a.powers) x (a.filters Y) a.rot a.L a.J a.maxOrder

end Verif
