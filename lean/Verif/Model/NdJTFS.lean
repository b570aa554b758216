import Verif.Model.NdArray
import Verif.Model.ObjectJTFS

/-!
# Joint time-frequency scattering on arrays with several axes

`kymatio/scattering1d/backend/numpy_backend.py` and `TimeFrequencyScatteringBase.scattering` on an array of shape
`batch_shape + (N,)`: inside `scattering`, signals have shape `(B, 1, time)` and stacks `(B, 1, frequency, time)`;
`split_frequency_axis` makes signals of shape `(B, 1, 1, time)`.
-/

namespace Verif

namespace Nd

variable {α : Type}

/-- `x.shape[:-2]`. -/
def lead2 (x : Nd α) : List Nat := x.shape.dropLast.dropLast

/-- `x.shape[-2]`. -/
def pen (x : Nd α) : Nat := x.shape.dropLast.getLast?.getD 1

/-- `np.moveaxis(x, source=(-1, -2), destination=(-2, -1))`. -/
def swap2 [Zero α] (x : Nd α) : Nd α :=
  ⟨x.lead2 ++ [x.last, x.pen], (List.range x.lead2.prod).flatMap fun o => (List.range x.last).flatMap fun j =>
    tab x.pen fun i => x.data.getD (o * (x.pen * x.last) + (i * x.last + j)) 0⟩

/-- `x[..., :n, :]`. -/
def take2 (n : Nat) (x : Nd α) : Nd α :=
  ⟨x.lead2 ++ [min x.pen n, x.last], (List.range x.lead2.prod).flatMap fun o =>
    (block (x.pen * x.last) o x.data).take (min x.pen n * x.last)⟩

/-- `np.split(x, indices_or_sections=x.shape[-2], axis=-2)` when that axis is not empty. -/
def split2 (x : Nd α) : List (Nd α) :=
  tab x.pen fun i => ⟨x.lead2 ++ [1, x.last], (List.range x.lead2.prod).flatMap fun o =>
    block x.last (o * x.pen + i) x.data⟩

/-- `np.stack(arrays, axis)`: `ValueError` if there is nothing to stack, if the shapes differ, or if there is no such
axis in the result. -/
def stack (l : List (Nd α)) (axis : Int) : Py (Nd α) :=
  match l with
  | [] => .error .value
  | a :: _ =>
    if l.all (fun b => b.shape == a.shape) then
      let ax := if axis < 0 then axis + (a.shape.length + 1) else axis
      if ax < 0 ∨ ax > a.shape.length then .error .value
      else .ok ⟨a.shape.take ax.toNat ++ l.length :: a.shape.drop ax.toNat,
        (List.range (a.shape.take ax.toNat).prod).flatMap fun o =>
          l.flatMap fun b => block (a.shape.drop ax.toNat).prod o b.data⟩
    else .error .value

/-- `pad_frequency` (numpy_backend.py L117-119): zeros at the end of the last axis; `np.pad` refuses a negative
width. -/
def padFrequency [Zero α] (x : Nd α) (p : Int) : Py (Nd α) :=
  if p < 0 then .error .value
  else .ok (x.mapLast (x.last + p.toNat) fun a => a ++ List.replicate p.toNat 0)

/-- `unpad_frequency` (L125-128). -/
def unpadFrequency (x : Nd α) (n1Max n1Stride : Nat) : Py (Nd α) :=
  if n1Stride = 0 then .error .zeroDiv else .ok (x.take2 (1 + n1Max / n1Stride))

/-- `split_frequency_axis` (L130-132).  `np.split` into zero sections divides by zero. -/
def splitFrequency (x : Nd α) : Py (List (Nd α)) := if x.pen = 0 then .error .zeroDiv else .ok x.split2

/-- `subsample_fourier(x, 2 ** e)` (L6-32); with `e < 0` the shape contains a float. -/
noncomputable def subsampleI (x : Nd ℂ) (e : Int) : Py (Nd ℂ) :=
  if e < 0 then .error .type else ndBackend.subsample x e.toNat

end Nd

/-- The numpy backend on arrays.  `swap_time_frequency` is L121-123, `average_global` L110-114; the other functions
are those of `ndBackend`.  `stack` is called with `dim=2` (timefrequency_scattering.py L157, L184). -/
noncomputable abbrev ndJ : JBackend where
  R := Nd ℝ
  C := Nd ℂ
  F := List ℝ
  RS := Nd ℝ
  CS := Nd ℂ
  rfft := ndBackend.rfft
  ifft := ndBackend.ifft
  irfft := ndBackend.irfft
  modulus := ndBackend.modulus
  cdgmm := ndBackend.cdgmm
  subsample := Nd.subsampleI
  averageGlobal x := .ok (NdFront.averageGlobal x)
  stackR l := Nd.stack l 2
  stackC l := Nd.stack l 2
  swapR x := .ok x.swap2
  swapC x := .ok x.swap2
  padFrequencyR := Nd.padFrequency
  padFrequencyC := Nd.padFrequency
  rfftS := ndBackend.rfft
  cfftS x := .ok (x.mapLast x.last dft)
  ifftS := ndBackend.ifft
  irfftS := ndBackend.irfft
  modulusS := ndBackend.modulus
  cdgmmS := ndBackend.cdgmm
  subsampleS := Nd.subsampleI
  averageGlobalS x := .ok (NdFront.averageGlobal x)
  unpadFrequency := Nd.unpadFrequency
  split x _ _ := Nd.splitFrequency x

/-- `pad` and `unpad` on arrays; both act on the last axis. -/
noncomputable def ndFrontJ : JFrontOps (Nd ℝ) (Nd ℝ) where
  pad := NdFront.pad
  unpad := NdFront.unpad
  unpadS := NdFront.unpad
  size := Nd.last
  sizeS x := (x.pen, x.last)

namespace NdFrontJ

/-- The array in a coefficient. -/
def arr : JCoef (Nd ℝ) (Nd ℝ) → Nd ℝ
  | .sig x => x
  | .stk x => x

/-- `reshape_output` of a coefficient. -/
def reshapeCoef (batchShape : List Nat) (nKept : Nat) : JCoef (Nd ℝ) (Nd ℝ) → Py (JCoef (Nd ℝ) (Nd ℝ))
  | .sig x => do
    let y ← NdFront.reshapeOutput x batchShape nKept
    .ok (.sig y)
  | .stk x => do
    let y ← NdFront.reshapeOutput x batchShape nKept
    .ok (.stk y)

/-- Unpadding and reshaping of one path (base_frontend.py L600-633): one axis is kept at order zero,
`1 + (format == "joint")` otherwise. -/
noncomputable def post (o : JObj (List ℝ)) (ls : Nat) (batchShape : List Nat) (p : JPath (Nd ℝ) (Nd ℝ)) :
    Py (JPath (Nd ℝ) (Nd ℝ)) := do
  let p ← FrontJ.post ndFrontJ o ls p
  let c ← reshapeCoef batchShape (if p.n.length = 0 then 1 else if o.fmt = .joint then 2 else 1) p.coef
  .ok { p with coef := c }

/-- What `scattering` returns on arrays. -/
inductive Out where
  | array (S : Nd ℝ)
  | list (paths : List (JPath (Nd ℝ) (Nd ℝ)))
  | dict (items : List (List Int × JCoef (Nd ℝ) (Nd ℝ)))

/-- Assembly of the output (L635-648). -/
def assemble (o : JObj (List ℝ)) (S : List (JPath (Nd ℝ) (Nd ℝ))) : Py Out :=
  match o.outType, o.fmt with
  | .array, .joint => do
    let A ← Nd.stack (S.tail.map fun p => arr p.coef) (-3)
    .ok (.array A)
  | .array, _ => do
    let A ← Nd.stack (S.map fun p => arr p.coef) (-2)
    .ok (.array A)
  | .dict, _ => .ok (.dict (S.foldl (fun d p => FrontJ.dictInsertI d p.n p.coef) []))
  | _, _ => .ok (.list S)

/-- `scattering(x)` (L581-648) on an array of any shape. -/
noncomputable def scattering (o : JObj (List ℝ)) (x : Nd ℝ) : Py Out := do
  FrontJ.checkRuntimeArgs o
  if x.shape = [] then .error .value
  else do
    let batchShape := x.shape.dropLast
    let x ← NdFront.reshapeInput x [x.last]
    let U0 ← NdFront.pad x o.padLeft o.padRight
    let ls ← o.log2Stride
    let lsFr ← o.log2StrideFr
    let S ← FrontJ.paths ndJ o ls.toNat lsFr.toNat U0
    let S' ← S.mapM (post o ls.toNat batchShape)
    assemble o S'

/-- `self.scattering(x)` where an array is expected. -/
noncomputable def scatterArray (o : JObj (List ℝ)) (x : Nd ℝ) : Py (Nd ℝ) := do
  let r ← scattering o x
  match r with
  | .array S => .ok S
  | _ => .error .attribute

end NdFrontJ

/-- `TimeFrequencyScattering(...)(x)` with the numpy backend on an array. -/
noncomputable def JArgs.runNd (a : JArgs) (x : Nd ℝ) : Py NdFrontJ.Out := do
  let s ← a.make
  let Q ← parseQ a.Q
  NdFrontJ.scattering (a.obj s Q.1.toNat) x

/-- `TimeFrequencyScatteringTransformer(...).predict(x)` (scattering1d/frontend/sklearn_frontend.py L12-15):
`self.shape` is `(N,)`. -/
noncomputable def JArgs.predict (a : JArgs) (x : Nd ℝ) : Py (Nd ℝ) := do
  let s ← a.make
  let Q ← parseQ a.Q
  sklearnPredict [s.base.built.Ninput] (NdFrontJ.scatterArray (a.obj s Q.1.toNat)) x

end Verif
