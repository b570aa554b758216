import Verif.Model.Layout

/-!
# Precision and device of torch tensors

`cdgmm` of the torch backends compares the dtype and the device of its two arguments
(kymatio/backend/torch_backend.py L191-204).  Here every tensor carries both.  The other operations return a tensor of
the dtype and on the device of their argument, except `compute_integrals` of the 3-D backend, which allocates its
result with `torch.zeros(..., device=...)` and so in the default dtype, `float32`.

Floating-point dtypes only: `float32` and `float64`.  Rounding is not modelled, the values are the reals of the other
models.
-/

namespace Verif

/-- `torch.float32` or `torch.float64`. -/
inductive Dty where
  | f32
  | f64
  deriving DecidableEq

/-- `tensor.device`: `type` and `index`. -/
inductive Dev where
  | cpu
  | cuda (index : Nat)
  deriving DecidableEq

/-- Dtype and device of a tensor. -/
structure Kind where
  dty : Dty
  dev : Dev
  deriving DecidableEq

/-- A tensor with its dtype and device. -/
abbrev Knd (α : Type) := α × Kind

/-- An operation that keeps dtype and device. -/
def keepKind {α β : Type} (f : α → Py β) (x : Knd α) : Py (Knd β) := do
  let y ← f x.1
  .ok (y, x.2)

/-- The comparisons of `cdgmm(A, B)` (L191-204), dtype first. -/
def kindCheck (A B : Kind) : Py Unit :=
  if A.dty ≠ B.dty then .error .type
  else match B.dev, A.dev with
    | .cuda i, .cuda j => if j ≠ i then .error .type else .ok ()
    | .cuda _, .cpu => .error .type
    | .cpu, .cuda _ => .error .type
    | .cpu, .cpu => .ok ()

/-- `cdgmm(A, B)`: sizes are compared first (L188-189). -/
def kindMul {α β : Type} (f : α → β → Py α) (A : Knd α) (b : Knd β) : Py (Knd α) := do
  let y ← f A.1 b.1
  kindCheck A.2 b.2
  .ok (y, A.2)

/-- The operations of a torch backend, 1-D or 2-D, on tensors with dtype and device. -/
abbrev kindBackend (B : Backend1D) : Backend1D where
  R := Knd B.R
  C := Knd B.C
  F := Knd B.F
  rfft := keepKind B.rfft
  ifft := keepKind B.ifft
  irfft := keepKind B.irfft
  modulus := keepKind B.modulus
  cdgmm := kindMul B.cdgmm
  subsample x e := keepKind (fun y => B.subsample y e) x

/-- A filter whose tensors are replaced. -/
def Filt.mapF {F G : Type} (h : F → G) (f : Filt F) : Filt G := ⟨f.levels.map h, f.j⟩

/-! ## 1-D -/

/-- Frontend operations. -/
def kindFront {R : Type} (ops : FrontOps R) : FrontOps (Knd R) where
  pad x l r := keepKind (fun y => ops.pad y l r) x
  unpad x i0 i1 := (ops.unpad x.1 i0 i1, x.2)
  averageGlobal x := (ops.averageGlobal x.1, x.2)
  size x := ops.size x.1

/-- The object with its filters replaced.  After `S.to(...)`, `S.cuda()`, `S.double()` all buffers have one dtype and one
device, and `load_filters` reads every filter from them (`C50`). -/
def Obj1D.mapF {F G : Type} (h : F → G) (o : Obj1D F) : Obj1D G :=
  ⟨o.padLeft, o.padRight, o.indStart, o.indEnd, o.phi.mapF h, o.psi1.map (Filt.mapF h), o.psi2.map (Filt.mapF h),
    o.maxOrder, o.log2Stride, o.average, o.oversampling, o.outType⟩

/-- `scattering(x)` of a torch object whose filters have kind `k`. -/
def scatteringKind (B : Backend1D) (ops : FrontOps B.R) (o : Obj1D B.F) (k : Kind) (x : Knd B.R) :
    Py (Out1D (Knd B.R)) :=
  Front1D.scattering (kindBackend B) (kindFront ops) (o.mapF fun f => (f, k)) x

/-! ## 2-D -/

/-- A 2-D filter whose tensors are replaced. -/
def Filt2.mapF {F G : Type} (h : F → G) (f : Filt2 F) : Filt2 G := ⟨f.levels.map h, f.j, f.theta⟩

/-- `pad`, `unpad`. -/
def kindOps2 {R : Type} (ops : Ops2D R) : Ops2D (Knd R) where
  pad := keepKind ops.pad
  unpad x := (ops.unpad x.1, x.2)
  size x := ops.size x.1

/-- `scattering(input)` of a torch 2-D object whose filters have kind `k` (torch_frontend.py L72-110). -/
noncomputable def Args2D.runTorchKind (a : Args2D) (k : Kind) (x : Knd (Img ℝ)) : Py (Out2D (Knd (Img ℝ))) := do
  let s ← a.make
  a.check s x.1.h x.1.w
  Core2D.scattering2d (kindBackend torch2Backend) (kindOps2 (a.torchOps s)) x a.J (s.phi.map fun f => (f, k))
    (s.psi.map (Filt2.mapF fun f => (f, k))) a.maxOrder (decide (a.outType = .array))

/-! ## 3-D -/

/-- The torch 3-D operations (scattering3d/backend/torch_backend.py).  `compute_integrals` (L146-151) copies into a new
`float32` tensor on the device of its argument. -/
abbrev kindBackend3 (B : Backend3D) : Backend3D where
  R := Knd B.R
  C := Knd B.C
  F := Knd B.F
  A := Knd B.A
  rfft := keepKind B.rfft
  ifft := keepKind B.ifft
  cdgmm3d := kindMul B.cdgmm3d
  modulus := keepKind B.modulus
  modulusRotation x m := keepKind (fun y => B.modulusRotation y (m.map Prod.fst)) x
  averaging x := do
    let y ← B.averaging x.1
    .ok (y, ⟨.f32, x.2.dev⟩)

/-- `scattering(input_array)` of a torch 3-D object whose filters have kind `k` (torch_frontend.py L38-79). -/
noncomputable def Args3D.runTorchKind (a : Args3D) (Y : ℤ → ℕ → ℝ → ℝ → ℂ) (k : Kind) (x : Knd (Vol ℝ)) :
    Py (List (List (Knd (List ℝ)))) :=
  if x.1.shape ≠ a.shape then .error .runtime
  else if ¬ a.methodOk then .error .value
  else Core3D.scattering3d (kindBackend3 (torch3Backend a.powers)) x
    ((a.filters Y).map fun fl => fl.map fun fs => fs.map fun f => (view3R f, k)) a.rot a.L a.J a.maxOrder

/-! ## Joint time-frequency scattering -/

/-- `torch.stack` of tensors of one kind; `RuntimeError` if there is none. -/
def kindStack {α β : Type} (f : List α → Py β) (l : List (Knd α)) : Py (Knd β) :=
  match l with
  | [] => .error .runtime
  | p :: _ => do
    let y ← f (l.map Prod.fst)
    .ok (y, p.2)

/-- The torch operations of joint time-frequency scattering. -/
abbrev kindJ (B : JBackend) : JBackend where
  R := Knd B.R
  C := Knd B.C
  F := Knd B.F
  RS := Knd B.RS
  CS := Knd B.CS
  rfft := keepKind B.rfft
  ifft := keepKind B.ifft
  irfft := keepKind B.irfft
  modulus := keepKind B.modulus
  cdgmm := kindMul B.cdgmm
  subsample x e := keepKind (fun y => B.subsample y e) x
  averageGlobal := keepKind B.averageGlobal
  stackR := kindStack B.stackR
  stackC := kindStack B.stackC
  swapR := keepKind B.swapR
  swapC := keepKind B.swapC
  padFrequencyR x p := keepKind (fun y => B.padFrequencyR y p) x
  padFrequencyC x p := keepKind (fun y => B.padFrequencyC y p) x
  rfftS := keepKind B.rfftS
  cfftS := keepKind B.cfftS
  ifftS := keepKind B.ifftS
  irfftS := keepKind B.irfftS
  modulusS := keepKind B.modulusS
  cdgmmS := kindMul B.cdgmmS
  subsampleS x e := keepKind (fun y => B.subsampleS y e) x
  averageGlobalS := keepKind B.averageGlobalS
  unpadFrequency x m s := keepKind (fun y => B.unpadFrequency y m s) x
  split x m s := do
    let l ← B.split x.1 m s
    .ok (l.map fun r => (r, x.2))

/-- Frontend operations. -/
def kindFrontJ {R RS : Type} (ops : JFrontOps R RS) : JFrontOps (Knd R) (Knd RS) where
  pad x l r := keepKind (fun y => ops.pad y l r) x
  unpad x i0 i1 := (ops.unpad x.1 i0 i1, x.2)
  unpadS x i0 i1 := (ops.unpadS x.1 i0 i1, x.2)
  size x := ops.size x.1
  sizeS x := ops.sizeS x.1

/-- A frequential filter whose tensors are replaced. -/
def FiltFr.mapF {F G : Type} (h : F → G) (f : FiltFr F) : FiltFr G := ⟨f.levels.map h, f.j, f.spin⟩

/-- The frequential low-pass with its tensors replaced. -/
def PhiFr.mapF {F G : Type} (h : F → G) (f : PhiFr F) : PhiFr G := ⟨f.levels.map h, f.j, f.N⟩

/-- The object with its filters replaced. -/
def JObj.mapF {F G : Type} (h : F → G) (o : JObj F) : JObj G :=
  ⟨o.padLeft, o.padRight, o.indStart, o.indEnd, o.phi.mapF h, o.psi1.map (Filt.mapF h), o.psi2.map (Filt.mapF h),
    o.log2Stride, o.average, o.phiFr.mapF h, o.psisFr.map (FiltFr.mapF h), o.log2StrideFr, o.averageFr, o.outType,
    o.fmt⟩

/-- The paths of `TimeFrequencyScattering(...)(x)` with torch and filters of kind `k`, before the last reshape and the
assembly of the output, which keep dtype and device. -/
noncomputable def JArgs.pathsTorchKind (a : JArgs) (k : Kind) (x : Knd (List ℝ)) :
    Py (List (JPath (Knd (List ℝ)) (Knd (Img ℝ)))) := do
  let s ← a.make
  let Q ← parseQ a.Q
  FrontJ.unassembled (kindJ torchJ) (kindFrontJ torchFrontJ) ((a.obj s Q.1.toNat).mapF fun f => (f, k)) x

/-- The same paths without kinds: the first steps of `JArgs.runTorch`. -/
noncomputable def JArgs.pathsTorch (a : JArgs) (x : List ℝ) : Py (List (JPath (List ℝ) (Img ℝ))) := do
  let s ← a.make
  let Q ← parseQ a.Q
  FrontJ.unassembled torchJ torchFrontJ (a.obj s Q.1.toNat) x

end Verif
