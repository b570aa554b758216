import Verif.Model.TorchJTFS
import Verif.Model.Object3D

/-!
# Memory layout of torch tensors

The torch backends refuse tensors that are not contiguous (`contiguous_check`,
kymatio/backend/torch_backend.py L124-127), and `view` needs a contiguous tensor in general.  Here every tensor carries
a flag.  `true`: the tensor is contiguous.  `false`: it may have gaps or permuted axes, and every operation that needs
contiguity raises `RuntimeError`.  So a run that returns here cannot fail for reasons of layout in torch.

What the flag of a result is: a tensor allocated by torch (`torch.zeros`, `torch.stack`, `F.pad`, `mean`, `sum`,
arithmetic on contiguous tensors, an FFT of a contiguous tensor, `.contiguous()`) is contiguous; the real part of a
complex tensor (`.real`), a slice and a piece of `torch.split` are views, flagged `false`; `reshape` and a new axis
of size one keep the flag.
-/

namespace Verif

/-- A tensor with its layout flag. -/
abbrev Lay (α : Type) := α × Bool

/-- `contiguous_check` (backend/torch_backend.py L124-127). -/
def contiguousCheck {α : Type} (x : Lay α) : Py Unit := if x.2 then .ok () else .error .runtime

/-- Calling the object: `__call__` of `nn.Module` runs `forward` (kymatio/frontend/torch_frontend.py L14-19), which runs
`input_checks` (backend/torch_backend.py L102-107) and then `scattering`.  The input is not `None` here. -/
def torchForward {α β : Type} (scattering : Lay α → Py β) (x : Lay α) : Py β := do
  contiguousCheck x
  scattering x

/-- An operation that checks its argument and allocates (`c = true`) or returns a view (`c = false`). -/
def checked {α β : Type} (f : α → Py β) (c : Bool) (x : Lay α) : Py (Lay β) := do
  contiguousCheck x
  let y ← f x.1
  .ok (y, c)

/-- `cdgmm` (backend/torch_backend.py L181-186): both arguments are checked, the filter first. -/
def checkedMul {α β : Type} (f : α → β → Py α) (A : Lay α) (b : Lay β) : Py (Lay α) := do
  contiguousCheck b
  contiguousCheck A
  let y ← f A.1 b.1
  .ok (y, true)

/-- The operations of a torch backend on flagged tensors, in 1-D (scattering1d/backend/torch_backend.py) and in 2-D
(scattering2d/backend/torch_backend.py).  `rfft`, `ifft`, `irfft`, `modulus`, `cdgmm` check; `subsample_fourier` checks
in 2-D and uses `view` in 1-D; `irfft` returns `.real[..., None]`. -/
abbrev layBackend (B : Backend1D) : Backend1D where
  R := Lay B.R
  C := Lay B.C
  F := Lay B.F
  rfft := checked B.rfft true
  ifft := checked B.ifft true
  irfft := checked B.irfft false
  modulus := checked B.modulus true
  cdgmm := checkedMul B.cdgmm
  subsample x e := checked (fun y => B.subsample y e) true x

/-- A list of filters stored by `register_filters`: `torch.from_numpy(...).float().view(-1, 1)`, new tensors. -/
def layLevels {F : Type} (l : List F) : List (Lay F) := l.map fun f => (f, true)

/-- A stored filter dictionary. -/
def Filt.lay {F : Type} (f : Filt F) : Filt (Lay F) := ⟨layLevels f.levels, f.j⟩

/-! ## 1-D -/

/-- Frontend operations on flagged tensors: `pad` (`F.pad`) allocates whatever the layout of its argument, `unpad` is a
slice.  `average_global` is in `postLay`. -/
def layFront {R : Type} (ops : FrontOps R) : FrontOps (Lay R) where
  pad x l r := do
    let y ← ops.pad x.1 l r
    .ok (y, true)
  unpad x i0 i1 := (ops.unpad x.1 i0 i1, false)
  averageGlobal x := (ops.averageGlobal x.1, true)
  size x := ops.size x.1

/-- The object with flagged filters. -/
def Obj1D.lay {F : Type} (o : Obj1D F) : Obj1D (Lay F) :=
  ⟨o.padLeft, o.padRight, o.indStart, o.indEnd, o.phi.lay, o.psi1.map Filt.lay, o.psi2.map Filt.lay, o.maxOrder,
    o.log2Stride, o.average, o.oversampling, o.outType⟩

/-- `post` with the check at the start of `average_global` (scattering1d/backend/torch_backend.py L143-148). -/
def postLay {F R : Type} (ops : FrontOps R) (o : Obj1D F) (ls : Nat) (p : Path (Lay R)) : Py (Path (Lay R)) := do
  if o.average = .glob then contiguousCheck p.coef
  Front1D.post (layFront ops) o ls p

/-- `scattering(x)` of the torch frontend on flagged tensors (base_frontend.py L106-155). -/
def scatteringLay (B : Backend1D) (ops : FrontOps B.R) (o : Obj1D B.F) (x : Lay B.R) : Py (Out1D (Lay B.R)) := do
  Front1D.checkRuntimeArgs o
  let U0 ← (layFront ops).pad x o.padLeft o.padRight
  let ls ← o.log2Stride
  let out ← Core1D.scattering1d (layBackend B) U0 o.phi.lay (Front1D.psis o.lay) ls.toNat (decide (o.average = .loc))
  let out' ← out.mapM (postLay ops o ls.toNat)
  Front1D.assemble (layFront ops) o out'

/-- A path without the flag. -/
def Path.forget {R : Type} (p : Path (Lay R)) : Path R := { p with coef := p.coef.1 }

/-- A result without the flags. -/
def Out1D.forget {R : Type} : Out1D (Lay R) → Out1D R
  | .array rows => .array (rows.map Prod.fst)
  | .list l => .list (l.map Path.forget)
  | .dict d => .dict (d.map fun e => (e.1, e.2.1))

/-! ## 2-D -/

/-- A stored 2-D wavelet: `torch.from_numpy(v).unsqueeze(-1)` where `v` was filled entry by entry
(scattering2d/frontend/torch_frontend.py L23-26, filter_bank.py L70). -/
def Filt2.lay {F : Type} (f : Filt2 F) : Filt2 (Lay F) := ⟨layLevels f.levels, f.j, f.theta⟩

/-- `pad` and `unpad`: `Pad` allocates; with `pre_pad` only a trailing axis is added; `unpad` is a slice. -/
def layOps2 {R : Type} (ops : Ops2D R) (prePad : Bool) : Ops2D (Lay R) where
  pad x := do
    let y ← ops.pad x.1
    .ok (y, if prePad then x.2 else true)
  unpad x := (ops.unpad x.1, false)
  size x := ops.size x.1

/-- `scattering(input)` of the torch 2-D frontend (torch_frontend.py L72-110); the layout of the input is tested first
(L79-80). -/
noncomputable def Args2D.runTorchLay (a : Args2D) (x : Lay (Img ℝ)) : Py (Out2D (Lay (Img ℝ))) := do
  let s ← a.make
  contiguousCheck x
  a.check s x.1.h x.1.w
  Core2D.scattering2d (layBackend torch2Backend) (layOps2 (a.torchOps s) a.prePad) x a.J (layLevels s.phi)
    (s.psi.map Filt2.lay) a.maxOrder (decide (a.outType = .array))

/-- A 2-D path without the flag. -/
def Path2.forget {R : Type} (p : Path2 (Lay R)) : Path2 R := { p with coef := p.coef.1 }

/-- A 2-D result without the flags. -/
def Out2D.forget {R : Type} : Out2D (Lay R) → Out2D R
  | .array rows => .array (rows.map Prod.fst)
  | .list l => .list (l.map Path2.forget)

/-! ## 3-D -/

/-- The torch 3-D operations on flagged tensors (scattering3d/backend/torch_backend.py).  `modulus_rotation` (L102-125)
does not check and its arithmetic keeps the layout; `compute_integrals` (L127-151) uses `view`. -/
abbrev layBackend3 (B : Backend3D) : Backend3D where
  R := Lay B.R
  C := Lay B.C
  F := Lay B.F
  A := B.A
  rfft := checked B.rfft true
  ifft := checked B.ifft true
  cdgmm3d := checkedMul B.cdgmm3d
  modulus := checked B.modulus true
  modulusRotation x m := do
    let y ← B.modulusRotation x.1 (m.map Prod.fst)
    .ok (y, x.2 && (m.map Prod.snd).getD true)
  averaging x := do
    contiguousCheck x
    B.averaging x.1

/-- `scattering(input_array)` of the torch 3-D frontend (torch_frontend.py L38-79): the input is made contiguous (L54),
then checked and transformed. -/
noncomputable def Args3D.runTorchLay (a : Args3D) (Y : ℤ → ℕ → ℝ → ℝ → ℂ) (x : Lay (Vol ℝ)) :
    Py (List (List (List ℝ))) :=
  if x.1.shape ≠ a.shape then .error .runtime
  else if ¬ a.methodOk then .error .value
  else Core3D.scattering3d (layBackend3 (torch3Backend a.powers)) (x.1, true)
    ((a.filters Y).map fun fl => fl.map fun fs => fs.map fun f => (view3R f, true)) a.rot a.L a.J a.maxOrder

/-! ## Joint time-frequency scattering -/

/-- The torch operations used by joint time-frequency scattering on flagged tensors
(scattering1d/backend/torch_backend.py).  `stack` allocates; `swap_time_frequency` (L172-188) ends in `.contiguous()`;
`pad_frequency` (L151-170) keeps the flag; `average_global` (L143-148) checks; `unpad_frequency` is a slice and
`split_frequency_axis` returns views. -/
abbrev layJ (B : JBackend) : JBackend where
  R := Lay B.R
  C := Lay B.C
  F := Lay B.F
  RS := Lay B.RS
  CS := Lay B.CS
  rfft := checked B.rfft true
  ifft := checked B.ifft true
  irfft := checked B.irfft false
  modulus := checked B.modulus true
  cdgmm := checkedMul B.cdgmm
  subsample x e := checked (fun y => B.subsample y e) true x
  averageGlobal := checked B.averageGlobal true
  stackR l := do
    let y ← B.stackR (l.map Prod.fst)
    .ok (y, true)
  stackC l := do
    let y ← B.stackC (l.map Prod.fst)
    .ok (y, true)
  swapR x := do
    let y ← B.swapR x.1
    .ok (y, true)
  swapC x := do
    let y ← B.swapC x.1
    .ok (y, true)
  padFrequencyR x p := do
    let y ← B.padFrequencyR x.1 p
    .ok (y, x.2)
  padFrequencyC x p := do
    let y ← B.padFrequencyC x.1 p
    .ok (y, x.2)
  rfftS := checked B.rfftS true
  cfftS := checked B.cfftS true
  ifftS := checked B.ifftS true
  irfftS := checked B.irfftS false
  modulusS := checked B.modulusS true
  cdgmmS := checkedMul B.cdgmmS
  subsampleS x e := checked (fun y => B.subsampleS y e) true x
  averageGlobalS := checked B.averageGlobalS true
  unpadFrequency x m s := do
    let y ← B.unpadFrequency x.1 m s
    .ok (y, false)
  split x m s := do
    let l ← B.split x.1 m s
    .ok (l.map fun r => (r, false))

/-- Frontend operations on flagged tensors. -/
def layFrontJ {R RS : Type} (ops : JFrontOps R RS) : JFrontOps (Lay R) (Lay RS) where
  pad x l r := do
    let y ← ops.pad x.1 l r
    .ok (y, true)
  unpad x i0 i1 := (ops.unpad x.1 i0 i1, false)
  unpadS x i0 i1 := (ops.unpadS x.1 i0 i1, false)
  size x := ops.size x.1
  sizeS x := ops.sizeS x.1

/-- A stored frequential filter. -/
def FiltFr.lay {F : Type} (f : FiltFr F) : FiltFr (Lay F) := ⟨layLevels f.levels, f.j, f.spin⟩

/-- The stored frequential low-pass. -/
def PhiFr.lay {F : Type} (f : PhiFr F) : PhiFr (Lay F) := ⟨layLevels f.levels, f.j, f.N⟩

/-- The object with flagged filters. -/
def JObj.lay {F : Type} (o : JObj F) : JObj (Lay F) :=
  ⟨o.padLeft, o.padRight, o.indStart, o.indEnd, o.phi.lay, o.psi1.map Filt.lay, o.psi2.map Filt.lay, o.log2Stride,
    o.average, o.phiFr.lay, o.psisFr.map FiltFr.lay, o.log2StrideFr, o.averageFr, o.outType, o.fmt⟩

/-- A path without the flag. -/
def JPath.forget {R RS : Type} (p : JPath (Lay R) (Lay RS)) : JPath R RS :=
  { p with coef := match p.coef with | .sig r => .sig r.1 | .stk s => .stk s.1 }

/-- `TimeFrequencyScattering(...)(x)` with torch on a flagged signal.  `reshape` and `torch.stack` accept every layout, so
the flags are dropped before the last two steps. -/
noncomputable def JArgs.runTorchLay (a : JArgs) (x : Lay (List ℝ)) : Py (JOut (List ℝ) (Img ℝ)) := do
  let s ← a.make
  let Q ← parseQ a.Q
  let S ← FrontJ.unassembled (layJ torchJ) (layFrontJ torchFrontJ) (a.obj s Q.1.toNat).lay x
  let S' ← (S.map JPath.forget).mapM (FrontJ.torchReshape (a.obj s Q.1.toNat))
  FrontJ.assemble torchFrontJ (a.obj s Q.1.toNat) S'

end Verif
