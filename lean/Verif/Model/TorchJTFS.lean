import Verif.Model.Torch1D
import Verif.Model.Torch2D
import Verif.Model.ObjectJTFS

/-!
# Joint time-frequency scattering with torch

`kymatio/scattering1d/backend/torch_backend.py`, `kymatio/backend/torch_backend.py`,
`kymatio/scattering1d/frontend/torch_frontend.py` L84-155.  A tensor of shape `(frequency, time, 1)` is an
image of reals, one of shape `(frequency, time, 2)` an image of pairs.  Contiguity checks are in
`Model/Layout`; dtype and device checks in `Model/Kind`.
-/

namespace Verif

open Finset

/-- `torch.stack` (backend/torch_backend.py L142-144): `RuntimeError` if there is none or the lengths differ. -/
def torchStackImg {α : Type} [Zero α] (l : List (List α)) : Py (Img α) :=
  match l with
  | [] => .error .runtime
  | a :: _ =>
    if l.all (fun b => b.length == a.length) then .ok (Img.tab l.length a.length fun i j => (l.getD i []).getD j 0)
    else .error .runtime

/-- `pad_frequency` (torch_backend.py L151-170): `F.pad(x, (0, 0, 0, padding))`.  With a negative width `F.pad`
removes entries at the end instead; it refuses when fewer than zero would remain. -/
def torchPadFrequency {α : Type} [Zero α] (x : Img α) (p : Int) : Py (Img α) :=
  if (x.w : Int) + p < 0 then .error .runtime
  else .ok (Img.tab x.h ((x.w : Int) + p).toNat fun i j => if j < x.w then x.px i j else 0)

/-- `rfft` of a stack (L117-127). -/
noncomputable def torchRowRfft (x : Img ℝ) : Img (ℝ × ℝ) :=
  view2R (rowDft (view2C (x.map fun v => (v, (0 : ℝ)))))

/-- `cfft` of a stack (L106-111). -/
noncomputable def torchRowFft (x : Img (ℝ × ℝ)) : Img (ℝ × ℝ) := view2R (rowDft (view2C x))

/-- `ifft` of a stack (L136-141). -/
noncomputable def torchRowIfft (x : Img (ℝ × ℝ)) : Img (ℝ × ℝ) := view2R (rowIdft (view2C x))

/-- `irfft` of a stack (L129-134). -/
noncomputable def torchRowIrfft (x : Img (ℝ × ℝ)) : Img ℝ := (rowIdft (view2C x)).map Complex.re

/-- `cdgmm` of a stack with a real 1-D filter (backend/torch_backend.py L147-202). -/
noncomputable def torchRowCdgmm (A : Img (ℝ × ℝ)) (f : List ℝ) : Py (Img (ℝ × ℝ)) :=
  if A.w ≠ f.length then .error .runtime
  else .ok (Img.tab A.h A.w fun i j => ((A.px i j).1 * f.getD j 0, (A.px i j).2 * f.getD j 0))

/-- `subsample_fourier(x, 2 ** e)` of a stack (L20-49).  With `e < 0` the shape of the view contains a float
(`TypeError`); a view of the wrong size raises `RuntimeError`. -/
noncomputable def torchRowSubsample (x : Img (ℝ × ℝ)) (e : Int) : Py (Img (ℝ × ℝ)) :=
  if e < 0 then .error .type
  else if 2 ^ e.toNat * (x.w / 2 ^ e.toNat) ≠ x.w then .error .runtime
  else .ok (Img.tab x.h (x.w / 2 ^ e.toNat) fun i m =>
    ((∑ r ∈ range (2 ^ e.toNat), (x.px i (r * (x.w / 2 ^ e.toNat) + m)).1) / (2 ^ e.toNat : Nat),
     (∑ r ∈ range (2 ^ e.toNat), (x.px i (r * (x.w / 2 ^ e.toNat) + m)).2) / (2 ^ e.toNat : Nat)))

/-- The torch backend.  `swap_time_frequency` is L172-188, `unpad_frequency` L190-211, `split_frequency_axis`
L213-226. -/
noncomputable abbrev torchJ : JBackend where
  R := List ℝ
  C := List (ℝ × ℝ)
  F := List ℝ
  RS := Img ℝ
  CS := Img (ℝ × ℝ)
  rfft x := .ok (torchRfft x)
  ifft x := .ok (torchIfft x)
  irfft x := .ok (torchIrfft x)
  modulus x := .ok (torchModulus x)
  cdgmm := torchCdgmm
  subsample x e := if e < 0 then .error .type else torchSubsample x (2 ^ e.toNat)
  averageGlobal x := .ok (torchFront.averageGlobal x)
  stackR := torchStackImg
  stackC := torchStackImg
  swapR x := .ok x.swap
  swapC x := .ok x.swap
  padFrequencyR := torchPadFrequency
  padFrequencyC := torchPadFrequency
  rfftS x := .ok (torchRowRfft x)
  cfftS x := .ok (torchRowFft x)
  ifftS x := .ok (torchRowIfft x)
  irfftS x := .ok (torchRowIrfft x)
  modulusS x := .ok (torch2Modulus x)
  cdgmmS := torchRowCdgmm
  subsampleS := torchRowSubsample
  averageGlobalS x := .ok (Img.tab x.h 1 fun i _ => ∑ j ∈ range x.w, x.px i j)
  unpadFrequency := unpadFrequencyImg
  split x _ _ := .ok (splitImg x)

/-- Torch operations of the frontend: `pad` (L51-80) and `unpad` (L82-104), which drops the trailing
dimension. -/
noncomputable def torchFrontJ : JFrontOps (List ℝ) (Img ℝ) where
  pad := torchFront.pad
  unpad := torchFront.unpad
  unpadS x i0 i1 := Img.tab x.h (min i1 x.w - i0) fun i j => x.px i (i0 + j)
  size := List.length
  sizeS x := (x.h, x.w)

namespace FrontJ

/-- `scattering(x)` up to `reshape_output` (base_frontend.py L581-629): the paths after unpadding. -/
def unassembled (B : JBackend) (ops : JFrontOps B.R B.RS) (o : JObj B.F) (x : B.R) :
    Py (List (JPath B.R B.RS)) := do
  checkRuntimeArgs o
  let U0 ← ops.pad x o.padLeft o.padRight
  let ls ← o.log2Stride
  let lsFr ← o.log2StrideFr
  let S ← paths B o ls.toNat lsFr.toNat U0
  S.mapM (post ops o ls.toNat)

/-- `reshape_output(coef, batch_shape, n_kept_dims)` (backend/torch_backend.py L221-224, called at
base_frontend.py L606-607, L631-632) for one signal.  Unless averaging is global, `unpad` has dropped the trailing
dimension of size one and the kept dimensions are `(time,)` or `(frequency, time)`.  With global averaging there is
no unpadding, the trailing dimension is still there, and the kept dimensions are `(1,)`, or `(time, 1)` in joint
format; `RuntimeError` if the number of entries does not fit. -/
def torchReshape {F : Type} (o : JObj F) (p : JPath (List ℝ) (Img ℝ)) : Py (JPath (List ℝ) (Img ℝ)) :=
  if o.average = .glob then
    match p.coef with
    | .sig r => if r.length ≠ 1 then .error .runtime else .ok p
    | .stk X =>
      if X.h * X.w ≠ X.w then .error .runtime
      else .ok { p with coef := .stk (Img.tab X.w 1 fun i _ => X.px (i / X.w) (i % X.w)) }
  else .ok p

end FrontJ

/-- `TimeFrequencyScattering(...)(x)` with the torch backend on one signal (torch_frontend.py L84-155).  The
constructor is that of the base class; the filters read back from the buffers are those stored (`C50`).  In
`assemble`, `torch.stack` of unequal shapes raises `RuntimeError` instead of `ValueError`. -/
noncomputable def JArgs.runTorch (a : JArgs) (x : List ℝ) : Py (JOut (List ℝ) (Img ℝ)) := do
  let s ← a.make
  let Q ← parseQ a.Q
  let S ← FrontJ.unassembled torchJ torchFrontJ (a.obj s Q.1.toNat) x
  let S' ← S.mapM (FrontJ.torchReshape (a.obj s Q.1.toNat))
  FrontJ.assemble torchFrontJ (a.obj s Q.1.toNat) S'

end Verif
