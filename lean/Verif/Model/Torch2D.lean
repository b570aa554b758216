import Verif.Model.Object2D

/-!
# The torch 2-D backend and frontend

`kymatio/scattering2d/backend/torch_backend.py`, `kymatio/backend/torch_backend.py`,
`kymatio/scattering2d/frontend/torch_frontend.py`.  A complex tensor is an image of pairs (trailing
dimension 2), a real tensor an image of reals (trailing dimension 1).  Contiguity checks are in
`Model/Layout`; dtype and device checks in `Model/Kind`.
-/

namespace Verif

open Finset

/-- `torch.view_as_complex`. -/
noncomputable def view2C (x : Img (ℝ × ℝ)) : Img ℂ := x.map fun p => ⟨p.1, p.2⟩

/-- `torch.view_as_real`. -/
noncomputable def view2R (x : Img ℂ) : Img (ℝ × ℝ) := x.map fun z => (z.re, z.im)

/-- `rfft` (torch_backend.py L134-142): pairs with component 0 set to the image, then `_fft` (L10). -/
noncomputable def torch2Rfft (x : Img ℝ) : Img (ℝ × ℝ) :=
  view2R (dft2 (view2C (x.map fun v => (v, (0 : ℝ)))))

/-- `ifft` (L151-156) and `_ifft` (L11). -/
noncomputable def torch2Ifft (x : Img (ℝ × ℝ)) : Img (ℝ × ℝ) := view2R (idft2 (view2C x))

/-- `irfft` (L144-149) and `_irfft` (L12). -/
noncomputable def torch2Irfft (x : Img (ℝ × ℝ)) : Img ℝ := (idft2 (view2C x)).map Complex.re

/-- `ModulusStable.forward` (backend/torch_backend.py L55) and `modulus` (L136-139). -/
noncomputable def torch2Modulus (x : Img (ℝ × ℝ)) : Img ℝ :=
  x.map fun p => Real.sqrt (p.1 * p.1 + p.2 * p.2)

/-- `cdgmm` with a real filter (backend/torch_backend.py L148-202). -/
noncomputable def torch2Cdgmm (A : Img (ℝ × ℝ)) (f : Img ℝ) : Py (Img (ℝ × ℝ)) :=
  if A.h ≠ f.h ∨ A.w ≠ f.w then .error .runtime
  else .ok (Img.tab A.h A.w fun i j => ((A.px i j).1 * f.px i j, (A.px i j).2 * f.px i j))

/-- `subsample_fourier` (torch_backend.py L92-130):
`x.view(-1, k, M // k, k, N // k, 2).mean(3).mean(1)`; a view of the wrong size raises
`RuntimeError`. -/
noncomputable def torch2Subsample (x : Img (ℝ × ℝ)) (k : Nat) : Py (Img (ℝ × ℝ)) :=
  if k = 0 then .error .zeroDiv
  else if k * (x.h / k) ≠ x.h ∨ k * (x.w / k) ≠ x.w then .error .runtime
  else .ok (Img.tab (x.h / k) (x.w / k) fun r c =>
    ((∑ i ∈ range k, (∑ j ∈ range k, (x.px (i * (x.h / k) + r) (j * (x.w / k) + c)).1) / k) / k,
     (∑ i ∈ range k, (∑ j ∈ range k, (x.px (i * (x.h / k) + r) (j * (x.w / k) + c)).2) / k) / k))

/-- The torch backend on one image. -/
noncomputable abbrev torch2Backend : Backend1D where
  R := Img ℝ
  C := Img (ℝ × ℝ)
  F := Img ℝ
  rfft x := .ok (torch2Rfft x)
  ifft x := .ok (torch2Ifft x)
  irfft x := .ok (torch2Irfft x)
  modulus x := .ok (torch2Modulus x)
  cdgmm := torch2Cdgmm
  subsample x e := torch2Subsample x (2 ^ e)

/-- `self.pad`: the torch `Pad` (`build`, base_frontend.py L26-30), or only the added trailing
dimension with `pre_pad` (torch_frontend.py L18-20). -/
noncomputable def Args2D.torchPad (a : Args2D) (s : Sc2D) : Img ℝ → Py (Img ℝ) :=
  if a.prePad then fun x => .ok x
  else torch2Pad ((s.Mp - a.M) / 2) ((s.Mp - a.M + 1) / 2) ((s.Np - a.N) / 2) ((s.Np - a.N + 1) / 2)
    a.M a.N

/-- `unpad` (torch_backend.py L158-176) slices `[1:-1]` on both axes, as the numpy one, and drops the
trailing dimension. -/
noncomputable def Args2D.torchOps (a : Args2D) (s : Sc2D) : Ops2D (Img ℝ) :=
  ⟨a.torchPad s, np2Unpad, fun x => (x.h, x.w)⟩

/-- `Scattering2D(J, (M, N), L, ...)(x)` with the torch backend on one image (torch_frontend.py
L9-110); the filters read back from the buffers are those stored (`C50`). -/
noncomputable def Args2D.runTorch (a : Args2D) (x : Img ℝ) : Py (Out2D (Img ℝ)) := do
  let s ← a.make
  a.check s x.h x.w
  Core2D.scattering2d torch2Backend (a.torchOps s) x a.J s.phi s.psi a.maxOrder
    (decide (a.outType = .array))

end Verif
