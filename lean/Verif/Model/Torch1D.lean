import Verif.Model.Backend1D

/-!
# The torch backend, `kymatio/scattering1d/backend/torch_backend.py` and
`kymatio/backend/torch_backend.py`

A complex tensor is a list of pairs (trailing dimension 2), a real tensor a list of reals (trailing
dimension 1).  Contiguity checks are in `Model/Layout`; dtype and device checks in `Model/Kind`.
-/

namespace Verif

open Finset

/-- `torch.view_as_complex`. -/
noncomputable def viewAsComplex (x : List (ℝ × ℝ)) : List ℂ := x.map fun p => ⟨p.1, p.2⟩

/-- `torch.view_as_real`. -/
noncomputable def viewAsReal (x : List ℂ) : List (ℝ × ℝ) := x.map fun z => (z.re, z.im)

/-- `rfft` (torch_backend.py 1-D, L117-127): a zero tensor of pairs whose component 0 is set to the
signal, then `_fft`. -/
noncomputable def torchRfft (x : List ℝ) : List (ℝ × ℝ) :=
  viewAsReal (dft (viewAsComplex (x.map fun v => (v, 0))))

/-- `ifft` (L136-141) and `_ifft` (L9). -/
noncomputable def torchIfft (x : List (ℝ × ℝ)) : List (ℝ × ℝ) :=
  viewAsReal (idft (viewAsComplex x))

/-- `irfft` (L129-134) and `_irfft` (L10). -/
noncomputable def torchIrfft (x : List (ℝ × ℝ)) : List ℝ :=
  (idft (viewAsComplex x)).map Complex.re

/-- `ModulusStable.forward` (backend/torch_backend.py L55) and `modulus` (L136-139). -/
noncomputable def torchModulus (x : List (ℝ × ℝ)) : List ℝ :=
  x.map fun p => Real.sqrt (p.1 * p.1 + p.2 * p.2)

/-- `cdgmm` with a real filter (backend/torch_backend.py L148-202): `A * B`, the trailing dimension of
size one being broadcast. -/
noncomputable def torchCdgmm (A : List (ℝ × ℝ)) (f : List ℝ) : Py (List (ℝ × ℝ)) :=
  if A.length ≠ f.length then .error .runtime
  else .ok (List.zipWith (fun a (b : ℝ) => (a.1 * b, a.2 * b)) A f)

/-- `cdgmm` with a complex filter (backend/torch_backend.py L203-215). -/
noncomputable def torchCdgmmC (A B : List (ℝ × ℝ)) : Py (List (ℝ × ℝ)) :=
  if A.length ≠ B.length then .error .runtime
  else .ok (List.zipWith (fun a b => (a.1 * b.1 - a.2 * b.2, a.1 * b.2 + a.2 * b.1)) A B)

/-- `subsample_fourier` (L21-49): `x.view(..., k, N // k, 2).mean(dim=-3)`.  A view of the wrong
size raises `RuntimeError`. -/
noncomputable def torchSubsample (x : List (ℝ × ℝ)) (k : Nat) : Py (List (ℝ × ℝ)) :=
  if k = 0 then .error .zeroDiv
  else if k * (x.length / k) ≠ x.length then .error .runtime
  else .ok (tab (x.length / k) fun m =>
    ((∑ i ∈ range k, (x.getD (i * (x.length / k) + m) (0, 0)).1) / k,
     (∑ i ∈ range k, (x.getD (i * (x.length / k) + m) (0, 0)).2) / k))

/-- The torch backend acting on one signal. -/
noncomputable abbrev torchBackend : Backend1D where
  R := List ℝ
  C := List (ℝ × ℝ)
  F := List ℝ
  rfft x := .ok (torchRfft x)
  ifft x := .ok (torchIfft x)
  irfft x := .ok (torchIrfft x)
  modulus x := .ok (torchModulus x)
  cdgmm := torchCdgmm
  subsample x e := torchSubsample x (2 ^ e)

/-- Lift of a backend to a batch: a tensor of shape `(B, 1, N)` is the list of its `B` rows and
every operation acts row by row (all numpy/torch operations used act on the last axis and
broadcast over the leading ones).  Filters are shared by the rows. -/
abbrev batchBackend (B : Backend1D) : Backend1D where
  R := List B.R
  C := List B.C
  F := B.F
  rfft x := x.mapM B.rfft
  ifft x := x.mapM B.ifft
  irfft x := x.mapM B.irfft
  modulus x := x.mapM B.modulus
  cdgmm x f := x.mapM fun a => B.cdgmm a f
  subsample x e := x.mapM fun a => B.subsample a e

/-- Only the lengths of the arrays. -/
abbrev shapeBackend : Backend1D where
  R := Nat
  C := Nat
  F := Nat
  rfft n := .ok n
  ifft n := .ok n
  irfft n := .ok n
  modulus n := .ok n
  cdgmm n m := if n ≠ m then .error .runtime else .ok n
  subsample n e := if 2 ^ e * (n / 2 ^ e) ≠ n then .error .value else .ok (n / 2 ^ e)

end Verif
