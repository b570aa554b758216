import Verif.Model.Backend1D
import Verif.Model.Core2D

/-!
# The 2-D numpy and torch backends

`kymatio/scattering2d/backend/numpy_backend.py`, `torch_backend.py`; the base classes are those of
the 1-D model.  An array of shape `(h, w)` is its shape and its entries; entries outside the shape
are zero (`Img.tab`), so two images built by the operations below are equal exactly when their
shapes and entries agree.  Floats are exact reals; dtypes are the types `ℝ`, `ℂ`.
-/

namespace Verif

open Finset

/-- A 2-D array. -/
structure Img (α : Type) where
  h : Nat
  w : Nat
  px : Nat → Nat → α

/-- The array of shape `(h, w)` with entries `f i j`. -/
def Img.tab {α : Type} [Zero α] (h w : Nat) (f : Nat → Nat → α) : Img α :=
  ⟨h, w, fun i j => if i < h ∧ j < w then f i j else 0⟩

/-- Entrywise function. -/
def Img.map {α β : Type} [Zero β] (g : α → β) (x : Img α) : Img β :=
  Img.tab x.h x.w fun i j => g (x.px i j)

/-- `scipy.fft.fft2`. -/
noncomputable def dft2 (x : Img ℂ) : Img ℂ :=
  Img.tab x.h x.w fun k l => ∑ m ∈ range x.h, ∑ n ∈ range x.w,
    x.px m n * (tw x.h (-((k : Int) * m)) * tw x.w (-((l : Int) * n)))

/-- `scipy.fft.ifft2`. -/
noncomputable def idft2 (x : Img ℂ) : Img ℂ :=
  Img.tab x.h x.w fun m n => (∑ k ∈ range x.h, ∑ l ∈ range x.w,
    x.px k l * (tw x.h ((k : Int) * m) * tw x.w ((l : Int) * n))) / (x.h * x.w)

/-- `rfft` (scattering2d/backend/numpy_backend.py L86-89). -/
noncomputable def np2Rfft (x : Img ℝ) : Img ℂ := dft2 (x.map fun r : ℝ => (r : ℂ))

/-- `irfft` (L91-94). -/
noncomputable def np2Irfft (x : Img ℂ) : Img ℝ := (idft2 x).map Complex.re

/-- `modulus` (backend/numpy_backend.py L44-62). -/
noncomputable def np2Modulus (x : Img ℂ) : Img ℝ := x.map fun z => ‖z‖

/-- `cdgmm` with a real filter (backend/numpy_backend.py L64-95). -/
noncomputable def np2Cdgmm (A : Img ℂ) (f : Img ℝ) : Py (Img ℂ) :=
  if A.h ≠ f.h ∨ A.w ≠ f.w then .error .runtime
  else .ok (Img.tab A.h A.w fun i j => A.px i j * (f.px i j : ℂ))

/-- `subsample_fourier` (numpy_backend.py L48-76):
`x.reshape(-1, k, M // k, k, N // k).mean(axis=(1, 3))`.  `ValueError` unless `k` divides both sides.
(With the `-1` numpy could also accept some non-divisible shapes, mixing images of the batch; such
shapes do not occur, see `C40`.) -/
noncomputable def np2Subsample (x : Img ℂ) (k : Nat) : Py (Img ℂ) :=
  if k = 0 then .error .zeroDiv
  else if k * (x.h / k) ≠ x.h ∨ k * (x.w / k) ≠ x.w then .error .value
  else .ok (Img.tab (x.h / k) (x.w / k) fun r c =>
    (∑ i ∈ range k, ∑ j ∈ range k, x.px (i * (x.h / k) + r) (j * (x.w / k) + c)) / (k * k))

/-- `unpad` (numpy_backend.py L31-46): `x[..., 1:-1, 1:-1]`. -/
def np2Unpad {α : Type} [Zero α] (x : Img α) : Img α :=
  Img.tab (x.h - 2) (x.w - 2) fun i j => x.px (i + 1) (j + 1)

/-- Index read by `np.pad(..., mode='reflect')` at output position `i` of an axis of length `n` padded
by `l` on the left, for pads of any size: mirror with period `2(n-1)`; for `n = 1` numpy repeats the
single sample. -/
def mirrorIndex (n l i : Nat) : Nat :=
  let p := 2 * (n - 1)
  let m := (((i : Int) - l) % (p : Int)).toNat
  if n ≤ 1 then 0 else if m < n then m else p - m

/-- `Pad.__call__` of the numpy backend (numpy_backend.py L20-25); `pad_size = [t, b, l, r]`.
`np.pad` refuses to reflect an empty axis with `ValueError`. -/
def np2Pad {α : Type} [Zero α] (t b l r : Nat) (x : Img α) : Py (Img α) :=
  if (x.h = 0 ∧ t + b > 0) ∨ (x.w = 0 ∧ l + r > 0) then .error .value
  else .ok (Img.tab (t + x.h + b) (l + x.w + r) fun i j =>
    x.px (mirrorIndex x.h t i) (mirrorIndex x.w l j))

/-- `ReflectionPad2d([l, r, t, b])`: `RuntimeError` unless every pad is smaller than the side;
otherwise mirror. -/
def reflectionPad2d {α : Type} [Zero α] (t b l r : Nat) (x : Img α) : Py (Img α) :=
  if t ≥ x.h ∨ b ≥ x.h ∨ l ≥ x.w ∨ r ≥ x.w then .error .runtime
  else .ok (Img.tab (t + x.h + b) (l + x.w + r) fun i j =>
    x.px (reflectIndex x.h t i) (reflectIndex x.w l j))

/-- `torch.cat([x[1], x, x[h-2]])` along rows (torch_backend.py L81): `IndexError` when there is no row
1. -/
def catRows {α : Type} [Zero α] (x : Img α) : Py (Img α) :=
  if x.h < 2 then .error .index
  else .ok (Img.tab (x.h + 2) x.w fun i j =>
    if i = 0 then x.px 1 j else if i ≤ x.h then x.px (i - 1) j else x.px (x.h - 2) j)

/-- The same along columns (torch_backend.py L83). -/
def catCols {α : Type} [Zero α] (x : Img α) : Py (Img α) :=
  if x.w < 2 then .error .index
  else .ok (Img.tab x.h (x.w + 2) fun i j =>
    if j = 0 then x.px i 1 else if j ≤ x.w then x.px i (j - 1) else x.px i (x.w - 2))

/-- `if c: x = f(x)`. -/
def condPy {α : Type} (c : Prop) [Decidable c] (f : α → Py α) (x : α) : Py α :=
  if c then f x else .ok x

/-- `Pad` of the torch backend (torch_backend.py L19-86; the tensorflow one, tensorflow_backend.py
L6-48, is the same sequence): pads equal to the side are reduced by one and the missing rows and
columns are concatenated afterwards.  `inH`, `inW` are `input_size`.  `pad_size_tmp[1] -= 1` on zero
would give a negative pad (cropping); it cannot happen here because the bottom pad is never smaller
than the top pad, and is reported as `RuntimeError`. -/
def torch2Pad {α : Type} [Zero α] (t b l r inH inW : Nat) (x : Img α) : Py (Img α) :=
  let tb := if t = inH then (t - 1, b - 1) else (t, b)
  let lr := if l = inW then (l - 1, r - 1) else (l, r)
  if (t = inH ∧ (t = 0 ∨ b = 0)) ∨ (l = inW ∧ (l = 0 ∨ r = 0)) then .error .runtime
  else do
    let y ← reflectionPad2d tb.1 tb.2 lr.1 lr.2 x
    let z ← condPy (t = inH) catRows y
    condPy (l = inW) catCols z

/-- The numpy backend on one image. -/
noncomputable abbrev np2Backend : Backend1D where
  R := Img ℝ
  C := Img ℂ
  F := Img ℝ
  rfft x := .ok (np2Rfft x)
  ifft x := .ok (idft2 x)
  irfft x := .ok (np2Irfft x)
  modulus x := .ok (np2Modulus x)
  cdgmm := np2Cdgmm
  subsample x e := np2Subsample x (2 ^ e)

end Verif
