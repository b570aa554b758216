import Verif.Model.Core3D
import Verif.Model.Backend1D
import Mathlib.Analysis.SpecialFunctions.Pow.Real

/-!
# The 3-D numpy and torch backends

`kymatio/scattering3d/backend/numpy_backend.py`, `torch_backend.py`.  An array of shape `(M, N, O)` is
its shape and its entries, zero outside the shape.  Floats are exact reals.
-/

namespace Verif

open Finset

/-- Indices of an array of shape `s`. -/
abbrev Idx3 := ℕ × ℕ × ℕ

/-- All indices inside the shape. -/
def box (s : Idx3) : Finset Idx3 := range s.1 ×ˢ range s.2.1 ×ˢ range s.2.2

/-- A 3-D array. -/
structure Vol (α : Type) where
  shape : Idx3
  vx : Idx3 → α

/-- The array of shape `s` with entries `f`. -/
def Vol.tab {α : Type} [Zero α] (s : Idx3) (f : Idx3 → α) : Vol α :=
  ⟨s, fun i => if i ∈ box s then f i else 0⟩

/-- Entrywise function. -/
def Vol.map {α β : Type} [Zero β] (g : α → β) (x : Vol α) : Vol β := Vol.tab x.shape fun i => g (x.vx i)

/-- An index as an integer vector. -/
def z3 (u : Idx3) : ℤ × ℤ × ℤ := (u.1, u.2.1, u.2.2)

/-- `exp(2 pi i (k1 u1 / M + k2 u2 / N + k3 u3 / O))`. -/
noncomputable def phase (s : Idx3) (k u : ℤ × ℤ × ℤ) : ℂ :=
  tw s.1 (k.1 * u.1) * (tw s.2.1 (k.2.1 * u.2.1) * tw s.2.2 (k.2.2 * u.2.2))

/-- `M * N * O`. -/
def vol3 (s : Idx3) : ℕ := s.1 * s.2.1 * s.2.2

/-- `scipy.fft.fftn(x, axes=(-3, -2, -1))`. -/
noncomputable def dft3 (x : Vol ℂ) : Vol ℂ :=
  Vol.tab x.shape fun k => ∑ u ∈ box x.shape, x.vx u * phase x.shape (z3 k) (-z3 u)

/-- `scipy.fft.ifftn`. -/
noncomputable def idft3 (x : Vol ℂ) : Vol ℂ :=
  Vol.tab x.shape fun u => (∑ k ∈ box x.shape, x.vx k * phase x.shape (z3 k) (z3 u)) / vol3 x.shape

/-- `cdgmm` with a complex filter (backend/numpy_backend.py L64-95). -/
noncomputable def np3Cdgmm (A f : Vol ℂ) : Py (Vol ℂ) :=
  if A.shape ≠ f.shape then .error .runtime
  else .ok (Vol.tab A.shape fun i => A.vx i * f.vx i)

/-- `modulus_rotation(x, module)` (scattering3d/backend/numpy_backend.py L6-29). -/
noncomputable def np3ModRot (x : Vol ℂ) : Option (Vol ℝ) → Vol ℝ
  | none => Vol.tab x.shape fun i => Real.sqrt (‖x.vx i‖ ^ 2)
  | some m => Vol.tab x.shape fun i => Real.sqrt (m.vx i ^ 2 + ‖x.vx i‖ ^ 2)

/-- `compute_integrals(x, integral_powers)` (L31-54) on one volume.  `x ** q` on nonnegative entries;
for negative `q` numpy returns `inf` at zero entries, which is not modelled. -/
noncomputable def np3Integrals (qs : List ℝ) (x : Vol ℝ) : List ℝ :=
  qs.map fun q => ∑ i ∈ box x.shape, x.vx i ^ q

/-- `np.stack([], axis=-1)` raises `ValueError` when there is no power (L53). -/
noncomputable def np3Averaging (qs : List ℝ) (x : Vol ℝ) : Py (List ℝ) :=
  if qs = [] then .error .value else .ok (np3Integrals qs x)

/-- The numpy backend on one volume, with `averaging = compute_integrals(., integral_powers)`
(numpy_frontend.py L39).  Sides are taken to be positive: `fftn` refuses an axis of length zero. -/
noncomputable abbrev np3Backend (qs : List ℝ) : Backend3D where
  R := Vol ℝ
  C := Vol ℂ
  F := Vol ℂ
  A := List ℝ
  rfft x := .ok (dft3 (x.map fun r : ℝ => (r : ℂ)))
  ifft x := .ok (idft3 x)
  cdgmm3d := np3Cdgmm
  modulus x := .ok (x.map fun z => ‖z‖)
  modulusRotation x m := .ok (np3ModRot x m)
  averaging := np3Averaging qs

/-- The same on a batch of volumes of one shape (all numpy operations act volume by volume; `sum`
and `stack` keep the batch axis first).  `reshape((B, -1))` in `compute_integrals` (L51) raises `ValueError` when the
batch is empty. -/
noncomputable abbrev np3Batch (qs : List ℝ) : Backend3D where
  R := List (Vol ℝ)
  C := List (Vol ℂ)
  F := Vol ℂ
  A := List (List ℝ)
  rfft x := .ok (x.map fun x => dft3 (x.map fun r : ℝ => (r : ℂ)))
  ifft x := .ok (x.map idft3)
  cdgmm3d x f := x.mapM fun x => np3Cdgmm x f
  modulus x := .ok (x.map fun x => x.map fun z => ‖z‖)
  modulusRotation x m := match m with
    | none => .ok (x.map fun x => np3ModRot x none)
    | some m => .ok (List.zipWith (fun x m => np3ModRot x (some m)) x m)
  averaging x := match x with
    | [] => .error .value
    | x :: xs => (x :: xs).mapM (np3Averaging qs)

/-! ## Torch -/

/-- `torch.view_as_complex`. -/
noncomputable def view3C (x : Vol (ℝ × ℝ)) : Vol ℂ := x.map fun p => ⟨p.1, p.2⟩

/-- `torch.view_as_real`. -/
noncomputable def view3R (x : Vol ℂ) : Vol (ℝ × ℝ) := x.map fun z => (z.re, z.im)

/-- `cdgmm` with a complex filter (backend/torch_backend.py L148-217):
`C_r = A_r B_r - A_i B_i`, `C_i = A_r B_i + A_i B_r`. -/
noncomputable def torch3Cdgmm (A f : Vol (ℝ × ℝ)) : Py (Vol (ℝ × ℝ)) :=
  if A.shape ≠ f.shape then .error .runtime
  else .ok (Vol.tab A.shape fun i =>
    ((A.vx i).1 * (f.vx i).1 - (A.vx i).2 * (f.vx i).2,
     (A.vx i).1 * (f.vx i).2 + (A.vx i).2 * (f.vx i).1))

/-- `modulus_rotation(x, module)` (scattering3d/backend/torch_backend.py L102-125). -/
noncomputable def torch3ModRot (x : Vol (ℝ × ℝ)) : Option (Vol ℝ) → Vol ℝ
  | none => Vol.tab x.shape fun i => Real.sqrt ((x.vx i).1 ^ 2 + (x.vx i).2 ^ 2)
  | some m => Vol.tab x.shape fun i => Real.sqrt (m.vx i ^ 2 + ((x.vx i).1 ^ 2 + (x.vx i).2 ^ 2))

/-- The torch backend on one volume.  `compute_integrals` (L127-151) fills a zero tensor column by
column, so an empty list of powers is not an error there. -/
noncomputable abbrev torch3Backend (qs : List ℝ) : Backend3D where
  R := Vol ℝ
  C := Vol (ℝ × ℝ)
  F := Vol (ℝ × ℝ)
  A := List ℝ
  rfft x := .ok (view3R (dft3 (view3C (x.map fun r : ℝ => (r, (0 : ℝ))))))
  ifft x := .ok (view3R (idft3 (view3C x)))
  cdgmm3d := torch3Cdgmm
  modulus x := .ok (x.map fun p => Real.sqrt (p.1 * p.1 + p.2 * p.2))
  modulusRotation x m := .ok (torch3ModRot x m)
  averaging x := .ok (np3Integrals qs x)

end Verif
