import Verif.Model.FilterBank2D
import Verif.Model.Torch1D

/-!
# `Scattering2D` objects (scattering2d/utils.py, frontend/base_frontend.py, frontend/numpy_frontend.py)
-/

namespace Verif

/-- One side of `compute_padding(M, N, J)`, scattering2d/utils.py L21-22. -/
def padded2 (M J : Nat) : Nat := ((M + 2 ^ J) / 2 ^ J + 1) * 2 ^ J

/-- The value of `out_type` given by the user. -/
inductive OutType2 where
  | array
  | list
  | other
  deriving DecidableEq

/-- Constructor arguments of `ScatteringNumPy2D` (numpy_frontend.py L7-8). -/
structure Args2D where
  J : Nat
  M : Nat
  N : Nat
  L : Nat
  maxOrder : Int
  prePad : Bool
  outType : OutType2

/-- What `build` and `create_filters` store. -/
structure Sc2D where
  Mp : Nat
  Np : Nat
  phi : List (Img ℝ)
  psi : List (Filt2 (Img ℝ))

/-- `build` (base_frontend.py L19-32) and `create_filters` (L34-36). -/
noncomputable def Args2D.make (a : Args2D) : Py Sc2D :=
  if 2 ^ a.J > a.M ∨ 2 ^ a.J > a.N then .error .runtime
  else
    let Mp := padded2 a.M a.J
    let Np := padded2 a.N a.J
    let f := filterBank2 Mp Np a.J a.L
    .ok ⟨Mp, Np, f.1, f.2⟩

/-- The padding stored by `build`: `Pad([(Mp-M)//2, (Mp-M+1)//2, (Np-N)//2, (Np-N+1)//2], [M, N])`, or
the identity with `pre_pad` (base_frontend.py L26-30). -/
noncomputable def Args2D.pad (a : Args2D) (s : Sc2D) : Img ℝ → Py (Img ℝ) :=
  if a.prePad then fun x => .ok x
  else np2Pad ((s.Mp - a.M) / 2) ((s.Mp - a.M + 1) / 2) ((s.Np - a.N) / 2) ((s.Np - a.N + 1) / 2)

/-- `pad`, `unpad` and shapes handed to the core. -/
noncomputable def Args2D.ops (a : Args2D) (s : Sc2D) : Ops2D (Img ℝ) :=
  ⟨a.pad s, np2Unpad, fun x => (x.h, x.w)⟩

/-- The shape and `out_type` checks of `scattering` (numpy_frontend.py L19-29) on one image. -/
def Args2D.check (a : Args2D) (s : Sc2D) (h w : Nat) : Py Unit :=
  if (w ≠ a.N ∨ h ≠ a.M) ∧ a.prePad = false then .error .runtime
  else if (w ≠ s.Np ∨ h ≠ s.Mp) ∧ a.prePad = true then .error .runtime
  else if a.outType = .other then .error .runtime
  else .ok ()

/-- `Scattering2D(J, (M, N), L, ...)(x)` with the numpy backend on one image
(numpy_frontend.py L7-52). -/
noncomputable def Args2D.run (a : Args2D) (x : Img ℝ) : Py (Out2D (Img ℝ)) := do
  let s ← a.make
  a.check s x.h x.w
  Core2D.scattering2d np2Backend (a.ops s) x a.J s.phi s.psi a.maxOrder
    (decide (a.outType = .array))

/-- `pad`, `unpad` and shapes for a batch `(B, M, N)`, kept as the list of its `B` images:
`np.pad` with no padding on the leading axis and slicing act image by image.  All images of an array
have the same shape, so the shape compared by `np.stack` is that of the first. -/
noncomputable def Args2D.batchOps (a : Args2D) (s : Sc2D) : Ops2D (List (Img ℝ)) :=
  ⟨fun xs => xs.mapM (a.pad s), fun xs => xs.map np2Unpad,
    fun xs => match xs with | [] => (0, 0) | x :: _ => (x.h, x.w)⟩

/-- The same transform on an array of shape `(B, h, w)` (numpy_frontend.py L31-52; leading axes are
flattened into one by the `reshape` of L33-36 and restored by those of L42-50). -/
noncomputable def Args2D.runBatch (a : Args2D) (h w : Nat) (xs : List (Img ℝ)) :
    Py (Out2D (List (Img ℝ))) := do
  let s ← a.make
  a.check s h w
  Core2D.scattering2d (batchBackend np2Backend) (a.batchOps s) xs a.J s.phi s.psi a.maxOrder
    (decide (a.outType = .array))

end Verif
