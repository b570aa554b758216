import Verif.Model.Core1D

/-!
# `kymatio/scattering2d/core/scattering2d.py`

The operations used here (`rfft`, `ifft`, `irfft`, `modulus`, `cdgmm`, `subsample_fourier`) have the
same signatures as in 1-D, so `Backend1D` is reused with images for tensors.  `pad`, `unpad` and
`stack` are separate arguments, as in the code.
-/

namespace Verif

/-- A 2-D wavelet dictionary `{'levels', 'j', 'theta'}` (scattering2d/filter_bank.py L32). -/
structure Filt2 (F : Type) where
  levels : List F
  j : Nat
  theta : Nat

/-- The dictionary `{'coef', 'j', 'n', 'theta'}` of a 2-D path. -/
structure Path2 (R : Type) where
  coef : R
  j : List Nat
  n : List Nat
  theta : List Nat

/-- `pad`, `unpad` and what `np.stack` compares. -/
structure Ops2D (R : Type) where
  pad : R → Py R
  unpad : R → R
  size : R → Nat × Nat

/-- What `scattering2d` returns. -/
inductive Out2D (R : Type) where
  | array (rows : List R)
  | list (paths : List (Path2 R))

namespace Core2D

variable (B : Backend1D) (ops : Ops2D B.R)

/-- The exponent of `2 ** (a - b)` used as a subsampling factor.  A negative exponent gives a float,
which `reshape` refuses with a `TypeError`. -/
def subExp (a b : Nat) : Py Nat := if b ≤ a then .ok (a - b) else .error .type

/-- `cdgmm(U_c, phi['levels'][lev])`, `subsample_fourier(., k=2**(J-lev))`, `irfft`, `unpad`
(scattering2d.py L19-23, L42-46, L69-73). -/
def lowpass (J : Nat) (phi : List B.F) (Uc : B.C) (lev : Nat) : Py B.R := do
  let f ← listGet phi lev
  let c ← B.cdgmm Uc f
  let e ← subExp J lev
  let s ← B.subsample c e
  let r ← B.irfft s
  .ok (ops.unpad r)

/-- `if j1 > 0: U = subsample_fourier(U, k=2**j1)` (scattering2d.py L35-36). -/
def subIfPos (c : B.C) (j : Nat) : Py B.C := if j > 0 then B.subsample c j else .ok c

/-- First-order band-pass (scattering2d.py L34-39). -/
def first (psi : Filt2 B.F) (U0c : B.C) : Py B.C := do
  let f ← listGet psi.levels 0
  let c ← B.cdgmm U0c f
  let s ← subIfPos B c psi.j
  let y ← B.ifft s
  let m ← B.modulus y
  B.rfft m

/-- Second-order band-pass (scattering2d.py L62-66). -/
def second (psi : Filt2 B.F) (j1 : Nat) (U1c : B.C) : Py B.C := do
  let f ← listGet psi.levels j1
  let c ← B.cdgmm U1c f
  let e ← subExp psi.j j1
  let s ← B.subsample c e
  let y ← B.ifft s
  let m ← B.modulus y
  B.rfft m

/-- Body of the inner loop for one `n2` (scattering2d.py L55-78). -/
def secondOrder (J : Nat) (phi : List B.F) (psi1 : Filt2 B.F) (n1 : Nat) (U1c : B.C)
    (psi2 : Filt2 B.F) (n2 : Nat) : Py (List (Path2 B.R)) :=
  if psi2.j ≤ psi1.j then .ok []
  else do
    let U2c ← second B psi2 psi1.j U1c
    let S2 ← lowpass B ops J phi U2c psi2.j
    .ok [⟨S2, [psi1.j, psi2.j], [n1, n2], [psi1.theta, psi2.theta]⟩]

/-- Body of the outer loop for one `n1` (scattering2d.py L30-78): the first-order path and the
second-order paths it contributes, kept apart because the code appends them to two lists. -/
def firstOrder (J : Nat) (phi : List B.F) (psi : List (Filt2 B.F)) (maxOrder : Int) (U0c : B.C)
    (psi1 : Filt2 B.F) (n1 : Nat) : Py (List (Path2 B.R × List (Path2 B.R))) := do
  let U1c ← first B psi1 U0c
  let S1 ← lowpass B ops J phi U1c psi1.j
  let p1 : Path2 B.R := ⟨S1, [psi1.j], [n1], [psi1.theta]⟩
  if maxOrder < 2 then .ok [(p1, [])]
  else do
    let p2 ← Core1D.forEnum (secondOrder B ops J phi psi1 n1 U1c) psi 0
    .ok [(p1, p2)]

/-- The list `out_S` (scattering2d.py L11-83). -/
def paths (x : B.R) (J : Nat) (phi : List B.F) (psi : List (Filt2 B.F)) (maxOrder : Int) :
    Py (List (Path2 B.R)) := do
  let Ur ← ops.pad x
  let U0c ← B.rfft Ur
  let S0 ← lowpass B ops J phi U0c 0
  let l ← Core1D.forEnum (firstOrder B ops J phi psi maxOrder U0c) psi 0
  .ok (⟨S0, [], [], []⟩ :: (l.map Prod.fst ++ (l.map Prod.snd).flatten))

/-- `np.stack(arrays, axis=-3)`: `ValueError` if shapes differ (there is always at least one). -/
def stack (l : List B.R) : Py (List B.R) :=
  match l with
  | [] => .error .value
  | a :: _ => if l.all (fun b => ops.size b == ops.size a) then .ok l else .error .value

/-- `scattering2d(x, pad, unpad, backend, J, L, phi, psi, max_order, out_type)`,
scattering2d.py L1-88.  `L` is not used by the code. -/
def scattering2d (x : B.R) (J : Nat) (phi : List B.F) (psi : List (Filt2 B.F)) (maxOrder : Int)
    (array : Bool) : Py (Out2D B.R) := do
  let out ← paths B ops x J phi psi maxOrder
  if array then do
    let rows ← stack B ops (out.map fun p => p.coef)
    .ok (.array rows)
  else .ok (.list out)

end Core2D

end Verif
