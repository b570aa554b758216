import Verif.Model.Py

/-!
# `kymatio/scattering3d/core/scattering3d.py`

The backend and the averaging function are parameters, as in the code.
-/

namespace Verif

/-- The operations used by `scattering3d` (L18-23) and its argument `averaging`. -/
structure Backend3D where
  R : Type
  C : Type
  F : Type
  A : Type
  rfft : R → Py C
  ifft : C → Py C
  cdgmm3d : C → F → Py C
  modulus : C → Py R
  modulusRotation : C → Option R → Py R
  averaging : R → Py A

/-- `zip(*S)` for a list of lists: as many tuples as the shortest list has items. -/
def zipStar {α : Type} (S : List (List α)) : List (List α) :=
  (List.range (((S.map List.length).min?).getD 0)).map fun i => S.filterMap fun l => l[i]?

namespace Core3D

variable (B : Backend3D)

/-- `for m in range(len(fs)): U = cdgmm3d(Uc, fs[m]); U = ifft(U); Um = modulus_rotation(U, Um)`
(scattering3d.py L32-35, L49-52). -/
def rotLoop (Uc : B.C) : List B.F → Option B.R → Py (Option B.R)
  | [], Um => .ok Um
  | f :: fs, Um => do
    let c ← B.cdgmm3d Uc f
    let u ← B.ifft c
    let r ← B.modulusRotation u Um
    rotLoop Uc fs (some r)

/-- One wavelet modulus (L30-39, L47-56).  With no component, `averaging(None)` is a `TypeError`. -/
def wave (rot : Bool) (Uc : B.C) (fs : List B.F) : Py B.R :=
  if rot then do
    let Um ← rotLoop B Uc fs none
    match Um with
    | some r => .ok r
    | none => .error .type
  else do
    let f ← listGet fs 0
    let c ← B.cdgmm3d Uc f
    let u ← B.ifft c
    B.modulus u

/-- Wavelet modulus and its average (L47-58). -/
def coef2 (rot : Bool) (fl : List (List B.F)) (U1c : B.C) (j2 : Nat) : Py B.A := do
  let fs ← listGet fl j2
  let U2 ← wave B rot U1c fs
  B.averaging U2

/-- The second-order coefficients below one `U_1_m`; none unless `max_order > 1` (L44-58). -/
def order2 (rot : Bool) (J : Nat) (maxOrder : Int) (fl : List (List B.F)) (U1 : B.R) (j1 : Nat) :
    Py (List B.A) :=
  if maxOrder > 1 then do
    let U1c ← B.rfft U1
    (List.range' (j1 + 1) (J - j1)).mapM (coef2 B rot fl U1c)
  else .ok []

/-- Body of the loop over `j_1` (L29-58). -/
def order1 (rot : Bool) (J : Nat) (maxOrder : Int) (fl : List (List B.F)) (U0c : B.C) (j1 : Nat) :
    Py (B.A × List B.A) := do
  let fs ← listGet fl j1
  let U1 ← wave B rot U0c fs
  let S1 ← B.averaging U1
  let S2 ← order2 B rot J maxOrder fl U1 j1
  .ok (S1, S2)

/-- Body of the loop over `l` (L27-63): `s_order_1_l` and `s_order_2_l`. -/
def perL (rot : Bool) (J : Nat) (maxOrder : Int) (filters : List (List (List B.F))) (U0c : B.C) (l : Nat) :
    Py (List B.A × List B.A) := do
  let fl ← listGet filters l
  let r ← (List.range (J + 1)).mapM (order1 B rot J maxOrder fl U0c)
  .ok (r.map Prod.fst, (r.map Prod.snd).flatten)

/-- `stack(S, L)` (numpy_backend.py L56-59) on the feature axis: `np.stack` then a reshape into rows of
`L + 1`; `ValueError` if there is nothing to stack or the sizes do not match. -/
def stackRows {α : Type} (S : List α) (L : Nat) : Py (List (List α)) :=
  if S.length = 0 ∨ S.length / (L + 1) * (L + 1) ≠ S.length then .error .value
  else .ok ((List.range (S.length / (L + 1))).map fun i => (S.drop (i * (L + 1))).take (L + 1))

/-- `scattering3d(x, filters, rotation_covariant, L, J, max_order, backend, averaging)`, L1-75. -/
def scattering3d (x : B.R) (filters : List (List (List B.F))) (rot : Bool) (L J : Nat) (maxOrder : Int) :
    Py (List (List B.A)) := do
  let U0c ← B.rfft x
  let s ← (List.range (L + 1)).mapM (perL B rot J maxOrder filters U0c)
  let s1 := s.map Prod.fst
  let s2 := s.map Prod.snd
  let S := if maxOrder = 2 then List.zipWith (fun x y => x ++ y) s1 s2 else s1
  stackRows (zipStar S).flatten L

end Core3D

end Verif
