import Verif.Model.Py

/-!
# `kymatio/scattering1d/core/scattering1d.py`

The Python function takes the backend as an argument; so does the model.
-/

namespace Verif

/-- The backend operations used by `scattering1d`.  `subsample x e` is
`backend.subsample_fourier(x, 2**e)`; the code only ever passes powers of two. -/
structure Backend1D where
  /-- real tensors -/
  R : Type
  /-- complex tensors -/
  C : Type
  /-- one resolution of a filter, in the Fourier domain -/
  F : Type
  rfft : R → Py C
  ifft : C → Py C
  irfft : C → Py R
  modulus : C → Py R
  cdgmm : C → F → Py C
  subsample : C → Nat → Py C

/-- A filter dictionary: `'levels'` and `'j'`
(`scattering_filter_factory`, filter_bank.py; the keys `xi`, `sigma` are not read by the core). -/
structure Filt (F : Type) where
  levels : List F
  j : Nat

/-- The dictionary `{'coef': ..., 'j': ..., 'n': ...}` yielded for each path. -/
structure Path (R : Type) where
  coef : R
  j : List Nat
  n : List Nat

namespace Core1D

variable (B : Backend1D)

/-- Low-pass filtering, subsampling and inverse transform:
`cdgmm(U_hat, phi['levels'][k]); subsample_fourier(., 2**e); irfft(.)`
(scattering1d.py L48-50, L74-76, L102-104). -/
def lowpass (phi : Filt B.F) (Uhat : B.C) (k e : Nat) : Py B.R := do
  let f ← listGet phi.levels k
  let c ← B.cdgmm Uhat f
  let h ← B.subsample c e
  B.irfft h

/-- Band-pass filtering, subsampling, inverse transform, modulus
(scattering1d.py L61-66 with `lev = 0`, L91-96 with `lev = k1`). -/
def bandpass (psi : Filt B.F) (Uhat : B.C) (lev e : Nat) : Py B.R := do
  let f ← listGet psi.levels lev
  let c ← B.cdgmm Uhat f
  let h ← B.subsample c e
  let y ← B.ifft h
  B.modulus y

/-- Body of the inner loop (scattering1d.py L85-107) for one `n2`: nothing unless `j2 > j1`.
`max(a - b, 0)` on naturals is truncated subtraction. -/
def secondOrder (phi : Filt B.F) (ls : Nat) (avg : Bool) (j1 n1 k1 : Nat) (U1hat : B.C)
    (psi2 : Filt B.F) (n2 : Nat) : Py (List (Path B.R)) :=
  let j2 := psi2.j
  if j2 > j1 then
    let sub2 := if avg then min j2 ls else j2
    let k2 := sub2 - k1
    do
      let U2m ← bandpass B psi2 U1hat k1 k2
      if avg then do
        let U2hat ← B.rfft U2m
        let S2 ← lowpass B phi U2hat (k1 + k2) (ls - sub2)
        .ok [⟨S2, [j1, j2], [n1, n2]⟩]
      else .ok [⟨U2m, [j1, j2], [n1, n2]⟩]
  else .ok []

/-- Run `f` on every element with its index and concatenate the results: a Python loop
`for n in range(len(l))` whose body yields. -/
def forEnum {α β : Type} (f : α → Nat → Py (List β)) : List α → Nat → Py (List β)
  | [], _ => .ok []
  | a :: l, n => do
    let x ← f a n
    let y ← forEnum f l (n + 1)
    .ok (x ++ y)

/-- The first-order path yielded at scattering1d.py L70-83: `S_1` when averaging, `U_1` otherwise. -/
def firstPath (phi : Filt B.F) (ls : Nat) (avg : Bool) (j1 n1 k1 : Nat) (U1m : B.R)
    (U1hat : B.C) : Py (Path B.R) :=
  if avg then do
    let S1 ← lowpass B phi U1hat k1 (ls - k1)
    .ok ⟨S1, [j1], [n1]⟩
  else .ok ⟨U1m, [j1], [n1]⟩

/-- Body of the outer loop (scattering1d.py L58-107) for one `n1`.  `psis` is
`filters[1:]`, so `len(filters) > 2` is `psis.length > 1` and `filters[2]` is `psis[1]`. -/
def firstOrder (phi : Filt B.F) (psis : List (List (Filt B.F))) (ls : Nat) (avg : Bool)
    (U0hat : B.C) (psi : Filt B.F) (n1 : Nat) : Py (List (Path B.R)) :=
  let j1 := psi.j
  let k1 := if avg then min j1 ls else j1
  do
    let U1m ← bandpass B psi U0hat 0 k1
    match avg, psis[1]? with
    | false, none => .ok [⟨U1m, [j1], [n1]⟩]
    | avg, psi2? => do
      let U1hat ← B.rfft U1m
      let p1 ← firstPath B phi ls avg j1 n1 k1 U1m U1hat
      match psi2? with
      | none => .ok [p1]
      | some psi2 => do
        let p2 ← forEnum (secondOrder B phi ls avg j1 n1 k1 U1hat) psi2 0
        .ok (p1 :: p2)

/-- The zeroth-order coefficient (scattering1d.py L46-53). -/
def zeroth (phi : Filt B.F) (ls : Nat) (avg : Bool) (U0 : B.R) (U0hat : B.C) : Py B.R :=
  if avg then lowpass B phi U0hat 0 ls else .ok U0

/-- `scattering1d(U_0, backend, filters, log2_stride, average_local)`, scattering1d.py L2-107.
`filters = [phi] ++ psis`.  The generator is modelled by the list of everything it yields; an
exception anywhere makes the whole consumption raise. -/
def scattering1d (U0 : B.R) (phi : Filt B.F) (psis : List (List (Filt B.F))) (ls : Nat)
    (avg : Bool) : Py (List (Path B.R)) := do
  let U0hat ← B.rfft U0
  let S0 ← zeroth B phi ls avg U0 U0hat
  let psi1 ← listGet psis 0
  let rest ← forEnum (firstOrder B phi psis ls avg U0hat) psi1 0
  .ok (⟨S0, [], []⟩ :: rest)

end Core1D

end Verif
