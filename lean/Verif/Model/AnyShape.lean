import Verif.Model.ObjectJTFS

/-!
# Any integer as the length announced by `shape`

kymatio/scattering1d/frontend/base_frontend.py L37-104, L539-579, scattering1d/filter_bank.py L51-102.

`shape` announces a natural number in `Model/Utils1D`, and the models of `Model/Object1D` do not describe the code at
zero.  Nothing checks the sign of the integer, so here it is any integer.  `build` first computes the low-pass filter at
this length.  Up to there the steps are written again; after that the length is positive and the rest of the constructor
is that of `Model/Object1D`.
-/

namespace Verif

/-- The constructor argument `shape`. -/
inductive PyShapeZ where
  | int (n : ℤ)
  | tuple (l : List ℤ)
  | other

/-- Normalisation of `shape`, base_frontend.py L51-61. -/
def parseShapeZ (s : PyShapeZ) : Py ℤ :=
  match s with
  | .int n => .ok n
  | .tuple l =>
    if l.length > 1 then .error .value
    else listGet l 0
  | .other => .error .value

/-- `parse_T(T, J, N_input)`, scattering1d/utils.py L71-108. -/
def parseTN (T : PyT) (J : Nat) (Ninput : ℤ) : Py (Rat × Average) :=
  match T with
  | .none => .ok ((2 : Rat) ^ J, .loc)
  | .global => .ok ((2 : Rat) ^ J, .glob)
  | .num t =>
    if t > Ninput then .error .value
    else if t = 0 then .ok ((2 : Rat) ^ J, .no)
    else if t < 1 then .error .value
    else .ok (t, .loc)

/-- The oversampling block of `build`, base_frontend.py L63-80. -/
def applyOversamplingN (oversampling : Option PyNum) (stride : Option PyNum)
    (T : PyT) (J : Nat) (Ninput : ℤ) : Py (Option PyNum) :=
  match oversampling with
  | none => .ok stride
  | some o =>
    if o.val < 0 then .error .value
    else match o with
      | .flt _ => .error .value
      | .int o =>
        if 0 < o then do
          let p ← parseTN T J Ninput
          let lT := floorLog2 p.1
          match stride with
          | none => .ok (some (pyTwoPow (lT - o)))
          | some s =>
            if s.val = (pyTwoPow (lT - o - 1)).val then .ok (some (pyTwoPow (lT - o)))
            else .error .value
        else .ok stride

/-- `gauss_1d(N, sigma)` (filter_bank.py L51-102): `np.arange((1 - P) * N, P * N)` has `max((2 * P - 1) * N, 0)` entries,
`reshape(2 * P - 1, -1)` gives that number divided by `2 * P - 1` columns (`P >= 2`), and `ifft` of an empty array raises
`ValueError`. -/
noncomputable def gauss1dN (N : ℤ) (sigma : ℝ) : Py (List ℝ) :=
  let P := min (adaptiveChoiceP sigma 1e-7) 5
  let n := ((P * N - (1 - P) * N).toNat / (2 * P - 1).toNat)
  if n = 0 then .error .value else .ok (gauss1d n sigma)

/-- `build` up to the low-pass filter (L51-84); returns `N_input` and the length of this filter. -/
noncomputable def prologueN (shape : PyShapeZ) (J : Nat) (T : PyT) (stride oversampling : Option PyNum) : Py (ℤ × Nat) := do
  let N ← parseShapeZ shape
  let _ ← applyOversamplingN oversampling stride T J N
  let p ← parseTN T J N
  let phi ← gauss1dN N (0.1 / p.1)
  .ok (N, phi.length)

/-- `Scattering1D(...)` with any integer as shape. -/
noncomputable def Args1D.makeN (a : Args1D) (shape : PyShapeZ) : Py Sc1D := do
  let N ← prologueN shape a.J a.T a.stride a.oversampling
  ({ a with shape := .int N.1.toNat } : Args1D).make

/-- `TimeFrequencyScattering(...)` with any integer as shape: `build` begins with that of the base class (L540). -/
noncomputable def JArgs.makeN (a : JArgs) (shape : PyShapeZ) : Py ScJ := do
  let N ← prologueN shape a.J a.T a.stride none
  ({ a with shape := .int N.1.toNat } : JArgs).make

end Verif
