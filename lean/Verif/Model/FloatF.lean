import Verif.Model.ObjectJTFS
import Verif.Model.TorchJTFS

/-!
# `TimeFrequencyScattering` with a Python float for `F`

kymatio/scattering1d/frontend/base_frontend.py L557-579, core/timefrequency_scattering.py L246-248,
backend/numpy_backend.py L116-118, backend/torch_backend.py L146-169.

`JArgs` has one number for `F`, so it does not tell `F=4` from `F=4.0`; its comment restricts it to integers.  Here
the type of the number is a separate argument.  With a float `F` not larger than `2**J_fr`, `min_to_pad_fr` (L558),
`_N_padded_fr` (L568) and `phi['N']` are floats with an integral value.  The filters are the same: `morlet_1d` uses `N`
in `np.arange` and in a division only, because `P >= 2`.  But `pad_right = phi['N'] - X['n1_max']` (L247) is a float,
and both `np.pad` and `torch.nn.functional.pad` raise `TypeError` for a float width.
-/

namespace Verif

/-- The type of a Python number given as `F`. -/
inductive NumType where
  | int
  | float
  deriving DecidableEq

/-- Is `_N_padded_fr` a float?  `min(self.F, 2 ** self.J_fr)` (L558) is its first argument unless the second is
smaller, and `self.F` is the float of the user unless that is 0 (`parse_T`, utils.py L95-108). -/
def JArgs.floatWidth (a : JArgs) (ty : NumType) : Bool :=
  match ty, a.F with
  | .float, .num t => decide (t ≠ 0 ∧ t ≤ 2 ^ a.Jfr)
  | _, _ => false

/-- A backend whose `pad_frequency` is given a float width. -/
def JBackend.floatPad (B : JBackend) : JBackend :=
  { B with padFrequencyR := fun _ _ => .error .type, padFrequencyC := fun _ _ => .error .type }

/-- `TimeFrequencyScattering(...)(x)` with numpy, `F` being of the type `ty` when it is a number. -/
noncomputable def JArgs.runTyped (a : JArgs) (ty : NumType) (x : List ℝ) : Py (JOut (List ℝ) (Img ℝ)) := do
  let s ← a.make
  let Q ← parseQ a.Q
  if a.floatWidth ty then FrontJ.scattering npJ.floatPad npFrontJ (a.obj s Q.1.toNat) x
  else FrontJ.scattering npJ npFrontJ (a.obj s Q.1.toNat) x

/-- The same with torch (`JArgs.runTorch`). -/
noncomputable def JArgs.runTypedTorch (a : JArgs) (ty : NumType) (x : List ℝ) : Py (JOut (List ℝ) (Img ℝ)) := do
  let s ← a.make
  let Q ← parseQ a.Q
  let S ← if a.floatWidth ty then FrontJ.unassembled torchJ.floatPad torchFrontJ (a.obj s Q.1.toNat) x
    else FrontJ.unassembled torchJ torchFrontJ (a.obj s Q.1.toNat) x
  let S' ← S.mapM (FrontJ.torchReshape (a.obj s Q.1.toNat))
  FrontJ.assemble torchFrontJ (a.obj s Q.1.toNat) S'

end Verif
