import Verif.Model.Deprecated
import Verif.Model.NdArray2D
import Verif.Model.NdArray3D
import Verif.Model.NdJTFS

/-!
# What the frontends do with an input that is not an array

The checks between `S(x)` and the computation: `input_checks` of the backends (`kymatio/backend/numpy_backend.py` L11-20,
`jax_backend.py` L13-16, `torch_backend.py` L101-107), `ScatteringTorch.forward` (`kymatio/frontend/torch_frontend.py`
L13-18), `__call__` of the other frontends, and the first lines of each `scattering`.

Simplifications.  A Python object is one of the kinds of `Inp`; an object that is neither `None` nor an array of numpy or
torch is taken to have none of the attributes `shape`, `ndim` and `is_contiguous` (lists, tuples, numbers, strings).  Arrays
of jax and tensors of tensorflow as inputs are not modelled, nor are subclasses.
-/

namespace Verif

namespace InputChecks

/-- A Python object given as input. -/
inductive Inp where
  | none
  | np (x : Nd ℝ)
  | torch (x : Nd ℝ) (contiguous : Bool)
  /-- Another object, with the tensor that `tf.convert_to_tensor` makes of it; `none` if it raises `ValueError`. -/
  | other (converted : Option (Nd ℝ))

/-- The names bound in the module backend/numpy_backend.py (L1-5).  `_np` is an attribute of the class (L6), which is not
in the scope of a method. -/
def namesNumpyBackend : List String := ["numpy", "scipy", "NumpyBackend"]

/-- `NumpyBackend.input_checks` (backend/numpy_backend.py L11-20).  `and` does not evaluate the second `isinstance` for
an array of numpy; if `_np` were found it would be numpy again, and the test would be true. -/
def numpyBackend : Inp → Py Unit
  | .none => .error .type
  | .np _ => .ok ()
  | .torch _ _ => do
    Classes.loadName namesNumpyBackend "_np"
    .error .type
  | .other _ => do
    Classes.loadName namesNumpyBackend "_np"
    .error .type

/-- `JaxBackend.input_checks` (backend/jax_backend.py L13-16). -/
def jaxBackend : Inp → Py Unit
  | .none => .error .type
  | _ => .ok ()

/-- `TorchBackend.input_checks` (backend/torch_backend.py L101-107) with `contiguous_check` (L124-127). -/
def torchBackend : Inp → Py Unit
  | .none => .error .type
  | .torch _ c => if c then .ok () else .error .runtime
  | _ => .error .attribute

/-- The first use of `x.shape` or `x.ndim`. -/
def shapeOf : Inp → Py (Nd ℝ)
  | .np x => .ok x
  | .torch x _ => .ok x
  | _ => .error .attribute

/-- `try: tf.convert_to_tensor(x)`, `except ValueError: raise TypeError` (scattering2d/frontend/tensorflow_frontend.py
L24-28, scattering3d/frontend/tensorflow_frontend.py L29-33). -/
def tfConvert : Inp → Py (Nd ℝ)
  | .none => .error .type
  | .np x => .ok x
  | .torch x _ => .ok x
  | .other (some x) => .ok x
  | .other Option.none => .error .type

/-- `if not torch.is_tensor(x): raise TypeError` (scattering2d/frontend/torch_frontend.py L73-74,
scattering3d/frontend/torch_frontend.py L39-42). -/
def isTensor : Inp → Py (Nd ℝ)
  | .torch x _ => .ok x
  | _ => .error .type

/-- The frontends. -/
inductive Fr where
  | numpy | jax | tensorflow | torch
  deriving DecidableEq

/-- The transforms; `one` stands for `Scattering1D` and `TimeFrequencyScattering`. -/
inductive Dim where
  | one | two | three
  deriving DecidableEq

/-- The first checks of `S.scattering(x)`: for 1-D `_check_input` (scattering1d/frontend/base_frontend.py L232-237, called
in L108 and L583), for numpy and jax in 2-D and 3-D `input_checks` (scattering2d/frontend/numpy_frontend.py L17,
scattering3d/frontend/numpy_frontend.py L23).  The value is the array whose shape is looked at next. -/
def method : Dim → Fr → Inp → Py (Nd ℝ)
  | .one, _, x => shapeOf x
  | _, .numpy, x => do
    numpyBackend x
    shapeOf x
  | _, .jax, x => do
    jaxBackend x
    shapeOf x
  | _, .tensorflow, x => tfConvert x
  | _, .torch, x => isTensor x

/-- The first checks of `S(x)`: `forward` of torch runs `input_checks` and then `scattering`
(frontend/torch_frontend.py L13-18); `__call__` elsewhere is `scattering` (frontend/numpy_frontend.py L5-8,
frontend/tensorflow_frontend.py L8-11). -/
def call (d : Dim) (f : Fr) (x : Inp) : Py (Nd ℝ) :=
  match f with
  | .torch => do
    torchBackend x
    method d .torch x
  | f => method d f x

end InputChecks

open InputChecks

/-- `Scattering1D(...)(x)` with the numpy backend on any object: `_check_runtime_args` comes before `_check_input`
(base_frontend.py L107-108). -/
noncomputable def Args1D.call (a : Args1D) (x : Inp) : Py NdFront.Out := do
  let s ← a.make
  Front1D.checkRuntimeArgs (a.obj s)
  let y ← InputChecks.call .one .numpy x
  NdFront.scattering (a.obj s) y

/-- `TimeFrequencyScattering(...)(x)` with the numpy backend on any object (base_frontend.py L582-583). -/
noncomputable def JArgs.call (a : JArgs) (x : Inp) : Py NdFrontJ.Out := do
  let s ← a.make
  let Q ← parseQ a.Q
  FrontJ.checkRuntimeArgs (a.obj s Q.1.toNat)
  let y ← InputChecks.call .one .numpy x
  NdFrontJ.scattering (a.obj s Q.1.toNat) y

/-- `Scattering2D(...)(x)` with the numpy backend on any object. -/
noncomputable def Args2D.call (a : Args2D) (x : Inp) : Py Out2Nd := do
  let _ ← a.make
  let y ← InputChecks.call .two .numpy x
  a.runNd y

/-- `HarmonicScattering3D(...)(x)` with the numpy backend on any object. -/
noncomputable def Args3D.call (a : Args3D) (Y : ℤ → ℕ → ℝ → ℝ → ℂ) (x : Inp) : Py (Nd ℝ) := do
  let y ← InputChecks.call .three .numpy x
  a.runNd Y y

end Verif
