import Verif.Model.Classes

/-!
# Properties of the objects

The `@property` members of `ScatteringBase1D`, `TimeFrequencyScatteringBase` and `ScatteringBase2D`: they have no setter, and
three of them are deprecated names that call `warn` before they return.
-/

namespace Verif

namespace Classes

/-- The members of a class that are properties (scattering1d/frontend/base_frontend.py L239-299 and L721-759,
scattering2d/frontend/base_frontend.py L42-52).  The classes of other libraries are left out. -/
def properties : Cls → List Attr
  | .scatteringBase1D => [.oversampling, .average, .filterbank, .log2Stride, .log2T, .attrQ, .stride, .attrT]
  | .timeFrequencyScatteringBase => [.averageFr, .attrF, .filterbankFr, .log2F, .log2StrideFr, .strideFr]
  | .scatteringBase2D => [.attrM, .attrN]
  | _ => []

/-- `obj.a = v` for an object of class `c`: a property without setter found in the class raises `AttributeError`; otherwise
the attribute is stored in the object. -/
def assign (ext : Cls → Attr → Bool) (c : Cls) (a : Attr) : Py Unit :=
  match lookup ext c a with
  | .ok d => if (properties d).contains a then .error .attribute else .ok ()
  | .error _ => .ok ()

/-- The names bound at the top level of `scattering1d/frontend/base_frontend.py` (L1-13, L16, L523, end of file). -/
def names1D : List String :=
  ["ScatteringBase", "Counter", "math", "numbers", "np", "warn", "scattering1d", "joint_timefrequency_scattering",
   "jtfs_average_and_format", "compute_temporal_support", "gauss_1d", "anden_generator", "scattering_filter_factory",
   "spin", "compute_border_indices", "compute_padding", "parse_T", "ScatteringBase1D", "TimeFrequencyScatteringBase",
   "__all__"]

/-- The names bound at the top level of `scattering2d/frontend/base_frontend.py` (L1-4, L7, end of file). -/
def names2D : List String := ["ScatteringBase", "filter_bank", "compute_padding", "ScatteringBase2D", "__all__"]

/-- The builtins that the properties use. -/
def builtinNames : List String := ["int", "DeprecationWarning"]

/-- Evaluation of a name that is not local: the globals of the module, then the builtins, else `NameError`. -/
def loadName (globals : List String) (n : String) : Py Unit :=
  if n ∈ globals ∨ n ∈ builtinNames then .ok () else .error .name

/-- What a deprecated property reads from the object: `shape` of a 2-D object, `_oversampling` of a 1-D object. -/
structure Stored where
  shape : Int × Int
  oversampling : Int

/-- The deprecated properties: `warn("...", DeprecationWarning)` and then the value
(scattering1d/frontend/base_frontend.py L240-244, scattering2d/frontend/base_frontend.py L43-52), where `g1` and `g2` are the
names bound in the two modules.  The warning itself is not modelled. -/
def deprecatedIn (g1 g2 : List String) (d : Cls) (a : Attr) (o : Stored) : Py Int :=
  match d, a with
  | .scatteringBase1D, .oversampling => do
    loadName g1 "warn"
    loadName g1 "DeprecationWarning"
    .ok o.oversampling
  | .scatteringBase2D, .attrM => do
    loadName g2 "warn"
    loadName g2 "DeprecationWarning"
    loadName g2 "int"
    .ok o.shape.1
  | .scatteringBase2D, .attrN => do
    loadName g2 "warn"
    loadName g2 "DeprecationWarning"
    loadName g2 "int"
    .ok o.shape.2
  | _, _ => .error .attribute

/-- The deprecated properties in the modules as they are. -/
def deprecated (d : Cls) (a : Attr) (o : Stored) : Py Int := deprecatedIn names1D names2D d a o

/-- `obj.a` for a deprecated `a` and an object of class `c`. -/
def readDeprecated (ext : Cls → Attr → Bool) (c : Cls) (a : Attr) (o : Stored) : Py Int := do
  let d ← lookup ext c a
  deprecated d a o

end Classes

end Verif
