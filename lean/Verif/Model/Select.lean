import Verif.Model.Py

/-!
# Choice of the frontend and of the backend, cache directory

`kymatio/frontend/entry.py`, `kymatio/scattering{1,2,3}d/frontend/entry.py`,
`kymatio/frontend/base_frontend.py` L31-51, `kymatio/caching.py`.

Strings are lists of characters.
-/

namespace Verif

namespace Select

/-- A Python string. -/
abbrev Str := List Char

/-- `s.replace(old, new)` for a non-empty `old`: leftmost, non-overlapping occurrences.  The counter is
the number of characters of the current occurrence still to be skipped. -/
def replaceAux (old new : Str) : Str → Nat → Str
  | [], _ => []
  | _ :: s, k + 1 => replaceAux old new s k
  | c :: s, 0 =>
    if old.isPrefixOf (c :: s) then new ++ replaceAux old new s (old.length - 1)
    else c :: replaceAux old new s 0

/-- `s.replace(old, new)`. -/
def replace (s old new : Str) : Str := replaceAux old new s 0

/-- `frontend_suffixes` (entry.py L13-18). -/
def frontendSuffixes : List (Str × Str) :=
  [("torch".toList, "Torch".toList),
   ("numpy".toList, "NumPy".toList),
   ("tensorflow".toList, "TensorFlow".toList),
   ("jax".toList, "Jax".toList),
   ("keras".toList, "Keras".toList),
   ("sklearn".toList, "Transformer".toList)]

/-- The four entry classes: `__name__`, and the attribute `class_name` passed to `ScatteringEntry`
(scattering1d/frontend/entry.py L3-10, scattering2d/frontend/entry.py L3-5,
scattering3d/frontend/entry.py L4-8). -/
inductive Entry where
  | oneD
  | jtfs
  | twoD
  | threeD
  deriving DecidableEq

def Entry.name : Entry → Str
  | .oneD => "ScatteringEntry1D".toList
  | .jtfs => "TimeFrequencyScatteringEntry".toList
  | .twoD => "ScatteringEntry2D".toList
  | .threeD => "HarmonicScatteringEntry3D".toList

def Entry.className : Entry → Str
  | .oneD => "scattering1d".toList
  | .jtfs => "scattering1d".toList
  | .twoD => "scattering2d".toList
  | .threeD => "scattering3d".toList

/-- The modules `kymatio.scattering{1,2,3}d.frontend.*_frontend` of the repository and the scattering
classes each of them defines. -/
def modules : List (Str × List Str) :=
  [("kymatio.scattering1d.frontend.torch_frontend".toList,
      ["ScatteringTorch1D".toList, "TimeFrequencyScatteringTorch".toList]),
   ("kymatio.scattering1d.frontend.numpy_frontend".toList,
      ["ScatteringNumPy1D".toList, "TimeFrequencyScatteringNumPy".toList]),
   ("kymatio.scattering1d.frontend.tensorflow_frontend".toList,
      ["ScatteringTensorFlow1D".toList, "TimeFrequencyScatteringTensorFlow".toList]),
   ("kymatio.scattering1d.frontend.jax_frontend".toList,
      ["ScatteringJax1D".toList, "TimeFrequencyScatteringJax".toList]),
   ("kymatio.scattering1d.frontend.keras_frontend".toList, ["ScatteringKeras1D".toList]),
   ("kymatio.scattering1d.frontend.sklearn_frontend".toList,
      ["ScatteringTransformer1D".toList, "TimeFrequencyScatteringTransformer".toList]),
   ("kymatio.scattering2d.frontend.torch_frontend".toList, ["ScatteringTorch2D".toList]),
   ("kymatio.scattering2d.frontend.numpy_frontend".toList, ["ScatteringNumPy2D".toList]),
   ("kymatio.scattering2d.frontend.tensorflow_frontend".toList, ["ScatteringTensorFlow2D".toList]),
   ("kymatio.scattering2d.frontend.jax_frontend".toList, ["ScatteringJax2D".toList]),
   ("kymatio.scattering2d.frontend.keras_frontend".toList, ["ScatteringKeras2D".toList]),
   ("kymatio.scattering2d.frontend.sklearn_frontend".toList, ["ScatteringTransformer2D".toList]),
   ("kymatio.scattering3d.frontend.torch_frontend".toList, ["HarmonicScatteringTorch3D".toList]),
   ("kymatio.scattering3d.frontend.numpy_frontend".toList, ["HarmonicScatteringNumPy3D".toList]),
   ("kymatio.scattering3d.frontend.tensorflow_frontend".toList, ["HarmonicScatteringTensorFlow3D".toList]),
   ("kymatio.scattering3d.frontend.jax_frontend".toList, ["HarmonicScatteringJax3D".toList]),
   ("kymatio.scattering3d.frontend.sklearn_frontend".toList, ["HarmonicScatteringTransformer3D".toList])]

/-- `importlib.import_module` then `getattr(module, class_name)` (entry.py L34-41).  `installed` says
whether the third-party library the module imports is available. -/
def importClass (installed : Str → Bool) (module cls : Str) : Py (Str × Str) :=
  match modules.lookup module with
  | none => .error .importErr
  | some classes =>
    if installed module then
      if cls ∈ classes then .ok (module, cls) else .error .attribute
    else .error .importErr

/-- `ScatteringEntry.__init__` (entry.py L7-46) up to the call of the chosen class's `__init__`: the module
and the class chosen.  `frontend` is the keyword argument, if given; `lower` is `str.lower`.
`raise e from RuntimeError(..)` re-raises `e`. -/
def entry (lower : Str → Str) (installed : Str → Bool) (e : Entry) (frontend : Option Str) :
    Py (Str × Str) :=
  let f := match frontend with
    | none => "numpy".toList
    | some s => lower s
  match frontendSuffixes.lookup f with
  | none => .error .runtime
  | some suffix =>
    importClass installed
      ("kymatio.".toList ++ e.className ++ ".frontend.".toList ++ f ++ "_frontend".toList)
      (replace e.name "Entry".toList suffix)

/-- The attribute `backend` before `_instantiate_backend`: a string or an object with a `name`. -/
inductive BackendArg (B : Type) where
  | str (s : Str)
  | obj (b : B)

/-- `_instantiate_backend` (base_frontend.py L31-51).  `imp` imports a module and takes its attribute
`backend`; `none` stands for `ImportError`. -/
def instantiateBackend {B : Type} (name : B → Str) (imp : Str → Option B) (importString frontendName : Str) :
    BackendArg B → Py B
  | .str s =>
    if frontendName.isPrefixOf s then
      match imp (importString ++ s ++ "_backend".toList) with
      | some b => .ok b
      | none => .error .importErr
    else .error .importErr
  | .obj b => if frontendName.isPrefixOf (name b) then .ok b else .error .importErr

/-! ## `kymatio/caching.py` -/

/-- `os.path.join(a, b)` on a POSIX system. -/
def join (a b : Str) : Str :=
  if "/".toList.isPrefixOf b then b
  else if a = [] ∨ a.getLast? = some '/' then a ++ b
  else a ++ "/".toList ++ b

/-- `find_cache_base_dir` (L4-28).  `env` is `os.environ.get('KYMATIO_CACHE')`, `home` is
`os.path.expanduser("~")`. -/
def findCacheBaseDir (env : Option Str) (home : Str) (base : Option Str) : Str :=
  match base with
  | none =>
    match env with
    | none => join home "kymatio_cache".toList
    | some d => d
  | some b => b

/-- `get_cache_dir` (L31-64).  The state is the set of existing paths; `mk` is `os.makedirs`, which may
raise.  Returns the path and the state afterwards. -/
def getCacheDir (mk : (Str → Prop) → Str → Py (Str → Prop)) (env : Option Str) (home : Str)
    (fs : Str → Prop) [DecidablePred fs] (name : Str) (base : Option Str) (create : Bool) :
    Py (Str × (Str → Prop)) :=
  let path := join (findCacheBaseDir env home base) name
  if fs path then .ok (path, fs)
  else if create then do
    let fs' ← mk fs path
    .ok (path, fs')
  else .error .value

end Select

end Verif
