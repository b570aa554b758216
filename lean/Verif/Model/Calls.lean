import Verif.Model.Py

/-!
# Calls of the constructors

How Python binds the arguments of a call to the parameters of a function, and what the constructors of the frontends do
with them before anything is computed: they call the initialiser of the mixin (`frontend_name`) and the initialiser of the
base class of the family, which stores its parameters.  The rest of the constructors (`_instantiate_backend`, `build`,
`create_filters`) is modelled in `Select`, `Object1D`, `Object2D`, `Object3D`, `ObjectJTFS` on the stored values.
-/

namespace Verif

namespace Calls

/-- Names of parameters and of attributes.  `_Q`, `_T`, `_stride`, `_oversampling`, `_F`, `_stride_fr` are written without
the underscore. -/
inductive Par where
  | J | shape | Q | T | stride | maxOrder | oversampling | outType | backend
  | JFr | QFr | F | strideFr | format | oversamplingFr
  | L | prePad
  | sigma0 | rotationCovariant | method | points | integralPowers
  | name | className | frontend | frontendName
  | other (s : String)
  deriving DecidableEq, Repr

/-- Values: the constants that occur as defaults, and any other object. -/
inductive Val where
  | none
  | int (n : Int)
  | bool (b : Bool)
  | str (s : String)
  | powers            -- `(0.5, 1., 2.)`
  | obj (n : Nat)
  deriving DecidableEq, Repr

/-- Parameters of a function with their default values. -/
abbrev Params := List (Par × Option Val)

/-- Local variables, attributes, keyword arguments. -/
abbrev Env := List (Par × Val)

/-- Value of a parameter that no positional argument reaches: the keyword argument, the default value, or `TypeError`
("missing a required argument"). -/
def keywordOrDefault (kw : Env) (p : Par × Option Val) : Py (Par × Val) :=
  match kw.lookup p.1 with
  | some v => .ok (p.1, v)
  | none =>
    match p.2 with
    | some d => .ok (p.1, d)
    | none => .error .type

/-- `f(*args, **kw)`: the local variables of `f` at the start, or `TypeError` (too many positional arguments, repeated or
unknown keyword, several values for a parameter, missing argument). -/
def bind (ps : Params) (args : List Val) (kw : Env) : Py Env :=
  if ps.length < args.length then .error .type
  else if ¬ (kw.map Prod.fst).Nodup then .error .type
  else if ∃ k ∈ kw, k.1 ∉ ps.map Prod.fst then .error .type
  else if ∃ k ∈ kw, k.1 ∈ (ps.take args.length).map Prod.fst then .error .type
  else do
    let rest ← (ps.drop args.length).mapM (keywordOrDefault kw)
    .ok ((ps.map Prod.fst).zip args ++ rest)

/-- The value of a local variable. -/
def get (e : Env) (p : Par) : Py Val :=
  match e.lookup p with
  | some v => .ok v
  | none => .error .name

/-- The values of local variables, in order. -/
def gets (e : Env) (ps : List Par) : Py (List Val) := ps.mapM (get e)

/-- Keyword arguments `p=p`. -/
def same (e : Env) (ps : List Par) : Py Env := ps.mapM fun p => do
  let v ← get e p
  .ok (p, v)

/-! ## Initialisers of the base classes -/

/-- `ScatteringBase1D.__init__` (scattering1d/frontend/base_frontend.py L17-18). -/
def sigBase1D : Params :=
  [(.J, none), (.shape, none), (.Q, some (.int 1)), (.T, some .none), (.stride, some .none), (.maxOrder, some (.int 2)),
   (.oversampling, some (.int 0)), (.outType, some (.str "array")), (.backend, some .none)]

/-- L20-30: the attributes. -/
def initBase1D (args : List Val) (kw : Env) : Py Env := do
  let e ← bind sigBase1D args kw
  same e [.J, .shape, .Q, .T, .stride, .maxOrder, .outType, .backend, .oversampling]

/-- `TimeFrequencyScatteringBase.__init__` (same file L525-527). -/
def sigBaseJTFS : Params :=
  [(.J, none), (.JFr, none), (.Q, none), (.shape, none), (.T, some .none), (.stride, some .none), (.QFr, some (.int 1)),
   (.F, some .none), (.strideFr, some .none), (.outType, some (.str "array")), (.format, some (.str "time")),
   (.backend, some .none)]

/-- L528-537. -/
def initBaseJTFS (args : List Val) (kw : Env) : Py Env := do
  let e ← bind sigBaseJTFS args kw
  let a ← gets e [.J, .shape, .Q, .T, .stride]
  let b ← gets e [.outType, .backend]
  let s ← initBase1D (a ++ [.int 2, .none] ++ b) []
  let u ← same e [.JFr, .QFr, .F, .strideFr, .format]
  .ok (s ++ u ++ [(.oversamplingFr, .int 0)])

/-- `ScatteringBase2D.__init__` (scattering2d/frontend/base_frontend.py L8-9). -/
def sigBase2D : Params :=
  [(.J, none), (.shape, none), (.L, some (.int 8)), (.maxOrder, some (.int 2)), (.prePad, some (.bool false)),
   (.backend, some .none), (.outType, some (.str "array"))]

/-- L11-17. -/
def initBase2D (args : List Val) (kw : Env) : Py Env := do
  let e ← bind sigBase2D args kw
  same e [.prePad, .L, .backend, .J, .shape, .maxOrder, .outType]

/-- `ScatteringBase3D.__init__` (scattering3d/frontend/base_frontend.py L6-8). -/
def sigBase3D : Params :=
  [(.J, none), (.shape, none), (.L, some (.int 3)), (.sigma0, some (.int 1)), (.maxOrder, some (.int 2)),
   (.rotationCovariant, some (.bool true)), (.method, some (.str "integral")), (.points, some .none),
   (.integralPowers, some .powers), (.backend, some .none)]

/-- L10-20. -/
def initBase3D (args : List Val) (kw : Env) : Py Env := do
  let e ← bind sigBase3D args kw
  same e [.J, .shape, .L, .sigma0, .maxOrder, .rotationCovariant, .method, .points, .integralPowers, .backend]

/-! ## Initialisers of the frontends -/

/-- The families of transforms. -/
inductive Family where
  | oneD | jtfs | twoD | threeD
  deriving DecidableEq, Repr

/-- The frontends with constructors of their own (the scikit-learn transformers use the numpy ones, `C95_transformer`). -/
inductive Front where
  | numpy | jax | tensorflow | torch
  deriving DecidableEq, Repr

/-- `frontend_name` (frontend/numpy_frontend.py L5, jax_frontend.py L7, tensorflow_frontend.py L6, torch_frontend.py L6),
also the default of `backend` in every constructor. -/
def Front.str : Front → String
  | .numpy => "numpy"
  | .jax => "jax"
  | .tensorflow => "tensorflow"
  | .torch => "torch"

/-- Parameters of the constructors: scattering1d/frontend/{numpy_frontend.py L8-9 and L22-24, jax_frontend.py L14-25 and
L47-61, tensorflow_frontend.py L9-21 and L37-52, torch_frontend.py L9-20 and L87-101},
scattering2d/frontend/{numpy_frontend.py L7-8, jax_frontend.py L14-15, tensorflow_frontend.py L7-8, torch_frontend.py
L9-10}, scattering3d/frontend/{numpy_frontend.py L8-9, jax_frontend.py L13-14, tensorflow_frontend.py L11-13,
torch_frontend.py L8-9}. -/
def params (f : Front) : Family → Params
  | .oneD =>
    [(.J, none), (.shape, none), (.Q, some (.int 1)), (.T, some .none), (.stride, some .none),
     (.maxOrder, some (.int 2)), (.oversampling, some (.int 0)), (.outType, some (.str "array")),
     (.backend, some (.str f.str))] ++
    (if f = .tensorflow then [(.name, some (.str "Scattering1D"))] else [])
  | .jtfs =>
    [(.J, none), (.JFr, none), (.Q, none), (.shape, none), (.T, some .none), (.stride, some .none),
     (.QFr, some (.int 1)), (.F, some .none), (.strideFr, some .none), (.outType, some (.str "array"))] ++
    (if f = .tensorflow then
      [(.backend, some (.str f.str)), (.format, some (.str "time")), (.name, some (.str "TimeFrequencyScattering"))]
     else [(.format, some (.str "time")), (.backend, some (.str f.str))])
  | .twoD =>
    [(.J, none), (.shape, none), (.L, some (.int 8)), (.maxOrder, some (.int 2)), (.prePad, some (.bool false)),
     (.backend, some (.str f.str))] ++
    (if f = .tensorflow then [(.name, some (.str "Scattering2D")), (.outType, some (.str "array"))]
     else [(.outType, some (.str "array"))])
  | .threeD =>
    [(.J, none), (.shape, none), (.L, some (.int 3)), (.sigma0, some (.int 1)), (.maxOrder, some (.int 2)),
     (.rotationCovariant, some (.bool true)), (.method, some (.str "integral")), (.points, some .none),
     (.integralPowers, some .powers), (.backend, some (.str f.str))] ++
    (if f = .tensorflow then [(.name, some (.str "HarmonicScattering3D"))] else [])

/-- `Class(*args, **kw)` up to the end of the initialiser of the base class: the attributes stored.  The 1-D, 2-D and 3-D
constructors pass their arguments by position (numpy_frontend.py L11-12, jax_frontend.py L28-30, tensorflow_frontend.py
L23-25, torch_frontend.py L22-24; 2-D L10-11, L18-19, L10-11; 3-D L11-13, L16-18, L15-17, L11-13), except
`ScatteringTorch2D`, which passes `**locals()` (scattering2d/frontend/torch_frontend.py L12); those of joint
time-frequency scattering pass them by keyword (L26-29, L64-78, L54-67, L103-117). -/
def construct (f : Front) (fam : Family) (args : List Val) (kw : Env) : Py Env := do
  let e ← bind (params f fam) args kw
  let s ← match fam with
    | .oneD => do
      let a ← gets e [.J, .shape, .Q, .T, .stride, .maxOrder, .oversampling, .outType, .backend]
      initBase1D a []
    | .jtfs => do
      let k ← match f with
        | .numpy => same e [.J, .JFr, .shape, .Q, .T, .stride, .QFr, .F, .strideFr, .outType, .format, .backend]
        | .jax => same e [.J, .JFr, .Q, .shape, .T, .stride, .QFr, .F, .strideFr, .outType, .format, .backend]
        | .tensorflow => same e [.J, .JFr, .Q, .shape, .T, .stride, .QFr, .F, .strideFr, .outType, .backend, .format]
        | .torch => same e [.J, .JFr, .Q, .shape, .T, .stride, .QFr, .F, .strideFr, .outType, .format, .backend]
      initBaseJTFS [] k
    | .twoD =>
      match f with
      | .torch => do
        let k ← same e [.J, .shape, .L, .maxOrder, .prePad, .backend, .outType]
        initBase2D [] k
      | _ => do
        let a ← gets e [.J, .shape, .L, .maxOrder, .prePad, .backend, .outType]
        initBase2D a []
    | .threeD => do
      let a ← gets e [.J, .shape, .L, .sigma0, .maxOrder, .rotationCovariant, .method, .points, .integralPowers, .backend]
      initBase3D a []
  .ok ((.frontendName, .str f.str) :: s)

/-- `ScatteringEntry1D(*args, **kw)` and the other entry classes, for a valid frontend `f`: `super().__init__(name=…,
class_name=…, *args, **kwargs)` (scattering1d/frontend/entry.py L5, L9-10, scattering2d L5, scattering3d L6-8) raises
`TypeError` if `name` or `class_name` is given; `ScatteringEntry.__init__` (frontend/entry.py L8-46) takes `frontend` out
of the keyword arguments and calls the constructor of the class of the frontend with the rest. -/
def entryConstruct (f : Front) (fam : Family) (args : List Val) (kw : Env) : Py Env :=
  if ¬ (kw.map Prod.fst).Nodup then .error .type
  else if ∃ k ∈ kw, k.1 = .name ∨ k.1 = .className then .error .type
  else construct f fam args (kw.filter fun k => k.1 ≠ .frontend)

/-- `ScatteringKeras2D(J, L=8, max_order=2, pre_pad=False)` (scattering2d/frontend/keras_frontend.py L10-13). -/
def constructKeras2D (args : List Val) (kw : Env) : Py Env := do
  let e ← bind [(.J, none), (.L, some (.int 8)), (.maxOrder, some (.int 2)), (.prePad, some (.bool false))] args kw
  let j ← get e .J
  let a ← gets e [.L, .maxOrder, .prePad]
  let s ← initBase2D ([j, .none] ++ a ++ [.str "array"]) []
  .ok ((.frontendName, .str "keras") :: s)

end Calls

end Verif
