import Verif.Model.NdArray
import Verif.Model.NdArray2D

/-!
# The Keras layers

`kymatio/frontend/keras_frontend.py`, `kymatio/scattering1d/frontend/keras_frontend.py`,
`kymatio/scattering2d/frontend/keras_frontend.py`.  A static shape (`TensorShape`) is a list of dimensions, `none` when
unknown.  `call` runs the TensorFlow object built for the last axes; the model uses the numpy arithmetic, which returns
the same arrays (C77).
-/

namespace Verif

/-- `TensorShape(...)`. -/
abbrev StaticShape := List (Option Nat)

/-! ## One dimension -/

/-- Arguments of `ScatteringKeras1D` (scattering1d/frontend/keras_frontend.py L10). -/
structure Keras1D where
  J : Nat
  Q : PyQ
  T : PyT
  maxOrder : Int
  oversampling : Option PyNum

/-- The arguments given to `Scattering1D` in `build` (L20-25).  `__init__` (L15-16) stores 2 and 0 whatever `max_order` and
`oversampling` are. -/
def Keras1D.args (k : Keras1D) (shape : PyShape) : Args1D where
  J := k.J
  shape := shape
  Q := k.Q
  T := k.T
  stride := none
  maxOrder := 2
  oversampling := some (.int 0)
  outType := .array

/-- `tuple(input_shape[-1:])`: an unknown length makes a tuple `(None,)`, on which arithmetic raises `TypeError`. -/
def lastAxis (ishape : StaticShape) : Py PyShape :=
  match ishape.getLast? with
  | none => .ok (.tuple [])
  | some none => .error .type
  | some (some N) => .ok (.tuple [N])

/-- `build(input_shape)` (L20-26): the arguments of `self.S` and what its constructor stores. -/
noncomputable def Keras1D.build (k : Keras1D) (ishape : StaticShape) : Py (Args1D × Sc1D) := do
  let shape ← lastAxis ishape
  let s ← (k.args shape).make
  .ok (k.args shape, s)

/-- `compute_output_shape(input_shape)` of the layer built on `input_shape` (L28-34).  The difference of border indices is
never negative. -/
noncomputable def Keras1D.outputShape (k : Keras1D) (ishape : StaticShape) : Py StaticShape := do
  let S ← k.build ishape
  let nc ← Front1D.outputSize (S.1.obj S.2)
  let k0 := k.J - 0
  let e ← dictGet S.2.built.indEnd k0
  let b ← dictGet S.2.built.indStart k0
  let d ← listGet ishape 0
  .ok [d, some nc, some (e - b)]

/-- `layer(x)` for the layer built on `input_shape`. -/
noncomputable def Keras1D.call (k : Keras1D) (ishape : StaticShape) (x : Nd ℝ) : Py NdFront.Out := do
  let S ← k.build ishape
  NdFront.scattering (S.1.obj S.2) x

/-! ## Two dimensions -/

/-- Arguments of `ScatteringKeras2D` (scattering2d/frontend/keras_frontend.py L10). -/
structure Keras2D where
  J : Nat
  L : Nat
  maxOrder : Int
  prePad : Bool

/-- The arguments given to `Scattering2D` in `build` (L16-19). -/
def Keras2D.args (k : Keras2D) (M N : Nat) : Args2D := ⟨k.J, M, N, k.L, k.maxOrder, k.prePad, .array⟩

/-- `tuple(input_shape[-2:])` when both are known; `M, N = self.shape` raises `ValueError` if there are fewer, and unknown
sides raise `TypeError` at the first comparison. -/
def lastAxes (ishape : StaticShape) : Py (Nat × Nat) :=
  match ishape.reverse with
  | some N :: some M :: _ => .ok (M, N)
  | _ :: _ :: _ => .error .type
  | _ => .error .value

/-- `compute_output_shape(input_shape)` (L24-30). -/
def Keras2D.outputShape (k : Keras2D) (ishape : StaticShape) : Py StaticShape := do
  let MN ← lastAxes ishape
  let m0 := MN.1 / 2 ^ k.J
  let m1 := MN.2 / 2 ^ k.J
  let nc := k.L ^ 2 * k.J * (k.J - 1) / 2 + k.L * k.J + 1
  let d ← listGet ishape 0
  .ok [d, some nc, some m0, some m1]

/-- `layer(x)` for the layer built on `input_shape`. -/
noncomputable def Keras2D.call (k : Keras2D) (ishape : StaticShape) (x : Nd ℝ) : Py Out2Nd := do
  let MN ← lastAxes ishape
  (k.args MN.1 MN.2).runNd x

/-! ## `get_config` -/

/-- A constructor argument stored on a layer. -/
inductive PyVal where
  | nat (n : Nat)
  | num (n : PyNum)
  | bool (b : Bool)
  | q (q : PyQ)
  | pair (a b : Int)
  | t (t : PyT)

/-- `{key: getattr(self, key) for key in keys}`: `getattr` raises `AttributeError` for a missing attribute; a property may
raise its own exception. -/
def getConfig (attr : String → Py PyVal) (keys : List String) : Py (List (String × PyVal)) :=
  keys.mapM fun key => do
    let v ← attr key
    .ok (key, v)

/-- Attributes and properties of a 1-D layer: those set by `__init__` (L11-18) and the properties `Q`, `oversampling`, `T`
of `ScatteringBase1D` (base_frontend.py L239-244, L276-291); `ScatteringBase1D.__init__`, which sets `max_order`, is never
called. -/
def Keras1D.attr (k : Keras1D) (name : String) : Py PyVal :=
  if name = "J" then .ok (.nat k.J)
  else if name = "Q" then do
    let q ← parseQ k.Q
    .ok (.pair q.1 q.2)
  else if name = "oversampling" then .ok (.nat 0)
  else if name = "_Q" then .ok (.q k.Q)
  else if name = "_T" then .ok (.t k.T)
  else if name = "_max_order" then .ok (.nat 2)
  else if name = "_oversampling" then .ok (.nat 0)
  else .error .attribute

/-- `get_config` (L36-38). -/
def Keras1D.getConfig (k : Keras1D) : Py (List (String × PyVal)) :=
  Verif.getConfig k.attr ["J", "Q", "max_order", "oversampling"]

/-- Attributes of a 2-D layer, set by `ScatteringBase2D.__init__` (base_frontend.py L8-17). -/
def Keras2D.attr (k : Keras2D) (name : String) : Py PyVal :=
  if name = "pre_pad" then .ok (.bool k.prePad)
  else if name = "L" then .ok (.nat k.L)
  else if name = "J" then .ok (.nat k.J)
  else if name = "max_order" then .ok (.num (.int k.maxOrder))
  else .error .attribute

/-- `get_config` (L32-34). -/
def Keras2D.getConfig (k : Keras2D) : Py (List (String × PyVal)) :=
  Verif.getConfig k.attr ["J", "L", "max_order", "pre_pad"]

end Verif
