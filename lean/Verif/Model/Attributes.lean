import Verif.Model.Object1D
import Verif.Model.Object2D
import Verif.Model.Torch2D
import Verif.Model.Object3D
import Verif.Model.ObjectJTFS
import Verif.Model.TorchJTFS

/-!
# Attributes assigned after construction

The attributes of a scattering object are plain Python attributes, and the test suite assigns them on constructed objects
(`scattering.max_order = 1`, `scattering.out_type = 'dict'`, `scattering.integral_powers = [1]`, ...).  `build` and
`create_filters` have run before; only what a call reads from the object changes.

A live object is what the constructor stored together with the current values of the attributes.
-/

namespace Verif

/-! ## 1-D (scattering1d/frontend/base_frontend.py L106-158) -/

/-- `S.max_order = m` or `S.out_type = t`. -/
inductive Set1 where
  | maxOrder (m : Int)
  | outType (t : OutType)

/-- The object after an assignment: padding, border indices and filters stay. -/
def Obj1D.set {F : Type} (o : Obj1D F) : Set1 → Obj1D F
  | .maxOrder m => { o with maxOrder := m }
  | .outType t => { o with outType := t }

/-- The constructor arguments with the assigned value in place of the original one. -/
def Args1D.set (a : Args1D) : Set1 → Args1D
  | .maxOrder m => { a with maxOrder := m }
  | .outType t => { a with outType := t }

/-! ## 2-D (scattering2d/frontend/numpy_frontend.py L7-52, torch_frontend.py L72-110) -/

/-- `S.max_order = m` or `S.out_type = t`. -/
inductive Set2 where
  | maxOrder (m : Int)
  | outType (t : OutType2)

/-- What a 2-D object is after construction: the padded shape and the filters; `J`, `M`, `N`, `pre_pad` and the `Pad` made
by `build` from them; and the two attributes read at every call. -/
structure Live2 where
  args : Args2D
  stored : Sc2D
  maxOrder : Int
  outType : OutType2

/-- The object as constructed. -/
noncomputable def Args2D.live (a : Args2D) : Py Live2 := do
  let s ← a.make
  .ok ⟨a, s, a.maxOrder, a.outType⟩

@[inherit_doc Obj1D.set]
def Live2.set (o : Live2) : Set2 → Live2
  | .maxOrder m => { o with maxOrder := m }
  | .outType t => { o with outType := t }

@[inherit_doc Args1D.set]
def Args2D.set (a : Args2D) : Set2 → Args2D
  | .maxOrder m => { a with maxOrder := m }
  | .outType t => { a with outType := t }

/-- The checks of `scattering` with the current `out_type` (numpy_frontend.py L19-29). -/
def Live2.check (o : Live2) (h w : Nat) : Py Unit :=
  if (w ≠ o.args.N ∨ h ≠ o.args.M) ∧ o.args.prePad = false then .error .runtime
  else if (w ≠ o.stored.Np ∨ h ≠ o.stored.Mp) ∧ o.args.prePad = true then .error .runtime
  else if o.outType = .other then .error .runtime
  else .ok ()

/-- `S.scattering(x)` with numpy. -/
noncomputable def Live2.call (o : Live2) (x : Img ℝ) : Py (Out2D (Img ℝ)) := do
  o.check x.h x.w
  Core2D.scattering2d np2Backend (o.args.ops o.stored) x o.args.J o.stored.phi o.stored.psi o.maxOrder
    (decide (o.outType = .array))

/-- `S.scattering(x)` with torch. -/
noncomputable def Live2.callTorch (o : Live2) (x : Img ℝ) : Py (Out2D (Img ℝ)) := do
  o.check x.h x.w
  Core2D.scattering2d torch2Backend (o.args.torchOps o.stored) x o.args.J o.stored.phi o.stored.psi o.maxOrder
    (decide (o.outType = .array))

/-! ## 3-D (scattering3d/frontend/numpy_frontend.py L22-49, torch_frontend.py L38-79) -/

/-- Assignments on a 3-D object. -/
inductive Set3 where
  | maxOrder (m : Int)
  | rot (b : Bool)
  | powers (q : List ℝ)
  | method (integral : Bool)
  | J (n : ℕ)
  | L (n : ℕ)

/-- A 3-D object: the filters made by the constructor and the current attributes (`args`; its `sigma0` is not read
again). -/
structure Live3 where
  args : Args3D
  filters : List (List (List (Vol ℂ)))

/-- The object as constructed. -/
noncomputable def Args3D.live (a : Args3D) (Y : ℤ → ℕ → ℝ → ℝ → ℂ) : Live3 := ⟨a, a.filters Y⟩

@[inherit_doc Args1D.set]
def Args3D.set (a : Args3D) : Set3 → Args3D
  | .maxOrder m => { a with maxOrder := m }
  | .rot b => { a with rot := b }
  | .powers q => { a with powers := q }
  | .method b => { a with methodOk := b }
  | .J n => { a with J := n }
  | .L n => { a with L := n }

/-- The object after an assignment: the filters stay. -/
def Live3.set (o : Live3) (e : Set3) : Live3 := ⟨o.args.set e, o.filters⟩

/-- `S.scattering(x)` with numpy. -/
noncomputable def Live3.call (o : Live3) (x : Vol ℝ) : Py (List (List (List ℝ))) :=
  if x.shape ≠ o.args.shape then .error .runtime
  else Core3D.scattering3d (np3Backend o.args.powers) x o.filters o.args.rot o.args.L o.args.J o.args.maxOrder

/-- `S.scattering(x)` with torch. -/
noncomputable def Live3.callTorch (o : Live3) (x : Vol ℝ) : Py (List (List (List ℝ))) :=
  if x.shape ≠ o.args.shape then .error .runtime
  else if ¬ o.args.methodOk then .error .value
  else Core3D.scattering3d (torch3Backend o.args.powers) x (o.filters.map fun fl => fl.map fun fs => fs.map view3R)
    o.args.rot o.args.L o.args.J o.args.maxOrder

/-! ## Joint time-frequency scattering (scattering1d/frontend/base_frontend.py L581-643) -/

/-- `S.out_type = t` or `S.format = f`. -/
inductive SetJ where
  | outType (t : OutType)
  | format (f : Format)

@[inherit_doc Obj1D.set]
def JObj.set {F : Type} (o : JObj F) : SetJ → JObj F
  | .outType t => { o with outType := t }
  | .format f => { o with fmt := f }

@[inherit_doc Args1D.set]
def JArgs.set (a : JArgs) : SetJ → JArgs
  | .outType t => { a with outType := t }
  | .format f => { a with fmt := f }

end Verif
