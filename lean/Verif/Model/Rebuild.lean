import Verif.Model.Object1D
import Verif.Model.ObjectJTFS

/-!
# Calling `build` and `create_filters` again

The constructors of the 1-D and time-frequency classes call `build` and `create_filters`
(scattering1d/frontend/numpy_frontend.py L7-16, L20-36).  Both are public methods that read the attributes of the object.
`build` replaces three of these attributes: `shape`, `_stride` and, for time-frequency scattering, `Q_fr`.

The 2-D and 3-D `build` and `create_filters` do not replace any attribute they read, so there is nothing to model there.  The
torch and TensorFlow classes, whose `register_filters` / `load_filters` run afterwards, are not modelled here.
-/

namespace Verif

/-- The attributes read by `build` and `create_filters` as they are on a constructed object: `shape` is a 1-tuple
(scattering1d/frontend/base_frontend.py L51-52) and `_stride` is the value stored at L80 if oversampling is used; the other
ones are as given to the constructor (L20-35). -/
def Args1D.attrs (a : Args1D) (s : Sc1D) : Args1D :=
  { a with shape := .tuple [s.built.Ninput], stride := s.built.stride }

/-- Assignment of an attribute of a 1-D object.  `_T`, `_Q` and `_stride` are the attributes behind the properties `T`, `Q`
and `stride`, which have no setter. -/
inductive Assign1 where
  | J (n : Nat)
  | shape (n : PyShape)
  | Q (q : PyQ)
  | T (t : PyT)
  | stride (s : Option PyNum)
  | maxOrder (m : Int)
  | outType (t : OutType)

/-- The attributes after one assignment. -/
def Args1D.assign (a : Args1D) : Assign1 → Args1D
  | .J n => { a with J := n }
  | .shape n => { a with shape := n }
  | .Q q => { a with Q := q }
  | .T t => { a with T := t }
  | .stride s => { a with stride := s }
  | .maxOrder m => { a with maxOrder := m }
  | .outType t => { a with outType := t }

/-- The attributes after several assignments. -/
def Args1D.assignAll (a : Args1D) (es : List Assign1) : Args1D := es.foldl Args1D.assign a

/-- `S.J = ...; ...; S.build(); S.create_filters()` on a constructed object. -/
noncomputable def Args1D.rebuild (a : Args1D) (s : Sc1D) (es : List Assign1) : Py Sc1D := ((a.attrs s).assignAll es).make

/-- A call of the object after the assignments and `S.build(); S.create_filters()`. -/
noncomputable def Args1D.rerun (a : Args1D) (s : Sc1D) (es : List Assign1) (x : List ℝ) : Py (Out1D (List ℝ)) := do
  let s' ← a.rebuild s es
  Front1D.scattering npBackend npFront (((a.attrs s).assignAll es).obj s') x

/-- The attributes of a constructed time-frequency object: in addition `Q_fr` is a 1-tuple (L547-548). -/
def JArgs.attrs (a : JArgs) (s : ScJ) : Py JArgs := do
  let q ← parseQfr a.Qfr
  .ok { a with shape := .tuple [s.base.built.Ninput], stride := s.base.built.stride, Qfr := .tuple [q] }

/-- Assignment of an attribute of a time-frequency object. -/
inductive AssignJ where
  | J (n : Nat)
  | Jfr (n : Nat)
  | shape (n : PyShape)
  | Q (q : PyQ)
  | Qfr (q : PyQ)
  | T (t : PyT)
  | F (t : PyT)
  | stride (s : Option PyNum)
  | strideFr (s : Option PyNum)
  | outType (t : OutType)
  | format (f : Format)

@[inherit_doc Args1D.assign]
def JArgs.assign (a : JArgs) : AssignJ → JArgs
  | .J n => { a with J := n }
  | .Jfr n => { a with Jfr := n }
  | .shape n => { a with shape := n }
  | .Q q => { a with Q := q }
  | .Qfr q => { a with Qfr := q }
  | .T t => { a with T := t }
  | .F t => { a with F := t }
  | .stride s => { a with stride := s }
  | .strideFr s => { a with strideFr := s }
  | .outType t => { a with outType := t }
  | .format f => { a with fmt := f }

@[inherit_doc Args1D.assignAll]
def JArgs.assignAll (a : JArgs) (es : List AssignJ) : JArgs := es.foldl JArgs.assign a

@[inherit_doc Args1D.rebuild]
noncomputable def JArgs.rebuild (a : JArgs) (s : ScJ) (es : List AssignJ) : Py ScJ := do
  let b ← a.attrs s
  (b.assignAll es).make

@[inherit_doc Args1D.rerun]
noncomputable def JArgs.rerun (a : JArgs) (s : ScJ) (es : List AssignJ) (x : List ℝ) : Py (JOut (List ℝ) (Img ℝ)) := do
  let b ← a.attrs s
  let s' ← (b.assignAll es).make
  let Q ← parseQ (b.assignAll es).Q
  FrontJ.scattering npJ npFrontJ ((b.assignAll es).obj s' Q.1.toNat) x

end Verif
