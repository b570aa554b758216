import Verif.Model.BackendJTFS
import Verif.Model.Object1D
import Mathlib.Data.Sign.Basic

/-!
# `TimeFrequencyScatteringBase`

`kymatio/scattering1d/frontend/base_frontend.py` L524-759, `numpy_frontend.py` L22-38.
-/

namespace Verif

/-- Backend operations used by the frontend only. -/
structure JFrontOps (R RS : Type) where
  pad : R → Nat → Nat → Py R
  unpad : R → Nat → Nat → R
  unpadS : RS → Nat → Nat → RS
  size : R → Nat
  sizeS : RS → Nat × Nat

/-- The state of a built object that `scattering` and `meta` read.  `log2Stride`, `log2StrideFr` are
properties, which may raise. -/
structure JObj (F : Type) where
  padLeft : Nat
  padRight : Nat
  indStart : Dict Nat
  indEnd : Dict Nat
  phi : Filt F
  psi1 : List (Filt F)
  psi2 : List (Filt F)
  log2Stride : Py Int
  average : Average
  phiFr : PhiFr F
  psisFr : List (FiltFr F)
  log2StrideFr : Py Int
  averageFr : Average
  outType : OutType
  fmt : Format

/-- What `scattering` returns. -/
inductive JOut (R RS : Type) where
  | arrayJoint (rows : List RS)
  | arrayTime (rows : List R)
  | list (paths : List (JPath R RS))
  | dict (items : List (List Int × JCoef R RS))

namespace FrontJ

/-- `_check_runtime_args` (L700-719 after L222-231); `oversampling_fr` is always 0. -/
def checkRuntimeArgs {F : Type} (o : JObj F) : Py Unit :=
  if o.outType = .other then .error .value
  else if o.average = .no ∧ o.outType = .array then .error .value
  else if o.fmt = .joint ∧ o.averageFr = .no ∧ o.outType = .array then .error .value
  else if o.fmt = .other then .error .value
  else .ok ()

/-- `backend.unpad` on a coefficient. -/
def unpadCoef {R RS : Type} (ops : JFrontOps R RS) (i0 i1 : Nat) : JCoef R RS → JCoef R RS
  | .sig r => .sig (ops.unpad r i0 i1)
  | .stk s => .stk (ops.unpadS s i0 i1)

/-- The resolution at which a path is unpadded (zeroth order: L603-604; others: L619-626). -/
def resolution {F R RS : Type} (o : JObj F) (ls : Nat) (p : JPath R RS) : Py Nat :=
  if p.n.length = 0 then .ok (if o.average = .no then 0 else ls)
  else if o.average = .no ∧ p.n.length > 1 then
    match p.j.getLast? with
    | some j => .ok j.toNat
    | none => .error .index
  else .ok ls

/-- Temporal unpadding of one path (L601-633).  `reshape_output` acts on the batch axes only. -/
def post {F R RS : Type} (ops : JFrontOps R RS) (o : JObj F) (ls : Nat) (p : JPath R RS) :
    Py (JPath R RS) :=
  if o.average = .glob then .ok p
  else do
    let res ← resolution o ls p
    let i0 ← dictGet o.indStart res
    let i1 ← dictGet o.indEnd res
    .ok { p with coef := unpadCoef ops i0 i1 p.coef }

/-- The signals among the coefficients. -/
def sigs {R RS : Type} (l : List (JPath R RS)) : List R :=
  l.filterMap fun p => match p.coef with
    | .sig r => some r
    | .stk _ => none

/-- The stacks among the coefficients. -/
def stks {R RS : Type} (l : List (JPath R RS)) : List RS :=
  l.filterMap fun p => match p.coef with
    | .sig _ => none
    | .stk s => some s

/-- `backend.stack`: `ValueError` if there is nothing to stack or the shapes differ. -/
def stackEq {α β : Type} [DecidableEq β] (size : α → β) (l : List α) : Py (List α) :=
  match l with
  | [] => .error .value
  | a :: _ => if l.all (fun b => size b == size a) then .ok l else .error .value

/-- `d[k] = v` on a dictionary kept in insertion order. -/
def dictInsertI {α : Type} (d : List (List Int × α)) (k : List Int) (v : α) : List (List Int × α) :=
  if d.any (fun e => e.1 == k) then d.map fun e => if e.1 == k then (k, v) else e
  else d ++ [(k, v)]

/-- Assembly of the output (L635-648).  In a joint array `S[1:]` are stacks; in a time array all
coefficients are signals. -/
def assemble {F R RS : Type} (ops : JFrontOps R RS) (o : JObj F) (S : List (JPath R RS)) :
    Py (JOut R RS) :=
  match o.outType, o.fmt with
  | .array, .joint => do
    let rows ← stackEq ops.sizeS (stks S.tail)
    .ok (.arrayJoint rows)
  | .array, _ => do
    let rows ← stackEq ops.size (sigs S)
    .ok (.arrayTime rows)
  | .dict, _ => .ok (.dict (S.foldl (fun d p => dictInsertI d p.n p.coef) []))
  | _, _ => .ok (.list S)

/-- The paths before unpadding (L591-599, L651-658). -/
def paths (B : JBackend) (o : JObj B.F) (ls lsFr : Nat) (U0 : B.R) :
    Py (List (JPath B.R B.RS)) := do
  let g ← JTFS.joint B U0 o.phi o.psi1 o.psi2 ls (decide (o.average = .loc)) o.phiFr o.psisFr lsFr
    (decide (o.averageFr = .loc))
  JTFS.averageAndFormat B g o.phi ls o.average o.phiFr lsFr o.averageFr (decide (o.outType = .array)) o.fmt

/-- `scattering(x)` (L581-648). -/
def scattering (B : JBackend) (ops : JFrontOps B.R B.RS) (o : JObj B.F) (x : B.R) :
    Py (JOut B.R B.RS) := do
  checkRuntimeArgs o
  let U0 ← ops.pad x o.padLeft o.padRight
  let ls ← o.log2Stride
  let lsFr ← o.log2StrideFr
  let S ← paths B o ls.toNat lsFr.toNat U0
  let S' ← S.mapM (post ops o ls.toNat)
  assemble ops o S'

/-- Tuple comparison of Python. -/
def lexLeI : List Int → List Int → Bool
  | [], _ => true
  | _ :: _, [] => false
  | a :: l, b :: m => if a < b then true else if b < a then false else lexLeI l m

/-- Comparison of the keys `(len(path['n']), path['n'])` (L659). -/
def keyLeI (n m : List Int) : Bool :=
  if n.length < m.length then true else if m.length < n.length then false else lexLeI n m

/-- The sorted paths of `meta()` (L650-659). -/
def metaPaths {F : Type} (o : JObj F) : Py (List (JPath Unit Unit)) := do
  let ls ← o.log2Stride
  let lsFr ← o.log2StrideFr
  let S ← paths (dryJ F) o ls.toNat lsFr.toNat ()
  .ok (S.mergeSort fun p q => keyLeI p.n q.n)

/-- `meta()['key']` (L660). -/
def metaKey {F : Type} (o : JObj F) : Py (List (List Int)) := do
  let S ← metaPaths o
  .ok (S.map fun p => p.n)

/-- `meta()['order']` (L660-685): no entry for the zeroth order of a joint array. -/
def metaOrder {F : Type} (o : JObj F) : Py (List Nat) := do
  let S ← metaPaths o
  .ok (S.filterMap fun p =>
    if p.n.length = 0 then
      if o.fmt = .joint ∧ o.outType = .array then none else some 0
    else some (p.n.length - if o.fmt = .time then 1 else 0))

end FrontJ

/-- Numpy operations on signals and stacks. -/
noncomputable def npFrontJ : JFrontOps (List ℝ) (Img ℝ) where
  pad := npPad
  unpad x i0 i1 := npUnpad x i0 i1
  unpadS x i0 i1 := Img.tab x.h (min i1 x.w - i0) fun i j => x.px i (i0 + j)
  size := List.length
  sizeS x := (x.h, x.w)

/-! ## Construction -/

/-- Constructor arguments (base_frontend.py L525-537).  `F` is an int when it is a number: a float
makes `_N_padded_fr` a float, so that calls raise `TypeError` (`Model/FloatF`, `C119`). -/
structure JArgs where
  J : Nat
  Jfr : Nat
  Q : PyQ
  shape : PyShape
  T : PyT
  stride : Option PyNum
  Qfr : PyQ
  F : PyT
  strideFr : Option PyNum
  outType : OutType
  fmt : Format

/-- The base class part: `max_order=2`, `oversampling=None` (L528-531). -/
def JArgs.base (a : JArgs) : Args1D := ⟨a.J, a.shape, a.Q, a.T, a.stride, 2, none, a.outType⟩

/-- The checks of `Q_fr` (L543-555). -/
def parseQfr (q : PyQ) : Py Int :=
  match q with
  | .int n => if n < 1 then .error .value else .ok n
  | .tuple l =>
    if l.any (fun x => decide (x < 1)) then .error .value
    else match l with
      | [a] => .ok a
      | _ => .error .notImpl
  | .other _ => .error .value

/-- `_N_padded_fr` (L557-568): `oversampling_fr` is 0, so `K_fr = J_fr`. -/
def nPaddedFr (Jfr Ninput : Nat) (F : Rat) : Nat :=
  (⌊(Ninput : Rat) + 8 * min F (2 ^ Jfr)⌋ / 2 ^ Jfr).toNat * 2 ^ Jfr

open Classical in
/-- The frequential filters (L570-579). -/
noncomputable def createFiltersFr (N Jfr Qfr : Nat) (F : Rat) : Py (FiltX × List FiltX) := do
  let r0 ← filterFactory false N Jfr [] F (spin anden) 5 0.1
  let r1 ← filterFactory false N Jfr [Qfr] (2 ^ Jfr) (spin anden) 5 0.1
  match r1.2 with
  | [psis] => if ∀ p ∈ psis, |p.xi| < 0.5 / (2 : ℝ) ^ p.j then .ok (r0.1, r1.1 :: psis) else .error .assertion
  | _ => .error .value

/-- Everything the constructor stores. -/
structure ScJ where
  base : Sc1D
  phiFr : FiltX
  psisFr : List FiltX
  nFr : Nat
  averageFr : Average

/-- `build` then `create_filters` (L539-579).  `N_input_fr = (J + 1) * Q[0]`. -/
noncomputable def JArgs.make (a : JArgs) : Py ScJ := do
  let s ← a.base.make
  let Q ← parseQ a.Q
  let q ← parseQfr a.Qfr
  let F ← parseT a.F a.Jfr ((a.J + 1) * Q.1.toNat)
  let N := nPaddedFr a.Jfr ((a.J + 1) * Q.1.toNat) F.1
  let f ← createFiltersFr N a.Jfr q.toNat F.1
  .ok ⟨s, f.1, f.2, N, F.2⟩

/-- A frequential filter as seen by the core. -/
noncomputable def FiltX.toFiltFr (f : FiltX) : FiltFr (List ℝ) := ⟨f.levels, f.j.toNat, SignType.sign f.xi⟩

/-- The object as seen by `scattering` and `meta`; `log2_stride_fr` (L741-755) has the structure of
`log2_stride`. -/
noncomputable def JArgs.obj (a : JArgs) (s : ScJ) (Q1 : Nat) : JObj (List ℝ) :=
  ⟨s.base.built.padLeft, s.base.built.padRight, s.base.built.indStart, s.base.built.indEnd,
    s.base.phi.toFilt, s.base.psi1.map FiltX.toFilt, s.base.psi2.map FiltX.toFilt,
    log2Stride s.base.built.stride a.T a.J s.base.built.Ninput, s.base.average,
    ⟨s.phiFr.levels, s.phiFr.j.toNat, s.nFr⟩, s.psisFr.map FiltX.toFiltFr,
    log2Stride a.strideFr a.F a.Jfr ((a.J + 1) * Q1), s.averageFr, a.outType, a.fmt⟩

/-- `TimeFrequencyScattering(...)(x)` with the numpy backend, on one signal. -/
noncomputable def JArgs.run (a : JArgs) (x : List ℝ) : Py (JOut (List ℝ) (Img ℝ)) := do
  let s ← a.make
  let Q ← parseQ a.Q
  FrontJ.scattering npJ npFrontJ (a.obj s Q.1.toNat) x

end Verif
