import Verif.Model.Backend1D
import Verif.Model.Utils1D

/-!
# `ScatteringBase1D.scattering`, `meta`, `output_size`

`kymatio/scattering1d/frontend/base_frontend.py` L106-236.
-/

namespace Verif

/-- Backend operations used by the frontend only.  `size` is what `np.stack` compares. -/
structure FrontOps (R : Type) where
  pad : R → Nat → Nat → Py R
  unpad : R → Nat → Nat → R
  averageGlobal : R → R
  size : R → Nat

/-- The attribute `out_type`. -/
inductive OutType where
  | array
  | list
  | dict
  | other
  deriving DecidableEq

/-- The state of a built object that `scattering` and `meta` read.  `log2Stride` is the property
`self.log2_stride`, which may raise. -/
structure Obj1D (F : Type) where
  padLeft : Nat
  padRight : Nat
  indStart : Dict Nat
  indEnd : Dict Nat
  phi : Filt F
  psi1 : List (Filt F)
  psi2 : List (Filt F)
  maxOrder : Int
  log2Stride : Py Int
  average : Average
  oversampling : Option Int
  outType : OutType

/-- What `scattering` returns: a stacked array, a list of path dictionaries, or a dictionary (keys
in insertion order). -/
inductive Out1D (R : Type) where
  | array (rows : List R)
  | list (paths : List (Path R))
  | dict (items : List (List Nat × R))

namespace Front1D

/-- `filters[1:]` for `filters = [phi, psi1, psi2][:(1+max_order)]` (L116, L191); the empty list stands for
`phi`.  Where nothing is left even `filters[0]` raises `IndexError`; the core raises the same at `filters[1]`. -/
def psis {F : Type} (o : Obj1D F) : List (List (Filt F)) := (sliceTo [[], o.psi1, o.psi2] (1 + o.maxOrder)).drop 1

/-- `_check_runtime_args` (L229-236). -/
def checkRuntimeArgs {F : Type} (o : Obj1D F) : Py Unit :=
  if o.outType = .other then .error .value
  else if o.average = .no ∧ o.outType = .array then .error .value
  else .ok ()

/-- The resolution at which a path is unpadded (L127-132).  `path['j'][-1] - None` is a
`TypeError`. -/
def resolution {F R : Type} (o : Obj1D F) (ls : Nat) (p : Path R) : Py Nat :=
  if o.average = .loc then .ok ls
  else if 0 < p.n.length then
    match o.oversampling, p.j.getLast? with
    | some ov, some j => .ok (max ((j : Int) - ov) 0).toNat
    | none, _ => .error .type
    | _, none => .error .index
  else .ok 0

/-- Post-processing of one path (L125-140): global average or unpadding.  `reshape_output` acts on
the batch axes only and is not visible on one signal. -/
def post {F R : Type} (ops : FrontOps R) (o : Obj1D F) (ls : Nat) (p : Path R) : Py (Path R) := do
  let res ← resolution o ls p
  if o.average = .glob then .ok { p with coef := ops.averageGlobal p.coef }
  else do
    let i0 ← dictGet o.indStart res
    let i1 ← dictGet o.indEnd res
    .ok { p with coef := ops.unpad p.coef i0 i1 }

/-- Tuple comparison `n ≤ n'` of Python (lexicographic). -/
def lexLe : List Nat → List Nat → Bool
  | [], _ => true
  | _ :: _, [] => false
  | a :: l, b :: m => if a < b then true else if b < a then false else lexLe l m

/-- Comparison of the sort keys `(order, n)` (L150, L194). -/
def keyLe (n m : List Nat) : Bool :=
  if n.length < m.length then true else if m.length < n.length then false else lexLe n m

/-- `S.sort(key=lambda path: (path['order'], path['n']))`: Python's sort is a stable merge sort. -/
def sortPaths {R : Type} (l : List (Path R)) : List (Path R) :=
  l.mergeSort fun p q => keyLe p.n q.n

/-- `d[k] = v` on a dictionary kept in insertion order. -/
def dictInsert {α : Type} (d : List (List Nat × α)) (k : List Nat) (v : α) :
    List (List Nat × α) :=
  if d.any (fun e => e.1 == k) then d.map fun e => if e.1 == k then (k, v) else e
  else d ++ [(k, v)]

/-- `backend.stack(arrays, dim=-2)`: `ValueError` if there is nothing to stack or the shapes
differ. -/
def stackRows {R : Type} (ops : FrontOps R) (l : List R) : Py (List R) :=
  match l with
  | [] => .error .value
  | a :: _ => if l.all (fun b => ops.size b == ops.size a) then .ok l else .error .value

/-- Assembly of the output (L120-155) from the post-processed paths in the order they were
generated. -/
def assemble {F R : Type} (ops : FrontOps R) (o : Obj1D F) (l : List (Path R)) : Py (Out1D R) :=
  match o.outType with
  | .dict => .ok (.dict (l.foldl (fun d p => dictInsert d p.n p.coef) []))
  | .list => .ok (.list (sortPaths l))
  | _ => do
    let rows ← stackRows ops ((sortPaths l).map fun p => p.coef)
    .ok (.array rows)

/-- `scattering(x)` (L106-155).  The generator is consumed before post-processing here; the two are
interleaved in Python, which changes neither the results nor whether something is raised. -/
def scattering (B : Backend1D) (ops : FrontOps B.R) (o : Obj1D B.F) (x : B.R) :
    Py (Out1D B.R) := do
  checkRuntimeArgs o
  let U0 ← ops.pad x o.padLeft o.padRight
  let ls ← o.log2Stride
  let out ← Core1D.scattering1d B U0 o.phi (psis o) ls.toNat (decide (o.average = .loc))
  let out' ← out.mapM (post ops o ls.toNat)
  assemble ops o out'

/-- `meta()['n']` (L197-198): the path of every row, padded with NaN up to `max_order` entries.  `np.stack` raises
`ValueError` if the rows differ in length. -/
def metaN (maxOrder : Int) (S : List (Path Unit)) : Py (List (List (Option Nat))) :=
  let rows := S.map fun p => p.n.map some ++ List.replicate (maxOrder - p.n.length).toNat none
  if rows.all fun r => rows.all fun r' => r.length == r'.length then .ok rows else .error .value

/-- The sorted list of labels computed by `meta` (L190-198) with the dry backend; `meta` raises if `meta()['n']`
cannot be formed. -/
def metaPaths {F : Type} (o : Obj1D F) : Py (List (Path Unit)) := do
  let ls ← o.log2Stride
  let out ← Core1D.scattering1d (dryBackend F) () o.phi (psis o) ls.toNat false
  let _ ← metaN o.maxOrder (sortPaths out)
  .ok (sortPaths out)

/-- `meta()['key']` (L196). -/
def metaKey {F : Type} (o : Obj1D F) : Py (List (List Nat)) := do
  let S ← metaPaths o
  .ok (S.map fun p => p.n)

/-- `meta()['order']` (L195). -/
def metaOrder {F : Type} (o : Obj1D F) : Py (List Nat) := do
  let S ← metaPaths o
  .ok (S.map fun p => p.n.length)

/-- One entry of a metadata column (L199-203): start from NaN and, for every filter `n` of the
bank, overwrite where `meta['n'][row, order] == n`. -/
def metaEntry {V : Type} (key : List Nat) (order : Nat) (bank : List V) : Option V :=
  (bank.zipIdx 0).foldl (fun acc q => if key[order]? = some q.2 then some q.1 else acc) none

/-- `meta()[name][row, order]` for a filter attribute whose values in the banks
`(psi1_f, psi2_f)[:max_order]` are `banks`; the further columns that exist for `max_order > 2` are NaN and left
out. -/
def metaColumn {V : Type} (keys : List (List Nat)) (banks : List (List V)) :
    List (List (Option V)) :=
  keys.map fun key => (banks.zipIdx 0).map fun b => metaEntry key b.2 b.1

/-- `output_size()` (L205-224) with `detail=False`. -/
def outputSize {F : Type} (o : Obj1D F) : Py Nat := do
  let k ← metaKey o
  .ok k.length

/-- `collections.Counter(l).values()`: multiplicities in order of first appearance. -/
def counterValues (l : List Nat) : List Nat := l.eraseDups.map fun v => l.count v

/-- `output_size(detail=True)`. -/
def outputSizeDetail {F : Type} (o : Obj1D F) : Py (List Nat) := do
  let k ← metaOrder o
  .ok (counterValues k)

end Front1D

/-- Numpy operations on one signal. -/
noncomputable def npFront : FrontOps (List ℝ) where
  pad := npPad
  unpad x i0 i1 := npUnpad x i0 i1
  averageGlobal := npAverageGlobal
  size := List.length

/-- Torch operations on one signal (scattering1d/backend/torch_backend.py L51-112, L143-148): the same
bounds check and `F.pad(..., mode='reflect')`, the slice after dropping the trailing axis, the sum
over axis -2 (time).  Written out separately from the numpy versions. -/
noncomputable def torchFront : FrontOps (List ℝ) where
  pad x l r :=
    if l ≥ x.length ∨ r ≥ x.length then .error .value
    else .ok ((tab l fun i => x.getD (l - i) 0) ++ x ++
      tab r fun i => x.getD (x.length - 2 - i) 0)
  unpad x i0 i1 := (x.drop i0).take (i1 - i0)
  averageGlobal x := [x.foldl (· + ·) 0]
  size := List.length

/-- The same on a batch of rows: `pad` checks the length of the last axis, which all rows share.
The size compared by `stack` is the length of the rows. -/
noncomputable def npBatchFront : FrontOps (List (List ℝ)) where
  pad x l r := x.mapM fun a => npPad a l r
  unpad x i0 i1 := x.map fun a => npUnpad a i0 i1
  averageGlobal x := x.map npAverageGlobal
  size x := (x.head?.map List.length).getD 0

/-- Only the lengths: companion of `shapeBackend`. -/
def shapeFront : FrontOps Nat where
  pad n l r := if l ≥ n ∨ r ≥ n then .error .value else .ok (l + n + r)
  unpad n i0 i1 := min i1 n - i0
  averageGlobal _ := 1
  size n := n

end Verif
