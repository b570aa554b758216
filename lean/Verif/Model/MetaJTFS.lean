import Verif.Model.ObjectJTFS

/-!
# The columns of `meta()` of joint time-frequency scattering

`kymatio/scattering1d/frontend/base_frontend.py` L650-698; `key` and `order` are `metaKey` and
`metaOrder` of `ObjectJTFS`.
-/

namespace Verif

/-- An entry of `meta()['n']`: NaN, the index of a filter, or the `range` of the first-order indices of a
stack (the list of its values). -/
inductive MetaN where
  | nan
  | idx (n : Int)
  | range (l : List Nat)

/-- `entry == n` for an integer `n`: NaN and ranges are different from every integer. -/
def MetaN.isIdx (e : MetaN) (n : Nat) : Bool :=
  match e with
  | .idx m => m == n
  | _ => false

/-- Row of `meta()['n']`, `meta()['n_fr']` (`none`: NaN) and `meta()['order']`. -/
structure MetaRow where
  n : MetaN × MetaN
  nFr : Option Nat
  order : Nat

namespace FrontJ

/-- `range(0, path['n1_max'], path['n1_stride'])` (L672, L676): `KeyError` if the keys were deleted,
`ValueError` if the step is zero. -/
def pathRange {R RS : Type} (p : JPath R RS) : Py (List Nat) :=
  match p.n1 with
  | none => .error .key
  | some (m, s) => if s = 0 then .error .value else .ok (JTFS.n1Range m s)

/-- What L670-683 append to `meta['n']`.  A path of another length would leave `meta['n']` shorter than
`meta['n_fr']`, and the boolean index of L693 would raise `IndexError`. -/
def metaN {R RS : Type} (fmt : Format) (p : JPath R RS) : Py (MetaN × MetaN) :=
  match p.n with
  | [_] => do
    let r ← pathRange p
    .ok (.range r, .nan)
  | [a, _] =>
    match fmt with
    | .joint => do
      let r ← pathRange p
      .ok (.range r, .idx a)
    | .time => .ok (.idx a, .nan)
    | .other => .error .index
  | [a, b, _] => if fmt = .time then .ok (.idx a, .idx b) else .error .index
  | _ => .error .index

/-- The rows appended for one path (L661-685); `path['n_fr'][0]` is a `KeyError` if there is none. -/
def metaRow {F R RS : Type} (o : JObj F) (p : JPath R RS) : Py (List MetaRow) :=
  if p.n.length = 0 then
    if o.fmt = .joint ∧ o.outType = .array then .ok [] else .ok [⟨(.nan, .nan), none, 0⟩]
  else do
    let n ← metaN o.fmt p
    match p.fr with
    | none => .error .key
    | some f => .ok [⟨n, some f.2.1, p.n.length - if o.fmt = .time then 1 else 0⟩]

/-- The rows of `meta()['n']`, `['n_fr']`, `['order']` (L650-688). -/
def metaRows {F : Type} (o : JObj F) : Py (List MetaRow) := do
  let S ← metaPaths o
  let l ← S.mapM (metaRow o)
  .ok l.flatten

/-- An entry of `meta()['xi']`, `['sigma']` or `['j']` (L689-693): NaN, overwritten by the value of each
filter whose index equals the entry of `meta()['n']`. -/
def metaCell {V : Type} (e : MetaN) (bank : List V) : Option V :=
  (bank.zipIdx 0).foldl (fun acc q => if e.isIdx q.2 then some q.1 else acc) none

/-- An entry of `meta()['xi_fr']`, `['sigma_fr']` or `['j_fr']` (L694-696). -/
def metaCellFr {V : Type} (e : Option Nat) (bank : List V) : Option V :=
  (bank.zipIdx 0).foldl (fun acc q => if e = some q.2 then some q.1 else acc) none

end FrontJ

/-- `meta()[name]` for an attribute `at` of the filters (L689-693): one pair per row. -/
def ScJ.metaColumn {V : Type} (s : ScJ) (rows : List MetaRow) (att : FiltX → V) :
    List (Option V × Option V) :=
  rows.map fun r => (FrontJ.metaCell r.n.1 (s.base.psi1.map att), FrontJ.metaCell r.n.2 (s.base.psi2.map att))

/-- `meta()[name + '_fr']` (L694-696). -/
def ScJ.metaColumnFr {V : Type} (s : ScJ) (rows : List MetaRow) (att : FiltX → V) : List (Option V) :=
  rows.map fun r => FrontJ.metaCellFr r.nFr (s.psisFr.map att)

/-- `meta()['spin']` (L697): the sign of `xi_fr`, NaN where it is NaN. -/
noncomputable def ScJ.metaSpin (s : ScJ) (rows : List MetaRow) : List (Option Int) :=
  (s.metaColumnFr rows FiltX.xi).map fun x => x.map fun x => (SignType.sign x : Int)

end Verif
