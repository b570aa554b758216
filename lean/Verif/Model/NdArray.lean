import Verif.Model.Object1D

/-!
# Numpy arrays with several axes, and the 1-D frontend on them

An array is its shape and its entries in row-major order.  The operations below are numpy's; the 1-D
backend is then written on arrays of any shape, operation by operation.
-/

namespace Verif

/-- An array: shape and entries in row-major order. -/
structure Nd (α : Type) where
  shape : List Nat
  data : List α

namespace Nd

variable {α β : Type}

/-- `x.size`. -/
def size (x : Nd α) : Nat := x.shape.prod

/-- `x.shape[-1]` (arrays here have at least one axis). -/
def last (x : Nd α) : Nat := x.shape.getLast?.getD 1

/-- Number of rows along the last axis. -/
def outer (x : Nd α) : Nat := x.shape.dropLast.prod

/-- Block number `i` of `n` consecutive entries. -/
def block (n i : Nat) (l : List α) : List α := (l.drop (i * n)).take n

/-- The rows along the last axis, in order. -/
def rows (x : Nd α) : List (List α) := tab x.outer fun i => block x.last i x.data

/-- `x.reshape(s)`; `none` stands for `-1`.  Numpy's `_fix_unknown_dimension`: at most one `-1`; it is refused
when the product of the other sides is zero or does not divide the size. -/
def reshape (x : Nd α) (s : List (Option Nat)) : Py (Nd α) :=
  let known := (s.filterMap id).prod
  match s.count none with
  | 0 => if known = x.size then .ok ⟨s.filterMap id, x.data⟩ else .error .value
  | 1 =>
    if known = 0 ∨ x.size % known ≠ 0 then .error .value
    else .ok ⟨s.map fun d => d.getD (x.size / known), x.data⟩
  | _ => .error .value

/-- An operation along the last axis that turns rows into rows of length `n`. -/
def mapLast (n : Nat) (f : List α → List β) (x : Nd α) : Nd β :=
  ⟨x.shape.dropLast ++ [n], x.rows.flatMap f⟩

/-- `y.mean(axis=-2)` for an array of shape `s + (k, m)`. -/
noncomputable def mean2 (y : Nd ℂ) (s : List Nat) (k m : Nat) : Nd ℂ :=
  ⟨s ++ [m], (List.range s.prod).flatMap fun o => tab m fun j =>
    (∑ i ∈ Finset.range k, y.data.getD (o * (k * m) + (i * m + j)) 0) / k⟩

/-- `np.stack(arrays, axis=-2)`: `ValueError` if there is nothing to stack or the shapes differ. -/
def stack2 (l : List (Nd α)) : Py (Nd α) :=
  match l with
  | [] => .error .value
  | a :: _ =>
    if l.all (fun b => b.shape == a.shape) then
      .ok ⟨a.shape.dropLast ++ [l.length, a.last],
        (List.range a.outer).flatMap fun o => l.flatMap fun b => block a.last o b.data⟩
    else .error .value

end Nd

/-- The numpy backend on arrays (scattering1d/backend/numpy_backend.py, backend/numpy_backend.py):
transforms along the last axis, pointwise modulus, product with a filter broadcast over the leading
axes, and `subsample_fourier` as the code writes it: `reshape` then `mean(axis=-2)`. -/
noncomputable abbrev ndBackend : Backend1D where
  R := Nd ℝ
  C := Nd ℂ
  F := List ℝ
  rfft x := .ok (x.mapLast x.last npRfft)
  ifft x := .ok (x.mapLast x.last idft)
  irfft x := .ok (x.mapLast x.last npIrfft)
  modulus x := .ok ⟨x.shape, npModulus x.data⟩
  cdgmm x f :=
    if x.last ≠ f.length then .error .runtime
    else .ok (x.mapLast x.last fun a => List.zipWith (fun z (b : ℝ) => z * (b : ℂ)) a f)
  subsample x e := do
    let y ← x.reshape (x.shape.dropLast.map some ++ [some (2 ^ e), some (x.last / 2 ^ e)])
    .ok (y.mean2 x.shape.dropLast (2 ^ e) (x.last / 2 ^ e))

namespace NdFront

/-- `pad` (numpy_backend.py L34-65). -/
noncomputable def pad (x : Nd ℝ) (l r : Nat) : Py (Nd ℝ) :=
  if l ≥ x.last ∨ r ≥ x.last then .error .value
  else .ok (x.mapLast (l + x.last + r) fun a =>
    tab (l + x.last + r) fun i => a.getD (reflectIndex x.last l i) 0)

/-- `unpad`: `x[..., i0:i1]`. -/
def unpad (x : Nd ℝ) (i0 i1 : Nat) : Nd ℝ := x.mapLast (min i1 x.last - i0) fun a => npUnpad a i0 i1

/-- `average_global`. -/
noncomputable def averageGlobal (x : Nd ℝ) : Nd ℝ := x.mapLast 1 npAverageGlobal

/-- `reshape_input` (backend/numpy_backend.py L97-99). -/
def reshapeInput (x : Nd ℝ) (signalShape : List Nat) : Py (Nd ℝ) :=
  x.reshape (none :: some 1 :: signalShape.map some)

/-- `reshape_output` (backend/numpy_backend.py L101-104). -/
def reshapeOutput (S : Nd ℝ) (batchShape : List Nat) (nKept : Nat) : Py (Nd ℝ) :=
  S.reshape ((batchShape ++ S.shape.drop (S.shape.length - nKept)).map some)

/-- Post-processing of one path (base_frontend.py L125-140). -/
noncomputable def post {F : Type} (o : Obj1D F) (ls : Nat) (batchShape : List Nat) (p : Path (Nd ℝ)) :
    Py (Path (Nd ℝ)) := do
  let res ← Front1D.resolution o ls p
  let c ← (if o.average = .glob then .ok (averageGlobal p.coef)
    else do
      let i0 ← dictGet o.indStart res
      let i1 ← dictGet o.indEnd res
      .ok (unpad p.coef i0 i1))
  let c ← reshapeOutput c batchShape 1
  .ok { p with coef := c }

/-- What `scattering` returns on arrays. -/
inductive Out where
  | array (S : Nd ℝ)
  | list (paths : List (Path (Nd ℝ)))
  | dict (items : List (List Nat × Nd ℝ))

/-- `scattering(x)` (base_frontend.py L106-155) on an array of any shape. -/
noncomputable def scattering (o : Obj1D (List ℝ)) (x : Nd ℝ) : Py Out := do
  Front1D.checkRuntimeArgs o
  if x.shape = [] then .error .value
  else do
    let batchShape := x.shape.dropLast
    let x ← reshapeInput x [x.last]
    let U0 ← pad x o.padLeft o.padRight
    let ls ← o.log2Stride
    let out ← Core1D.scattering1d ndBackend U0 o.phi (Front1D.psis o) ls.toNat (decide (o.average = .loc))
    let out' ← out.mapM (post o ls.toNat batchShape)
    match o.outType with
    | .dict => .ok (.dict (out'.foldl (fun d p => Front1D.dictInsert d p.n p.coef) []))
    | .list => .ok (.list (Front1D.sortPaths out'))
    | _ => do
      let S ← Nd.stack2 ((Front1D.sortPaths out').map fun p => p.coef)
      .ok (.array S)

end NdFront

/-- `ScatteringTransformerMixin.predict` (frontend/sklearn_frontend.py L9-15): `shape` is `self.shape`, `scatter`
is `self.scattering` with array output. -/
def sklearnPredict (shape : List Nat) (scatter : Nd ℝ → Py (Nd ℝ)) (x : Nd ℝ) : Py (Nd ℝ) := do
  let batchShape := x.shape.dropLast
  let x ← x.reshape (none :: shape.map some)
  let Sx ← scatter x
  Sx.reshape (batchShape.map some ++ [none])

/-- `Scattering1D(...)(x)` with the numpy backend on an array. -/
noncomputable def Args1D.runNd (a : Args1D) (x : Nd ℝ) : Py NdFront.Out := do
  let s ← a.make
  NdFront.scattering (a.obj s) x

/-- `self.scattering(x)` where an array is expected: lists and dictionaries have no `reshape`. -/
noncomputable def NdFront.scatterArray (o : Obj1D (List ℝ)) (x : Nd ℝ) : Py (Nd ℝ) := do
  let r ← NdFront.scattering o x
  match r with
  | .array S => .ok S
  | _ => .error .attribute

/-- `ScatteringTransformer1D(...).predict(x)` (scattering1d/frontend/sklearn_frontend.py): `self.shape` is `(N,)`. -/
noncomputable def Args1D.predict (a : Args1D) (x : Nd ℝ) : Py (Nd ℝ) := do
  let s ← a.make
  sklearnPredict [s.built.Ninput] (NdFront.scatterArray (a.obj s)) x

end Verif
