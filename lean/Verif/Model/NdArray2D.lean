import Verif.Model.NdArray
import Verif.Model.Object2D

/-!
# The 2-D numpy frontend on arrays of any shape

`kymatio/scattering2d/frontend/numpy_frontend.py` L16-52 and the numpy backend on arrays of shape `(n, h, w)`.
-/

namespace Verif

/-- An array of shape `(n, h, w)`. -/
structure Imgs (α : Type) where
  n : Nat
  h : Nat
  w : Nat
  px : Nat → Nat → Nat → α

namespace Imgs

variable {α : Type}

/-- `x[i]`. -/
def img (x : Imgs α) (i : Nat) : Img α := ⟨x.h, x.w, x.px i⟩

/-- An array of shape `(n, h, w)` from its entries in row-major order. -/
def ofData [Zero α] (n h w : Nat) (d : List α) : Imgs α :=
  ⟨n, h, w, fun i => (Img.tab h w fun r c => d.getD ((i * h + r) * w + c) 0).px⟩

/-- The entries of `x[i]` in row-major order. -/
def flat (x : Imgs α) (i : Nat) : List α := tab (x.h * x.w) fun k => x.px i (k / x.w) (k % x.w)

/-- `np.stack(rows, axis=-3)` of arrays of the shape `(n, h, w)`, in row-major order. -/
def stack (n h w : Nat) (rows : List (Imgs α)) : Nd α :=
  ⟨[n, rows.length, h, w], (List.range n).flatMap fun i => rows.flatMap fun y => y.flat i⟩

/-- The array itself, in row-major order. -/
def toNd (x : Imgs α) : Nd α := ⟨[x.n, x.h, x.w], (List.range x.n).flatMap x.flat⟩

end Imgs

/-- The numpy backend (scattering2d/backend/numpy_backend.py) on arrays of shape `(n, h, w)`: transforms and means
over the last two axes, products with a filter broadcast over the first. -/
noncomputable abbrev imgsBackend : Backend1D where
  R := Imgs ℝ
  C := Imgs ℂ
  F := Img ℝ
  rfft x := .ok ⟨x.n, x.h, x.w, fun i => (np2Rfft (x.img i)).px⟩
  ifft x := .ok ⟨x.n, x.h, x.w, fun i => (idft2 (x.img i)).px⟩
  irfft x := .ok ⟨x.n, x.h, x.w, fun i => (np2Irfft (x.img i)).px⟩
  modulus x := .ok ⟨x.n, x.h, x.w, fun i => (np2Modulus (x.img i)).px⟩
  cdgmm x f :=
    if x.h ≠ f.h ∨ x.w ≠ f.w then .error .runtime
    else .ok ⟨x.n, x.h, x.w, fun i =>
      (Img.tab x.h x.w fun r c => x.px i r c * (f.px r c : ℂ)).px⟩
  subsample x e :=
    let k := 2 ^ e
    if k * (x.h / k) ≠ x.h ∨ k * (x.w / k) ≠ x.w then .error .value
    else .ok ⟨x.n, x.h / k, x.w / k, fun i => (Img.tab (x.h / k) (x.w / k) fun r c =>
      (∑ p ∈ Finset.range k, ∑ q ∈ Finset.range k, x.px i (p * (x.h / k) + r) (q * (x.w / k) + c)) / (k * k)).px⟩

/-- `Pad.__call__` of the numpy backend on an array (numpy_backend.py L20-25). -/
def imgsPad (t b l r : Nat) (x : Imgs ℝ) : Py (Imgs ℝ) :=
  if (x.h = 0 ∧ t + b > 0) ∨ (x.w = 0 ∧ l + r > 0) then .error .value
  else .ok ⟨x.n, t + x.h + b, l + x.w + r, fun i => (Img.tab (t + x.h + b) (l + x.w + r) fun p q =>
    x.px i (mirrorIndex x.h t p) (mirrorIndex x.w l q)).px⟩

/-- `unpad`: `x[..., 1:-1, 1:-1]`. -/
def imgsUnpad (x : Imgs ℝ) : Imgs ℝ := ⟨x.n, x.h - 2, x.w - 2, fun i => (np2Unpad (x.img i)).px⟩

/-- `pad`, `unpad` and the shapes compared by `np.stack`. -/
def Args2D.imgsOps (a : Args2D) (s : Sc2D) : Ops2D (Imgs ℝ) :=
  ⟨if a.prePad then fun x => .ok x
    else imgsPad ((s.Mp - a.M) / 2) ((s.Mp - a.M + 1) / 2) ((s.Np - a.N) / 2) ((s.Np - a.N + 1) / 2),
    imgsUnpad, fun x => (x.h, x.w)⟩

/-- The output on arrays. -/
inductive Out2Nd where
  | array (S : Nd ℝ)
  | list (paths : List (Path2 (Nd ℝ)))

/-- The reshaping of the result (numpy_frontend.py L41-50); the stack of the core has the shape of its first
row. -/
noncomputable def reshapeOut2 (bs : List Nat) : Out2D (Imgs ℝ) → Py Out2Nd
  | .array rows => do
    let y := rows.head?.getD ⟨0, 0, 0, fun _ _ _ => 0⟩
    let S ← (Imgs.stack y.n y.h y.w rows).reshape ((bs ++ [rows.length, y.h, y.w]).map some)
    .ok (.array S)
  | .list l => do
    let y := (l.head?.map fun p => p.coef).getD ⟨0, 0, 0, fun _ _ _ => 0⟩
    let l ← l.mapM fun p => do
      let c ← p.coef.toNd.reshape ((bs ++ [y.h, y.w]).map some)
      .ok (⟨c, p.j, p.n, p.theta⟩ : Path2 (Nd ℝ))
    .ok (.list l)

/-- `Scattering2D(J, (M, N), L, ...)(x)` on an array of any shape (numpy_frontend.py L16-52). -/
noncomputable def Args2D.runNd (a : Args2D) (x : Nd ℝ) : Py Out2Nd := do
  let s ← a.make
  if x.shape.length < 2 then .error .runtime
  else do
    let h := x.shape.getD (x.shape.length - 2) 0
    let w := x.shape.getD (x.shape.length - 1) 0
    a.check s h w
    let bs := x.shape.take (x.shape.length - 2)
    let y ← x.reshape [none, some h, some w]
    let out ← Core2D.scattering2d imgsBackend (a.imgsOps s) (Imgs.ofData (y.shape.headD 0) h w y.data)
      a.J s.phi s.psi a.maxOrder (decide (a.outType = .array))
    reshapeOut2 bs out

/-- `ScatteringTransformer2D(...).predict(x)` (scattering2d/frontend/sklearn_frontend.py): `self.shape` is `(M, N)`. -/
noncomputable def Args2D.predict (a : Args2D) (x : Nd ℝ) : Py (Nd ℝ) :=
  sklearnPredict [a.M, a.N] (fun y => do
    let r ← a.runNd y
    match r with
    | .array S => .ok S
    | .list _ => .error .attribute) x

end Verif
