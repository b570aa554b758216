import Verif.Model.NdArray
import Verif.Model.Object3D

/-!
# The 3-D numpy frontend on arrays of any shape

`kymatio/scattering3d/frontend/numpy_frontend.py` L22-52 and `sklearn_frontend.py`.
-/

namespace Verif

/-- The volumes of an array of shape `(p,) + s` given by its entries in row-major order. -/
def volumes (p : ℕ) (s : Idx3) (d : List ℝ) : List (Vol ℝ) :=
  (List.range p).map fun i => Vol.tab s fun u => d.getD (((i * s.1 + u.1) * s.2.1 + u.2.1) * s.2.2 + u.2.2) 0

/-- The array of shape `(p, rows, L + 1, P)` that `stack` returns: `S` is indexed by row, angular order, volume, power. -/
def stack3 (p L P : ℕ) (S : List (List (List (List ℝ)))) : Nd ℝ :=
  ⟨[p, S.length, L + 1, P],
    (List.range p).flatMap fun i => S.flatMap fun row => row.flatMap fun e => e.getD i []⟩

/-- `HarmonicScattering3D(J, shape, ...)(x)` on an array of any shape (numpy_frontend.py L22-52); the constructor does not
raise. -/
noncomputable def Args3D.runNd (a : Args3D) (Y : ℤ → ℕ → ℝ → ℝ → ℂ) (x : Nd ℝ) : Py (Nd ℝ) :=
  if x.shape.length < 3 then .error .runtime
  else
    let M := x.shape.getD (x.shape.length - 3) 0
    let N := x.shape.getD (x.shape.length - 2) 0
    let O := x.shape.getD (x.shape.length - 1) 0
    if O ≠ a.shape.2.2 ∨ N ≠ a.shape.2.1 ∨ M ≠ a.shape.1 then .error .runtime
    else do
      let bs := x.shape.take (x.shape.length - 3)
      let y ← x.reshape [none, some M, some N, some O]
      let p := y.shape.headD 0
      let S ← a.runBatch Y (M, N, O) (volumes p (M, N, O) y.data)
      (stack3 p a.L a.powers.length S).reshape ((bs ++ [S.length, a.L + 1, a.powers.length]).map some)

/-- `HarmonicScatteringTransformer3D(...).predict(x)` (sklearn_frontend.py). -/
noncomputable def Args3D.predict (a : Args3D) (Y : ℤ → ℕ → ℝ → ℝ → ℂ) (x : Nd ℝ) : Py (Nd ℝ) :=
  sklearnPredict [a.shape.1, a.shape.2.1, a.shape.2.2] (a.runNd Y) x

end Verif
