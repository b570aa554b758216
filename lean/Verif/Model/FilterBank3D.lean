import Verif.Model.Backend3D
import Mathlib.Analysis.SpecialFunctions.Trigonometric.Inverse
import Mathlib.Analysis.SpecialFunctions.Complex.Arg

/-!
# `kymatio/scattering3d/filter_bank.py` and `utils.py`

`scipy.special.sph_harm(m, l, azimuthal, polar)` is a parameter `Y` of the model: no property of
spherical harmonics is used.
-/

namespace Verif

open Finset

/-- `np.mgrid[-M // 2 : -M // 2 + M]` at position `i`: `-M // 2` is `(-M) // 2`, floor division. -/
def mgrid (M i : ℕ) : ℤ := (-(M : ℤ)) / 2 + i

/-- `np.fft.ifftshift` along an axis of length `M`: `roll` by `-(M // 2)`. -/
def ifftshift {α : Type} (M : ℕ) (f : ℕ → α) (i : ℕ) : α := f ((i + M / 2) % M)

/-- One coordinate of `grid` (filter_bank.py L92-96, L139-143). -/
def gridCoord (M i : ℕ) : ℤ := ifftshift M (mgrid M) i

/-- `grid` with `fourier=True` (L98-101, L146-149): coordinate times `2 pi / M`. -/
noncomputable def gridF (s : Idx3) (i : Idx3) : ℝ × ℝ × ℝ :=
  (gridCoord s.1 i.1 * (2 * Real.pi / s.1), gridCoord s.2.1 i.2.1 * (2 * Real.pi / s.2.1),
    gridCoord s.2.2 i.2.2 * (2 * Real.pi / s.2.2))

/-- `grid` with `fourier=False`. -/
def gridS (s : Idx3) (i : Idx3) : ℝ × ℝ × ℝ :=
  (gridCoord s.1 i.1, gridCoord s.2.1 i.2.1, gridCoord s.2.2 i.2.2)

/-- `(grid ** 2).sum(0)`. -/
noncomputable def sq3 (g : ℝ × ℝ × ℝ) : ℝ := g.1 ^ 2 + g.2.1 ^ 2 + g.2.2 ^ 2

/-- `gaussian_3d(M, N, O, sigma, fourier)`, filter_bank.py L72-108. -/
noncomputable def gaussian3d (s : Idx3) (sigma : ℝ) (fourier : Bool) : Vol ℂ :=
  if fourier then
    Vol.tab s fun i => (Real.exp (-0.5 * sq3 (gridF s i) / (1 / sigma) ^ 2) : ℂ)
  else
    Vol.tab s fun i => ((Real.exp (-0.5 * sq3 (gridS s i) / sigma ^ 2) /
      ((2 * Real.pi) ^ (1.5 : ℝ) * sigma ^ 3) : ℝ) : ℂ)

/-- `double_factorial(i)`, utils.py L65-67: `np.prod(np.arange(i, 0, -2))`. -/
def pyDoubleFactorial : ℕ → ℕ
  | 0 => 1
  | 1 => 1
  | n + 2 => (n + 2) * pyDoubleFactorial n

/-- `get_3d_angles(grid)`, utils.py L44-62; `grid` unpacks as `z, y, x`. `np.arctan2(y, x)` is the
argument of `x + i y`. -/
noncomputable def angles3 (g : ℝ × ℝ × ℝ) : ℝ × ℝ :=
  let z := g.1
  let y := g.2.1
  let x := g.2.2
  let rxy := Real.sqrt (x ^ 2 + y ^ 2)
  (Complex.arg ⟨rxy, z⟩ + Real.pi / 2, Complex.arg ⟨x, y⟩)

/-- The normalisation (L169-182). `factorial((l + 1) / 2)` is reached for odd `l` only. -/
noncomputable def normFactor3 (l : ℕ) (sigma' : ℝ) (fourier : Bool) : ℂ :=
  let n : ℝ := if l % 2 = 0 then 1 / (2 * Real.pi * Real.sqrt (l + 0.5) * pyDoubleFactorial (l + 1))
    else 1 / ((2 : ℝ) ^ (0.5 * (l + 3 : ℝ)) * Real.sqrt (Real.pi * (2 * l + 1)) *
      ((l + 1) / 2).factorial)
  if fourier then (n : ℂ) * ((2 * Real.pi) ^ (1.5 : ℝ) : ℝ) * (-Complex.I) ^ l
  else (n : ℂ) / ((sigma' ^ 3 : ℝ) : ℂ)

/-- `solid_harmonic_3d(M, N, O, sigma, l, fourier)`, filter_bank.py L111-184: the `2 l + 1` wavelets
`m = -l, ..., l`. -/
noncomputable def solidHarmonic3d (Y : ℤ → ℕ → ℝ → ℝ → ℂ) (s : Idx3) (sigma : ℝ) (l : ℕ)
    (fourier : Bool) : List (Vol ℂ) :=
  let grid := if fourier then gridF s else gridS s
  let sigma' := if fourier then 1 / sigma else sigma
  let gaussian : Idx3 → ℝ := fun i => Real.exp (-0.5 * sq3 (grid i) / sigma' ^ 2)
  if l = 0 then
    if fourier then [Vol.tab s fun i => (gaussian i : ℂ)]
    else [Vol.tab s fun i => ((gaussian i / ((2 * Real.pi) ^ (1.5 : ℝ) * sigma' ^ 3) : ℝ) : ℂ)]
  else
    (List.range (2 * l + 1)).map fun im : ℕ =>
      Vol.tab s fun i =>
        let polynomial := Real.sqrt (sq3 (grid i) ^ l) * gaussian i / sigma' ^ l
        let a := angles3 (grid i)
        Y ((im : ℤ) - l) l a.2 a.1 * (polynomial : ℂ) * normFactor3 l sigma' fourier

/-- `solid_harmonic_filter_bank(M, N, O, J, L, sigma_0)`, filter_bank.py L8-40: `filters[l][j][m]`. -/
noncomputable def solidHarmonicBank (Y : ℤ → ℕ → ℝ → ℝ → ℂ) (s : Idx3) (J L : ℕ) (sigma0 : ℝ) :
    List (List (List (Vol ℂ))) :=
  (List.range (L + 1)).map fun l => (List.range (J + 1)).map fun j =>
    solidHarmonic3d Y s (sigma0 * 2 ^ j) l true

/-- `gaussian_filter_bank(M, N, O, J, sigma_0)`, filter_bank.py L43-69. -/
noncomputable def gaussianBank (s : Idx3) (J : ℕ) (sigma0 : ℝ) : List (Vol ℂ) :=
  (List.range (J + 1)).map fun j => gaussian3d s (sigma0 * 2 ^ j) true

/-- One signal of `generate_weighted_sum_of_gaussians(grid, positions, weights, sigma)`, utils.py
L5-42, at one grid point `g`: the loop over the points with its `break` at the first zero weight. -/
noncomputable def gaussianSum (g : ℝ × ℝ × ℝ) (sigma : ℝ) :
    List ((ℝ × ℝ × ℝ) × ℝ) → ℝ → ℝ
  | [], acc => acc
  | (c, w) :: r, acc => by
    classical
    exact if w = 0 then acc
    else gaussianSum g sigma r (acc + w * Real.exp (-0.5 * sq3 (g - c) / sigma ^ 2))

/-- The value returned (L42). -/
noncomputable def weightedGaussians (g : ℝ × ℝ × ℝ) (sigma : ℝ) (pts : List ((ℝ × ℝ × ℝ) × ℝ)) : ℝ :=
  gaussianSum g sigma pts 0 / ((2 * Real.pi) ^ (1.5 : ℝ) * sigma ^ 3)

end Verif
