import Mathlib.Analysis.SpecialFunctions.Complex.Log
import Mathlib.Analysis.SpecialFunctions.Pow.Real
import Mathlib.Analysis.SpecialFunctions.Trigonometric.Inverse
import Mathlib.Analysis.SpecialFunctions.Complex.Arg
import Mathlib.MeasureTheory.Integral.Bochner.Set
import Mathlib.MeasureTheory.Measure.Lebesgue.Basic

/-!
# Vocabulary of the 3-D statements

These definitions do not use the model: a volume of shape `(M, N, O)` is a function of a triple of
indices.
-/

namespace Verif.Spec

open Finset Complex

/-- The indices of a volume of shape `s`. -/
def cells (s : ℕ × ℕ × ℕ) : Finset (ℕ × ℕ × ℕ) := range s.1 ×ˢ range s.2.1 ×ˢ range s.2.2

/-- The periodic impulse response of the complex transfer function `f` on shape `s`. -/
noncomputable def impulse3 (s : ℕ × ℕ × ℕ) (f : ℕ × ℕ × ℕ → ℂ) (a b c : ℤ) : ℂ :=
  (∑ k ∈ cells s, f k * exp (2 * Real.pi * I *
    ((k.1 * a : ℤ) / s.1 + (k.2.1 * b : ℤ) / s.2.1 + (k.2.2 * c : ℤ) / s.2.2))) / (s.1 * s.2.1 * s.2.2)

/-- Circular convolution of the real volume `x` with the transfer function `f`, at `u`. -/
noncomputable def conv3 (s : ℕ × ℕ × ℕ) (x : ℕ × ℕ × ℕ → ℝ) (f : ℕ × ℕ × ℕ → ℂ) (u : ℕ × ℕ × ℕ) : ℂ :=
  ∑ v ∈ cells s, (x v : ℂ) *
    impulse3 s f ((u.1 : ℤ) - v.1) ((u.2.1 : ℤ) - v.2.1) ((u.2.2 : ℤ) - v.2.2)

/-- The modulus over a family of transfer functions: the square root of the sum of the squared
magnitudes of the convolutions. -/
noncomputable def rotMod3 (s : ℕ × ℕ × ℕ) (fs : List (ℕ × ℕ × ℕ → ℂ)) (x : ℕ × ℕ × ℕ → ℝ)
    (u : ℕ × ℕ × ℕ) : ℝ :=
  Real.sqrt ((fs.map fun f => ‖conv3 s x f u‖ ^ 2).sum)

/-- The integral of a volume to the power `q`. -/
noncomputable def integral3 (s : ℕ × ℕ × ℕ) (x : ℕ × ℕ × ℕ → ℝ) (q : ℝ) : ℝ := ∑ u ∈ cells s, x u ^ q

/-- The scale paths, in output order: `[j1]` for `j1 = 0..J`, then, when `second` holds, `[j1, j2]` with
`j1 < j2 <= J`, lexicographically. -/
def paths3 (J : ℕ) (second : Bool) : List (List ℕ) :=
  ((List.range (J + 1)).map fun j => [j]) ++
  (if second then (List.range (J + 1)).flatMap fun j1 =>
    (List.range (J - j1)).map fun d => [j1, j1 + 1 + d] else [])

/-- The volume at the end of a path: one wavelet modulus per scale; `fam j` are the transfer functions
at scale `j`. -/
noncomputable def cascade3 (s : ℕ × ℕ × ℕ) (fam : ℕ → List (ℕ × ℕ × ℕ → ℂ)) :
    List ℕ → (ℕ × ℕ × ℕ → ℝ) → ℕ × ℕ × ℕ → ℝ
  | [], x => x
  | j :: p, x => cascade3 s fam p (rotMod3 s (fam j) x)

/-- The integral of `r^l exp(-r^2/2)` over the half-line with weight `r^2`. -/
noncomputable def radial3 (l : ℕ) : ℝ := ∫ r in Set.Ioi (0 : ℝ), r ^ (l + 2) * Real.exp (-r ^ 2 / 2)

/-- Coordinate at index `i` along an axis of `M` points: `0, 1, ..., M/2-1, -M/2, ..., -1` for even `M`, and
`-1, 0, ..., (M-1)/2 - 1, -(M+1)/2, ..., -2` for odd `M` (one less than the centred coordinate, C49). -/
def gridIndex (M i : ℕ) : ℤ :=
  if M % 2 = 0 then (if i < M / 2 then (i : ℤ) else i - M)
  else if i < M / 2 + 1 then (i : ℤ) - 1 else i - 1 - M

/-- Squared length of `w = (z, y, x)`. -/
noncomputable def sqLen (w : ℝ × ℝ × ℝ) : ℝ := w.1 ^ 2 + w.2.1 ^ 2 + w.2.2 ^ 2

/-- The solid harmonic wavelet of width one, order `(l, m - l)`, at the point `w = (z, y, x)`:
`|w|^l exp(-|w|^2/2) Y(angles)`, divided by `sqrt(4 pi (2l+1))` times the radial integral, so that the
square root of the sum over `m` of the squared moduli integrates to one.  The polar angle is measured
from the negative `z` axis. -/
noncomputable def solid3 (Y : ℤ → ℕ → ℝ → ℝ → ℂ) (l m : ℕ) (w : ℝ × ℝ × ℝ) : ℂ :=
  Y ((m : ℤ) - l) l (arg ⟨w.2.2, w.2.1⟩) (Real.pi - Real.arccos (w.1 / Real.sqrt (sqLen w))) *
    ((Real.sqrt (sqLen w) ^ l * Real.exp (-(sqLen w) / 2) /
      (Real.sqrt (4 * Real.pi * (2 * l + 1)) * radial3 l) : ℝ) : ℂ)

/-- `y` is `np.roll(x, t, axis=(0, 1, 2))`. -/
def IsRoll3 {α : Type} (s : ℕ × ℕ × ℕ) (t : ℤ × ℤ × ℤ) (x y : ℕ × ℕ × ℕ → α) : Prop :=
  ∀ u ∈ cells s, y u = x ((((u.1 : ℤ) - t.1) % s.1).toNat, (((u.2.1 : ℤ) - t.2.1) % s.2.1).toNat,
    (((u.2.2 : ℤ) - t.2.2) % s.2.2).toNat)

end Verif.Spec
