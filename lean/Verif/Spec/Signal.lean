import Mathlib.Analysis.SpecialFunctions.Complex.Log
import Mathlib.Analysis.SpecialFunctions.Trigonometric.Basic

/-!
# Signal-processing vocabulary used in the statements

These definitions do not use the model.
-/

namespace Verif.Spec

open Finset Complex

/-- The impulse response, extended periodically to all integers, of the transfer function
`h = [h_0, ..., h_(N-1)]`: `(1/N) * sum_k h_k exp(2 pi i k n / N)`. -/
noncomputable def impulse (h : List ℂ) (n : ℤ) : ℂ :=
  (∑ k ∈ range h.length, h.getD k 0 * exp (2 * Real.pi * I * (k * n : ℤ) / h.length)) / h.length

/-- Impulse response of a real transfer function. -/
noncomputable def impulseR (h : List ℝ) (n : ℤ) : ℂ := impulse (h.map fun r : ℝ => (r : ℂ)) n

/-- Circular convolution at time `n` of the samples `x` with the periodic sequence `g`. -/
noncomputable def conv (x : List ℂ) (g : ℤ → ℂ) (n : ℤ) : ℂ :=
  ∑ m ∈ range x.length, x.getD m 0 * g (n - m)

/-- Circular convolution of a real signal. -/
noncomputable def convR (x : List ℝ) (g : ℤ → ℂ) (n : ℤ) : ℂ :=
  ∑ m ∈ range x.length, (x.getD m 0 : ℂ) * g (n - m)

/-- Position read by mirror reflection without repetition of the edges ("reflect"): the sequence
`0, 1, ..., N-1, N-2, ..., 1, 0, 1, ...` of period `2N - 2`, at any integer position. -/
def mirror (N : ℕ) (t : ℤ) : ℕ :=
  let r := t % (2 * N - 2)
  (min r (2 * N - 2 - r)).toNat

/-- `y` is `np.roll(x, s)`: `y[n] = x[(n - s) mod N]`. -/
def IsRoll {α : Type} [Zero α] (s : ℤ) (x y : List α) : Prop :=
  y.length = x.length ∧
    ∀ n : ℕ, n < x.length → y.getD n 0 = x.getD (((n : ℤ) - s) % x.length).toNat 0

end Verif.Spec
