import Verif.Spec.Scattering1D

/-!
# Joint time-frequency scattering, written in the time and log-frequency domains

`x` is the padded signal; a wavelet is its full-rate impulse response together with the exponent `j` of
its sampling step.  Rows are positions on the log-frequency axis, columns are times.
-/

namespace Verif.Spec

open Finset

/-- A wavelet. -/
abbrev Wavelet := (ℤ → ℂ) × ℕ

/-- Second-order wavelet coefficient (before the modulus) at position `v` of the grid of step `2^j2`. -/
noncomputable def W2 (x : List ℝ) (ψ1 ψ2 : ℤ → ℂ) (j1 j2 : ℕ) (v : ℤ) : ℂ :=
  ∑ u ∈ range (x.length / 2 ^ j1), (U1 x ψ1 j1 u : ℂ) * (2 ^ j1 * ψ2 (2 ^ j2 * v - 2 ^ j1 * u))

/-- Convolution of the first `n` rows with `ψ` along the log-frequency axis, at row `r` of the grid of
step `2^k`. -/
noncomputable def frConv (n : ℕ) (Y : ℕ → ℕ → ℂ) (ψ : ℤ → ℂ) (k : ℕ) (r t : ℕ) : ℂ :=
  ∑ m ∈ range n, Y m t * ψ (2 ^ k * r - m)

/-- Averaging with `φ` of `n` values on the grid of step `2^k`, read on the grid of step `2^ls`. -/
noncomputable def smooth (n k ls : ℕ) (φ : ℤ → ℂ) (U : ℕ → ℝ) (t : ℕ) : ℝ :=
  (∑ m ∈ range n, (U m : ℂ) * (2 ^ k * φ (2 ^ ls * t - 2 ^ k * m))).re

/-- The stack of first-order coefficients: row `m` belongs to the `m`-th wavelet, whose modulus is kept
on the grid of step `2^(k1 j)`. -/
noncomputable def rows1 (x : List ℝ) (W : List Wavelet) (φ : ℤ → ℂ) (k1 : ℕ → ℕ) (ls m t : ℕ) : ℝ :=
  match W[m]? with
  | some w => S1 x w.1 φ (k1 w.2) ls t
  | none => 0

/-- The stack of second-order wavelet coefficients: row `m` belongs to the `m`-th wavelet of `W`. -/
noncomputable def rows2 (x : List ℝ) (W : List Wavelet) (ψ2 : ℤ → ℂ) (j2 m t : ℕ) : ℂ :=
  match W[m]? with
  | some w => W2 x w.1 ψ2 w.2 j2 t
  | none => 0

end Verif.Spec
