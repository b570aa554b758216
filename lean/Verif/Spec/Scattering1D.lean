import Verif.Spec.Signal

/-!
# The scattering cascade, written in the time domain

`x` is the padded signal of length `N`; `ψ1`, `ψ2`, `φ` are full-rate periodic impulse responses;
`2^k1`, `2^k2` are the sampling steps of the moduli, `2^ls` that of the output.
-/

namespace Verif.Spec

open Finset

/-- First-order modulus at position `u` of the grid of step `2^k1`:
`|sum_m x_m ψ1(2^k1 u - m)|`. -/
noncomputable def U1 (x : List ℝ) (ψ1 : ℤ → ℂ) (k1 : ℕ) (u : ℤ) : ℝ :=
  ‖∑ m ∈ range x.length, (x.getD m 0 : ℂ) * ψ1 (2 ^ k1 * u - m)‖

/-- Second-order modulus at position `v` of the grid of step `2^k2`; the convolution with `ψ2` is a
Riemann sum of step `2^k1`. -/
noncomputable def U2 (x : List ℝ) (ψ1 ψ2 : ℤ → ℂ) (k1 k2 : ℕ) (v : ℤ) : ℝ :=
  ‖∑ u ∈ range (x.length / 2 ^ k1), (U1 x ψ1 k1 u : ℂ) * (2 ^ k1 * ψ2 (2 ^ k2 * v - 2 ^ k1 * u))‖

/-- Zeroth-order coefficient at output position `t`. -/
noncomputable def S0 (x : List ℝ) (φ : ℤ → ℂ) (ls : ℕ) (t : ℤ) : ℝ :=
  (∑ m ∈ range x.length, (x.getD m 0 : ℂ) * φ (2 ^ ls * t - m)).re

/-- First-order coefficient at output position `t`. -/
noncomputable def S1 (x : List ℝ) (ψ1 φ : ℤ → ℂ) (k1 ls : ℕ) (t : ℤ) : ℝ :=
  (∑ u ∈ range (x.length / 2 ^ k1),
    (U1 x ψ1 k1 u : ℂ) * (2 ^ k1 * φ (2 ^ ls * t - 2 ^ k1 * u))).re

/-- Second-order coefficient at output position `t`. -/
noncomputable def S2 (x : List ℝ) (ψ1 ψ2 φ : ℤ → ℂ) (k1 k2 ls : ℕ) (t : ℤ) : ℝ :=
  (∑ v ∈ range (x.length / 2 ^ k2),
    (U2 x ψ1 ψ2 k1 k2 v : ℂ) * (2 ^ k2 * φ (2 ^ ls * t - 2 ^ k2 * v))).re

end Verif.Spec
