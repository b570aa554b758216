import Verif.Lemmas.Filters3D
import Mathlib.MeasureTheory.Integral.Gamma
import Mathlib.Analysis.SpecialFunctions.Gaussian.GaussianIntegral

/-! # Normalisation and angles of the 3-D wavelets -/

namespace Verif

open Finset Complex

theorem radial3_eq (l : ℕ) : Spec.radial3 l =
    (1 / 2 : ℝ) ^ (-((l : ℝ) + 3) / 2) * (1 / 2) * Real.Gamma (((l : ℝ) + 3) / 2) := by
  have h := _root_.integral_rpow_mul_exp_neg_mul_rpow (p := 2) (q := (l : ℝ) + 2) (b := 1 / 2) (by norm_num)
    (by have : (0 : ℝ) ≤ l := Nat.cast_nonneg l
        linarith) (by norm_num)
  rw [show (l : ℝ) + 2 + 1 = l + 3 by ring] at h
  rw [← h]
  unfold Spec.radial3
  apply MeasureTheory.setIntegral_congr_fun measurableSet_Ioi
  intro r _
  simp only
  rw [show ((l : ℝ) + 2) = ((l + 2 : ℕ) : ℝ) by push_cast; ring, Real.rpow_natCast]
  congr 2
  rw [show (2 : ℝ) = ((2 : ℕ) : ℝ) by norm_num, Real.rpow_natCast]
  push_cast
  ring

theorem half_rpow (x : ℝ) : (1 / 2 : ℝ) ^ (-x) = 2 ^ x := by
  rw [one_div, Real.inv_rpow (by norm_num), Real.rpow_neg (by norm_num), inv_inv]

theorem norm3_even (k : ℕ) : 2 * Real.pi * Real.sqrt (((2 * k : ℕ) : ℝ) + 0.5) * pyDoubleFactorial (2 * k + 1) =
    Real.sqrt (4 * Real.pi * (2 * ((2 * k : ℕ) : ℝ) + 1)) * Spec.radial3 (2 * k) := by
  rw [radial3_eq, double_factorial_eq]
  have e1 : ((2 * k : ℕ) : ℝ) + 3 = 2 * ((k : ℝ) + 3 / 2) := by push_cast; ring
  rw [show (-(((2 * k : ℕ) : ℝ) + 3) / 2) = -((k : ℝ) + 3 / 2) by rw [e1]; ring,
    show ((((2 * k : ℕ) : ℝ) + 3) / 2) = (k : ℝ) + 1 + 1 / 2 by push_cast; ring, half_rpow,
    Real.Gamma_nat_add_one_add_half]
  have e2 : (2 : ℝ) ^ ((k : ℝ) + 3 / 2) = 2 ^ (k + 1) * Real.sqrt 2 := by
    rw [show (k : ℝ) + 3 / 2 = ((k + 1 : ℕ) : ℝ) + 1 / 2 by push_cast; ring, Real.rpow_add (by norm_num),
      Real.rpow_natCast, Real.sqrt_eq_rpow]
  have e3 : Real.sqrt (4 * Real.pi * (2 * ((2 * k : ℕ) : ℝ) + 1)) =
      2 * Real.sqrt Real.pi * Real.sqrt (2 * ((2 * k : ℕ) : ℝ) + 1) := by
    rw [Real.sqrt_mul (by positivity), Real.sqrt_mul (by norm_num), show (4 : ℝ) = 2 ^ 2 by norm_num,
      Real.sqrt_sq (by norm_num)]
  have e4 : Real.sqrt (2 * ((2 * k : ℕ) : ℝ) + 1) = Real.sqrt 2 * Real.sqrt (((2 * k : ℕ) : ℝ) + 0.5) := by
    rw [← Real.sqrt_mul (by norm_num)]
    congr 1
    ring
  have hpi := Real.mul_self_sqrt Real.pi_pos.le
  have h2 := Real.mul_self_sqrt (show (0 : ℝ) ≤ 2 by norm_num)
  rw [e2, e3, e4]
  have hp : (2 : ℝ) ^ (k + 1) ≠ 0 := by positivity
  field_simp
  nth_rewrite 1 [← hpi]
  rw [show (2 : ℝ) * (Real.sqrt Real.pi * Real.sqrt Real.pi) = (Real.sqrt 2 * Real.sqrt 2) * (Real.sqrt Real.pi * Real.sqrt Real.pi) by rw [h2]]
  ring

theorem norm3_odd (k : ℕ) : (2 : ℝ) ^ (0.5 * (((2 * k + 1 : ℕ) : ℝ) + 3)) *
    Real.sqrt (Real.pi * (2 * ((2 * k + 1 : ℕ) : ℝ) + 1)) * ((2 * k + 1 + 1) / 2).factorial =
    Real.sqrt (4 * Real.pi * (2 * ((2 * k + 1 : ℕ) : ℝ) + 1)) * Spec.radial3 (2 * k + 1) := by
  rw [radial3_eq]
  rw [show (-(((2 * k + 1 : ℕ) : ℝ) + 3) / 2) = -((k + 2 : ℕ) : ℝ) by push_cast; ring,
    show ((((2 * k + 1 : ℕ) : ℝ) + 3) / 2) = ((k + 1 : ℕ) : ℝ) + 1 by push_cast; ring, half_rpow,
    Real.Gamma_nat_eq_factorial, Real.rpow_natCast, show (2 * k + 1 + 1) / 2 = k + 1 by omega,
    show (0.5 * (((2 * k + 1 : ℕ) : ℝ) + 3)) = ((k + 2 : ℕ) : ℝ) by push_cast; ring, Real.rpow_natCast,
    show 4 * Real.pi * (2 * ((2 * k + 1 : ℕ) : ℝ) + 1) = 2 ^ 2 * (Real.pi * (2 * ((2 * k + 1 : ℕ) : ℝ) + 1)) by ring,
    Real.sqrt_mul (show (0 : ℝ) ≤ 2 ^ 2 by norm_num), Real.sqrt_sq (show (0 : ℝ) ≤ 2 by norm_num)]
  ring
/-- The real part of the normalisation is the inverse of the integral of the modulus. -/
theorem normFactor3_fourier (l : ℕ) (σ : ℝ) : normFactor3 l σ true =
    ((1 / (Real.sqrt (4 * Real.pi * (2 * l + 1)) * Spec.radial3 l) : ℝ) : ℂ) *
      (((2 * Real.pi) ^ (1.5 : ℝ) : ℝ) : ℂ) * (-I) ^ l := by
  unfold normFactor3
  rw [if_pos rfl]
  rcases Nat.even_or_odd' l with ⟨k, rfl | rfl⟩
  · rw [if_pos (by omega), norm3_even]
  · rw [if_neg (by omega), norm3_odd]

theorem normFactor3_space (l : ℕ) (σ : ℝ) : normFactor3 l σ false =
    ((1 / (Real.sqrt (4 * Real.pi * (2 * l + 1)) * Spec.radial3 l) : ℝ) : ℂ) / ((σ ^ 3 : ℝ) : ℂ) := by
  unfold normFactor3
  rw [if_neg (by simp)]
  rcases Nat.even_or_odd' l with ⟨k, rfl | rfl⟩
  · rw [if_pos (by omega), norm3_even]
  · rw [if_neg (by omega), norm3_odd]

theorem angles3_eq (w : ℝ × ℝ × ℝ) : angles3 w =
    (Real.pi - Real.arccos (w.1 / Real.sqrt (w.1 ^ 2 + w.2.1 ^ 2 + w.2.2 ^ 2)), Complex.arg ⟨w.2.2, w.2.1⟩) := by
  unfold angles3
  simp only [Prod.mk.injEq, and_true]
  rw [Complex.arg_of_re_nonneg (Real.sqrt_nonneg _)]
  have hn : ‖(⟨Real.sqrt (w.2.2 ^ 2 + w.2.1 ^ 2), w.1⟩ : ℂ)‖ = Real.sqrt (w.1 ^ 2 + w.2.1 ^ 2 + w.2.2 ^ 2) := by
    rw [Complex.norm_def, Complex.normSq_apply]
    congr 1
    show Real.sqrt _ * Real.sqrt _ + w.1 * w.1 = _
    rw [Real.mul_self_sqrt (by positivity)]
    ring
  rw [hn, Real.arccos]
  ring

end Verif
