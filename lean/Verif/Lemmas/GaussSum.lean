import Mathlib.NumberTheory.ModularForms.JacobiTheta.OneVariable
import Mathlib.Analysis.Real.Pi.Bounds

/-!
# Sums of Gaussians over the integers
-/

namespace Verif

open Complex

/-- Upper bound of `sum_n exp(-b n^2)`. -/
noncomputable def thetaBound (b : ℝ) : ℝ := 1 + 2 / (1 - Real.exp (-b)) * Real.exp (-b)

theorem thetaBound_anti {b c : ℝ} (hb : 0 < b) (hbc : b ≤ c) : thetaBound c ≤ thetaBound b := by
  unfold thetaBound
  have h1 : Real.exp (-c) ≤ Real.exp (-b) := Real.exp_le_exp.2 (by linarith)
  have h2 : Real.exp (-b) < 1 := by rw [Real.exp_lt_one_iff]; linarith
  have : 2 / (1 - Real.exp (-c)) ≤ 2 / (1 - Real.exp (-b)) :=
    div_le_div_of_nonneg_left (by norm_num) (by linarith) (by linarith)
  have h3 : 0 ≤ 2 / (1 - Real.exp (-b)) := div_nonneg (by norm_num) (by linarith)
  have := mul_le_mul this h1 (Real.exp_pos _).le h3
  linarith

theorem one_le_thetaBound {b : ℝ} (hb : 0 < b) : 1 ≤ thetaBound b := by
  unfold thetaBound
  have h2 : Real.exp (-b) < 1 := by rw [Real.exp_lt_one_iff]; linarith
  have : 0 ≤ 2 / (1 - Real.exp (-b)) * Real.exp (-b) :=
    mul_nonneg (div_nonneg (by norm_num) (by linarith)) (Real.exp_pos _).le
  linarith

/-- A Gaussian sampled at the integers, from any origin: its sum is at most its integral times
`thetaBound (pi^2 / a)` (Poisson summation). -/
theorem gauss_tsum (a s : ℝ) (ha : 0 < a) :
    Summable (fun n : ℤ => Real.exp (-(a * (n + s) ^ 2))) ∧
      ∑' n : ℤ, Real.exp (-(a * (n + s) ^ 2)) ≤ Real.sqrt (Real.pi / a) * thetaBound (Real.pi ^ 2 / a) := by
  have hpi := Real.pi_pos
  have hpi0 : (Real.pi : ℂ) ≠ 0 := by exact_mod_cast hpi.ne'
  have ha0 : (a : ℂ) ≠ 0 := by exact_mod_cast ha.ne'
  set τ : ℂ := I * ((a / Real.pi : ℝ) : ℂ) with hτ
  set z : ℂ := I * ((a * s / Real.pi : ℝ) : ℂ) with hz
  have him : 0 < τ.im := by
    rw [hτ, I_mul_im, ofReal_re]; positivity
  have hterm : ∀ n : ℤ, ((Real.exp (-(a * (n + s) ^ 2)) : ℝ) : ℂ) =
      ((Real.exp (-(a * s ^ 2)) : ℝ) : ℂ) * jacobiTheta₂_term n z τ := by
    intro n
    unfold jacobiTheta₂_term
    rw [ofReal_exp, ofReal_exp, ← Complex.exp_add]
    congr 1
    rw [hz, hτ]
    push_cast
    field_simp
    linear_combination (-(2 * n * s + n ^ 2) : ℂ) * I_sq
  have hsum := (hasSum_jacobiTheta₂_term z him).mul_left ((Real.exp (-(a * s ^ 2)) : ℝ) : ℂ)
  simp_rw [← hterm] at hsum
  have hS : Summable (fun n : ℤ => Real.exp (-(a * (n + s) ^ 2))) := Complex.summable_ofReal.1 hsum.summable
  refine ⟨hS, ?_⟩
  have hfe := jacobiTheta₂_functional_equation z τ
  have e1 : z / τ = (s : ℂ) := by
    rw [hz, hτ]; push_cast; field_simp
  set τ' : ℂ := I * ((Real.pi / a : ℝ) : ℂ) with hτ'
  have him' : 0 < τ'.im := by
    rw [hτ', I_mul_im, ofReal_re]; positivity
  have e2 : -1 / τ = τ' := by
    rw [hτ, hτ']; push_cast; field_simp
    linear_combination (-1 : ℂ) * I_sq
  have e3 : cexp (-Real.pi * I * z ^ 2 / τ) = ((Real.exp (a * s ^ 2) : ℝ) : ℂ) := by
    rw [ofReal_exp]
    congr 1
    rw [hz, hτ]
    push_cast
    field_simp
    linear_combination (-(s ^ 2 : ℂ)) * I_sq
  have e4 : (-I * τ) = ((a / Real.pi : ℝ) : ℂ) := by
    rw [hτ]; linear_combination (-((a / Real.pi : ℝ) : ℂ)) * I_sq
  have e5 : ((1 : ℂ) / (-I * τ) ^ (1 / 2 : ℂ)) = ((Real.sqrt (Real.pi / a) : ℝ) : ℂ) := by
    rw [e4, show (1 / 2 : ℂ) = ((1 / 2 : ℝ) : ℂ) by push_cast; rfl, ← ofReal_cpow (by positivity),
      ← Real.sqrt_eq_rpow, ← ofReal_one, ← ofReal_div]
    congr 1
    rw [one_div, ← Real.sqrt_inv, inv_div]
  have hval : ((∑' n : ℤ, Real.exp (-(a * (n + s) ^ 2)) : ℝ) : ℂ) =
      ((Real.sqrt (Real.pi / a) : ℝ) : ℂ) * jacobiTheta₂ s τ' := by
    rw [ofReal_tsum, hsum.tsum_eq, hfe, e1, e2, e3, e5]
    have : ((Real.exp (-(a * s ^ 2)) : ℝ) : ℂ) * ((Real.exp (a * s ^ 2) : ℝ) : ℂ) = 1 := by
      rw [← ofReal_mul, ← Real.exp_add]; simp
    linear_combination (((Real.sqrt (Real.pi / a) : ℝ) : ℂ) * jacobiTheta₂ s τ') * this
  have hnorm : ‖jacobiTheta₂ s τ'‖ ≤ thetaBound (Real.pi ^ 2 / a) := by
    have hn : ∀ n : ℤ, ‖jacobiTheta₂_term n s τ'‖ = Real.exp (-(Real.pi ^ 2 / a * n ^ 2)) := by
      intro n
      rw [norm_jacobiTheta₂_term, ofReal_im, hτ', I_mul_im, ofReal_re]
      congr 1; ring
    have hs' : Summable fun n : ℤ => ‖jacobiTheta₂_term n s τ'‖ :=
      ((summable_jacobiTheta₂_term_iff s τ').2 him').norm
    have h1 : ‖jacobiTheta₂ s τ'‖ ≤ ∑' n : ℤ, ‖jacobiTheta₂_term n s τ'‖ := norm_tsum_le_tsum_norm hs'
    have h2 : ((∑' n : ℤ, ‖jacobiTheta₂_term n s τ'‖ : ℝ) : ℂ) = jacobiTheta τ' := by
      rw [ofReal_tsum, jacobiTheta]
      refine tsum_congr fun n => ?_
      rw [hn, ofReal_exp]
      congr 1
      rw [hτ']; push_cast
      linear_combination (-(Real.pi ^ 2 / a * n ^ 2 : ℂ)) * I_sq
    have h3 := norm_jacobiTheta_sub_one_le him'
    rw [← h2, ← ofReal_one, ← ofReal_sub, norm_real, Real.norm_eq_abs] at h3
    have e : -Real.pi * τ'.im = -(Real.pi ^ 2 / a) := by
      rw [hτ', I_mul_im, ofReal_re]; ring
    rw [e] at h3
    have := (le_abs_self _).trans h3
    unfold thetaBound
    linarith
  have h0 : 0 ≤ ∑' n : ℤ, Real.exp (-(a * (n + s) ^ 2)) := tsum_nonneg fun _ => (Real.exp_pos _).le
  have := congrArg norm hval
  rw [norm_mul, norm_real, norm_real, Real.norm_eq_abs, Real.norm_eq_abs, abs_of_nonneg h0,
    abs_of_nonneg (Real.sqrt_nonneg _)] at this
  rw [this]
  exact mul_le_mul_of_nonneg_left hnorm (Real.sqrt_nonneg _)

/-- Finite sums along a list of distinct integers. -/
theorem gauss_sum_le (a s : ℝ) (ha : 0 < a) (A : Finset ℤ) :
    ∑ n ∈ A, Real.exp (-(a * (n + s) ^ 2)) ≤ Real.sqrt (Real.pi / a) * thetaBound (Real.pi ^ 2 / a) := by
  obtain ⟨h1, h2⟩ := gauss_tsum a s ha
  exact (h1.sum_le_tsum A fun _ _ => (Real.exp_pos _).le).trans h2

/-- A Gaussian of two variables sampled at integer points: `c00 x^2 + 2 b x y + c11 y^2` positive definite. -/
theorem gauss2_sum_le (c00 b c11 : ℝ) (h0 : 0 < c00) (hd : 0 < c00 * c11 - b ^ 2) (A B : Finset ℤ) :
    ∑ x ∈ A, ∑ y ∈ B, Real.exp (-(c00 * (x * x) + 2 * b * (x * y) + c11 * (y * y))) ≤
      Real.pi / Real.sqrt (c00 * c11 - b ^ 2) * (thetaBound (Real.pi ^ 2 / c00) *
        thetaBound (Real.pi ^ 2 / ((c00 * c11 - b ^ 2) / c00))) := by
  set d := c00 * c11 - b ^ 2 with hdd
  have hd' : 0 < d / c00 := div_pos hd h0
  have e : ∀ x y : ℤ, Real.exp (-(c00 * (x * x) + 2 * b * (x * y) + c11 * (y * y))) =
      Real.exp (-(d / c00 * ((y : ℝ) + 0) ^ 2)) * Real.exp (-(c00 * ((x : ℝ) + b * y / c00) ^ 2)) := by
    intro x y
    rw [← Real.exp_add]
    congr 1
    rw [hdd]
    field_simp
    ring
  have t0 : 0 ≤ thetaBound (Real.pi ^ 2 / c00) :=
    zero_le_one.trans (one_le_thetaBound (div_pos (pow_pos Real.pi_pos 2) h0))
  calc ∑ x ∈ A, ∑ y ∈ B, Real.exp (-(c00 * (x * x) + 2 * b * (x * y) + c11 * (y * y)))
      = ∑ y ∈ B, Real.exp (-(d / c00 * ((y : ℝ) + 0) ^ 2)) * ∑ x ∈ A, Real.exp (-(c00 * ((x : ℝ) + b * y / c00) ^ 2)) := by
        rw [Finset.sum_comm]
        refine Finset.sum_congr rfl fun y _ => ?_
        rw [Finset.mul_sum]
        exact Finset.sum_congr rfl fun x _ => e x y
    _ ≤ ∑ y ∈ B, Real.exp (-(d / c00 * ((y : ℝ) + 0) ^ 2)) *
          (Real.sqrt (Real.pi / c00) * thetaBound (Real.pi ^ 2 / c00)) :=
        Finset.sum_le_sum fun y _ => mul_le_mul_of_nonneg_left (gauss_sum_le c00 _ h0 A) (Real.exp_pos _).le
    _ ≤ (Real.sqrt (Real.pi / (d / c00)) * thetaBound (Real.pi ^ 2 / (d / c00))) *
          (Real.sqrt (Real.pi / c00) * thetaBound (Real.pi ^ 2 / c00)) := by
        rw [← Finset.sum_mul]
        exact mul_le_mul_of_nonneg_right (gauss_sum_le _ 0 hd' B) (mul_nonneg (Real.sqrt_nonneg _) t0)
    _ = _ := by
        have : Real.sqrt (Real.pi / (d / c00)) * Real.sqrt (Real.pi / c00) = Real.pi / Real.sqrt d := by
          rw [← Real.sqrt_mul (by positivity [Real.pi_pos])]
          rw [show Real.pi / (d / c00) * (Real.pi / c00) = Real.pi ^ 2 / d by field_simp,
            Real.sqrt_div (by positivity), Real.sqrt_sq Real.pi_pos.le]
        rw [← this]; ring

end Verif
