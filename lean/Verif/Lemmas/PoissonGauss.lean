import Mathlib.Analysis.SpecialFunctions.Gaussian.PoissonSummation
import Mathlib.Analysis.SpecificLimits.Basic

/-!
# Sums of Gaussians times cosines

By Poisson summation the cosine series with Gaussian coefficients is positive; a long enough part of it is therefore
nearly non-negative.
-/

namespace Verif

open Finset Complex Real

/-- The cosine series with coefficients `exp(-b n²)` is summable. -/
theorem summable_gauss_int {b : ℝ} (hb : 0 < b) : Summable fun n : ℤ => Real.exp (-b * (n : ℝ) ^ 2) := by
  have hg : Summable fun n : ℕ => Real.exp (-b) ^ n :=
    summable_geometric_of_lt_one (Real.exp_pos _).le (by rw [Real.exp_lt_one_iff]; linarith)
  have key : ∀ n : ℕ, Real.exp (-b * (n : ℝ) ^ 2) ≤ Real.exp (-b) ^ n := by
    intro n
    rw [← Real.exp_nat_mul]
    apply Real.exp_le_exp.2
    have : (n : ℝ) ≤ (n : ℝ) ^ 2 := by exact_mod_cast Nat.le_self_pow (by norm_num) n
    nlinarith
  refine Summable.of_nat_of_neg ?_ ?_
  · exact hg.of_nonneg_of_le (fun n => (Real.exp_pos _).le) fun n => by simpa using key n
  · exact hg.of_nonneg_of_le (fun n => (Real.exp_pos _).le) fun n => by simpa using key n

theorem summable_gauss_cos {b : ℝ} (hb : 0 < b) (t : ℝ) :
    Summable fun n : ℤ => Real.exp (-b * (n : ℝ) ^ 2) * Real.cos (2 * π * (n * t)) := by
  refine (summable_gauss_int hb).of_norm_bounded fun n => ?_
  rw [norm_mul, Real.norm_eq_abs, Real.norm_eq_abs, abs_of_pos (Real.exp_pos _)]
  exact mul_le_of_le_one_right (Real.exp_pos _).le (Real.abs_cos_le_one _)

/-- **The cosine series with Gaussian coefficients is non-negative.** -/
theorem gauss_cos_nonneg {b : ℝ} (hb : 0 < b) (t : ℝ) :
    0 ≤ ∑' n : ℤ, Real.exp (-b * (n : ℝ) ^ 2) * Real.cos (2 * π * (n * t)) := by
  have hpi := Real.pi_pos
  have ha : 0 < ((b / π : ℝ) : ℂ).re := by rw [ofReal_re]; positivity
  have h := Complex.tsum_exp_neg_quadratic ha (I * t)
  have hterm : ∀ n : ℤ, cexp (-π * ((b / π : ℝ) : ℂ) * n ^ 2 + 2 * π * (I * t) * n) =
      cexp ((-b * (n : ℝ) ^ 2 : ℝ)) * cexp ((2 * π * (n * t) : ℝ) * I) := by
    intro n
    rw [← Complex.exp_add]
    congr 1
    push_cast
    have : (π : ℂ) ≠ 0 := by exact_mod_cast hpi.ne'
    field_simp
  have hs : Summable fun n : ℤ => cexp (-π * ((b / π : ℝ) : ℂ) * n ^ 2 + 2 * π * (I * t) * n) := by
    refine (summable_gauss_int hb).of_norm_bounded fun n => ?_
    rw [hterm, norm_mul, Complex.norm_exp_ofReal_mul_I, mul_one, ← Complex.ofReal_exp, Complex.norm_real,
      Real.norm_eq_abs, abs_of_pos (Real.exp_pos _)]
  have hre : ∑' n : ℤ, Real.exp (-b * (n : ℝ) ^ 2) * Real.cos (2 * π * (n * t)) =
      (∑' n : ℤ, cexp (-π * ((b / π : ℝ) : ℂ) * n ^ 2 + 2 * π * (I * t) * n)).re := by
    rw [Complex.re_tsum hs]
    refine tsum_congr fun n => ?_
    rw [hterm, ← Complex.ofReal_exp, Complex.re_ofReal_mul, Complex.exp_ofReal_mul_I_re]
  rw [hre, h]
  have hr : ∀ n : ℤ, cexp (-π / ((b / π : ℝ) : ℂ) * (n + I * (I * t)) ^ 2) =
      ((Real.exp (-π / (b / π) * (n - t) ^ 2) : ℝ) : ℂ) := by
    intro n
    rw [Complex.ofReal_exp]
    congr 1
    rw [← mul_assoc, I_mul_I]
    push_cast
    ring
  simp_rw [hr]
  rw [← Complex.ofReal_tsum]
  have hc : ((b / π : ℝ) : ℂ) ^ (1 / 2 : ℂ) = (((b / π : ℝ) ^ (1 / 2 : ℝ) : ℝ) : ℂ) := by
    rw [Complex.ofReal_cpow (by positivity)]
    push_cast
    rfl
  rw [hc, ← Complex.ofReal_one, ← Complex.ofReal_div, ← Complex.ofReal_mul, Complex.ofReal_re]
  have : 0 ≤ ∑' n : ℤ, Real.exp (-π / (b / π) * (n - t) ^ 2) := tsum_nonneg fun n => (Real.exp_pos _).le
  positivity

/-- The geometric tail on both sides. -/
theorem tail_int {q : ℝ} (h0 : 0 < q) (h1 : q < 1) {N : ℕ} (hN : 1 ≤ N) :
    HasSum (fun n : ℤ => if (N : ℤ) ≤ |n| then q ^ n.natAbs else 0) (2 * q ^ N / (1 - q)) := by
  have base : ∀ M : ℕ, HasSum (fun n : ℕ => if M ≤ n then q ^ n else 0) (q ^ M / (1 - q)) := by
    intro M
    rw [← hasSum_nat_add_iff' M]
    have e : ∑ i ∈ range M, (if M ≤ i then q ^ i else 0) = 0 := by
      refine sum_eq_zero fun i hi => if_neg ?_
      have := mem_range.1 hi; omega
    rw [e, sub_zero]
    have := (hasSum_geometric_of_lt_one h0.le h1).mul_left (q ^ M)
    rw [div_eq_mul_inv]
    have e2 : (fun n : ℕ => if M ≤ n + M then q ^ (n + M) else 0) = fun n => q ^ M * q ^ n := by
      funext n
      rw [if_pos (by omega), pow_add, mul_comm]
    rw [e2]
    exact this
  have h := HasSum.of_nat_of_neg_add_one (f := fun n : ℤ => if (N : ℤ) ≤ |n| then q ^ n.natAbs else 0)
    (m := q ^ N / (1 - q)) (m' := q ^ N / (1 - q)) ?_ ?_
  · convert h using 1; ring
  · have e2 : (fun n : ℕ => if (N : ℤ) ≤ |(n : ℤ)| then q ^ (n : ℤ).natAbs else 0) =
        fun n => if N ≤ n then q ^ n else 0 := by
      funext n
      simp only [Nat.abs_cast, Nat.cast_le, Int.natAbs_natCast]
    rw [e2]
    exact base N
  · have := (base (N - 1)).mul_left q
    have e : q * (q ^ (N - 1) / (1 - q)) = q ^ N / (1 - q) := by
      rw [← mul_div_assoc, ← pow_succ', Nat.sub_add_cancel hN]
    rw [e] at this
    have e2 : (fun n : ℕ => if (N : ℤ) ≤ |(-((n : ℤ) + 1))| then q ^ (-((n : ℤ) + 1)).natAbs else 0) =
        fun n => q * if N - 1 ≤ n then q ^ n else 0 := by
      funext n
      have h2 : |(-((n : ℤ) + 1))| = ((n + 1 : ℕ) : ℤ) := by
        rw [abs_neg]; push_cast; exact abs_of_nonneg (by positivity)
      have h3 : (-((n : ℤ) + 1)).natAbs = n + 1 := by omega
      rw [h2, h3]
      by_cases hn : N - 1 ≤ n
      · rw [if_pos hn, if_pos (by exact_mod_cast (by omega : N ≤ n + 1)), pow_succ']
      · rw [if_neg hn, if_neg (by push_cast; omega), mul_zero]
    rw [e2]
    exact this

/-- A part of the cosine series that contains every frequency below `N` is nearly non-negative. -/
theorem gauss_cos_part {b : ℝ} (hb : 0 < b) (t : ℝ) {N : ℕ} (hN : 1 ≤ N) (A : Finset ℤ)
    (hA : ∀ n : ℤ, n ∉ A → (N : ℤ) ≤ |n|) :
    -(2 * Real.exp (-b * N ^ 2) / (1 - Real.exp (-b * N))) ≤
      ∑ n ∈ A, Real.exp (-b * (n : ℝ) ^ 2) * Real.cos (2 * π * (n * t)) := by
  have hN0 : (0 : ℝ) < N := by exact_mod_cast hN
  set q := Real.exp (-b * N) with hq
  have q0 : 0 < q := Real.exp_pos _
  have q1 : q < 1 := by rw [hq, Real.exp_lt_one_iff]; nlinarith
  set f : ℤ → ℝ := fun n => Real.exp (-b * (n : ℝ) ^ 2) * Real.cos (2 * π * (n * t)) with hf
  set g : ℤ → ℝ := fun n => if (N : ℤ) ≤ |n| then q ^ n.natAbs else 0 with hg
  have hsf : Summable f := summable_gauss_cos hb t
  have hgs : HasSum g (2 * q ^ N / (1 - q)) := tail_int q0 q1 hN
  have hsA : HasSum (fun n => if n ∈ A then f n else 0) (∑ n ∈ A, f n) := by
    have := hasSum_sum_of_ne_finset_zero (L := SummationFilter.unconditional ℤ) (f := fun n => if n ∈ A then f n else 0) (s := A) fun n hn => if_neg hn
    rwa [sum_congr rfl fun n hn => if_pos hn] at this
  have hle : ∀ n, f n ≤ (if n ∈ A then f n else 0) + g n := by
    intro n
    have g0 : 0 ≤ g n := by rw [hg]; dsimp only; split_ifs <;> positivity
    by_cases hn : n ∈ A
    · rw [if_pos hn]; linarith
    · rw [if_neg hn, zero_add]
      have h1 := hA n hn
      have h2 : g n = q ^ n.natAbs := if_pos h1
      rw [h2, hq, ← Real.exp_nat_mul]
      refine le_trans (mul_le_of_le_one_right (Real.exp_pos _).le (Real.cos_le_one _)) (Real.exp_le_exp.2 ?_)
      have h3 : ((n.natAbs : ℕ) : ℝ) = |(n : ℝ)| := by
        rw [Nat.cast_natAbs, Int.cast_abs]
      have h4 : (N : ℝ) ≤ |(n : ℝ)| := by
        rw [← Int.cast_abs]; exact_mod_cast h1
      rw [h3, ← sq_abs (n : ℝ)]
      have : |(n : ℝ)| * N ≤ |(n : ℝ)| ^ 2 := by nlinarith [abs_nonneg (n : ℝ)]
      nlinarith
  have h := hasSum_le hle hsf.hasSum (hsA.add hgs)
  have h0 := gauss_cos_nonneg hb t
  have e : q ^ N = Real.exp (-b * N ^ 2) := by
    rw [hq, ← Real.exp_nat_mul]; congr 1; ring
  rw [e] at h
  linarith

end Verif
