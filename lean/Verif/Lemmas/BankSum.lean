import Verif.Spec.Filters1D
import Verif.Lemmas.Anden
import Verif.Lemmas.GaussAlias
import Verif.Lemmas.MorletNonzero
import Mathlib.Analysis.SpecialFunctions.Exponential

/-!
# Sums of Gaussians over a filter bank
-/

namespace Verif

open Finset

/-! ## Numerical bounds -/

/-- An upper bound for `exp (-a)` from a partial sum of the exponential series. -/
theorem exp_neg_le {a b : ℝ} (ha : 0 ≤ a) (n : ℕ) (hb : 0 < b) (h : 1 / b ≤ ∑ i ∈ range n, a ^ i / (i.factorial : ℝ)) :
    Real.exp (-a) ≤ b := by
  have h1 := Real.sum_le_exp_of_nonneg ha n
  rw [Real.exp_neg, inv_le_comm₀ (Real.exp_pos _) hb, ← one_div]
  exact h.trans h1

theorem geom_le {r : ℝ} (h0 : 0 ≤ r) (h1 : r < 1) (n : ℕ) : ∑ i ∈ range n, r ^ i ≤ (1 - r)⁻¹ := by
  have h := geom_sum_mul_neg r n
  rw [← one_div, le_div_iff₀ (by linarith), h]
  have := pow_nonneg h0 n
  linarith

/-- Gaussian sums over the natural numbers. -/
theorem sum_exp_sq {a q : ℝ} (ha : 0 ≤ a) (hq : Real.exp (-a) ≤ q) (hq1 : q < 1) (n : ℕ) :
    ∑ i ∈ range n, Real.exp (-(a * (i : ℝ) ^ 2)) ≤ 1 + q / (1 - q ^ 2) := by
  have hq0 : 0 < q := lt_of_lt_of_le (Real.exp_pos _) hq
  have hq2 : q ^ 2 < 1 := by nlinarith
  cases n with
  | zero =>
    have : 0 ≤ q / (1 - q ^ 2) := div_nonneg hq0.le (by linarith)
    simp; linarith
  | succ n =>
    rw [sum_range_succ']
    have h1 : ∀ i ∈ range n, Real.exp (-(a * ((i + 1 : ℕ) : ℝ) ^ 2)) ≤ q * (q ^ 2) ^ i := by
      intro i _
      have e : q * (q ^ 2) ^ i = q ^ (2 * i + 1) := by rw [← pow_mul]; ring
      rw [e]
      refine le_trans ?_ (pow_le_pow_left₀ (Real.exp_pos _).le hq _)
      rw [← Real.exp_nat_mul]
      apply Real.exp_le_exp.2
      push_cast
      have : (0 : ℝ) ≤ (i : ℝ) ^ 2 := sq_nonneg _
      nlinarith
    have h2 : ∑ i ∈ range n, q * (q ^ 2) ^ i ≤ q / (1 - q ^ 2) := by
      rw [← mul_sum, div_eq_mul_inv]
      apply mul_le_mul_of_nonneg_left _ hq0.le
      exact geom_le (sq_nonneg q) hq2 n
    have := (sum_le_sum h1).trans h2
    simp
    simp at this
    linarith

theorem exp_a : Real.exp (-1.3778) ≤ 0.2525 := exp_neg_le (by norm_num) 12 (by norm_num) (by norm_num [sum_range_succ, Nat.factorial])
theorem exp_b : Real.exp (-0.34445) ≤ 0.709 := exp_neg_le (by norm_num) 8 (by norm_num) (by norm_num [sum_range_succ, Nat.factorial])
theorem exp_c : Real.exp (-1.28) ≤ 0.2785 := exp_neg_le (by norm_num) 12 (by norm_num) (by norm_num [sum_range_succ, Nat.factorial])
theorem exp_t1 : Real.exp (-0.775) ≤ 0.461 := exp_neg_le (by norm_num) 10 (by norm_num) (by norm_num [sum_range_succ, Nat.factorial])
theorem exp_t2 : Real.exp (-1.743) ≤ 0.1755 := exp_neg_le (by norm_num) 12 (by norm_num) (by norm_num [sum_range_succ, Nat.factorial])
theorem exp_t3 : Real.exp (-2.373) ≤ 0.0935 := exp_neg_le (by norm_num) 14 (by norm_num) (by norm_num [sum_range_succ, Nat.factorial])
theorem exp_t4 : Real.exp (-2.724) ≤ 0.0658 := exp_neg_le (by norm_num) 14 (by norm_num) (by norm_num [sum_range_succ, Nat.factorial])
theorem exp_e : Real.exp (-3.1) ≤ 0.0452 := exp_neg_le (by norm_num) 16 (by norm_num) (by norm_num [sum_range_succ, Nat.factorial])

/-! ## The geometric part -/

section

variable {Q : ℕ} (hQ : 1 ≤ Q)
include hQ

theorem qr_sub_ge : 1.66 * rho Q ≤ qr Q - 1 := by
  have h1 := qr_gt_one hQ
  have h2 := sqrt_log_two_gt
  have h0 : 0 < Real.sqrt (Real.log 2) := lt_trans (by norm_num) h2
  unfold rho
  rw [mul_div_assoc', div_le_iff₀ h0, mul_div_assoc', div_le_iff₀ (by linarith)]
  norm_num at h2 ⊢
  nlinarith [mul_pos (sub_pos.2 h1) (sub_pos.2 h2), mul_pos (sub_pos.2 h1) (sub_pos.2 h1), mul_pos (mul_pos (sub_pos.2 h1) (sub_pos.2 h1)) h0]

theorem rho_inv_ge : 0.83 * (2 * (Q : ℝ) + 1) * rho Q ≤ 1 := by
  have h8 := rho_le_of hQ (qr_le hQ)
  have hQ0 : (0 : ℝ) < Q := by positivity
  have h9 : (1 + 1 / (Q : ℝ) - 1) / (1 + 1 / Q + 1) / 0.83 = 1 / (0.83 * (2 * Q + 1)) := by
    field_simp
    ring
  rw [h9, le_div_iff₀ (by positivity)] at h8
  linarith

/-- One term of the part of the sum above the frequency. -/
noncomputable def bTerm (Q i : ℕ) : ℝ := Real.exp (-((1 - (1 / qr Q) ^ i) ^ 2 / (2 * rho Q ^ 2)))

omit hQ in
theorem bTerm_nonneg (Q i : ℕ) : 0 ≤ bTerm Q i := (Real.exp_pos _).le

theorem bTerm_near {i : ℕ} (hi : i ≤ Q) : bTerm Q i ≤ Real.exp (-(0.34445 * (i : ℝ) ^ 2)) := by
  unfold bTerm
  apply Real.exp_le_exp.2
  have hr := rho_pos hQ
  have hu := qr_gt_one hQ
  have hu0 := qr_pos Q
  have h1 : qr Q ^ i ≤ 2 := by
    rw [← qr_pow hQ]; exact pow_le_pow_right₀ hu.le hi
  have h2 : 1 + (i : ℝ) * (qr Q - 1) ≤ qr Q ^ i := one_add_mul_sub_le_pow (by linarith) i
  have h3 := qr_sub_ge hQ
  have hi0 : (0 : ℝ) ≤ i := Nat.cast_nonneg i
  have hp : 0 < qr Q ^ i := by positivity
  have h4 : 0.83 * i * rho Q ≤ 1 - (1 / qr Q) ^ i := by
    rw [one_div, inv_pow, ← one_div]
    have h6 : (i : ℝ) * (1.66 * rho Q) ≤ i * (qr Q - 1) := mul_le_mul_of_nonneg_left h3 hi0
    have h7 : 0.83 * i * rho Q * 2 ≤ qr Q ^ i - 1 := by norm_num at h6 ⊢; linarith
    have h5 : 0.83 * i * rho Q * qr Q ^ i ≤ qr Q ^ i - 1 := by
      refine le_trans ?_ h7
      exact mul_le_mul_of_nonneg_left h1 (by positivity)
    rw [le_sub_iff_add_le, ← le_sub_iff_add_le', div_le_iff₀ hp]
    nlinarith
  have h5 : (0.83 * i * rho Q) ^ 2 ≤ (1 - (1 / qr Q) ^ i) ^ 2 := pow_le_pow_left₀ (by positivity) h4 2
  rw [neg_le_neg_iff, le_div_iff₀ (by positivity)]
  refine le_trans (le_of_eq ?_) h5
  ring

theorem bTerm_far {t i : ℕ} (hi : t * Q ≤ i) :
    bTerm Q i ≤ Real.exp (-((1 - (1 / 2) ^ t) ^ 2 * 0.34445 * (2 * (Q : ℝ) + 1) ^ 2)) := by
  unfold bTerm
  apply Real.exp_le_exp.2
  have hr := rho_pos hQ
  have hu := qr_gt_one hQ
  have hu0 := qr_pos Q
  have h1 : (1 / qr Q) ^ i ≤ (1 / 2) ^ t := by
    have : (1 / 2 : ℝ) ^ t = (1 / qr Q) ^ (Q * t) := by
      rw [pow_mul, div_pow 1 (qr Q), one_pow, qr_pow hQ]
    rw [this]
    apply pow_le_pow_of_le_one (by positivity) _ (by rw [mul_comm]; exact hi)
    rw [div_le_one hu0]; exact hu.le
  have h2 : (1 / 2 : ℝ) ^ t ≤ 1 := pow_le_one₀ (by norm_num) (by norm_num)
  have h3 := rho_inv_ge hQ
  have h4 : (1 - (1 / 2 : ℝ) ^ t) ^ 2 ≤ (1 - (1 / qr Q) ^ i) ^ 2 := pow_le_pow_left₀ (by linarith) (by linarith) 2
  have h5 : (0.83 * (2 * (Q : ℝ) + 1) * rho Q) ^ 2 ≤ 1 := pow_le_one₀ (by positivity) h3
  rw [neg_le_neg_iff, le_div_iff₀ (by positivity)]
  refine le_trans ?_ h4
  have h6 := mul_le_mul_of_nonneg_left h5 (sq_nonneg (1 - (1 / 2 : ℝ) ^ t))
  rw [mul_one] at h6
  refine le_trans (le_of_eq ?_) h6
  ring

theorem octave_le {s : ℝ} (hs : 1 / 12 ≤ s) :
    (Q : ℝ) * Real.exp (-(s * (2 * (Q : ℝ) + 1) ^ 2)) ≤ Real.exp (-(9 * s)) := by
  have hQ1 : (1 : ℝ) ≤ Q := by exact_mod_cast hQ
  have h1 : (Q : ℝ) ≤ Real.exp (Q - 1) := by
    have := Real.add_one_le_exp ((Q : ℝ) - 1)
    linarith
  refine (mul_le_mul_of_nonneg_right h1 (Real.exp_pos _).le).trans ?_
  rw [← Real.exp_add]
  apply Real.exp_le_exp.2
  nlinarith [mul_nonneg (sub_nonneg.2 hQ1) (sub_nonneg.2 hQ1), mul_nonneg (sub_nonneg.2 hQ1) (sub_nonneg.2 hs),
    mul_nonneg (mul_nonneg (sub_nonneg.2 hQ1) (sub_nonneg.2 hQ1)) (sub_nonneg.2 hs)]

theorem bTerm_octave (t : ℕ) (ht : 1 ≤ t) :
    ∑ r ∈ range Q, bTerm Q (t * Q + r) ≤ Real.exp (-(9 * ((1 - (1 / 2 : ℝ) ^ t) ^ 2 * 0.34445))) := by
  have h1 : ∑ r ∈ range Q, bTerm Q (t * Q + r) ≤
      ∑ _r ∈ range Q, Real.exp (-((1 - (1 / 2) ^ t) ^ 2 * 0.34445 * (2 * (Q : ℝ) + 1) ^ 2)) :=
    sum_le_sum fun r _ => bTerm_far hQ (by omega)
  refine h1.trans ?_
  rw [sum_const, card_range, nsmul_eq_mul]
  apply octave_le hQ
  have h2 : (1 / 2 : ℝ) ^ t ≤ (1 / 2) ^ 1 := pow_le_pow_of_le_one (by norm_num) (by norm_num) ht
  have h3 : (1 / 2 : ℝ) ^ 2 ≤ (1 - (1 / 2 : ℝ) ^ t) ^ 2 := pow_le_pow_left₀ (by norm_num) (by norm_num at h2 ⊢; linarith) 2
  norm_num at h3 ⊢
  linarith

theorem bTerm_sum (H : ℕ) : ∑ i ∈ range (H * Q), bTerm Q i ≤ 3.2 + 0.0658 * H := by
  have hmono : ∑ i ∈ range (H * Q), bTerm Q i ≤ ∑ i ∈ range ((4 + H) * Q), bTerm Q i :=
    sum_le_sum_of_subset_of_nonneg (range_subset_range.2 (Nat.mul_le_mul_right _ (by omega))) fun _ _ _ => bTerm_nonneg _ _
  refine hmono.trans ?_
  rw [sum_blocks, sum_range_add]
  have h0 : ∑ r ∈ range Q, bTerm Q (0 * Q + r) ≤ 1 + 0.709 / (1 - 0.709 ^ 2) := by
    refine le_trans (sum_le_sum fun r hr => ?_) (sum_exp_sq (by norm_num) exp_b (by norm_num) Q)
    rw [zero_mul, zero_add]
    exact bTerm_near hQ (mem_range.1 hr).le
  have h1 := (bTerm_octave hQ 1 (by norm_num)).trans ((Real.exp_le_exp.2 (by norm_num)).trans exp_t1)
  have h2 := (bTerm_octave hQ 2 (by norm_num)).trans ((Real.exp_le_exp.2 (by norm_num)).trans exp_t2)
  have h3 := (bTerm_octave hQ 3 (by norm_num)).trans ((Real.exp_le_exp.2 (by norm_num)).trans exp_t3)
  have h4 : ∑ x ∈ range H, ∑ r ∈ range Q, bTerm Q ((4 + x) * Q + r) ≤ ∑ _x ∈ range H, (0.0658 : ℝ) := by
    refine sum_le_sum fun x _ => ?_
    refine (bTerm_octave hQ (4 + x) (by omega)).trans ((Real.exp_le_exp.2 ?_).trans exp_t4)
    have g2 : (1 / 2 : ℝ) ^ (4 + x) ≤ (1 / 2) ^ 4 := pow_le_pow_of_le_one (by norm_num) (by norm_num) (by omega)
    have g3 : (15 / 16 : ℝ) ^ 2 ≤ (1 - (1 / 2 : ℝ) ^ (4 + x)) ^ 2 :=
      pow_le_pow_left₀ (by norm_num) (by norm_num at g2 ⊢; linarith) 2
    norm_num at g3 ⊢
    linarith
  rw [sum_const, card_range, nsmul_eq_mul] at h4
  rw [sum_range_succ, sum_range_succ, sum_range_succ, sum_range_succ, sum_range_zero]
  norm_num at h0 h1 h2 h3 h4 ⊢
  linarith

/-- The sum over the wavelets in geometric progression, at a frequency `w` times the highest centre frequency. -/
theorem geo_sum {K H : ℕ} (hK : K + 1 ≤ H * Q) (w : ℝ) :
    ∑ k ∈ range (K + 1), Real.exp (-((1 - w * qr Q ^ k) ^ 2 / (2 * rho Q ^ 2))) ≤ 4.48 + 0.0658 * H := by
  have hr := rho_pos hQ
  have hu := qr_gt_one hQ
  have hu0 := qr_pos Q
  obtain ⟨k1, hk1, hlt, hge⟩ : ∃ k1 ≤ K + 1, (∀ k < k1, w * qr Q ^ k < 1) ∧ (k1 < K + 1 → 1 ≤ w * qr Q ^ k1) := by
    by_cases hex : ∃ k, 1 ≤ w * qr Q ^ k
    · classical
      rcases Nat.lt_or_ge (Nat.find hex) (K + 1) with h | h
      · exact ⟨Nat.find hex, h.le, fun k hk => not_le.1 (Nat.find_min hex hk), fun _ => Nat.find_spec hex⟩
      · exact ⟨K + 1, le_rfl, fun k hk => not_le.1 (Nat.find_min hex (by omega)), fun h => absurd h (lt_irrefl _)⟩
    · push Not at hex
      exact ⟨K + 1, le_rfl, fun k _ => hex k, fun h => absurd h (lt_irrefl _)⟩
  have hright : ∑ k ∈ range k1, Real.exp (-((1 - w * qr Q ^ k) ^ 2 / (2 * rho Q ^ 2))) ≤ 3.2 + 0.0658 * H := by
    rw [← sum_range_reflect]
    refine le_trans (sum_le_sum fun i hi => ?_) ((sum_le_sum_of_subset_of_nonneg
      (range_subset_range.2 (by omega : k1 ≤ H * Q)) fun _ _ _ => bTerm_nonneg Q _).trans (bTerm_sum hQ H))
    have hi := mem_range.1 hi
    unfold bTerm
    apply Real.exp_le_exp.2
    rw [neg_le_neg_iff]
    apply div_le_div_of_nonneg_right _ (by positivity)
    have h1 := hlt (k1 - 1) (by omega)
    have h2 : w * qr Q ^ (k1 - 1 - i) ≤ (1 / qr Q) ^ i := by
      rw [one_div, inv_pow, ← one_div, le_div_iff₀ (by positivity), mul_assoc, ← pow_add]
      rw [show k1 - 1 - i + i = k1 - 1 by omega]
      exact h1.le
    have h3 : (1 / qr Q) ^ i ≤ 1 := pow_le_one₀ (by positivity) (by rw [div_le_one hu0]; exact hu.le)
    exact pow_le_pow_left₀ (by linarith) (by linarith) 2
  have hleft : ∑ j ∈ range (K + 1 - k1), Real.exp (-((1 - w * qr Q ^ (k1 + j)) ^ 2 / (2 * rho Q ^ 2))) ≤
      1 + 0.2525 / (1 - 0.2525 ^ 2) := by
    refine le_trans (sum_le_sum fun j hj => ?_) (sum_exp_sq (a := 1.3778) (by norm_num) exp_a (by norm_num) (K + 1 - k1))
    have hj := mem_range.1 hj
    apply Real.exp_le_exp.2
    rw [neg_le_neg_iff, le_div_iff₀ (by positivity)]
    have h1 := hge (by omega)
    have h2 : 1 + (j : ℝ) * (qr Q - 1) ≤ qr Q ^ j := one_add_mul_sub_le_pow (by linarith) j
    have h3 := mul_le_mul_of_nonneg_left (qr_sub_ge hQ) (Nat.cast_nonneg j : (0 : ℝ) ≤ j)
    have h4 : qr Q ^ j ≤ w * qr Q ^ (k1 + j) := by
      rw [pow_add, ← mul_assoc]
      exact le_mul_of_one_le_left (by positivity) h1
    have h5 : (j : ℝ) * (1.66 * rho Q) ≤ w * qr Q ^ (k1 + j) - 1 := by linarith
    have h6 : ((j : ℝ) * (1.66 * rho Q)) ^ 2 ≤ (w * qr Q ^ (k1 + j) - 1) ^ 2 := pow_le_pow_left₀ (by positivity) h5 2
    have e : (1 - w * qr Q ^ (k1 + j)) ^ 2 = (w * qr Q ^ (k1 + j) - 1) ^ 2 := by ring
    rw [e]
    refine le_trans (le_of_eq ?_) h6
    ring
  have e : range (K + 1) = range (k1 + (K + 1 - k1)) := by congr 1; omega
  rw [e, sum_range_add]
  norm_num at hright hleft ⊢
  linarith

end

/-! ## The arithmetic part -/

theorem lattice_sum {a sigma : ℝ} (hs : 0 < sigma) (ha : 1.6 * sigma ≤ a) {w : ℝ} (hw : 0 ≤ w) (n : ℕ) :
    ∑ i ∈ range n, Real.exp (-((w - a * i) ^ 2 / (2 * sigma ^ 2))) ≤ 2.61 := by
  have ha0 : 0 < a := lt_of_lt_of_le (by positivity) ha
  set m := ⌊w / a⌋₊ with hm
  have h1 : a * m ≤ w := by
    have := Nat.floor_le (div_nonneg hw ha0.le)
    rw [le_div_iff₀ ha0] at this
    linarith
  have h2 : w ≤ a * (m + 1) := by
    have := (Nat.lt_floor_add_one (w / a)).le
    rw [div_le_iff₀ ha0] at this
    linarith
  have key : ∀ (d : ℝ) (i : ℕ), a * i ≤ |d| → Real.exp (-(d ^ 2 / (2 * sigma ^ 2))) ≤ Real.exp (-(1.28 * (i : ℝ) ^ 2)) := by
    intro d i h
    apply Real.exp_le_exp.2
    rw [neg_le_neg_iff, le_div_iff₀ (by positivity), ← sq_abs d]
    have h3 : 1.6 * sigma * i ≤ |d| := (mul_le_mul_of_nonneg_right ha (Nat.cast_nonneg i)).trans h
    have h4 := pow_le_pow_left₀ (by positivity) h3 2
    refine le_trans (le_of_eq ?_) h4
    ring
  have hmono : ∑ i ∈ range n, Real.exp (-((w - a * i) ^ 2 / (2 * sigma ^ 2))) ≤
      ∑ i ∈ range (m + 1 + n), Real.exp (-((w - a * i) ^ 2 / (2 * sigma ^ 2))) :=
    sum_le_sum_of_subset_of_nonneg (range_subset_range.2 (by omega)) fun _ _ _ => (Real.exp_pos _).le
  refine hmono.trans ?_
  rw [sum_range_add]
  have g1 : ∑ i ∈ range (m + 1), Real.exp (-((w - a * i) ^ 2 / (2 * sigma ^ 2))) ≤ 1 + 0.2785 / (1 - 0.2785 ^ 2) := by
    rw [← sum_range_reflect]
    refine le_trans (sum_le_sum fun i hi => ?_) (sum_exp_sq (a := 1.28) (by norm_num) exp_c (by norm_num) (m + 1))
    have hi := mem_range.1 hi
    apply key
    rw [show m + 1 - 1 - i = m - i by omega, Nat.cast_sub (by omega)]
    refine le_trans ?_ (le_abs_self _)
    linarith
  have g2 : ∑ i ∈ range n, Real.exp (-((w - a * ((m + 1 + i : ℕ) : ℝ)) ^ 2 / (2 * sigma ^ 2))) ≤
      1 + 0.2785 / (1 - 0.2785 ^ 2) := by
    refine le_trans (sum_le_sum fun i _ => ?_) (sum_exp_sq (a := 1.28) (by norm_num) exp_c (by norm_num) n)
    apply key
    refine le_trans ?_ (neg_le_abs _)
    push_cast
    linarith
  norm_num at g1 g2 ⊢
  linarith

end Verif
