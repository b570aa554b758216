import Verif.Lemmas.Morlet
import Mathlib.Analysis.SpecialFunctions.Trigonometric.DerivHyp

/-!
# Wavelets of the library never vanish identically

The Morlet filter is a difference of two periodised Gaussians.  Its value at half the sampling
frequency is positive for every pair `(xi, sigma)` used by the library, when the length is even.
-/

namespace Verif

open Finset

/-- The Gaussian profile. -/
noncomputable def gau (sigma u : ℝ) : ℝ := Real.exp (-u ^ 2 / (2 * sigma ^ 2))

/-- The sum of its `2 P - 1` translates. -/
noncomputable def gauSum (sigma : ℝ) (P : Nat) (s : ℝ) : ℝ :=
  ∑ p ∈ range (2 * P - 1), gau sigma ((1 - P + p : ℝ) + s)

theorem gau_pos (sigma u : ℝ) : 0 < gau sigma u := Real.exp_pos _

theorem gau_neg (sigma u : ℝ) : gau sigma (-u) = gau sigma u := by
  unfold gau; rw [neg_sq]

theorem gau_le {sigma u : ℝ} (hs : 0 < sigma) {c : ℝ} (h : 2 * c * sigma ^ 2 ≤ u ^ 2) :
    gau sigma u ≤ Real.exp (-c) := by
  unfold gau
  apply Real.exp_le_exp.2
  rw [neg_div, neg_le_neg_iff, le_div_iff₀ (by positivity)]
  linarith

theorem gau_lt {sigma u v : ℝ} (hs : 0 < sigma) (h : u ^ 2 < v ^ 2) : gau sigma v < gau sigma u := by
  unfold gau
  apply Real.exp_lt_exp.2
  rw [neg_div, neg_div, neg_lt_neg_iff]
  exact div_lt_div_of_pos_right h (by positivity)

theorem gau_shift (sigma a x : ℝ) (hs : 0 < sigma) :
    gau sigma (a - x) + gau sigma (a + x) =
      2 * gau sigma a * (Real.exp (-(x ^ 2 / (2 * sigma ^ 2))) * Real.cosh (a * x / sigma ^ 2)) := by
  unfold gau
  rw [Real.cosh_eq]
  have h1 : -(a - x) ^ 2 / (2 * sigma ^ 2) = -a ^ 2 / (2 * sigma ^ 2) + -(x ^ 2 / (2 * sigma ^ 2)) +
      a * x / sigma ^ 2 := by field_simp; ring
  have h2 : -(a + x) ^ 2 / (2 * sigma ^ 2) = -a ^ 2 / (2 * sigma ^ 2) + -(x ^ 2 / (2 * sigma ^ 2)) +
      -(a * x / sigma ^ 2) := by field_simp; ring
  rw [h1, h2, Real.exp_add, Real.exp_add, Real.exp_add _ (-(a * x / sigma ^ 2)), Real.exp_add]
  ring

theorem cosh_ge_quad (t : ℝ) : 1 + t ^ 2 / 2 ≤ Real.cosh t := by
  have h := Real.cosh_sq' (t / 2)
  have h2 := Real.cosh_two_mul (t / 2)
  have h3 : 2 * (t / 2) = t := by ring
  rw [h3] at h2
  have h4 : (t / 2) ^ 2 ≤ Real.sinh (t / 2) ^ 2 := by
    rw [sq_le_sq]
    rcases le_total 0 t with ht | ht
    · have := (Real.self_le_sinh_iff (x := t / 2)).2 (by linarith)
      rw [abs_of_nonneg (by linarith : 0 ≤ t / 2)]
      exact this.trans (le_abs_self _)
    · have := (Real.sinh_le_self_iff (x := t / 2)).2 (by linarith)
      rw [abs_of_nonpos (by linarith : t / 2 ≤ 0)]
      exact (neg_le_neg this).trans (neg_le_abs _)
  nlinarith

theorem exp_le_cosh {t y : ℝ} (ht : 0 ≤ t) (hy : y ≤ t / 2) (hy2 : y ≤ 0.08 * t ^ 2) :
    Real.exp y ≤ Real.cosh t := by
  rcases le_or_gt 1.4 t with h | h
  · rw [Real.cosh_eq]
    have h1 : Real.exp y ≤ Real.exp (t / 2) := Real.exp_le_exp.2 hy
    have h2 : (2 : ℝ) ≤ Real.exp (t / 2) := by
      rw [← Real.log_le_iff_le_exp two_pos]
      have := Real.log_two_lt_d9
      norm_num at *
      linarith
    have h3 : Real.exp t = Real.exp (t / 2) * Real.exp (t / 2) := by rw [← Real.exp_add]; ring_nf
    have h4 := Real.exp_pos (-t)
    nlinarith
  · refine le_trans ?_ (cosh_ge_quad t)
    have h0 : Real.exp y ≤ Real.exp (0.08 * t ^ 2) := Real.exp_le_exp.2 hy2
    set z := 0.08 * t ^ 2 with hz
    have ht2 : t ^ 2 ≤ 1.96 := by norm_num at *; nlinarith
    have hz1 : z ≤ 0.16 := by rw [hz]; norm_num at *; linarith
    have h1 := Real.add_one_le_exp (-z)
    have h2 : Real.exp z * Real.exp (-z) = 1 := by rw [← Real.exp_add]; simp
    have h3 := Real.exp_pos z
    have h5 : Real.exp z * (1 - z) ≤ 1 := by nlinarith
    have h6 : 1 ≤ (1 + t ^ 2 / 2) * (1 - z) := by
      rw [hz]; norm_num at *; nlinarith [sq_nonneg t]
    have h7 : 0 < 1 - z := by norm_num at *; linarith
    have h8 : Real.exp z ≤ 1 + t ^ 2 / 2 := by
      by_contra hc
      push Not at hc
      nlinarith
    linarith

/-- Convexity away from the centre. -/
theorem gau_pair_ge {sigma a x : ℝ} (hs : 0 < sigma) (hs2 : sigma ≤ 0.2) (hx : 0 < x)
    (hx2 : x < 1 / 2) (ha : 1 / 2 ≤ |a|) :
    2 * gau sigma a ≤ gau sigma (a - x) + gau sigma (a + x) := by
  rw [gau_shift _ _ _ hs]
  have hg := gau_pos sigma a
  have hs4 : sigma ^ 2 ≤ 0.04 := by norm_num at *; nlinarith
  have hsp : 0 < sigma ^ 2 := by positivity
  set t := x / (2 * sigma ^ 2) with ht
  have ht0 : 0 ≤ t := by positivity
  have hxt : x = t * (2 * sigma ^ 2) := by rw [ht]; field_simp
  have h1 : Real.exp (x ^ 2 / (2 * sigma ^ 2)) ≤ Real.cosh t := by
    have h2 : x ^ 2 / (2 * sigma ^ 2) = x * t := by rw [ht]; ring
    rw [h2]
    apply exp_le_cosh ht0
    · nlinarith
    · have : 0.08 * t ^ 2 - x * t = t ^ 2 * (0.08 - 2 * sigma ^ 2) := by rw [hxt]; ring
      have h3 : 0 ≤ 0.08 - 2 * sigma ^ 2 := by norm_num at *; linarith
      have := mul_nonneg (sq_nonneg t) h3
      linarith
  have h2 : Real.cosh t ≤ Real.cosh (a * x / sigma ^ 2) := by
    rw [Real.cosh_le_cosh, abs_of_nonneg ht0]
    have : |a * x / sigma ^ 2| = |a| * (x / sigma ^ 2) := by
      rw [mul_div_assoc, abs_mul, abs_of_pos (show 0 < x / sigma ^ 2 by positivity)]
    rw [this]
    have h3 : t = 1 / 2 * (x / sigma ^ 2) := by rw [ht]; field_simp
    rw [h3]
    exact mul_le_mul_of_nonneg_right ha (by positivity)
  have h3 : 1 ≤ Real.exp (-(x ^ 2 / (2 * sigma ^ 2))) * Real.cosh (a * x / sigma ^ 2) := by
    rw [Real.exp_neg, inv_mul_eq_div, le_div_iff₀ (Real.exp_pos _), one_mul]
    exact h1.trans h2
  nlinarith

/-- At half the sampling frequency, moving the centre away from zero increases the sum. -/
theorem gauSum_half {sigma x : ℝ} {P : Nat} (hP : 2 ≤ P) (hs : 0 < sigma) (hs2 : sigma ≤ 0.2)
    (hx : 0 < x) (hx2 : x < 1 / 2) : gauSum sigma P (1 / 2) < gauSum sigma P (1 / 2 - x) := by
  unfold gauSum
  obtain ⟨n, hn⟩ : ∃ n, 2 * P - 1 = n + 1 := ⟨2 * P - 2, by omega⟩
  have hPn : (P : ℝ) = (n + 2) / 2 := by
    have : 2 * P = n + 2 := by omega
    have : (2 : ℝ) * P = n + 2 := by exact_mod_cast this
    linarith
  rw [hn, Finset.sum_range_succ, Finset.sum_range_succ]
  apply add_lt_add_of_le_of_lt
  · have hr : ∑ p ∈ range n, gau sigma ((1 - P + p : ℝ) + (1 / 2 - x)) =
        ∑ p ∈ range n, gau sigma ((1 - P + (n - 1 - p : ℕ) : ℝ) + (1 / 2 - x)) :=
      (Finset.sum_range_reflect (fun p => gau sigma ((1 - P + (p : ℕ) : ℝ) + (1 / 2 - x))) n).symm
    have h2 : 2 * ∑ p ∈ range n, gau sigma ((1 - P + p : ℝ) + (1 / 2 - x)) =
        ∑ p ∈ range n, (gau sigma (((1 - P + p : ℝ) + 1 / 2) - x) +
          gau sigma (((1 - P + p : ℝ) + 1 / 2) + x)) := by
      rw [two_mul]
      nth_rw 2 [hr]
      rw [← Finset.sum_add_distrib]
      apply Finset.sum_congr rfl
      intro p hp
      rw [mem_range] at hp
      congr 1
      · congr 1; ring
      · rw [← gau_neg]
        congr 1
        have : ((n - 1 - p : ℕ) : ℝ) = n - 1 - p := by
          rw [Nat.cast_sub (by omega), Nat.cast_sub (by omega)]; simp
        rw [this, hPn]
        ring
    have h3 : 2 * ∑ p ∈ range n, gau sigma ((1 - P + p : ℝ) + 1 / 2) ≤
        2 * ∑ p ∈ range n, gau sigma ((1 - P + p : ℝ) + (1 / 2 - x)) := by
      rw [h2, Finset.mul_sum]
      apply Finset.sum_le_sum
      intro p _
      apply gau_pair_ge hs hs2 hx hx2
      have h4 : (1 - P + p : ℝ) + 1 / 2 = ((1 - (P : ℤ) + p : ℤ) : ℝ) + 1 / 2 := by push_cast; ring
      rw [h4]
      rcases le_or_gt 0 (1 - (P : ℤ) + p) with hz | hz
      · have : (0 : ℝ) ≤ ((1 - (P : ℤ) + p : ℤ) : ℝ) := by exact_mod_cast hz
        exact le_trans (by linarith) (le_abs_self _)
      · have hz' : (1 - (P : ℤ) + p) ≤ -1 := by omega
        have : ((1 - (P : ℤ) + p : ℤ) : ℝ) ≤ -1 := by exact_mod_cast hz'
        exact le_trans (by linarith) (neg_le_abs _)
    linarith
  · apply gau_lt hs
    have : (1 : ℝ) - P + n = n / 2 := by rw [hPn]; ring
    rw [this]
    have hn0 : (0 : ℝ) ≤ n := Nat.cast_nonneg n
    nlinarith

/-- The central index of the sum. -/
theorem gauSum_zero_ge {sigma : ℝ} {P : Nat} (hP : 1 ≤ P) : 1 ≤ gauSum sigma P 0 := by
  unfold gauSum
  have h := Finset.single_le_sum (f := fun p : ℕ => gau sigma ((1 - P + p : ℝ) + 0))
    (s := range (2 * P - 1)) (fun p _ => (gau_pos _ _).le) (mem_range.2 (by omega : P - 1 < 2 * P - 1))
  refine le_trans ?_ h
  have : (1 : ℝ) - P + (P - 1 : ℕ) + 0 = 0 := by rw [Nat.cast_sub hP]; simp
  simp only [this]
  unfold gau
  simp

theorem exp_neg_three : Real.exp (-3) < 0.06 := by
  have h := Real.exp_one_gt_d9
  have h1 : (2.7 : ℝ) < Real.exp 1 := lt_trans (by norm_num) h
  have h3 : Real.exp 3 = Real.exp 1 ^ 3 := by rw [← Real.exp_nat_mul]; norm_num
  have h4 : (2.7 : ℝ) ^ 3 < Real.exp 1 ^ 3 := pow_lt_pow_left₀ h1 (by norm_num) (by norm_num)
  rw [Real.exp_neg, h3]
  rw [inv_lt_comm₀ (by positivity) (by norm_num)]
  norm_num at *
  linarith

theorem exp_neg_one : Real.exp (-1) < 0.5 := by
  have h := Real.exp_one_gt_d9
  rw [Real.exp_neg, inv_lt_comm₀ (Real.exp_pos _) (by norm_num)]
  norm_num at *
  linarith

/-- Splitting off the central term. -/
theorem sum_split (P : Nat) (hP : 1 ≤ P) (f : ℕ → ℝ) :
    ∑ p ∈ range (2 * P - 1), f p = f (P - 1) + ∑ p ∈ (range (2 * P - 1)).erase (P - 1), f p :=
  (Finset.add_sum_erase _ _ (mem_range.2 (by omega))).symm

theorem card_rest (P : Nat) (hP : 1 ≤ P) : ((range (2 * P - 1)).erase (P - 1)).card = 2 * P - 2 := by
  rw [Finset.card_erase_of_mem (mem_range.2 (by omega)), card_range]
  omega

theorem rest_abs {P p : Nat} (hP : 1 ≤ P) (hp : p ∈ (range (2 * P - 1)).erase (P - 1)) :
    1 ≤ |(1 - P + p : ℝ)| := by
  have hne : p ≠ P - 1 := (Finset.mem_erase.1 hp).1
  have h4 : (1 - P + p : ℝ) = ((1 - (P : ℤ) + p : ℤ) : ℝ) := by push_cast; ring
  rw [h4, ← Int.cast_abs]
  have hz : (1 - (P : ℤ) + p) ≠ 0 := by omega
  exact_mod_cast Int.one_le_abs hz

/-- Narrow filters far from frequency zero. -/
theorem gauSum_shift_far {sigma x : ℝ} {P : Nat} (hP : 1 ≤ P) (hP5 : P ≤ 5) (hs : 0 < sigma)
    (hs2 : sigma ≤ 0.2) (hx : 1.6 * sigma ≤ x) (hx2 : x < 1 / 2) :
    gauSum sigma P (0 - x) < gauSum sigma P 0 := by
  refine lt_of_lt_of_le ?_ (gauSum_zero_ge hP)
  unfold gauSum
  rw [sum_split P hP]
  have h0 : (1 : ℝ) - P + (P - 1 : ℕ) + (0 - x) = -x := by rw [Nat.cast_sub hP]; push_cast; ring
  have hc : gau sigma ((1 - P + (P - 1 : ℕ) : ℝ) + (0 - x)) ≤ Real.exp (-1) := by
    rw [h0, gau_neg]
    apply gau_le hs
    norm_num at *
    nlinarith
  have hrest : ∑ p ∈ (range (2 * P - 1)).erase (P - 1), gau sigma ((1 - P + p : ℝ) + (0 - x)) ≤
      ((range (2 * P - 1)).erase (P - 1)).card • Real.exp (-3) := by
    apply Finset.sum_le_card_nsmul
    intro p hp
    apply gau_le hs
    have h1 := rest_abs hP hp
    have h2 : 1 / 2 ≤ |(1 - P + p : ℝ) + (0 - x)| := by
      have h3 := abs_sub_abs_le_abs_sub (1 - P + p : ℝ) x
      have hx0 : 0 ≤ x := by
        have : 0 ≤ 1.6 * sigma := by positivity
        linarith
      rw [abs_of_nonneg hx0] at h3
      have : (1 - P + p : ℝ) + (0 - x) = (1 - P + p : ℝ) - x := by ring
      rw [this]
      linarith
    rw [← sq_abs]
    have h5 : sigma ^ 2 ≤ 0.04 := by norm_num at hs2 ⊢; nlinarith
    have h6 : (1 / 2 : ℝ) ^ 2 ≤ |(1 - P + p : ℝ) + (0 - x)| ^ 2 :=
      pow_le_pow_left₀ (by norm_num) h2 2
    norm_num at h5 h6 ⊢
    linarith
  rw [card_rest P hP, nsmul_eq_mul] at hrest
  have h8 : ((2 * P - 2 : ℕ) : ℝ) ≤ 8 := by exact_mod_cast (by omega)
  have h3 := exp_neg_three
  have h1 := exp_neg_one
  have hp3 := Real.exp_pos (-3)
  have : ((2 * P - 2 : ℕ) : ℝ) * Real.exp (-3) ≤ 8 * Real.exp (-3) :=
    mul_le_mul_of_nonneg_right h8 hp3.le
  norm_num at *
  linarith

theorem cosh_sub_one_le {y : ℝ} (hy : 0 ≤ y) : Real.cosh y - 1 ≤ y ^ 2 * Real.exp y / 2 := by
  have h1 := Real.add_one_le_exp (-y)
  have h2 : Real.exp y * Real.exp (-y) = 1 := by rw [← Real.exp_add]; simp
  have hp := Real.exp_pos y
  have hm := Real.exp_pos (-y)
  rw [Real.cosh_eq]
  have h3 : Real.exp y - 1 ≤ y * Real.exp y := by nlinarith
  have h4 : 0 ≤ Real.exp y - 1 := by have := Real.add_one_le_exp y; linarith
  have h5 : (Real.exp y - 1) ^ 2 ≤ (y * Real.exp y) ^ 2 := pow_le_pow_left₀ h4 h3 2
  have h6 : Real.exp (-y) * (Real.exp y - 1) ^ 2 ≤ Real.exp (-y) * (y * Real.exp y) ^ 2 :=
    mul_le_mul_of_nonneg_left h5 hm.le
  have h7 : Real.exp (-y) * (Real.exp y - 1) ^ 2 = Real.exp y + Real.exp (-y) - 2 := by
    have : Real.exp (-y) * (Real.exp y - 1) ^ 2 =
      (Real.exp y * Real.exp (-y)) * Real.exp y - 2 * (Real.exp y * Real.exp (-y)) + Real.exp (-y) := by
      ring
    rw [this, h2]; ring
  have h8 : Real.exp (-y) * (y * Real.exp y) ^ 2 = y ^ 2 * Real.exp y := by
    have : Real.exp (-y) * (y * Real.exp y) ^ 2 =
      y ^ 2 * Real.exp y * (Real.exp y * Real.exp (-y)) := by ring
    rw [this, h2]; ring
  rw [h7, h8] at h6
  linarith

/-- A neighbouring period changes very little. -/
theorem gau_pair_le {sigma a x : ℝ} (hs : 0 < sigma) (hs2 : sigma ≤ 0.1) (hx : 0 < x)
    (hx2 : x ≤ sigma) (ha : 1 ≤ |a|) :
    gau sigma (a - x) + gau sigma (a + x) ≤ 2 * gau sigma a + 0.01 * (x / sigma) ^ 2 := by
  rw [gau_shift _ _ _ hs]
  have hg := gau_pos sigma a
  have hsp : 0 < sigma ^ 2 := by positivity
  set y := |a| * x / sigma ^ 2 with hy
  have hy0 : 0 ≤ y := by positivity
  have hcosh : Real.cosh (a * x / sigma ^ 2) = Real.cosh y := by
    rw [← Real.cosh_abs, abs_div, abs_mul, abs_of_pos hx, abs_of_pos hsp]
  rw [hcosh]
  have h1 : Real.exp (-(x ^ 2 / (2 * sigma ^ 2))) ≤ 1 := Real.exp_le_one_iff.2 (by
    have : 0 ≤ x ^ 2 / (2 * sigma ^ 2) := by positivity
    linarith)
  have h2 : Real.exp (-(x ^ 2 / (2 * sigma ^ 2))) * Real.cosh y ≤ Real.cosh y :=
    mul_le_of_le_one_left (by have := Real.one_le_cosh y; linarith) h1
  have h3 := cosh_sub_one_le hy0
  have h4 : gau sigma a * (y ^ 2 * Real.exp y) ≤ 0.01 * (x / sigma) ^ 2 := by
    set q := |a| ^ 2 / sigma ^ 2 with hq
    have hq100 : 100 ≤ q := by
      rw [hq, le_div_iff₀ hsp]
      have h5 : sigma ^ 2 ≤ 0.01 := by norm_num at hs2 ⊢; nlinarith
      have h6 : (1 : ℝ) ^ 2 ≤ |a| ^ 2 := pow_le_pow_left₀ (by norm_num) ha 2
      norm_num at h5
      linarith
    have hyq : y ^ 2 = q * (x / sigma) ^ 2 := by rw [hy, hq]; field_simp
    have hexp : gau sigma a * Real.exp y ≤ Real.exp (-(0.4 * q)) := by
      unfold gau
      rw [← Real.exp_add]
      apply Real.exp_le_exp.2
      have e1 : -a ^ 2 / (2 * sigma ^ 2) = -(q / 2) := by rw [hq, sq_abs]; field_simp
      have e2 : y ≤ 0.1 * q := by
        rw [hy, hq, ← mul_div_assoc]
        apply div_le_div_of_nonneg_right _ hsp.le
        have : x ≤ 0.1 * |a| := by norm_num at *; nlinarith
        have h0 : 0 ≤ |a| := abs_nonneg a
        nlinarith
      rw [e1]
      norm_num at *
      linarith
    have hcube : q * Real.exp (-(0.4 * q)) ≤ 0.01 := by
      have h5 := Real.pow_div_factorial_le_exp (0.4 * q) (by positivity) 3
      have h6 : (0.4 * q) ^ 3 / (Nat.factorial 3 : ℕ) = 0.064 / 6 * q ^ 3 := by
        norm_num [Nat.factorial]; ring
      rw [h6] at h5
      rw [Real.exp_neg, mul_inv_le_iff₀ (Real.exp_pos _)]
      have h7 : q * 100 ≤ 0.064 / 6 * q ^ 3 := by
        have : q ^ 3 = q * (q * q) := by ring
        rw [this]
        have : (10000 : ℝ) ≤ q * q := by nlinarith
        norm_num
        nlinarith
      norm_num at *
      linarith
    calc gau sigma a * (y ^ 2 * Real.exp y) = (q * (x / sigma) ^ 2) * (gau sigma a * Real.exp y) := by
          rw [hyq]; ring
      _ ≤ (q * (x / sigma) ^ 2) * Real.exp (-(0.4 * q)) :=
          mul_le_mul_of_nonneg_left hexp (by positivity)
      _ = (q * Real.exp (-(0.4 * q))) * (x / sigma) ^ 2 := by ring
      _ ≤ _ := mul_le_mul_of_nonneg_right hcube (by positivity)
  nlinarith

/-- Filters whose bandwidth exceeds their centre frequency. -/
theorem gauSum_shift_near {sigma x : ℝ} {P : Nat} (hP : 1 ≤ P) (hP5 : P ≤ 5) (hs : 0 < sigma)
    (hs2 : sigma ≤ 0.1) (hx : 0 < x) (hx2 : x ≤ sigma) :
    gauSum sigma P (0 - x) < gauSum sigma P 0 := by
  have h2 : 2 * gauSum sigma P (0 - x) = ∑ p ∈ range (2 * P - 1), (gau sigma ((1 - P + p : ℝ) - x) +
      gau sigma ((1 - P + p : ℝ) + x)) := by
    have hr : gauSum sigma P (0 - x) =
        ∑ p ∈ range (2 * P - 1), gau sigma ((1 - P + (2 * P - 1 - 1 - p : ℕ) : ℝ) + (0 - x)) :=
      (Finset.sum_range_reflect (fun p => gau sigma ((1 - P + (p : ℕ) : ℝ) + (0 - x))) _).symm
    rw [two_mul]
    nth_rw 2 [hr]
    unfold gauSum
    rw [← Finset.sum_add_distrib]
    apply Finset.sum_congr rfl
    intro p hp
    rw [mem_range] at hp
    congr 1
    · congr 1; ring
    · rw [← gau_neg]
      congr 1
      have : ((2 * P - 1 - 1 - p : ℕ) : ℝ) = 2 * P - 2 - p := by
        have : 2 * P - 1 - 1 - p + (p + 2) = 2 * P := by omega
        have : ((2 * P - 1 - 1 - p : ℕ) : ℝ) + (p + 2) = 2 * P := by exact_mod_cast this
        linarith
      rw [this]
      ring
  have h0 : 2 * gauSum sigma P 0 = ∑ p ∈ range (2 * P - 1), 2 * gau sigma (1 - P + p : ℝ) := by
    unfold gauSum
    rw [Finset.mul_sum]
    apply Finset.sum_congr rfl
    intro p _
    rw [add_zero]
  rw [sum_split P hP] at h2 h0
  have hc : (1 : ℝ) - P + (P - 1 : ℕ) = 0 := by rw [Nat.cast_sub hP]; push_cast; ring
  rw [hc, zero_sub, gau_neg, zero_add] at h2
  rw [hc] at h0
  have hg0 : gau sigma 0 = 1 := by unfold gau; simp
  rw [hg0] at h0
  have hrest : ∑ p ∈ (range (2 * P - 1)).erase (P - 1), (gau sigma ((1 - P + p : ℝ) - x) +
      gau sigma ((1 - P + p : ℝ) + x)) ≤ ∑ p ∈ (range (2 * P - 1)).erase (P - 1),
        (2 * gau sigma (1 - P + p : ℝ) + 0.01 * (x / sigma) ^ 2) := by
    apply Finset.sum_le_sum
    intro p hp
    exact gau_pair_le hs hs2 hx hx2 (rest_abs hP hp)
  rw [Finset.sum_add_distrib (f := fun p : ℕ => 2 * gau sigma (1 - P + p : ℝ)), Finset.sum_const,
    card_rest P hP, nsmul_eq_mul] at hrest
  have h8 : ((2 * P - 2 : ℕ) : ℝ) ≤ 8 := by exact_mod_cast (by omega)
  set z := (x / sigma) ^ 2 with hz
  have hz0 : 0 < z := by positivity
  have hz1 : z ≤ 1 := by
    have h1 : x / sigma ≤ 1 := (div_le_one hs).2 hx2
    have h0 : 0 ≤ x / sigma := by positivity
    rw [hz]; nlinarith
  have hgx : gau sigma x = Real.exp (-(z / 2)) := by
    unfold gau; rw [hz]; congr 1; field_simp
  have hgx2 : gau sigma x * (1 + z / 2) ≤ 1 := by
    rw [hgx, Real.exp_neg, inv_mul_le_iff₀ (Real.exp_pos _), mul_one]
    have := Real.add_one_le_exp (z / 2)
    linarith
  have hgp := gau_pos sigma x
  have h9 : ((2 * P - 2 : ℕ) : ℝ) * (0.01 * z) ≤ 0.08 * z := by
    have : 0 ≤ 0.01 * z := by positivity
    have := mul_le_mul_of_nonneg_right h8 this
    norm_num at *
    linarith
  have h10 : 2 * gau sigma x + 0.08 * z < 2 := by
    norm_num at *
    nlinarith
  norm_num at *
  linarith

/-- Relation with the stored filters. -/
theorem getD_period {N : Nat} {sigma : ℝ} (hs : 0 < sigma) (xi : ℝ) {k : Nat} (hk : k < N) :
    (reshapeMean (2 * morletP sigma - 1) ((morletFreqs N (morletP sigma)).map fun w =>
      Real.exp (-(w - xi) ^ 2 / (2 * sigma ^ 2)))).getD k 0 =
      gauSum sigma (morletP sigma) (k / N - xi) / ((2 * morletP sigma - 1 : ℕ) : ℝ) := by
  have hP := morletP_ge hs
  have hN : (N : ℝ) ≠ 0 := by exact_mod_cast (by omega : N ≠ 0)
  have hl : ((morletFreqs N (morletP sigma)).map fun w =>
      Real.exp (-(w - xi) ^ 2 / (2 * sigma ^ 2))).length = (2 * morletP sigma - 1) * N := by
    rw [List.length_map, length_morletFreqs]
  have hdiv : (2 * morletP sigma - 1) * N / (2 * morletP sigma - 1) = N :=
    Nat.mul_div_cancel_left _ (by omega)
  unfold reshapeMean
  rw [hl, hdiv, getD_tab_lt hk]
  congr 1
  unfold gauSum
  apply Finset.sum_congr rfl
  intro p hp
  rw [mem_range] at hp
  have hlt : p * N + k < (2 * morletP sigma - 1) * N :=
    calc p * N + k < p * N + N := by omega
      _ = (p + 1) * N := by ring
      _ ≤ _ := Nat.mul_le_mul_right _ (by omega)
  have hlt' : p * N + k < (morletFreqs N (morletP sigma)).length := by
    rw [length_morletFreqs]; exact hlt
  rw [List.getD_eq_getElem?_getD, List.getElem?_map, List.getElem?_eq_getElem hlt']
  simp only [Option.map_some, Option.getD_some]
  unfold gau
  have : (morletFreqs N (morletP sigma))[p * N + k] = (1 - morletP sigma + p : ℝ) + k / N := by
    have h1 : (morletFreqs N (morletP sigma))[p * N + k] =
        (morletFreqs N (morletP sigma)).getD (p * N + k) 0 := by
      rw [List.getD_eq_getElem?_getD, List.getElem?_eq_getElem hlt', Option.getD_some]
    rw [h1]
    unfold morletFreqs
    rw [getD_tab_lt hlt]
    push_cast
    field_simp
    ring
  rw [this]
  congr 3
  ring

theorem morletLow_eq {N : Nat} {sigma : ℝ} (hs : 0 < sigma) {k : Nat} (hk : k < N) :
    (morletLow N sigma).getD k 0 =
      gauSum sigma (morletP sigma) (k / N) / ((2 * morletP sigma - 1 : ℕ) : ℝ) := by
  have := getD_period hs 0 hk
  simp only [sub_zero] at this
  exact this

theorem morletP_le (sigma : ℝ) : morletP sigma ≤ 5 := by
  unfold morletP
  omega

/-- The wavelet does not vanish at half the sampling frequency. -/
theorem morletRaw_half_pos {N : Nat} (hN : 0 < N) (heven : 2 ∣ N) {xi sigma : ℝ} (hs : 0 < sigma)
    (hs2 : sigma ≤ 0.2) (hx : 0 < xi) (hx2 : xi < 1 / 2)
    (hr : 1.6 * sigma ≤ xi ∨ (xi ≤ sigma ∧ sigma ≤ 0.1)) :
    0 < (morletRaw N (some xi) sigma).getD (N / 2) 0 := by
  have hP := morletP_ge hs
  have hP5 := morletP_le sigma
  have hk : N / 2 < N := by omega
  have hkr : ((N / 2 : ℕ) : ℝ) / N = 1 / 2 := by
    obtain ⟨m, rfl⟩ := heven
    have hm : (m : ℝ) ≠ 0 := by exact_mod_cast (by omega : m ≠ 0)
    rw [Nat.mul_div_cancel_left _ (by norm_num)]
    push_cast
    field_simp
  have hh := gauSum_half hP hs hs2 hx hx2
  have h0 : gauSum sigma (morletP sigma) (0 - xi) < gauSum sigma (morletP sigma) 0 := by
    rcases hr with hr | ⟨hr1, hr2⟩
    · exact gauSum_shift_far (by omega) hP5 hs hs2 hr hx2
    · exact gauSum_shift_near (by omega) hP5 hs hr2 hx hr1
  have hge := gauSum_zero_ge (sigma := sigma) (P := morletP sigma) (by omega)
  have hpos : ∀ s, 0 < gauSum sigma (morletP sigma) s := fun s =>
    Finset.sum_pos (fun p _ => gau_pos _ _) ⟨0, mem_range.2 (by omega)⟩
  have e1 : (morletGabor N xi sigma).getD (N / 2) 0 = _ := getD_period hs xi hk
  have e2 : (morletGabor N xi sigma).getD 0 0 = _ := getD_period hs xi hN
  have e3 := morletLow_eq hs hk
  have e4 := morletLow_eq hs hN
  rw [hkr] at e1 e3
  have hz : ((0 : ℕ) : ℝ) / N = 0 := by simp
  rw [hz] at e2 e4
  have hg1 : N / 2 < (morletGabor N xi sigma).length := by rw [length_morletGabor hs]; exact hk
  have hg2 : N / 2 < (morletLow N sigma).length := by rw [length_morletLow hs]; exact hk
  rw [morletRaw_some hs hx.ne', List.getD_eq_getElem?_getD, List.getElem?_zipWith,
    List.getElem?_eq_getElem hg1, List.getElem?_eq_getElem hg2]
  simp only [Option.getD_some]
  have c1 : (morletGabor N xi sigma)[N / 2] = (morletGabor N xi sigma).getD (N / 2) 0 := by
    rw [List.getD_eq_getElem?_getD, List.getElem?_eq_getElem hg1, Option.getD_some]
  have c2 : (morletLow N sigma)[N / 2] = (morletLow N sigma).getD (N / 2) 0 := by
    rw [List.getD_eq_getElem?_getD, List.getElem?_eq_getElem hg2, Option.getD_some]
  rw [c1, c2, e1, e2, e3, e4]
  have hr : (0 : ℝ) < ((2 * morletP sigma - 1 : ℕ) : ℝ) := by exact_mod_cast (by omega)
  rw [div_div_div_cancel_right₀ hr.ne', ← mul_div_assoc, ← sub_div]
  apply div_pos _ hr
  have h1 : gauSum sigma (morletP sigma) (0 - xi) / gauSum sigma (morletP sigma) 0 < 1 :=
    (div_lt_one (hpos 0)).2 h0
  have := mul_lt_of_lt_one_left (hpos (1 / 2)) h1
  linarith

/-- Parameters used by the library. -/
theorem anden_ratio {J Q : Nat} (hQ : 1 ≤ Q) {p : ℝ × ℝ} (hp : p ∈ anden J Q) :
    p.2 ≤ 0.2 ∧ (1.6 * p.2 ≤ p.1 ∨ (p.1 ≤ p.2 ∧ p.2 ≤ 0.1)) := by
  have hc := andenGenerator_closed J Q hQ 0.1 (Real.sqrt 0.5) (by norm_num)
  simp only [sigmaRatio_lib] at hc
  have hx := computeXiMax_lt hQ
  have hx0 := computeXiMax_ge Q
  have hxp : 0 < computeXiMax Q := by norm_num at hx0; linarith
  have hr := rho_pos hQ
  have hr1 := (rho_anti le_rfl hQ).trans rho_one_le
  have hu := qr_gt_one hQ
  have hu2 := qr_le_two hQ
  have hu0 := qr_pos Q
  have hsm : (0 : ℝ) < 0.1 / 2 ^ J := by positivity
  have hsm1 : (0.1 : ℝ) / 2 ^ J ≤ 0.1 := div_le_self (by norm_num) (one_le_pow₀ (by norm_num))
  have hQ0 : (0 : ℝ) < Q := by positivity
  have hfs := first_sigma_le hQ
  unfold anden at hp
  rcases le_or_gt (rho Q * computeXiMax Q) (0.1 / 2 ^ J) with h | h
  · rw [hc.1 h, Option.getD_some] at hp
    obtain ⟨q, hq, rfl⟩ := List.mem_map.1 hp
    have h5 : 0 ≤ ((q : ℝ) + 1) / Q := by positivity
    refine ⟨by norm_num at *; linarith, Or.inr ⟨?_, hsm1⟩⟩
    simp only
    have := mul_nonneg h5 (mul_nonneg hr.le hxp.le)
    linarith
  · obtain ⟨K, hK, hlt, heq⟩ := hc.2 h
    rw [heq, Option.getD_some] at hp
    have hpow : ∀ k, 1 ≤ qr Q ^ k := fun k => one_le_pow₀ hu.le
    have hge : ∀ k ≤ K, 0.1 / 2 ^ J < rho Q * computeXiMax Q / qr Q ^ k := by
      intro k hk
      cases k with
      | zero => simpa using h
      | succ k =>
        have := hlt k (by omega)
        rw [pow_succ, ← div_div, lt_div_iff₀ hu0]
        exact this
    rcases List.mem_append.1 hp with hp | hp
    · obtain ⟨k, hk, rfl⟩ := List.mem_map.1 hp
      simp only
      have h1 : rho Q * computeXiMax Q / qr Q ^ k ≤ rho Q * computeXiMax Q :=
        div_le_self (by positivity) (hpow k)
      refine ⟨by norm_num at *; linarith, Or.inl ?_⟩
      rw [mul_div_assoc, ← mul_assoc]
      have hd : 0 < computeXiMax Q / qr Q ^ k := by have := hpow k; positivity
      have : 1.6 * rho Q ≤ 1 := by norm_num at *; linarith
      nlinarith
    · obtain ⟨q, hq, rfl⟩ := List.mem_map.1 hp
      rw [List.mem_range] at hq
      simp only
      refine ⟨by norm_num at *; linarith, Or.inl ?_⟩
      set e := computeXiMax Q / qr Q ^ K with he
      have hep : 0 < e := by have := hpow K; positivity
      have hsme : 0.1 / 2 ^ J < rho Q * e := by
        have := hge K le_rfl
        rw [mul_div_assoc] at this
        exact this
      have hq1 : e / Q ≤ e - ((q : ℝ) + 1) / Q * e := by
        have h6 : (q : ℝ) + 1 + 1 ≤ Q := by exact_mod_cast (by omega : q + 1 + 1 ≤ Q)
        have : e - ((q : ℝ) + 1) / Q * e - e / Q = e * (Q - (q + 1 + 1)) / Q := by
          field_simp; ring
        have h7 : 0 ≤ e * (Q - (q + 1 + 1)) / Q := by
          apply div_nonneg _ hQ0.le
          apply mul_nonneg hep.le
          linarith
        linarith
      refine le_trans ?_ hq1
      have hrQ : 1.6 * rho Q ≤ 1 / Q := by
        have h8 := rho_le_of hQ (qr_le hQ)
        have h9 : (1 + 1 / (Q : ℝ) - 1) / (1 + 1 / Q + 1) / 0.83 = 1 / (0.83 * (2 * Q + 1)) := by
          field_simp
          ring
        rw [h9] at h8
        have h10 : 1 / (0.83 * (2 * (Q : ℝ) + 1)) ≤ 1 / (1.6 * Q) := by
          apply one_div_le_one_div_of_le (by positivity)
          norm_num
          linarith
        have h11 : 1 / (1.6 * (Q : ℝ)) = 1 / 1.6 * (1 / Q) := by field_simp
        rw [h11] at h10
        have h12 := h8.trans h10
        norm_num at *
        linarith
      have : 1.6 * (rho Q * e) ≤ 1 / Q * e := by
        rw [← mul_assoc]
        exact mul_le_mul_of_nonneg_right hrQ hep.le
      rw [one_div_mul_eq_div] at this
      norm_num at *
      linarith

/-- Every wavelet of the library has a nonzero L1 norm before normalisation, at every even length. -/
theorem l1norm_anden {J Q N : Nat} (hQ : 1 ≤ Q) (hN : 0 < N) (heven : 2 ∣ N) {p : ℝ × ℝ}
    (hp : p ∈ anden J Q) : 0 < l1norm (morletRaw N (some p.1) p.2) := by
  obtain ⟨h1, h2, h3⟩ := anden_pos hQ hp
  obtain ⟨h4, h5⟩ := anden_ratio hQ hp
  have hs : 0 < p.2 := lt_of_lt_of_le (by positivity) h3
  have hpos := morletRaw_half_pos hN heven hs h4 h1 h2 h5
  have := gain_le_l1norm (morletRaw N (some p.1) p.2) (N / 2)
  exact lt_of_lt_of_le hpos ((le_abs_self _).trans this)

/-- The same for the low-pass, at every length. -/
theorem l1norm_gauss {N : Nat} (hN : 0 < N) {sigma : ℝ} (hs : 0 < sigma) :
    0 < l1norm (morletRaw N none sigma) := by
  have h := morletLow_pos hs hN
  rw [← morletRaw_low hs] at h
  exact lt_of_lt_of_le h ((le_abs_self _).trans (gain_le_l1norm _ 0))

end Verif
