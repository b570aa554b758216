import Verif.Lemmas.MorletNonzero
import Verif.Lemmas.GaussAlias
import Verif.Lemmas.BankSum

/-!
# Alias sums of the wavelets

Bounds of the sum of a normalised Morlet filter, in absolute value, over the frequencies that a decimation by `2^l` folds
together.
-/

namespace Verif

open Finset

theorem gau_anti {sigma u v : ℝ} (hs : 0 < sigma) (h : u ^ 2 ≤ v ^ 2) : gau sigma v ≤ gau sigma u := by
  rcases h.lt_or_eq with h | h
  · exact (gau_lt hs h).le
  · unfold gau; rw [h]

theorem gau_le_one (sigma u : ℝ) : gau sigma u ≤ 1 := by
  unfold gau
  rw [Real.exp_le_one_iff]
  exact div_nonpos_of_nonpos_of_nonneg (by nlinarith [sq_nonneg u]) (by positivity)

theorem gau_tail {sigma d v : ℝ} (hs : 0 < sigma) (hd : 0 ≤ d) {n : ℕ} (hn : 1 ≤ n)
    (hv : d / 2 * (2 * (n : ℝ) - 1) ≤ |v|) : gau sigma v ≤ gau sigma (d / 2) ^ n := by
  have hn1 : (1 : ℝ) ≤ n := by exact_mod_cast hn
  unfold gau
  rw [← Real.exp_nat_mul]
  apply Real.exp_le_exp.2
  have h1 : (d / 2 * (2 * (n : ℝ) - 1)) ^ 2 ≤ v ^ 2 := by
    rw [← sq_abs v]
    exact pow_le_pow_left₀ (mul_nonneg (by linarith) (by linarith)) hv 2
  have h2 : (n : ℝ) * (d / 2) ^ 2 ≤ v ^ 2 := by
    refine le_trans ?_ h1
    rw [mul_pow, mul_comm]
    exact mul_le_mul_of_nonneg_left (by nlinarith) (sq_nonneg _)
  rw [mul_div_assoc', div_le_div_iff_of_pos_right (by positivity)]
  linarith

theorem sum_tail (a : ℕ → ℝ) (K : ℕ) {A r : ℝ} (h0 : a 0 ≤ A) (hA : 0 ≤ A) (hr : 0 ≤ r) (hr1 : r ≤ 0.0022)
    (h : ∀ n, 1 ≤ n → a n ≤ r ^ n) : ∑ n ∈ range K, a n ≤ A + 1.0025 * r := by
  cases K with
  | zero => simp; positivity
  | succ K =>
    rw [sum_range_succ']
    have h1 : ∑ n ∈ range K, a (n + 1) ≤ ∑ n ∈ range K, r ^ n * r :=
      sum_le_sum fun n _ => (h (n + 1) (by omega)).trans (le_of_eq (pow_succ r n))
    rw [← sum_mul] at h1
    have hr2 : r < 1 := lt_of_le_of_lt hr1 (by norm_num)
    have h2 : ∑ n ∈ range K, r ^ n ≤ 1.0025 := by
      refine (geom_le hr hr2 K).trans ?_
      rw [inv_le_comm₀ (by linarith) (by norm_num)]
      norm_num at hr1 ⊢
      linarith
    have := mul_le_mul_of_nonneg_right h2 hr
    linarith

theorem exp_r : Real.exp (-6.125) ≤ 0.0022 := exp_neg_le (by norm_num) 20 (by norm_num) (by norm_num [sum_range_succ, Nat.factorial])

section

variable {sigma d : ℝ} (hs : 0 < sigma) (hd : 7 * sigma ≤ d)
include hs hd

theorem gau_half_le : gau sigma (d / 2) ≤ 0.0022 := by
  refine (gau_le hs (c := 6.125) ?_).trans exp_r
  have := pow_le_pow_left₀ (by positivity) hd 2
  norm_num
  nlinarith

/-- Sum of a Gaussian centred at `x` over the progression `d (s + mu)`. -/
theorem prog_sum {x mu : ℝ} (hx0 : 0 ≤ x) (hx : x ≤ d / 2) (hm0 : 0 ≤ mu) (hm1 : mu ≤ 1) (A B : ℕ) :
    ∑ r ∈ range (A + B), gau sigma (d * ((r : ℝ) - A + mu) - x) ≤
      gau sigma (d * mu - x) + gau sigma (d * (1 - mu) + x) + 2.005 * gau sigma (d / 2) := by
  have hd0 : 0 < d := by linarith
  have hr1 := gau_half_le hs hd
  have hr0 := (gau_pos sigma (d / 2)).le
  rw [sum_two_sides (fun u => gau sigma (u - x))]
  have hR := sum_tail (fun n : ℕ => gau sigma (d * ((n : ℝ) + mu) - x)) B (A := gau sigma (d * mu - x))
    (by simp) (gau_pos _ _).le hr0 hr1 (fun n hn => gau_tail hs hd0.le hn (by
      have hn1 : (1 : ℝ) ≤ n := by exact_mod_cast hn
      refine le_trans ?_ (le_abs_self _)
      nlinarith))
  have hL := sum_tail (fun n : ℕ => gau sigma (d * (-1 - (n : ℝ) + mu) - x)) A (A := gau sigma (d * (1 - mu) + x))
    (by
      rw [← gau_neg]
      apply le_of_eq
      congr 1
      push_cast
      ring) (gau_pos _ _).le hr0 hr1 (fun n hn => gau_tail hs hd0.le hn (by
      have hn1 : (1 : ℝ) ≤ n := by exact_mod_cast hn
      refine le_trans ?_ (neg_le_abs _)
      nlinarith))
  norm_num at hR hL ⊢
  linarith

theorem prog_sum_zero {mu : ℝ} (hm0 : 0 ≤ mu) (hm1 : mu ≤ 1) (A B : ℕ) :
    ∑ r ∈ range (A + B), gau sigma (d * ((r : ℝ) - A + mu)) ≤
      gau sigma (d * mu) + gau sigma (d * (1 - mu)) + 2.005 * gau sigma (d / 2) := by
  have := prog_sum hs hd (x := 0) le_rfl (by linarith) hm0 hm1 A B
  simpa using this

end

theorem gauSum_prog {sigma : ℝ} {P : ℕ} (hP : 1 ≤ P) (s x : ℝ) : gauSum sigma P (s - x) =
    ∑ r ∈ range ((P - 1) + P), gau sigma (1 * ((r : ℝ) - (P - 1 : ℕ) + s) - x) := by
  unfold gauSum
  rw [show 2 * P - 1 = (P - 1) + P by omega]
  refine sum_congr rfl fun r _ => ?_
  congr 1
  rw [Nat.cast_sub hP]
  push_cast
  ring

/-- The frequencies folded together are a progression. -/
theorem gauSum_alias {N l M : ℕ} (hM : M * 2 ^ l = N) {sigma : ℝ} {P : ℕ} (hP : 1 ≤ P) {m : ℕ} (hm : m < M) (x : ℝ) :
    ∑ i ∈ range (2 ^ l), gauSum sigma P (((i * M + m : ℕ) : ℝ) / N - x) =
      ∑ r ∈ range ((P - 1) * 2 ^ l + P * 2 ^ l),
        gau sigma (1 / 2 ^ l * ((r : ℝ) - ((P - 1) * 2 ^ l : ℕ) + m / M) - x) := by
  have hMr : (M : ℝ) ≠ 0 := by have : 0 < M := by omega
                               positivity
  have hNr : (N : ℝ) = M * 2 ^ l := by rw [← hM]; push_cast; ring
  have e2 : (P - 1) * 2 ^ l + P * 2 ^ l = (2 * P - 1) * 2 ^ l := by
    rw [← add_mul]; congr 1; omega
  rw [e2, sum_blocks, sum_comm]
  refine sum_congr rfl fun i _ => ?_
  unfold gauSum
  refine sum_congr rfl fun p _ => ?_
  congr 1
  rw [hNr]
  push_cast
  rw [Nat.cast_sub hP]
  push_cast
  field_simp
  ring

theorem gauSum_ge {sigma : ℝ} {P : ℕ} (hP : 1 ≤ P) (s : ℝ) : gau sigma s ≤ gauSum sigma P s := by
  unfold gauSum
  have h := single_le_sum (f := fun p : ℕ => gau sigma ((1 - P + p : ℝ) + s))
    (s := range (2 * P - 1)) (fun p _ => (gau_pos _ _).le) (mem_range.2 (by omega : P - 1 < 2 * P - 1))
  refine le_trans (le_of_eq ?_) h
  congr 1
  rw [Nat.cast_sub hP]
  push_cast
  ring

theorem gauSum_pos {sigma : ℝ} {P : ℕ} (hP : 1 ≤ P) (s : ℝ) : 0 < gauSum sigma P s :=
  lt_of_lt_of_le (gau_pos _ _) (gauSum_ge hP s)

/-- The coefficient of the correction that makes the wavelet vanish at zero. -/
noncomputable def kap (sigma : ℝ) (P : ℕ) (xi : ℝ) : ℝ := gauSum sigma P (0 - xi) / gauSum sigma P 0

theorem kap_nonneg {sigma : ℝ} {P : ℕ} (hP : 1 ≤ P) (xi : ℝ) : 0 ≤ kap sigma P xi :=
  div_nonneg (gauSum_pos hP _).le (gauSum_pos hP _).le

theorem kap_le {sigma : ℝ} {P : ℕ} (hP : 1 ≤ P) {xi : ℝ} (hs : 0 < sigma) (h7 : 7 * sigma ≤ 1) (hx0 : 0 ≤ xi)
    (hx : xi ≤ 1 / 2) : kap sigma P xi ≤ gau sigma xi + 3.005 * gau sigma (1 / 2) := by
  unfold kap
  have h1 : gauSum sigma P (0 - xi) ≤ gau sigma xi + 3.005 * gau sigma (1 / 2) := by
    rw [gauSum_prog hP]
    refine (prog_sum hs h7 hx0 hx le_rfl zero_le_one (P - 1) P).trans ?_
    have e1 : gau sigma (1 * 0 - xi) = gau sigma xi := by rw [← gau_neg]; congr 1; ring
    have e2 : gau sigma (1 * (1 - 0) + xi) ≤ gau sigma (1 / 2) := gau_anti hs (by nlinarith)
    rw [e1]
    norm_num at e2 ⊢
    linarith
  exact (div_le_self (gauSum_pos hP _).le (gauSum_zero_ge hP)).trans h1

/-! ## The normalised filter -/

/-- The normaliser, without the division by the number of periods. -/
noncomputable def mden (N : ℕ) (xi sigma : ℝ) : ℝ :=
  l1norm (morletRaw N (some xi) sigma) * ((2 * morletP sigma - 1 : ℕ) : ℝ)

theorem morletRaw_gauSum {N : ℕ} {xi sigma : ℝ} (hs : 0 < sigma) (hx : xi ≠ 0) {k : ℕ} (hk : k < N) :
    (morletRaw N (some xi) sigma).getD k 0 =
      (gauSum sigma (morletP sigma) (k / N - xi) - kap sigma (morletP sigma) xi * gauSum sigma (morletP sigma) (k / N)) /
        ((2 * morletP sigma - 1 : ℕ) : ℝ) := by
  have hP := morletP_ge hs
  have hN : 0 < N := by omega
  have e1 : (morletGabor N xi sigma).getD k 0 = _ := getD_period hs xi hk
  have e2 : (morletGabor N xi sigma).getD 0 0 = _ := getD_period hs xi hN
  have e3 := morletLow_eq hs hk
  have e4 := morletLow_eq hs hN
  have hz : ((0 : ℕ) : ℝ) / N = 0 := by simp
  rw [hz] at e2 e4
  have hg1 : k < (morletGabor N xi sigma).length := by rw [length_morletGabor hs]; exact hk
  have hg2 : k < (morletLow N sigma).length := by rw [length_morletLow hs]; exact hk
  rw [morletRaw_some hs hx, List.getD_eq_getElem?_getD, List.getElem?_zipWith,
    List.getElem?_eq_getElem hg1, List.getElem?_eq_getElem hg2]
  simp only [Option.getD_some]
  have c1 : (morletGabor N xi sigma)[k] = (morletGabor N xi sigma).getD k 0 := by
    rw [List.getD_eq_getElem?_getD, List.getElem?_eq_getElem hg1, Option.getD_some]
  have c2 : (morletLow N sigma)[k] = (morletLow N sigma).getD k 0 := by
    rw [List.getD_eq_getElem?_getD, List.getElem?_eq_getElem hg2, Option.getD_some]
  rw [c1, c2, e1, e2, e3, e4]
  have hr : (0 : ℝ) < ((2 * morletP sigma - 1 : ℕ) : ℝ) := by exact_mod_cast (by omega)
  rw [div_div_div_cancel_right₀ hr.ne', ← mul_div_assoc, ← sub_div]
  rfl

theorem abs_morlet_le {N : ℕ} {xi sigma : ℝ} (hs : 0 < sigma) (hx : xi ≠ 0) (hD : 0 < mden N xi sigma) {k : ℕ} (hk : k < N) :
    |(morlet1d N (some xi) sigma).getD k 0| * mden N xi sigma ≤
      gauSum sigma (morletP sigma) (k / N - xi) + kap sigma (morletP sigma) xi * gauSum sigma (morletP sigma) (k / N) := by
  have hP := morletP_ge hs
  have hr : (0 : ℝ) < ((2 * morletP sigma - 1 : ℕ) : ℝ) := by exact_mod_cast (by omega)
  have e : (morlet1d N (some xi) sigma).getD k 0 =
      (morletRaw N (some xi) sigma).getD k 0 / l1norm (morletRaw N (some xi) sigma) := by
    unfold morlet1d
    simp only
    have := getD_map' (morletRaw N (some xi) sigma) (fun v => v / l1norm (morletRaw N (some xi) sigma)) k 0
    simpa using this
  have hl : 0 < l1norm (morletRaw N (some xi) sigma) := by
    unfold mden at hD
    exact pos_of_mul_pos_left hD hr.le
  rw [e, morletRaw_gauSum hs hx hk, abs_div, abs_div, abs_of_pos hr, abs_of_pos hl]
  unfold mden
  rw [div_mul_eq_mul_div, mul_comm (l1norm _), ← mul_assoc, div_mul_cancel₀ _ hr.ne', mul_div_assoc, div_self hl.ne', mul_one]
  refine (abs_sub _ _).trans ?_
  rw [abs_of_pos (gauSum_pos (by omega) _), abs_of_nonneg (mul_nonneg (kap_nonneg (by omega) _) (gauSum_pos (by omega) _).le)]

theorem exp_l : Real.exp (-1.28) ≤ 0.2785 := exp_c
theorem exp_m : Real.exp (-0.82) ≤ 0.4405 := exp_neg_le (by norm_num) 10 (by norm_num) (by norm_num [sum_range_succ, Nat.factorial])

theorem exp_n : Real.exp (-5) ≤ 0.0068 := exp_neg_le (by norm_num) 20 (by norm_num) (by norm_num [sum_range_succ, Nat.factorial])
theorem exp_o : Real.exp (-4.59) ≤ 0.0102 := exp_neg_le (by norm_num) 20 (by norm_num) (by norm_num [sum_range_succ, Nat.factorial])

/-- The normaliser is not small. -/
theorem mden_ge {N : ℕ} {xi sigma : ℝ} (hs : 0 < sigma) (h7 : 7 * sigma ≤ 1) (hx : 1.6 * sigma ≤ xi)
    (hx2 : xi ≤ 1 / 2) (hN : 1.6 ≤ N * sigma) : 0.8 ≤ mden N xi sigma := by
  have hP := morletP_ge hs
  have hr : (0 : ℝ) < ((2 * morletP sigma - 1 : ℕ) : ℝ) := by exact_mod_cast (by omega)
  have hN0 : (0 : ℝ) < N := by
    rcases Nat.eq_zero_or_pos N with h | h
    · subst h; norm_num at hN
    · exact_mod_cast h
  have hx0 : 0 < xi := lt_of_lt_of_le (by positivity) hx
  have hN11 : (11.2 : ℝ) ≤ N := by nlinarith
  set k := ⌊(N : ℝ) * xi⌋₊ with hk
  have hk1 : (k : ℝ) ≤ N * xi := Nat.floor_le (by positivity)
  have hk2 : (N : ℝ) * xi < k + 1 := Nat.lt_floor_add_one _
  obtain ⟨j, hj1, hj2⟩ : ∃ j : ℕ, (j : ℝ) ≤ N * xi + 1 / 2 ∧ (N : ℝ) * xi ≤ j + 1 / 2 := by
    rcases le_total ((N : ℝ) * xi) (k + 1 / 2) with h | h
    · exact ⟨k, by linarith, h⟩
    · exact ⟨k + 1, by push_cast; linarith, by push_cast; linarith⟩
  have hjN : j < N := by
    have : (j : ℝ) < N := by nlinarith
    exact_mod_cast this
  have hlow : |(morletRaw N (some xi) sigma).getD j 0| ≤ l1norm (morletRaw N (some xi) sigma) := gain_le_l1norm _ _
  rw [morletRaw_gauSum hs hx0.ne' hjN, abs_div, abs_of_pos hr, div_le_iff₀ hr] at hlow
  refine le_trans ?_ hlow
  refine le_trans ?_ (le_abs_self _)
  set w := (j : ℝ) / N with hw
  have hw1 : w ≤ xi + 0.3125 * sigma := by
    rw [hw, div_le_iff₀ hN0]
    nlinarith
  have hw2 : xi ≤ w + 0.3125 * sigma := by
    have : (xi - 0.3125 * sigma) * N ≤ j := by nlinarith
    have := (le_div_iff₀ hN0).2 this
    linarith
  have g1 : 0.95 ≤ gauSum sigma (morletP sigma) (w - xi) := by
    refine le_trans ?_ (gauSum_ge (by omega) _)
    unfold gau
    have hsq : (w - xi) ^ 2 ≤ (0.3125 * sigma) ^ 2 := sq_le_sq' (by linarith) (by linarith)
    have h1 : -(w - xi) ^ 2 / (2 * sigma ^ 2) ≥ -0.05 := by
      rw [ge_iff_le, le_div_iff₀ (by positivity)]
      nlinarith
    have h2 := Real.add_one_le_exp (-(w - xi) ^ 2 / (2 * sigma ^ 2))
    norm_num at h1 h2 ⊢
    linarith
  have g2 : kap sigma (morletP sigma) xi ≤ 0.2852 := by
    refine (kap_le (by omega) hs h7 hx0.le hx2).trans ?_
    have h1 : gau sigma xi ≤ 0.2785 := (gau_le hs (c := 1.28) (by
      have := pow_le_pow_left₀ (by positivity) hx 2
      norm_num at this ⊢
      nlinarith)).trans exp_l
    have h2 := gau_half_le hs h7
    norm_num at h1 h2 ⊢
    linarith
  have g3 : gauSum sigma (morletP sigma) w ≤ 0.452 := by
    have hw0 : 0 ≤ w := by positivity
    have hw3 : w ≤ 1 := by nlinarith
    have := gauSum_prog (sigma := sigma) (P := morletP sigma) (by omega) w 0
    rw [sub_zero] at this
    rw [this]
    simp only [sub_zero]
    refine (prog_sum_zero hs h7 hw0 hw3 _ _).trans ?_
    have h1 : gau sigma (1 * w) ≤ 0.4405 := (gau_le hs (c := 0.82) (by
      rw [one_mul]
      have h : 1.2875 * sigma ≤ w := by norm_num at hx hw2 ⊢; linarith
      have := pow_le_pow_left₀ (by positivity) h 2
      norm_num at this ⊢
      nlinarith)).trans exp_m
    have h2 := gau_half_le hs h7
    have h3 : gau sigma (1 * (1 - w)) ≤ 0.0068 := by
      have h7' : 0.4553 ≤ 1 - w := by norm_num at hw1 ⊢; linarith
      refine (gau_le hs (c := 5) (by
        rw [one_mul]
        have g := pow_le_pow_left₀ (by norm_num) h7' 2
        have g' := pow_le_pow_left₀ (by positivity) h7 2
        norm_num at g g' ⊢
        nlinarith)).trans exp_n
    norm_num at h1 h2 h3 ⊢
    linarith
  have g4 : kap sigma (morletP sigma) xi * gauSum sigma (morletP sigma) w ≤ 0.2852 * 0.452 :=
    mul_le_mul g2 g3 (gauSum_pos (by omega) _).le (by norm_num)
  norm_num at g1 g4 ⊢
  linarith

/-- The tail at half a step, against the Gaussian around `xi` at a quarter of a step. -/
theorem half_le_quarter {sigma d xi : ℝ} (hs : 0 < sigma) (hd : 7 * sigma ≤ d) (hx0 : 0 ≤ xi) (hx : xi ≤ d / 2) :
    gau sigma (d / 2) ≤ 0.0102 * gau sigma (d / 4 - xi) := by
  have h1 : gau sigma (d / 2) = Real.exp (-(3 / 4 * ((d / 2) ^ 2 / (2 * sigma ^ 2)))) * gau sigma (d / 4) := by
    unfold gau
    rw [← Real.exp_add]
    congr 1
    field_simp
    ring
  have h2 : gau sigma (d / 4) ≤ gau sigma (d / 4 - xi) := gau_anti hs (by nlinarith)
  have h3 : Real.exp (-(3 / 4 * ((d / 2) ^ 2 / (2 * sigma ^ 2)))) ≤ 0.0102 := by
    refine (Real.exp_le_exp.2 ?_).trans exp_o
    rw [neg_le_neg_iff]
    have := pow_le_pow_left₀ (by positivity) hd 2
    have h4 : 6.125 ≤ (d / 2) ^ 2 / (2 * sigma ^ 2) := by
      rw [le_div_iff₀ (by positivity)]
      norm_num at this ⊢
      nlinarith
    norm_num at h4 ⊢
    linarith
  rw [h1]
  exact mul_le_mul h3 h2 (gau_pos _ _).le (by norm_num)

section

variable {N l M : ℕ} (hM : M * 2 ^ l = N) {xi sigma : ℝ} (hs : 0 < sigma) (h7 : 7 * sigma ≤ 1 / 2 ^ l)
  (hx : 1.6 * sigma ≤ xi) (hx2 : xi ≤ 1 / 2 ^ l / 2) (hN : 1.6 ≤ N * sigma) {m : ℕ} (hm : m < M)
include hM hs h7 hx hx2 hN hm

omit hM hm in
theorem seven_le_one : 7 * sigma ≤ 1 ∧ xi ≤ 1 / 2 ∧ 0 < xi ∧ 0.8 ≤ mden N xi sigma ∧
    kap sigma (morletP sigma) xi ≤ gau sigma xi + 3.005 * gau sigma (1 / 2 ^ l / 2) ∧
    kap sigma (morletP sigma) xi ≤ 0.2852 := by
  have hP := morletP_ge hs
  have hl : (1 : ℝ) / 2 ^ l ≤ 1 := by
    rw [div_le_one (by positivity)]
    exact one_le_pow₀ (by norm_num)
  have a1 : 7 * sigma ≤ 1 := h7.trans hl
  have a2 : xi ≤ 1 / 2 := hx2.trans (by linarith)
  have a3 : 0 < xi := lt_of_lt_of_le (by positivity) hx
  have k1 := kap_le (P := morletP sigma) (by omega) hs a1 a3.le a2
  have k2 : gau sigma (1 / 2) ≤ gau sigma (1 / 2 ^ l / 2) := gau_anti hs (by
    apply pow_le_pow_left₀ (by positivity)
    linarith)
  refine ⟨a1, a2, a3, mden_ge hs a1 hx a2 hN, ?_, ?_⟩
  · norm_num at k1 k2 ⊢
    linarith
  · have h1 : gau sigma xi ≤ 0.2785 := (gau_le hs (c := 1.28) (by
      have := pow_le_pow_left₀ (by positivity) hx 2
      norm_num at this ⊢
      nlinarith)).trans exp_l
    have h2 := gau_half_le hs a1
    norm_num at h1 h2 k1 ⊢
    linarith

/-- Alias sum of one wavelet, for sums over the bank. -/
theorem wavelet_alias : ∑ i ∈ range (2 ^ l), |(morlet1d N (some xi) sigma).getD (i * M + m) 0| ≤
    1.25 * (gau sigma (1 / 2 ^ l * (m / M) - xi) + 2.007 * gau sigma xi +
      0.0514 * gau sigma (1 / 2 ^ l / 4 - xi)) := by
  have hP := morletP_ge hs
  obtain ⟨a1, a2, a3, hD, hk, -⟩ := seven_le_one hs h7 hx hx2 hN
  have hD0 : 0 < mden N xi sigma := lt_of_lt_of_le (by norm_num) hD
  have hM0 : (0 : ℝ) < M := by exact_mod_cast (by omega : 0 < M)
  have hmu0 : (0 : ℝ) ≤ m / M := by positivity
  have hmu1 : (m : ℝ) / M ≤ 1 := by
    rw [div_le_one hM0]; exact_mod_cast hm.le
  have hlt : ∀ i < 2 ^ l, i * M + m < N := by
    intro i hi
    calc i * M + m < i * M + M := by omega
      _ = (i + 1) * M := by ring
      _ ≤ 2 ^ l * M := Nat.mul_le_mul_right _ hi
      _ = N := by rw [mul_comm, hM]
  set d : ℝ := 1 / 2 ^ l with hd
  have hd0 : 0 < d := by positivity
  have h1 : (∑ i ∈ range (2 ^ l), |(morlet1d N (some xi) sigma).getD (i * M + m) 0|) * mden N xi sigma ≤
      ∑ i ∈ range (2 ^ l), gauSum sigma (morletP sigma) (((i * M + m : ℕ) : ℝ) / N - xi) +
        kap sigma (morletP sigma) xi * ∑ i ∈ range (2 ^ l), gauSum sigma (morletP sigma) (((i * M + m : ℕ) : ℝ) / N - 0) := by
    rw [sum_mul, mul_sum, ← sum_add_distrib]
    refine sum_le_sum fun i hi => ?_
    rw [sub_zero]
    exact abs_morlet_le hs a3.ne' hD0 (hlt i (mem_range.1 hi))
  rw [gauSum_alias hM (by omega) hm, gauSum_alias hM (by omega) hm, ← hd] at h1
  have h2 := prog_sum hs h7 a3.le hx2 hmu0 hmu1 ((morletP sigma - 1) * 2 ^ l) (morletP sigma * 2 ^ l)
  have h3 := prog_sum hs h7 (x := 0) le_rfl (by linarith) hmu0 hmu1 ((morletP sigma - 1) * 2 ^ l) (morletP sigma * 2 ^ l)
  have h4 : gau sigma (d * (1 - m / M) + xi) ≤ gau sigma xi := gau_anti hs (by
    apply pow_le_pow_left₀ a3.le
    have := mul_nonneg hd0.le (by linarith : 0 ≤ 1 - (m : ℝ) / M)
    linarith)
  have h5 : gau sigma (d * (m / M) - 0) + gau sigma (d * (1 - m / M) + 0) ≤ 1 + gau sigma (d / 2) := by
    rw [sub_zero, add_zero]
    rcases le_total ((m : ℝ) / M) (1 / 2) with h | h
    · exact add_le_add (gau_le_one _ _) (gau_anti hs (pow_le_pow_left₀ (by positivity) (by nlinarith) 2))
    · rw [add_comm]
      exact add_le_add (gau_le_one _ _) (gau_anti hs (pow_le_pow_left₀ (by positivity) (by nlinarith) 2))
  have hr := gau_half_le hs h7
  have hr0 := (gau_pos sigma (d / 2)).le
  have hq := half_le_quarter hs h7 a3.le hx2
  have h6 : kap sigma (morletP sigma) xi * (∑ r ∈ range ((morletP sigma - 1) * 2 ^ l + morletP sigma * 2 ^ l),
      gau sigma (d * ((r : ℝ) - ((morletP sigma - 1) * 2 ^ l : ℕ) + m / M) - 0)) ≤
      (gau sigma xi + 3.005 * gau sigma (d / 2)) * (1 + 3.005 * gau sigma (d / 2)) := by
    apply mul_le_mul hk _ (sum_nonneg fun _ _ => (gau_pos _ _).le)
      (add_nonneg (gau_pos _ _).le (by positivity))
    norm_num at h3 h5 ⊢
    linarith
  have he := (gau_pos sigma xi).le
  have h7' : (gau sigma xi + 3.005 * gau sigma (d / 2)) * (1 + 3.005 * gau sigma (d / 2)) ≤
      1.00662 * gau sigma xi + 3.026 * gau sigma (d / 2) := by
    have b1 := mul_le_mul_of_nonneg_left hr he
    have b2 := mul_le_mul_of_nonneg_left hr hr0
    norm_num at b1 b2 ⊢
    nlinarith
  set S := ∑ i ∈ range (2 ^ l), |(morlet1d N (some xi) sigma).getD (i * M + m) 0| with hS
  have hS0 : 0 ≤ S := sum_nonneg fun _ _ => abs_nonneg _
  have h8 := mul_le_mul_of_nonneg_left hD hS0
  norm_num at h1 h2 h3 h4 h6 h7' h8 hq ⊢
  linarith

/-- Alias sum of one wavelet of bandwidth below the new sampling rate. -/
theorem wavelet_fold (h5 : xi + 5 * sigma ≤ 1 / 2 ^ l / 2) :
    ∑ i ∈ range (2 ^ l), |(morlet1d N (some xi) sigma).getD (i * M + m) 0| ≤ 1.02 := by
  have hP := morletP_ge hs
  obtain ⟨a1, a2, a3, hD, -, hk⟩ := seven_le_one hs h7 hx hx2 hN
  have hk0 := kap_nonneg (sigma := sigma) (P := morletP sigma) (by omega) xi
  have hD0 : 0 < mden N xi sigma := lt_of_lt_of_le (by norm_num) hD
  have hM0 : (0 : ℝ) < M := by exact_mod_cast (by omega : 0 < M)
  have hmu0 : (0 : ℝ) ≤ m / M := by positivity
  have hmu1 : (m : ℝ) / M ≤ 1 := by
    rw [div_le_one hM0]; exact_mod_cast hm.le
  have hlt : ∀ i < 2 ^ l, i * M + m < N := by
    intro i hi
    calc i * M + m < i * M + M := by omega
      _ = (i + 1) * M := by ring
      _ ≤ 2 ^ l * M := Nat.mul_le_mul_right _ hi
      _ = N := by rw [mul_comm, hM]
  have hl1 : 1 ≤ 2 ^ l := Nat.one_le_two_pow
  have hNr : (N : ℝ) = M * 2 ^ l := by rw [← hM]; push_cast; ring
  set d : ℝ := 1 / 2 ^ l with hd
  have hd0 : 0 < d := by positivity
  set G : ℝ → ℕ → ℝ := fun x i => gauSum sigma (morletP sigma) (((i * M + m : ℕ) : ℝ) / N - x) with hG
  have tot : ∀ x, 0 ≤ x → x ≤ d / 2 → ∑ i ∈ range (2 ^ l), G x i ≤
      gau sigma (d * (m / M) - x) + gau sigma (d * (1 - m / M) + x) + 2.005 * gau sigma (d / 2) := by
    intro x h0 h2
    rw [hG]
    simp only
    rw [gauSum_alias hM (by omega) hm]
    exact prog_sum hs h7 h0 h2 hmu0 hmu1 _ _
  have hr := gau_half_le hs h7
  have hr0 := (gau_pos sigma (d / 2)).le
  -- leave one index out
  have main : ∀ i0 ∈ range (2 ^ l), (∑ i ∈ (range (2 ^ l)).erase i0, G xi i ≤ 3.005 * gau sigma (d / 2) + 0.0001) →
      (∑ i ∈ (range (2 ^ l)).erase i0, G 0 i ≤ 3.005 * gau sigma (d / 2)) →
      ∑ i ∈ range (2 ^ l), |(morlet1d N (some xi) sigma).getD (i * M + m) 0| ≤ 1.02 := by
    intro i0 hi0 e1 e2
    rw [← add_sum_erase _ _ hi0]
    have b1 : |(morlet1d N (some xi) sigma).getD (i0 * M + m) 0| ≤ 1 :=
      (gain_le_l1norm _ _).trans (l1norm_morlet1d_le _ _ _)
    set S := ∑ i ∈ (range (2 ^ l)).erase i0, |(morlet1d N (some xi) sigma).getD (i * M + m) 0| with hS
    have hS0 : 0 ≤ S := sum_nonneg fun _ _ => abs_nonneg _
    have b2 : S * mden N xi sigma ≤ ∑ i ∈ (range (2 ^ l)).erase i0, G xi i +
        kap sigma (morletP sigma) xi * ∑ i ∈ (range (2 ^ l)).erase i0, G 0 i := by
      rw [hS, sum_mul, mul_sum, ← sum_add_distrib]
      refine sum_le_sum fun i hi => ?_
      have := abs_morlet_le hs a3.ne' hD0 (hlt i (mem_range.1 (mem_of_mem_erase hi)))
      rw [hG]
      simp only [sub_zero]
      exact this
    have b3 : kap sigma (morletP sigma) xi * ∑ i ∈ (range (2 ^ l)).erase i0, G 0 i ≤
        0.2852 * (3.005 * gau sigma (d / 2)) := by
      apply mul_le_mul hk e2 (sum_nonneg fun _ _ => (gauSum_pos (by omega) _).le) (by norm_num)
    have b4 := mul_le_mul_of_nonneg_left hD hS0
    norm_num at e1 b1 b2 b3 b4 hr ⊢
    linarith
  have sub : ∀ i0 ∈ range (2 ^ l), ∀ x, ∑ i ∈ (range (2 ^ l)).erase i0, G x i = ∑ i ∈ range (2 ^ l), G x i - G x i0 :=
    fun i0 hi0 x => by rw [← add_sum_erase _ _ hi0]; ring
  have t1 := tot xi a3.le hx2
  have t0 := tot 0 le_rfl (by linarith)
  rw [sub_zero, add_zero] at t0
  rcases le_total ((m : ℝ) / M) (1 / 2) with h | h
  · have hm0 : (0 : ℕ) ∈ range (2 ^ l) := mem_range.2 (by omega)
    have ge : ∀ x, gau sigma (d * (m / M) - x) ≤ G x 0 := by
      intro x
      refine le_trans (le_of_eq ?_) (gauSum_ge (by omega) _)
      congr 1
      rw [hNr, hd]
      push_cast
      field_simp
      ring
    have half : ∀ x, 0 ≤ x → gau sigma (d * (1 - m / M) + x) ≤ gau sigma (d / 2) := fun x hx0 =>
      gau_anti hs (pow_le_pow_left₀ (by positivity) (by nlinarith) 2)
    refine main 0 hm0 ?_ ?_
    · rw [sub 0 hm0]
      have g1 := ge xi
      have g2 := half xi a3.le
      norm_num at t1 ⊢
      linarith
    · rw [sub 0 hm0]
      have g1 := ge 0
      have g2 := half 0 le_rfl
      rw [sub_zero] at g1
      rw [add_zero] at g2
      norm_num at t0 ⊢
      linarith
  · have hm0 : (2 ^ l - 1 : ℕ) ∈ range (2 ^ l) := mem_range.2 (by omega)
    have ge : ∀ x, gau sigma (d * (1 - m / M) + x) ≤ G x (2 ^ l - 1) := by
      intro x
      rw [hG]
      simp only
      unfold gauSum
      have hh := single_le_sum (f := fun p : ℕ => gau sigma ((1 - morletP sigma + p : ℝ) +
        ((((2 ^ l - 1) * M + m : ℕ) : ℝ) / N - x)))
        (s := range (2 * morletP sigma - 1)) (fun p _ => (gau_pos _ _).le)
        (mem_range.2 (by omega : morletP sigma - 2 < 2 * morletP sigma - 1))
      refine le_trans (le_of_eq ?_) hh
      rw [← gau_neg]
      congr 1
      rw [hNr, hd]
      push_cast
      rw [Nat.cast_sub hl1, Nat.cast_sub (by omega : 2 ≤ morletP sigma)]
      push_cast
      field_simp
      ring
    refine main _ hm0 ?_ ?_
    · rw [sub _ hm0]
      have g1 := ge xi
      have g2 : gau sigma (d * (m / M) - xi) ≤ 0.0001 := by
        refine (gau_le hs (c := 25 / 2) ?_).trans (exp_neg_far.trans (by norm_num))
        have : 5 * sigma ≤ d * (m / M) - xi := by nlinarith
        have := pow_le_pow_left₀ (by positivity) this 2
        nlinarith
      norm_num at t1 g2 ⊢
      linarith
    · rw [sub _ hm0]
      have g1 := ge 0
      have g2 : gau sigma (d * (m / M)) ≤ gau sigma (d / 2) :=
        gau_anti hs (pow_le_pow_left₀ (by positivity) (by nlinarith) 2)
      rw [add_zero] at g1
      norm_num at t0 ⊢
      linarith

end

end Verif
