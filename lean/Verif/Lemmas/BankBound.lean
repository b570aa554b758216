import Verif.Lemmas.MorletAlias

/-!
# Sums of the wavelets over a filter bank

At every frequency, the sum over the filter bank of the moduli of the stored wavelets is bounded.
-/

namespace Verif

open Finset

/-- There is a geometric part: at most `2^J` wavelets per octave. -/
theorem bank_first {J Q : ℕ} (hQ : 1 ≤ Q) (hQJ : Q ≤ 2 ^ J) : 0.1 / 2 ^ J < rho Q * computeXiMax Q := by
  have hQ0 : (0 : ℝ) < Q := by exact_mod_cast hQ
  have hQJ' : (Q : ℝ) ≤ 2 ^ J := by exact_mod_cast hQJ
  have h1 : (0.1 : ℝ) / 2 ^ J ≤ 0.1 / Q := div_le_div_of_nonneg_left (by norm_num) hQ0 hQJ'
  refine lt_of_le_of_lt h1 ?_
  have hX := computeXiMax_ge Q
  have hr : 0.33 / Q ≤ rho Q := by
    rcases Nat.lt_or_ge Q 2 with h | h
    · obtain rfl : Q = 1 := by omega
      have := rho_one_ge
      norm_num at this ⊢
      linarith
    · have h2 : (2 : ℝ) ≤ Q := by exact_mod_cast h
      have h3 := qr_ge Q
      have h4 := qr_le hQ
      have h5 := sqrt_log_two_lt
      have h6 : 0 < Real.sqrt (Real.log 2) := lt_trans (by norm_num) sqrt_log_two_gt
      have h7 := Real.log_two_gt_d9
      have h8 : 1 / (Q : ℝ) ≤ 1 / 2 := one_div_le_one_div_of_le (by norm_num) h2
      have h9 : 0.693 / Q ≤ Real.log 2 / Q := div_le_div_of_nonneg_right (by norm_num at h7 ⊢; linarith) hQ0.le
      have hu : 0 < qr Q + 1 := by have := qr_pos Q; linarith
      unfold rho
      rw [le_div_iff₀ h6, le_div_iff₀ hu]
      have e : 0.693 / (Q : ℝ) = 0.693 * (1 / Q) := by ring
      have e' : 0.33 / (Q : ℝ) = 0.33 * (1 / Q) := by ring
      have hq : 0 < 1 / (Q : ℝ) := by positivity
      have b1 : Real.sqrt (Real.log 2) * (qr Q + 1) ≤ 0.84 * 2.5 :=
        mul_le_mul h5.le (by norm_num; linarith) hu.le (by norm_num)
      have b2 := mul_le_mul_of_nonneg_left b1 hq.le
      rw [e] at h9
      rw [e']
      norm_num at b2 h9 ⊢
      nlinarith
  have hq : 0 < 1 / (Q : ℝ) := by positivity
  have e' : 0.33 / (Q : ℝ) = 0.33 * (1 / Q) := by ring
  have e : 0.1 / (Q : ℝ) = 0.1 * (1 / Q) := by ring
  rw [e'] at hr
  rw [e]
  have b := mul_le_mul hr hX (by norm_num) (rho_pos hQ).le
  norm_num at b ⊢
  nlinarith

theorem rho_xi_le {Q : ℕ} (hQ : 1 ≤ Q) : 7 * (rho Q * computeXiMax Q) ≤ 1 := by
  rcases Nat.lt_or_ge Q 2 with h | h
  · obtain rfl : Q = 1 := by omega
    have h1 := rho_one_le
    have h2 : computeXiMax 1 = 0.35 := by
      unfold computeXiMax
      apply max_eq_right
      norm_num
    rw [h2]
    norm_num at h1 ⊢
    linarith
  · have h1 := (rho_anti (by norm_num : 1 ≤ 2) h).trans rho_two_le
    have h2 := (computeXiMax_lt hQ).le
    have := mul_le_mul h1 h2 (le_trans (by norm_num) (computeXiMax_ge Q)) (by norm_num)
    norm_num at this ⊢
    linarith

/-- The filter bank: a geometric part and an arithmetic part. -/
theorem anden_shape {J Q : ℕ} (hQ : 1 ≤ Q) (hQJ : Q ≤ 2 ^ J) : ∃ K : ℕ, K + 1 ≤ (J + 1) * Q ∧
    0.1 / 2 ^ J < rho Q * (computeXiMax Q / qr Q ^ K) ∧
    anden J Q = ((List.range (K + 1)).map fun k => (computeXiMax Q / qr Q ^ k, rho Q * computeXiMax Q / qr Q ^ k)) ++
      (List.range (Q - 1)).map fun q : ℕ =>
        (computeXiMax Q / qr Q ^ K - ((q : ℝ) + 1) / Q * (computeXiMax Q / qr Q ^ K), 0.1 / 2 ^ J) := by
  have hu := qr_gt_one hQ
  have hu0 := qr_pos Q
  have hnd := bank_first hQ hQJ
  have hc := (andenGenerator_closed J Q hQ 0.1 (Real.sqrt 0.5) (by norm_num)).2
  simp only [sigmaRatio_lib] at hc
  obtain ⟨K, hK1, hK2, he⟩ := hc hnd
  have hlast : 0.1 / 2 ^ J < rho Q * computeXiMax Q / qr Q ^ K := by
    cases K with
    | zero => simpa using hnd
    | succ K =>
      have := hK2 K (by omega)
      rw [lt_div_iff₀ (by positivity)] at this ⊢
      rw [pow_succ]
      linarith
  refine ⟨K, ?_, ?_, ?_⟩
  · by_contra hcon
    push Not at hcon
    have h1 : (2 : ℝ) ^ (J + 1) ≤ qr Q ^ K := by
      rw [← qr_pow hQ, ← pow_mul, mul_comm]
      exact pow_le_pow_right₀ hu.le (by omega)
    have h2 := rho_xi_le hQ
    rw [div_lt_div_iff₀ (by positivity) (by positivity)] at hlast
    rw [pow_succ] at h1
    have h3 : (0 : ℝ) < 2 ^ J := by positivity
    norm_num at hlast
    nlinarith
  · rw [← mul_div_assoc]; exact hlast
  · unfold anden
    rw [he]
    rfl

section

variable {J Q : ℕ} (hQ : 1 ≤ Q) (hQJ : Q ≤ 2 ^ J)
include hQ hQJ

omit hQJ in
theorem lattice_step {K : ℕ} (hK : 0.1 / 2 ^ J < rho Q * (computeXiMax Q / qr Q ^ K)) :
    1.6 * (0.1 / 2 ^ J) ≤ computeXiMax Q / qr Q ^ K / Q := by
  have hQ0 : (0 : ℝ) < Q := by exact_mod_cast hQ
  have h1 := rho_inv_ge hQ
  have hr := rho_pos hQ
  have h2 : 1.6 * rho Q * Q ≤ 1 := by
    norm_num at h1 ⊢
    nlinarith
  set e := computeXiMax Q / qr Q ^ K with he
  have he0 : 0 < e := by
    have := computeXiMax_ge Q
    have := qr_pos Q
    have : 0 < computeXiMax Q := lt_of_lt_of_le (by norm_num) (computeXiMax_ge Q)
    positivity
  rw [le_div_iff₀ hQ0]
  have h3 : 1.6 * (0.1 / 2 ^ J) * Q ≤ 1.6 * (rho Q * e) * Q := by
    apply mul_le_mul_of_nonneg_right _ hQ0.le
    exact mul_le_mul_of_nonneg_left hK.le (by norm_num)
  refine h3.trans ?_
  have : 1.6 * (rho Q * e) * Q = 1.6 * rho Q * Q * e := by ring
  rw [this]
  exact mul_le_of_le_one_left he0.le h2

/-- The parameters of every wavelet. -/
theorem anden_params {p : ℝ × ℝ} (hp : p ∈ anden J Q) :
    0.1 / 2 ^ J ≤ p.2 ∧ 7 * p.2 ≤ 1 ∧ 1.6 * p.2 ≤ p.1 ∧ p.1 ≤ 1 / 2 := by
  obtain ⟨a1, a2, a3⟩ := anden_pos hQ hp
  have hX : 0 < computeXiMax Q := lt_of_lt_of_le (by norm_num) (computeXiMax_ge Q)
  have hu := qr_gt_one hQ
  have hr := rho_pos hQ
  have hrx := rho_xi_le hQ
  obtain ⟨K, hK, hlast, he⟩ := anden_shape hQ hQJ
  refine ⟨a3, ?_, ?_, a2.le⟩
  · rw [he, List.mem_append, List.mem_map, List.mem_map] at hp
    rcases hp with ⟨k, -, rfl⟩ | ⟨q, -, rfl⟩
    · have : rho Q * computeXiMax Q / qr Q ^ k ≤ rho Q * computeXiMax Q :=
        div_le_self (by positivity) (one_le_pow₀ hu.le)
      simp only
      linarith
    · have := bank_first hQ hQJ
      simp only
      linarith
  · rw [he, List.mem_append, List.mem_map, List.mem_map] at hp
    rcases hp with ⟨k, -, rfl⟩ | ⟨q, hq, rfl⟩
    · simp only
      rw [mul_div_assoc']
      apply div_le_div_of_nonneg_right _ (by positivity)
      have h1 := (rho_anti le_rfl hQ).trans rho_one_le
      have := mul_le_mul_of_nonneg_right h1 hX.le
      norm_num at this ⊢
      linarith
    · have hq := List.mem_range.1 hq
      have h1 := lattice_step hQ hlast
      simp only
      set e := computeXiMax Q / qr Q ^ K with hee
      have he0 : 0 < e := by have := qr_pos Q; positivity
      have hQ0 : (0 : ℝ) < Q := by exact_mod_cast hQ
      refine h1.trans ?_
      have h2 : (q : ℝ) + 2 ≤ Q := by exact_mod_cast (by omega : q + 2 ≤ Q)
      rw [div_le_iff₀ hQ0]
      have e2 : (e - ((q : ℝ) + 1) / Q * e) * Q = e * (Q - (q + 1)) := by field_simp
      rw [e2]
      nlinarith

/-- The Gaussians around the centre frequencies. -/
theorem bank_gau {w : ℝ} (hw : 0 ≤ w) :
    ((anden J Q).map fun p => gau p.2 (w - p.1)).sum ≤ 7.09 + 0.0658 * (J + 1) := by
  have hX : 0 < computeXiMax Q := lt_of_lt_of_le (by norm_num) (computeXiMax_ge Q)
  have hu0 := qr_pos Q
  have hr := rho_pos hQ
  have hQ0 : (0 : ℝ) < Q := by exact_mod_cast hQ
  obtain ⟨K, hK, hlast, he⟩ := anden_shape hQ hQJ
  rw [he, List.map_append, List.sum_append, List.map_map, List.map_map, sum_map_range, sum_map_range]
  have h1 := geo_sum hQ hK (w / computeXiMax Q)
  have h2 := lattice_sum (sigma := 0.1 / 2 ^ J) (by positivity) (lattice_step hQ hlast) hw Q
  have e1 : ∑ k ∈ range (K + 1), ((fun p : ℝ × ℝ => gau p.2 (w - p.1)) ∘ fun k =>
      (computeXiMax Q / qr Q ^ k, rho Q * computeXiMax Q / qr Q ^ k)) k =
      ∑ k ∈ range (K + 1), Real.exp (-((1 - w / computeXiMax Q * qr Q ^ k) ^ 2 / (2 * rho Q ^ 2))) := by
    refine sum_congr rfl fun k _ => ?_
    simp only [Function.comp_apply]
    unfold gau
    congr 1
    field_simp
    ring
  have e2 : ∑ q ∈ range (Q - 1), ((fun p : ℝ × ℝ => gau p.2 (w - p.1)) ∘ fun q : ℕ =>
        (computeXiMax Q / qr Q ^ K - ((q : ℝ) + 1) / Q * (computeXiMax Q / qr Q ^ K), 0.1 / 2 ^ J)) q ≤
      ∑ i ∈ range Q, Real.exp (-((w - computeXiMax Q / qr Q ^ K / Q * i) ^ 2 / (2 * (0.1 / 2 ^ J) ^ 2))) := by
    rw [← sum_range_reflect]
    have hsub : range Q = range ((Q - 1) + 1) := by congr 1; omega
    rw [hsub, sum_range_succ' _ (Q - 1)]
    refine le_trans (sum_le_sum fun i hi => ?_) (le_add_of_nonneg_right (Real.exp_pos _).le)
    have hi := mem_range.1 hi
    simp only [Function.comp_apply]
    unfold gau
    apply le_of_eq
    rw [neg_div]
    congr 4
    rw [Nat.cast_sub (by omega), Nat.cast_sub (by omega), Nat.cast_sub (by omega)]
    push_cast
    field_simp
    ring
  rw [e1]
  push_cast at h1
  norm_num at h1 h2 e2 ⊢
  linarith

/-- The values at zero of the Gaussians. -/
theorem bank_zero : ((anden J Q).map fun p => gau p.2 p.1).sum ≤ 0.302 + 0.0452 * (J + 1) := by
  have hX : 0 < computeXiMax Q := lt_of_lt_of_le (by norm_num) (computeXiMax_ge Q)
  have hu0 := qr_pos Q
  have hr := rho_pos hQ
  have hQ0 : (0 : ℝ) < Q := by exact_mod_cast hQ
  obtain ⟨K, hK, hlast, he⟩ := anden_shape hQ hQJ
  rw [he, List.map_append, List.sum_append, List.map_map, List.map_map, sum_map_range, sum_map_range]
  have e1 : ∑ k ∈ range (K + 1), ((fun p : ℝ × ℝ => gau p.2 p.1) ∘ fun k =>
      (computeXiMax Q / qr Q ^ k, rho Q * computeXiMax Q / qr Q ^ k)) k ≤ 0.0452 * (J + 1) := by
    have hle : ∀ k ∈ range (K + 1), ((fun p : ℝ × ℝ => gau p.2 p.1) ∘ fun k =>
        (computeXiMax Q / qr Q ^ k, rho Q * computeXiMax Q / qr Q ^ k)) k ≤
        Real.exp (-(0.34445 * (2 * (Q : ℝ) + 1) ^ 2)) := by
      intro k _
      simp only [Function.comp_apply]
      unfold gau
      apply Real.exp_le_exp.2
      have h3 := rho_inv_ge hQ
      have h5 : (0.83 * (2 * (Q : ℝ) + 1) * rho Q) ^ 2 ≤ 1 := pow_le_one₀ (by positivity) h3
      have e : -(computeXiMax Q / qr Q ^ k) ^ 2 / (2 * (rho Q * computeXiMax Q / qr Q ^ k) ^ 2) = -(1 / (2 * rho Q ^ 2)) := by
        field_simp
      rw [e, neg_le_neg_iff, le_div_iff₀ (by positivity)]
      refine le_trans (le_of_eq ?_) h5
      ring
    refine (sum_le_sum hle).trans ?_
    rw [sum_const, card_range, nsmul_eq_mul]
    have h6 := (octave_le hQ (s := 0.34445) (by norm_num)).trans ((Real.exp_le_exp.2 (by norm_num)).trans exp_e)
    have h7 : ((K + 1 : ℕ) : ℝ) ≤ (J + 1) * Q := by exact_mod_cast hK
    refine (mul_le_mul_of_nonneg_right h7 (Real.exp_pos _).le).trans ?_
    have hJ : (0 : ℝ) ≤ J + 1 := by positivity
    have := mul_le_mul_of_nonneg_left h6 hJ
    rw [mul_assoc, mul_comm 0.0452]
    exact this
  have e2 : ∑ q ∈ range (Q - 1), ((fun p : ℝ × ℝ => gau p.2 p.1) ∘ fun q : ℕ =>
        (computeXiMax Q / qr Q ^ K - ((q : ℝ) + 1) / Q * (computeXiMax Q / qr Q ^ K), 0.1 / 2 ^ J)) q ≤
      ∑ i ∈ range (Q - 1), Real.exp (-(1.28 * ((i + 1 : ℕ) : ℝ) ^ 2)) := by
    rw [← sum_range_reflect]
    refine sum_le_sum fun i hi => ?_
    have hi := mem_range.1 hi
    simp only [Function.comp_apply]
    apply gau_le (by positivity)
    have h1 := lattice_step hQ hlast
    have h2 : computeXiMax Q / qr Q ^ K - (((Q - 1 - 1 - i : ℕ) : ℝ) + 1) / Q * (computeXiMax Q / qr Q ^ K) =
        computeXiMax Q / qr Q ^ K / Q * ((i + 1 : ℕ) : ℝ) := by
      rw [Nat.cast_sub (by omega), Nat.cast_sub (by omega), Nat.cast_sub (by omega)]
      push_cast
      field_simp
      ring
    rw [h2]
    have h3 : 1.6 * (0.1 / 2 ^ J) * ((i + 1 : ℕ) : ℝ) ≤ computeXiMax Q / qr Q ^ K / Q * ((i + 1 : ℕ) : ℝ) :=
      mul_le_mul_of_nonneg_right h1 (Nat.cast_nonneg _)
    refine le_trans (le_of_eq ?_) (pow_le_pow_left₀ (by positivity) h3 2)
    ring
  have h4 := sum_exp_sq (a := 1.28) (by norm_num) exp_c (by norm_num) ((Q - 1) + 1)
  rw [sum_range_succ'] at h4
  simp only [Nat.cast_zero, ne_eq, OfNat.ofNat_ne_zero, not_false_eq_true, zero_pow, mul_zero, neg_zero, Real.exp_zero] at h4
  norm_num at h4 e1 e2 ⊢
  linarith

end

/-- What one wavelet contributes at the frequency `w`, for decimation to the rate `d`. -/
noncomputable def contrib (d w : ℝ) (p : ℝ × ℝ) : ℝ :=
  1.25 * (gau p.2 (w - p.1) + 2.007 * gau p.2 p.1 + 0.0514 * gau p.2 (d / 4 - p.1))

theorem contrib_nonneg (d w : ℝ) (p : ℝ × ℝ) : 0 ≤ contrib d w p := by
  unfold contrib
  have h1 := (gau_pos p.2 (w - p.1)).le
  have h2 := (gau_pos p.2 p.1).le
  have h3 := (gau_pos p.2 (d / 4 - p.1)).le
  positivity

theorem bank_contrib {J Q : ℕ} (hQ : 1 ≤ Q) (hQJ : Q ≤ 2 ^ J) {d w : ℝ} (hd : 0 ≤ d) (hw : 0 ≤ w) :
    ((anden J Q).map (contrib d w)).sum ≤ 10.3 + 0.201 * J := by
  have h1 := bank_gau hQ hQJ hw
  have h2 := bank_zero hQ hQJ
  have h3 := bank_gau hQ hQJ (by positivity : 0 ≤ d / 4)
  have e : ((anden J Q).map (contrib d w)).sum = 1.25 * (((anden J Q).map fun p => gau p.2 (w - p.1)).sum +
      2.007 * ((anden J Q).map fun p => gau p.2 p.1).sum + 0.0514 * ((anden J Q).map fun p => gau p.2 (d / 4 - p.1)).sum) := by
    induction anden J Q with
    | nil => simp
    | cons p l ih =>
      rw [List.map_cons, List.sum_cons, ih, List.map_cons, List.sum_cons, List.map_cons, List.sum_cons, List.map_cons,
        List.sum_cons]
      unfold contrib
      ring
  rw [e]
  have hJ : (0 : ℝ) ≤ J := Nat.cast_nonneg J
  norm_num at h1 h2 h3 ⊢
  linarith

end Verif
