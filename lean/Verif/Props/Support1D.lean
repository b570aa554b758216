import Verif.Lemmas.Morlet

/-!
# C30: the temporal support bounds the truncation error

`compute_temporal_support` sums `|h|` over the indices `[i, half)` only.  It so leaves out index
`half = n // 2` itself, and counts one of the two symmetric halves.
-/

namespace Verif

open Finset

namespace Spec

/-- Restriction of an `n`-periodic sequence to the times at circular distance at most `T` from 0. -/
noncomputable def truncate (n T : ℕ) (g : ℤ → ℂ) (k : ℤ) : ℂ :=
  if min (k % n) (n - k % n) ≤ T then g k else 0

end Spec

/-- A real transfer function has an impulse response of symmetric modulus. -/
theorem norm_impulseR_neg (h : List ℝ) (n : ℤ) :
    ‖Spec.impulseR h (-n)‖ = ‖Spec.impulseR h n‖ := by
  rw [← Complex.norm_conj]
  congr 1
  unfold Spec.impulseR Spec.impulse
  rw [map_div₀, map_sum, Complex.conj_natCast]
  congr 1
  apply Finset.sum_congr rfl
  intro k hk
  rw [map_mul, ← Complex.exp_conj]
  congr 1
  · rw [List.length_map, mem_range] at hk
    rw [List.getD_eq_getElem?_getD, List.getElem?_map, List.getElem?_eq_getElem hk]
    simp
  · congr 1
    have h2 : (starRingEnd ℂ) 2 = 2 := Complex.conj_natCast 2
    simp only [map_div₀, map_mul, Complex.conj_I, Complex.conj_natCast, Complex.conj_ofReal, h2]
    push_cast
    simp

/-- Mass removed by the truncation. -/
theorem sum_removed_le (n T : ℕ) (g : ℤ → ℂ) (hsym : ∀ k : ℕ, k < n → ‖g (n - k : ℕ)‖ = ‖g k‖) :
    ∑ k ∈ range n, ‖g k - Spec.truncate n T g k‖ ≤ 2 * ∑ k ∈ Icc (T + 1) (n / 2), ‖g k‖ := by
  have hterm : ∀ k ∈ range n, ‖g k - Spec.truncate n T g k‖ =
      if T < min k (n - k) then ‖g k‖ else 0 := by
    intro k hk
    rw [mem_range] at hk
    unfold Spec.truncate
    rw [Int.emod_eq_of_lt (by omega) (by omega)]
    by_cases h : T < min k (n - k)
    · rw [if_pos h, if_neg (by omega), sub_zero]
    · rw [if_neg h, if_pos (by omega), sub_self, norm_zero]
  rw [Finset.sum_congr rfl hterm, ← Finset.sum_filter, two_mul]
  rw [← Finset.sum_filter_add_sum_filter_not _ (fun k => k ≤ n / 2)]
  refine add_le_add ?_ ?_
  · apply Finset.sum_le_sum_of_subset_of_nonneg
    · intro k hk
      simp only [mem_filter, mem_range, mem_Icc] at hk ⊢
      omega
    · intros; positivity
  · have hcong : ∑ k ∈ ((range n).filter fun k => T < min k (n - k)).filter fun k => ¬ k ≤ n / 2,
        ‖g k‖ = ∑ k ∈ (((range n).filter fun k => T < min k (n - k)).filter fun k =>
          ¬ k ≤ n / 2).image fun k => n - k, ‖g k‖ := by
      rw [Finset.sum_image]
      · apply Finset.sum_congr rfl
        intro k hk
        simp only [mem_filter, mem_range] at hk
        exact (hsym k (by omega)).symm
      · intro a ha b hb hab
        simp only [coe_filter, Set.mem_ofPred_eq, mem_filter, mem_range] at ha hb hab
        omega
    rw [hcong]
    apply Finset.sum_le_sum_of_subset_of_nonneg
    · intro k hk
      simp only [mem_image, mem_filter, mem_range, mem_Icc] at hk ⊢
      obtain ⟨m, hm, rfl⟩ := hk
      omega
    · intros; positivity

/-- Error of filtering with the truncated filter. -/
theorem truncation_error {x h : List ℝ} (M : ℝ) (hx : ∀ m < x.length, |x.getD m 0| ≤ M)
    (hl : h.length = x.length) (T : ℕ) (t : ℤ) :
    ‖Spec.convR x (Spec.impulseR h) t -
        Spec.convR x (Spec.truncate x.length T (Spec.impulseR h)) t‖ ≤
      M * (2 * ∑ k ∈ Icc (T + 1) (x.length / 2), ‖Spec.impulseR h k‖) := by
  rcases Nat.eq_zero_or_pos x.length with h0 | hpos
  · unfold Spec.convR
    rw [h0]
    simp
  have hM : 0 ≤ M := (abs_nonneg _).trans (hx 0 hpos)
  unfold Spec.convR
  rw [← Finset.sum_sub_distrib]
  have hper : ∀ a b : ℤ, a % x.length = b % x.length →
      ‖Spec.impulseR h a - Spec.truncate x.length T (Spec.impulseR h) a‖ =
        ‖Spec.impulseR h b - Spec.truncate x.length T (Spec.impulseR h) b‖ := by
    intro a b hab
    have := impulseR_congr h (a := a) (b := b) (by rw [hl]; exact hab)
    unfold Spec.truncate
    rw [this, hab]
  have hsum := sum_periodic_sub (N := x.length)
    (fun n => ‖Spec.impulseR h n - Spec.truncate x.length T (Spec.impulseR h) n‖) hper t
  have hrem := sum_removed_le x.length T (Spec.impulseR h) (by
    intro k hk
    rw [← norm_impulseR_neg h k]
    congr 1
    apply impulseR_congr
    rw [hl, Nat.cast_sub hk.le, sub_eq_add_neg, Int.add_emod_left])
  refine (norm_sum_le _ _).trans ?_
  refine le_trans ?_ (mul_le_mul_of_nonneg_left hrem hM)
  rw [← hsum, Finset.mul_sum]
  apply Finset.sum_le_sum
  intro m hm
  rw [← mul_sub, norm_mul, Complex.norm_real, Real.norm_eq_abs]
  exact mul_le_mul_of_nonneg_right (hx m (mem_range.1 hm)) (norm_nonneg _)

theorem le_foldr_max (l : List ℝ) (v : ℝ) (h : v ∈ l) : v ≤ l.foldr max 0 := by
  induction l with
  | nil => cases h
  | cons a l ih =>
    rw [List.foldr_cons]
    rcases List.mem_cons.1 h with rfl | h
    · exact le_max_left _ _
    · exact (ih h).trans (le_max_right _ _)

theorem residual_le {hf : List (List ℝ)} {n i : ℕ} {crit : ℝ}
    (hr : maxResidual (hf.map fun h => idft (h.map fun r : ℝ => (r : ℂ))) (n / 2) i ≤ crit)
    {h : List ℝ} (hh : h ∈ hf) (hl : h.length = n) :
    ∑ m ∈ Ico i (n / 2), ‖Spec.impulseR h m‖ ≤ crit := by
  refine le_trans ?_ hr
  refine le_trans ?_ (le_foldr_max _ _ (List.mem_map.2 ⟨_, List.mem_map.2 ⟨h, hh, rfl⟩, rfl⟩))
  apply le_of_eq
  apply Finset.sum_congr rfl
  intro m hm
  rw [mem_Ico] at hm
  congr 1
  rw [getD_idft_imp _ (by rw [List.length_map]; omega)]
  rfl

/-- What the returned support means in terms of the sums the code computes: either the criterion is
met at some index below half the length, and the support is one more than the first such index, or
it is met nowhere and half the length is returned. -/
theorem support_cases (hf : List (List ℝ)) (n : ℕ) (crit : ℝ) :
    (∃ i, i < n / 2 ∧ computeTemporalSupport hf n crit = i + 1 ∧
      maxResidual (hf.map fun h => idft (h.map fun r : ℝ => (r : ℂ))) (n / 2) i ≤ crit ∧
      ∀ k < i, crit < maxResidual (hf.map fun h => idft (h.map fun r : ℝ => (r : ℂ))) (n / 2) k) ∨
    ((∀ i < n / 2, crit < maxResidual (hf.map fun h => idft (h.map fun r : ℝ => (r : ℂ))) (n / 2) i) ∧
      computeTemporalSupport hf n crit = n / 2) := by
  classical
  unfold computeTemporalSupport
  simp only
  split
  · rename_i h
    left
    have hs := Nat.find_spec h
    refine ⟨_, hs.1, ?_, hs.2, fun k hk => ?_⟩
    · congr 1
    · have := Nat.find_min h hk
      push Not at this
      exact this (by omega)
  · rename_i h
    right
    push Not at h
    exact ⟨h, rfl⟩

/-- C30 (partial): truncating a real filter of the family outside the returned support changes any
filtered signal by at most `(2 crit + 2 |h[half]|) max|x|`.  The documented bound would be without the
second term; see `C30_fails`. -/
theorem C30_truncation_partial (hf : List (List ℝ)) (crit : ℝ) (hc : 0 ≤ crit) (h : List ℝ)
    (hh : h ∈ hf) (x : List ℝ) (hl : h.length = x.length) (M : ℝ)
    (hM : 0 ≤ M) (hx : ∀ m < x.length, |x.getD m 0| ≤ M) (t : ℤ) :
    ‖Spec.convR x (Spec.impulseR h) t - Spec.convR x
        (Spec.truncate x.length (computeTemporalSupport hf x.length crit) (Spec.impulseR h)) t‖ ≤
      (2 * crit + 2 * ‖Spec.impulseR h (x.length / 2 : ℕ)‖) * M := by
  refine (truncation_error M hx hl _ t).trans ?_
  rw [mul_comm]
  apply mul_le_mul_of_nonneg_right _ hM
  rw [← mul_add]
  apply mul_le_mul_of_nonneg_left _ (by norm_num)
  rcases support_cases hf x.length crit with ⟨i, hi, he, hr, -⟩ | ⟨-, he⟩
  · rw [he]
    have h1 := residual_le hr hh hl
    rcases Nat.lt_or_ge (x.length / 2) (i + 1 + 1) with h2 | h2
    · rw [Finset.Icc_eq_empty (by omega), Finset.sum_empty]
      positivity
    · rw [← Finset.Ico_insert_right h2, Finset.sum_insert (by simp), add_comm]
      refine add_le_add (le_trans ?_ h1) le_rfl
      apply Finset.sum_le_sum_of_subset_of_nonneg
      · exact Finset.Ico_subset_Ico (by omega) le_rfl
      · intros; positivity
  · rw [he, Finset.Icc_eq_empty (by omega), Finset.sum_empty]
    positivity

/-- C30 (partial): if the modulus of the impulse response does not increase up to half the length (as
for a low-pass), the bound `2 crit max|x|` holds. -/
theorem C30_decreasing_partial (hf : List (List ℝ)) (crit : ℝ) (hc : 0 ≤ crit) (h : List ℝ)
    (hh : h ∈ hf) (x : List ℝ) (hl : h.length = x.length) (M : ℝ)
    (hM : 0 ≤ M) (hx : ∀ m < x.length, |x.getD m 0| ≤ M) (t : ℤ)
    (hdec : ∀ m k : ℕ, m ≤ k → k ≤ x.length / 2 → ‖Spec.impulseR h k‖ ≤ ‖Spec.impulseR h m‖) :
    ‖Spec.convR x (Spec.impulseR h) t - Spec.convR x
        (Spec.truncate x.length (computeTemporalSupport hf x.length crit) (Spec.impulseR h)) t‖ ≤
      2 * crit * M := by
  refine (truncation_error M hx hl _ t).trans ?_
  rw [mul_comm]
  apply mul_le_mul_of_nonneg_right _ hM
  apply mul_le_mul_of_nonneg_left _ (by norm_num)
  rcases support_cases hf x.length crit with ⟨i, hi, he, hr, -⟩ | ⟨-, he⟩
  · rw [he]
    have h1 := residual_le hr hh hl
    rcases Nat.lt_or_ge (x.length / 2) (i + 1 + 1) with h2 | h2
    · rw [Finset.Icc_eq_empty (by omega), Finset.sum_empty]
      exact hc
    · rw [← Finset.Ico_insert_right h2, Finset.sum_insert (by simp)]
      refine le_trans ?_ h1
      rw [← Finset.sum_Ioo_add_eq_sum_Ico (by omega : i < x.length / 2), add_comm]
      refine add_le_add ?_ (hdec i (x.length / 2) (by omega) le_rfl)
      apply Finset.sum_le_sum_of_subset_of_nonneg
      · intro k hk
        simp only [mem_Ico, mem_Ioo] at hk ⊢
        omega
      · intros; positivity
  · rw [he, Finset.Icc_eq_empty (by omega), Finset.sum_empty]
    exact hc

/-- C30, the fallback: if no index meets the criterion, half the length is returned and truncation
changes nothing. -/
theorem C30_fallback (hf : List (List ℝ)) (crit : ℝ) (h : List ℝ) (x : List ℝ)
    (hl : h.length = x.length)
    (hno : ∀ i < x.length / 2, crit <
      maxResidual (hf.map fun h => idft (h.map fun r : ℝ => (r : ℂ))) (x.length / 2) i) (t : ℤ) :
    computeTemporalSupport hf x.length crit = x.length / 2 ∧
    Spec.convR x (Spec.truncate x.length (computeTemporalSupport hf x.length crit)
      (Spec.impulseR h)) t = Spec.convR x (Spec.impulseR h) t := by
  have he : computeTemporalSupport hf x.length crit = x.length / 2 := by
    rcases support_cases hf x.length crit with ⟨i, hi, -, hr, -⟩ | ⟨-, he⟩
    · exact absurd (hno i hi) (not_lt.2 hr)
    · exact he
  refine ⟨he, ?_⟩
  have := truncation_error (h := h) (x := x) (∑ m ∈ range x.length, |x.getD m 0|)
    (fun m hm => Finset.single_le_sum (f := fun m => |x.getD m 0|) (fun _ _ => abs_nonneg _)
      (mem_range.2 hm)) hl (computeTemporalSupport hf x.length crit) t
  rw [he, Finset.Icc_eq_empty (by omega), Finset.sum_empty, mul_zero, mul_zero, norm_le_zero_iff,
    sub_eq_zero] at this
  rw [he]
  exact this.symm

/-- C30 fails as stated: the filter with transfer function `[1, -1, 1, -1]` (a unit impulse at time 2)
is given support 1, but restricting it to `[-1, 1]` removes it altogether. -/
theorem C30_fails : ∃ (h x : List ℝ) (t : ℤ), h.length = x.length ∧ (∀ m < x.length, |x.getD m 0| ≤ 1) ∧
    ¬ ‖Spec.convR x (Spec.impulseR h) t - Spec.convR x
        (Spec.truncate x.length (computeTemporalSupport [h] x.length 1e-3) (Spec.impulseR h)) t‖ ≤
      2 * 1e-3 * 1 := by
  have hexp : ∀ z : ℤ, Complex.exp (2 * Real.pi * Complex.I * (z : ℂ) / 4) = Complex.I ^ z := by
    intro z
    rw [show 2 * Real.pi * Complex.I * (z : ℂ) / 4 = z * (Real.pi / 2 * Complex.I) by ring,
      Complex.exp_int_mul, Complex.exp_pi_div_two_mul_I]
  have imp : ∀ n : ℤ, Spec.impulseR [1, -1, 1, -1] n =
      (1 - Complex.I ^ n + Complex.I ^ (2 * n) - Complex.I ^ (3 * n)) / 4 := by
    intro n
    unfold Spec.impulseR Spec.impulse
    simp only [List.map_cons, List.map_nil, List.length_cons, List.length_nil]
    simp only [Finset.sum_range_succ, Finset.sum_range_zero]
    norm_num only [Nat.cast_ofNat, Nat.cast_zero, Nat.cast_one]
    rw [hexp, hexp, hexp, hexp]
    simp
    ring
  have v0 : Spec.impulseR [1, -1, 1, -1] 0 = 0 := by rw [imp]; simp
  have hI2 : Complex.I ^ (2 : ℤ) = -1 := by exact_mod_cast Complex.I_sq
  have hI3 : Complex.I ^ (3 : ℤ) = -Complex.I := by exact_mod_cast Complex.I_pow_three
  have v1 : Spec.impulseR [1, -1, 1, -1] 1 = 0 := by
    rw [imp]
    simp only [mul_one, zpow_one, hI2, hI3]
    ring
  have v2 : Spec.impulseR [1, -1, 1, -1] 2 = 1 := by
    rw [imp]
    rw [show (2 : ℤ) * 2 = 4 by norm_num, show (3 : ℤ) * 2 = 4 + 2 by norm_num,
      zpow_add₀ Complex.I_ne_zero, hI2]
    have : Complex.I ^ (4 : ℤ) = 1 := by exact_mod_cast Complex.I_pow_four
    rw [this]
    norm_num
  have hs : computeTemporalSupport [[1, -1, 1, -1]] 4 1e-3 = 1 := by
    have hres : maxResidual ([[1, -1, 1, -1]].map fun h : List ℝ =>
        idft (h.map fun r : ℝ => (r : ℂ))) (4 / 2) 0 = 0 := by
      unfold maxResidual
      rw [show 4 / 2 = 2 from rfl]
      have e : ∀ m : ℕ, m < 4 → (idft (([1, -1, 1, -1] : List ℝ).map fun r : ℝ => (r : ℂ))).getD m 0 =
          Spec.impulseR [1, -1, 1, -1] m := fun m hm => getD_idft_imp _ (by simpa using hm)
      simp only [List.map_cons, List.map_nil, List.foldr_cons, List.foldr_nil] at e ⊢
      rw [Finset.sum_congr rfl (g := fun _ => (0 : ℝ))]
      · simp
      · intro m hm
        rw [mem_Ico] at hm
        rw [e m (by omega)]
        have : m = 0 ∨ m = 1 := by omega
        rcases this with rfl | rfl
        · rw [Nat.cast_zero, v0, norm_zero]
        · rw [Nat.cast_one, v1, norm_zero]
    rcases support_cases [[1, -1, 1, -1]] 4 1e-3 with ⟨i, hi, he, hr, hlt⟩ | ⟨hno, -⟩
    · rcases Nat.eq_zero_or_pos i with rfl | hp
      · exact he
      · have := hlt 0 hp
        rw [hres] at this
        norm_num at this
    · have := hno 0 (by norm_num)
      rw [hres] at this
      norm_num at this
  refine ⟨[1, -1, 1, -1], [1, 0, 0, 0], 2, rfl, ?_, ?_⟩
  · intro m hm
    simp at hm
    interval_cases m <;> simp
  · show ¬ ‖_ - Spec.convR _ (Spec.truncate 4 (computeTemporalSupport [[1, -1, 1, -1]] 4 1e-3) _) 2‖ ≤ _
    rw [hs]
    unfold Spec.convR
    simp only [List.length_cons, List.length_nil, Finset.sum_range_succ, Finset.sum_range_zero]
    norm_num
    unfold Spec.truncate
    rw [v2]
    norm_num

/-- A filter and a signal meeting the hypotheses of `C30_decreasing_partial`: `[1, 1/2, 0, 1/2]` has
the impulse response `[1/2, 1/4, 0, 1/4]`. -/
example : ∀ m k : ℕ, m ≤ k → k ≤ ([3, -1, 2, 5] : List ℝ).length / 2 →
    ‖Spec.impulseR [1, 1 / 2, 0, 1 / 2] k‖ ≤ ‖Spec.impulseR [1, 1 / 2, 0, 1 / 2] m‖ := by
  have hexp : ∀ z : ℤ, Complex.exp (2 * Real.pi * Complex.I * (z : ℂ) / 4) = Complex.I ^ z := by
    intro z
    rw [show 2 * Real.pi * Complex.I * (z : ℂ) / 4 = z * (Real.pi / 2 * Complex.I) by ring,
      Complex.exp_int_mul, Complex.exp_pi_div_two_mul_I]
  have imp : ∀ n : ℤ, Spec.impulseR [1, 1 / 2, 0, 1 / 2] n =
      (1 + Complex.I ^ n / 2 + Complex.I ^ (3 * n) / 2) / 4 := by
    intro n
    unfold Spec.impulseR Spec.impulse
    simp only [List.map_cons, List.map_nil, List.length_cons, List.length_nil]
    simp only [Finset.sum_range_succ, Finset.sum_range_zero]
    norm_num only [Nat.cast_ofNat, Nat.cast_zero, Nat.cast_one]
    rw [hexp, hexp, hexp, hexp]
    simp
    ring
  have hI2 : Complex.I ^ (2 : ℤ) = -1 := by exact_mod_cast Complex.I_sq
  have hI3 : Complex.I ^ (3 : ℤ) = -Complex.I := by exact_mod_cast Complex.I_pow_three
  have v0 : ‖Spec.impulseR [1, 1 / 2, 0, 1 / 2] 0‖ = 1 / 2 := by
    rw [imp]; norm_num
  have v1 : ‖Spec.impulseR [1, 1 / 2, 0, 1 / 2] 1‖ = 1 / 4 := by
    rw [imp]
    simp only [mul_one, zpow_one, hI3]
    rw [show (1 + Complex.I / 2 + -Complex.I / 2) / 4 = ((1 / 4 : ℝ) : ℂ) by push_cast; ring,
      Complex.norm_real]
    norm_num
  have v2 : ‖Spec.impulseR [1, 1 / 2, 0, 1 / 2] 2‖ = 0 := by
    rw [imp, show (3 : ℤ) * 2 = 4 + 2 by norm_num, zpow_add₀ Complex.I_ne_zero, hI2]
    have : Complex.I ^ (4 : ℤ) = 1 := by exact_mod_cast Complex.I_pow_four
    rw [this]
    norm_num
  intro m k hmk hk
  have hk : k ≤ 2 := hk
  interval_cases k <;> interval_cases m <;> simp only [Nat.cast_zero, Nat.cast_one, Nat.cast_ofNat] <;>
    simp only [v0, v1, v2] <;> norm_num

end Verif
