import Verif.Lemmas.BankBound

/-!
# C114: coverage of the frequency axis

The documentation of `anden_generator` (scattering1d/filter_bank.py L269-274) promises full coverage of the Fourier
domain between `pi / 2^J` and `pi`, that is between `1/2^(J+1)` and `1/2` in cycles per sample.
-/

namespace Verif

open Finset

/-- The Gaussian profile of a wavelet with centre frequency `p.1` and bandwidth `p.2`: one at the centre. -/
noncomputable def Spec.profile (p : ℝ × ℝ) (w : ℝ) : ℝ := Real.exp (-(w - p.1) ^ 2 / (2 * p.2 ^ 2))

/-- The profile is at least `exp(-c^2/2)` within `c` bandwidths of the centre. -/
theorem profile_ge {p : ℝ × ℝ} {w c : ℝ} (hs : 0 < p.2) (h : |w - p.1| ≤ c * p.2) :
    Real.exp (-(c ^ 2 / 2)) ≤ Spec.profile p w := by
  unfold Spec.profile
  apply Real.exp_le_exp.2
  rw [neg_div, neg_le_neg_iff, div_le_div_iff₀ (by positivity) (by norm_num)]
  have h1 : (w - p.1) ^ 2 ≤ (c * p.2) ^ 2 := by
    rw [← sq_abs (w - p.1)]
    exact pow_le_pow_left₀ (abs_nonneg _) h 2
  nlinarith

/-- The profile is below `exp(-c^2/2)` further away. -/
theorem profile_lt {p : ℝ × ℝ} {w c : ℝ} (hs : 0 < p.2) (hc : 0 ≤ c) (h : c * p.2 < |w - p.1|) :
    Spec.profile p w < Real.exp (-(c ^ 2 / 2)) := by
  unfold Spec.profile
  apply Real.exp_lt_exp.2
  rw [neg_div, neg_lt_neg_iff, div_lt_div_iff₀ (by norm_num) (by positivity)]
  have h1 : (c * p.2) ^ 2 < (w - p.1) ^ 2 := by
    rw [← sq_abs (w - p.1)]
    exact pow_lt_pow_left₀ h (by positivity) (by norm_num)
  nlinarith

/-- The level `sqrt 0.5` is reached at `sqrt(log 2)` bandwidths. -/
theorem level_half : Real.exp (-(Real.sqrt (Real.log 2) ^ 2 / 2)) = Real.sqrt 0.5 := by
  rw [Real.sq_sqrt (Real.log_nonneg (by norm_num)), ← sqrt_half]
  rw [show -(2 * Real.log (1 / Real.sqrt 0.5) / 2) = Real.log (Real.sqrt 0.5) by
    rw [one_div, Real.log_inv]; ring]
  exact Real.exp_log sqrt_half_pos

theorem rho_mul (Q : ℕ) : rho Q * Real.sqrt (Real.log 2) = (qr Q - 1) / (qr Q + 1) := by
  unfold rho
  have := sqrt_log_two_gt
  rw [div_mul_cancel₀]
  exact (lt_trans (by norm_num) this).ne'

/-- `3.5 * Q * rho Q` is at least `2^{1/Q}` for `Q ≥ 2`. -/
theorem rho_ge' {Q : ℕ} (hQ : 2 ≤ Q) : qr Q ≤ 3.5 * Q * rho Q := by
  have hq1 : 1 ≤ Q := by omega
  have hs := sqrt_log_two_gt
  have hs' := sqrt_log_two_lt
  have hg := qr_gt_one hq1
  have hS : 0 < Real.sqrt (Real.log 2) := lt_trans (by norm_num) hs
  have hsq : Real.sqrt (Real.log 2) * Real.sqrt (Real.log 2) = Real.log 2 :=
    Real.mul_self_sqrt (Real.log_nonneg (by norm_num))
  have hl := Real.log_two_gt_d9
  have hl' := Real.log_two_lt_d9
  have hS' : Real.sqrt (Real.log 2) ≤ 0.8327 := by
    rw [Real.sqrt_le_left (by norm_num)]
    norm_num at hl' ⊢
    linarith
  unfold rho
  rw [div_div, mul_div_assoc', le_div_iff₀ (by positivity)]
  rcases Nat.lt_or_ge Q 3 with h | h
  · have : Q = 2 := by omega
    subst this
    have h4 := qr_pow (Q := 2) (by norm_num)
    have h0 := qr_pos 2
    have h2 : qr 2 ≤ 1.41422 := by
      by_contra hc
      push Not at hc
      norm_num at hc
      nlinarith
    have h3 : 1.41421 ≤ qr 2 := by
      by_contra hc
      push Not at hc
      norm_num at hc
      nlinarith
    have h5 : qr 2 * ((qr 2 + 1) * Real.sqrt (Real.log 2)) ≤ qr 2 * ((qr 2 + 1) * 0.8327) :=
      mul_le_mul_of_nonneg_left (mul_le_mul_of_nonneg_left hS' (by linarith)) h0.le
    refine h5.trans ?_
    norm_num at h2 h3 ⊢
    nlinarith
  · have h2 : qr Q ≤ 1.26 := by
      refine (qr_anti (by norm_num : 1 ≤ 3) h).trans ?_
      have h2 := qr_pow (Q := 3) (by norm_num)
      by_contra hc
      push Not at hc
      have : (1.26 : ℝ) ^ 3 < qr 3 ^ 3 := pow_lt_pow_left₀ hc (by norm_num) (by norm_num)
      rw [h2] at this
      norm_num at this
    have hQ0 : (0 : ℝ) < Q := by positivity
    have h5 : Real.log 2 ≤ Q * (qr Q - 1) := by
      have h1 := qr_ge Q
      have : Real.log 2 / Q ≤ qr Q - 1 := by linarith
      rw [div_le_iff₀ hQ0] at this
      linarith
    have h6 : qr Q * ((qr Q + 1) * Real.sqrt (Real.log 2)) ≤ 1.26 * ((1.26 + 1) * 0.8327) := by
      gcongr
    norm_num at h6 hl ⊢
    nlinarith

theorem rho_one_ge' : 0.4 ≤ rho 1 := by
  unfold rho
  rw [qr_one]
  have hl' := Real.log_two_lt_d9
  have hS : 0 < Real.sqrt (Real.log 2) := lt_trans (by norm_num) sqrt_log_two_gt
  have hS' : Real.sqrt (Real.log 2) ≤ 0.8327 := by
    rw [Real.sqrt_le_left (by norm_num)]
    norm_num at hl' ⊢
    linarith
  rw [le_div_iff₀ hS]
  norm_num at hS' ⊢
  linarith

/-- The geometric part covers the frequencies between its ends at level `sqrt 0.5`. -/
theorem cover_geo {Q : ℕ} (hQ : 1 ≤ Q) {X : ℝ} (hX : 0 < X) {w : ℝ} (n : ℕ) (h1 : X / qr Q ^ n ≤ w) (h2 : w ≤ X) :
    ∃ i ≤ n, Real.sqrt 0.5 ≤ Spec.profile (X / qr Q ^ i, rho Q * X / qr Q ^ i) w := by
  have hq := qr_gt_one hQ
  have hr := rho_pos hQ
  have hm := rho_mul Q
  induction n with
  | zero =>
    refine ⟨0, le_rfl, ?_⟩
    simp only [pow_zero, div_one] at h1 ⊢
    rw [← level_half]
    have := Real.sqrt_nonneg (Real.log 2)
    refine profile_ge (by positivity) ?_
    rw [show w = X from le_antisymm h2 h1]
    simp only [sub_self, abs_zero]
    positivity
  | succ n ih =>
    rcases le_or_gt (X / qr Q ^ n) w with h | h
    · obtain ⟨i, hi, h⟩ := ih h
      exact ⟨i, by omega, h⟩
    · set Y := X / qr Q ^ n with hY
      have hY0 : 0 < Y := by positivity
      have e1 : X / qr Q ^ (n + 1) = Y / qr Q := by rw [pow_succ, ← div_div]
      have e2 : rho Q * X / qr Q ^ (n + 1) = rho Q * (Y / qr Q) := by rw [mul_div_assoc, e1]
      have e3 : rho Q * X / qr Q ^ n = rho Q * Y := by rw [mul_div_assoc]
      rw [e1] at h1
      have hmid : Y / qr Q + (qr Q - 1) / (qr Q + 1) * (Y / qr Q) = Y - (qr Q - 1) / (qr Q + 1) * Y := by
        have : qr Q + 1 ≠ 0 := by linarith
        have : qr Q ≠ 0 := by linarith
        field_simp
        ring
      rcases le_or_gt (Y - (qr Q - 1) / (qr Q + 1) * Y) w with h3 | h3
      · refine ⟨n, by omega, ?_⟩
        rw [e3, ← level_half]
        refine profile_ge (by positivity) ?_
        rw [abs_le]
        constructor
        · simp only
          have : Real.sqrt (Real.log 2) * (rho Q * Y) = (qr Q - 1) / (qr Q + 1) * Y := by rw [← hm]; ring
          rw [this]
          linarith
        · simp only
          have : 0 ≤ Real.sqrt (Real.log 2) * (rho Q * Y) := by positivity
          linarith
      · refine ⟨n + 1, le_rfl, ?_⟩
        rw [e1, e2, ← level_half]
        refine profile_ge (by positivity) ?_
        rw [abs_le]
        constructor
        · simp only
          have : 0 ≤ Real.sqrt (Real.log 2) * (rho Q * (Y / qr Q)) := by positivity
          linarith
        · simp only
          have : Real.sqrt (Real.log 2) * (rho Q * (Y / qr Q)) = (qr Q - 1) / (qr Q + 1) * (Y / qr Q) := by
            rw [← hm]; ring
          rw [this]
          linarith

theorem exp_cover : 0.2 ≤ Real.exp (-((1.75 : ℝ) ^ 2 / 2)) := by
  rw [Real.exp_neg, ← one_div, le_div_iff₀ (Real.exp_pos _)]
  have h := Real.exp_bound' (x := 1.53125 / 2) (by norm_num) (by norm_num) (n := 8) (by norm_num)
  have e : Real.exp (1.75 ^ 2 / 2) = Real.exp (1.53125 / 2) * Real.exp (1.53125 / 2) := by
    rw [← Real.exp_add]; norm_num
  rw [e]
  have h2 : Real.exp (1.53125 / 2) ≤ 2.2 := h.trans (by norm_num [sum_range_succ, Nat.factorial])
  have h3 := Real.exp_pos (1.53125 / 2)
  nlinarith

/-- The filter bank, with the end of the geometric part. -/
theorem anden_elbow {J Q : ℕ} (hQ : 1 ≤ Q) (hs : 0.1 / 2 ^ J < rho Q * computeXiMax Q) : ∃ K : ℕ,
    rho Q * computeXiMax Q / qr Q ^ K ≤ 0.1 / 2 ^ J * qr Q ∧ 0.1 / 2 ^ J < rho Q * computeXiMax Q / qr Q ^ K ∧
    anden J Q = ((List.range (K + 1)).map fun k => (computeXiMax Q / qr Q ^ k, rho Q * computeXiMax Q / qr Q ^ k)) ++
      (List.range (Q - 1)).map fun q : ℕ =>
        (computeXiMax Q / qr Q ^ K - ((q : ℝ) + 1) / Q * (computeXiMax Q / qr Q ^ K), 0.1 / 2 ^ J) := by
  have hu := qr_gt_one hQ
  have hc := (andenGenerator_closed J Q hQ 0.1 (Real.sqrt 0.5) (by norm_num)).2
  simp only [sigmaRatio_lib] at hc
  obtain ⟨K, hK1, hK2, he⟩ := hc hs
  refine ⟨K, hK1, ?_, ?_⟩
  · cases K with
    | zero => simpa using hs
    | succ K =>
      have := hK2 K (by omega)
      rw [lt_div_iff₀ (by positivity)] at this ⊢
      rw [pow_succ]
      linarith
  · unfold anden
    rw [he]
    rfl

/-- **C114 (partial), geometric part.**  Every frequency between the elbow `xi_max * 2^{1/Q} * sigma_min / sigma_max` and
the largest centre frequency is covered at level `sqrt 0.5`, the level at which adjacent wavelets are meant to meet. -/
theorem C114_geometric_partial (J Q : ℕ) (hQ : 1 ≤ Q)
    (hs : 0.1 / 2 ^ J < computeSigmaPsi (computeXiMax Q) Q (Real.sqrt 0.5)) (w : ℝ)
    (h1 : computeXiMax Q * (2 : ℝ) ^ ((1 : ℝ) / Q) * (0.1 / 2 ^ J) / computeSigmaPsi (computeXiMax Q) Q (Real.sqrt 0.5) ≤ w)
    (h2 : w ≤ computeXiMax Q) : ∃ p ∈ anden J Q, Real.sqrt 0.5 ≤ Spec.profile p w := by
  have hX : 0 < computeXiMax Q := lt_of_lt_of_le (by norm_num) (computeXiMax_ge Q)
  have hr := rho_pos hQ
  have hq := qr_gt_one hQ
  rw [computeSigmaPsi_eq, sigmaRatio_lib] at hs h1
  rw [show (2 : ℝ) ^ ((1 : ℝ) / Q) = qr Q from rfl, div_le_iff₀ (by positivity)] at h1
  obtain ⟨K, hK1, hK2, he⟩ := anden_elbow hQ hs
  have h3 : computeXiMax Q / qr Q ^ K ≤ w := by
    rw [div_le_iff₀ (by positivity)] at hK1 ⊢
    have : rho Q * computeXiMax Q * computeXiMax Q ≤ w * qr Q ^ K * (rho Q * computeXiMax Q) := by
      calc rho Q * computeXiMax Q * computeXiMax Q ≤ 0.1 / 2 ^ J * qr Q * qr Q ^ K * computeXiMax Q := by gcongr
        _ = computeXiMax Q * qr Q * (0.1 / 2 ^ J) * qr Q ^ K := by ring
        _ ≤ w * (rho Q * computeXiMax Q) * qr Q ^ K := by gcongr
        _ = _ := by ring
    have h0 : 0 < rho Q * computeXiMax Q := by positivity
    nlinarith
  obtain ⟨i, hi, h⟩ := cover_geo hQ hX K h3 h2
  refine ⟨_, ?_, h⟩
  rw [he]
  exact List.mem_append_left _ (List.mem_map.2 ⟨i, List.mem_range.2 (by omega), rfl⟩)

/-- **C114 (partial).**  If the first bandwidth exceeds `sigma_min = 0.1 / 2^J`, every frequency between `1/2^(J+1)`
(`pi / 2^J` in radians) and the largest centre frequency is covered: the Gaussian profile of some wavelet is at least
0.2 there.  Missing for the full C114: the level `sqrt 0.5` below the elbow, and the frequencies between the largest centre
frequency and `1/2` (`C114_violated`), and banks whose first bandwidth is below `sigma_min` (`C114_empty_violated`). -/
theorem C114_partial (J Q : ℕ) (hQ : 1 ≤ Q)
    (hs : 0.1 / 2 ^ J < computeSigmaPsi (computeXiMax Q) Q (Real.sqrt 0.5)) (w : ℝ)
    (h1 : 1 / 2 ^ (J + 1) ≤ w) (h2 : w ≤ computeXiMax Q) : ∃ p ∈ anden J Q, 0.2 ≤ Spec.profile p w := by
  have hX : 0 < computeXiMax Q := lt_of_lt_of_le (by norm_num) (computeXiMax_ge Q)
  have hr := rho_pos hQ
  have hq := qr_gt_one hQ
  rw [computeSigmaPsi_eq, sigmaRatio_lib] at hs
  obtain ⟨K, hK1, hK2, he⟩ := anden_elbow hQ hs
  have hlow : (0.2 : ℝ) ≤ Real.sqrt 0.5 := by
    apply Real.le_sqrt_of_sq_le; norm_num
  have hgeo : computeXiMax Q / qr Q ^ K ≤ w → ∃ p ∈ anden J Q, 0.2 ≤ Spec.profile p w := by
    intro h3
    obtain ⟨i, hi, h⟩ := cover_geo hQ hX K h3 h2
    refine ⟨_, ?_, hlow.trans h⟩
    rw [he]
    exact List.mem_append_left _ (List.mem_map.2 ⟨i, List.mem_range.2 (by omega), rfl⟩)
  set e := computeXiMax Q / qr Q ^ K with hee
  have he0 : 0 < e := by positivity
  have hre : rho Q * computeXiMax Q / qr Q ^ K = rho Q * e := by rw [mul_div_assoc]
  rw [hre] at hK1 hK2
  set sm : ℝ := 0.1 / 2 ^ J with hsm
  have hsm0 : 0 < sm := by positivity
  have hw5 : 5 * sm ≤ w := by
    refine le_trans (le_of_eq ?_) h1
    rw [hsm, pow_succ]
    field_simp
    norm_num
  rcases Nat.lt_or_ge Q 2 with h | h
  · have : Q = 1 := by omega
    subst this
    apply hgeo
    rw [qr_one] at hK1
    have := rho_one_ge'
    norm_num at this hw5
    nlinarith
  · have hQ0 : (0 : ℝ) < Q := by positivity
    have hd : e / Q ≤ 3.5 * sm := by
      rw [div_le_iff₀ hQ0]
      have h3 := rho_ge' h
      have h4 : rho Q * e ≤ rho Q * (3.5 * sm * Q) := by
        calc rho Q * e ≤ sm * qr Q := hK1
          _ ≤ sm * (3.5 * Q * rho Q) := mul_le_mul_of_nonneg_left h3 hsm0.le
          _ = _ := by ring
      exact le_of_mul_le_mul_left h4 hr
    rcases le_or_gt e w with h3 | h3
    · exact hgeo h3
    · set d := e / Q with hdd
      have hd0 : 0 < d := by positivity
      have hed : e = Q * d := by rw [hdd]; field_simp
      -- the nearest multiple of the spacing
      obtain ⟨k, hk⟩ : ∃ k : ℤ, k = round (w / d) := ⟨_, rfl⟩
      have hk1 : |w - k * d| ≤ d / 2 := by
        have := abs_sub_round (w / d)
        rw [← hk] at this
        have e1 : w - k * d = (w / d - k) * d := by field_simp
        rw [e1, abs_mul, abs_of_pos hd0]
        nlinarith
      obtain ⟨a1, a2⟩ := abs_le.1 hk1
      have hk2 : 1 ≤ k := by
        by_contra hc
        have : (k : ℝ) ≤ 0 := by exact_mod_cast (by omega : k ≤ 0)
        nlinarith
      have hk3 : k ≤ Q := by
        by_contra hc
        have : (Q : ℝ) + 1 ≤ k := by exact_mod_cast (by omega : (Q : ℤ) + 1 ≤ k)
        nlinarith
      have hkd : |w - k * d| ≤ 1.75 * sm := by
        norm_num at hd ⊢
        linarith
      rcases eq_or_lt_of_le hk3 with h4 | h4
      · refine ⟨(e, rho Q * e), ?_, exp_cover.trans (profile_ge (by positivity) ?_)⟩
        · rw [he]
          exact List.mem_append_left _ (List.mem_map.2 ⟨K, List.mem_range.2 (by omega), by rw [hre]⟩)
        · have : (k : ℝ) = Q := by rw [h4]; norm_cast
          rw [this, ← hed] at hkd
          refine hkd.trans ?_
          exact mul_le_mul_of_nonneg_left hK2.le (by norm_num)
      · obtain ⟨m, hm⟩ : ∃ m : ℕ, k = m := ⟨k.toNat, by omega⟩
        refine ⟨(e - (((Q - m - 1 : ℕ) : ℝ) + 1) / Q * e, sm), ?_, exp_cover.trans (profile_ge hsm0 ?_)⟩
        · rw [he]
          exact List.mem_append_right _ (List.mem_map.2 ⟨Q - m - 1, List.mem_range.2 (by omega), rfl⟩)
        · have e2 : e - (((Q - m - 1 : ℕ) : ℝ) + 1) / Q * e = k * d := by
            rw [Nat.cast_sub (by omega), Nat.cast_sub (by omega), hm, hed]
            push_cast
            field_simp
            ring
          simp only
          rw [e2]
          exact hkd

/-- Every bank of a quality factor of at most `2^J` meets the hypothesis of `C114_partial`. -/
theorem first_sigma_gt {J Q : ℕ} (hQ : 1 ≤ Q) (hQJ : Q ≤ 2 ^ J) :
    0.1 / 2 ^ J < computeSigmaPsi (computeXiMax Q) Q (Real.sqrt 0.5) := by
  rw [computeSigmaPsi_eq, sigmaRatio_lib]
  exact bank_first hQ hQJ

/-- `J = 6`, `Q = 8`, the frequency `0.01`. -/
example : (1 : ℝ) / 2 ^ (6 + 1) ≤ 0.01 ∧ 0.01 ≤ computeXiMax 8 ∧ ∃ p ∈ anden 6 8, 0.2 ≤ Spec.profile p 0.01 :=
  ⟨by norm_num, le_trans (by norm_num) (computeXiMax_ge 8), C114_partial 6 8 (by norm_num)
    (first_sigma_gt (by norm_num) (by norm_num)) 0.01 (by norm_num) (le_trans (by norm_num) (computeXiMax_ge 8))⟩

/-- The Nyquist frequency is more than half a step above the largest centre frequency. -/
theorem xi_max_step {Q : ℕ} (hQ : 1 ≤ Q) : (qr Q - 1) / (qr Q + 1) * computeXiMax Q < 1 / 2 - computeXiMax Q := by
  have hq := qr_gt_one hQ
  have h2 := qr_le_two hQ
  have e : (2 : ℝ) ^ ((3 : ℝ) / Q) = qr Q ^ 3 := by
    unfold qr
    rw [← Real.rpow_natCast, ← Real.rpow_mul (by norm_num)]
    congr 1
    push_cast
    ring
  have key : computeXiMax Q * (4 * qr Q) < qr Q + 1 := by
    unfold computeXiMax
    rw [e]
    rcases le_total (1 / (1 + qr Q ^ 3)) 0.35 with h | h
    · rw [max_eq_right h]
      norm_num
      linarith
    · rw [max_eq_left h, div_mul_eq_mul_div, one_mul, div_lt_iff₀ (by positivity)]
      nlinarith [mul_pos (sub_pos.2 hq) (sub_pos.2 hq)]
  have h3 : (qr Q - 1) / (qr Q + 1) * computeXiMax Q + computeXiMax Q = computeXiMax Q * (2 * qr Q) / (qr Q + 1) := by
    have : qr Q + 1 ≠ 0 := by linarith
    field_simp
    ring
  have h4 : computeXiMax Q * (2 * qr Q) / (qr Q + 1) < 1 / 2 := by
    rw [div_lt_iff₀ (by linarith)]
    linarith
  linarith

/-- **C114, violated at `pi`.**  For every `J` and `Q` no wavelet covers the Nyquist frequency: all profiles are below the
level `sqrt 0.5` there. -/
theorem C114_violated (J Q : ℕ) (hQ : 1 ≤ Q) (p : ℝ × ℝ) (hp : p ∈ anden J Q) : Spec.profile p (1 / 2) < Real.sqrt 0.5 := by
  have hX : 0 < computeXiMax Q := lt_of_lt_of_le (by norm_num) (computeXiMax_ge Q)
  have hX2 := computeXiMax_lt hQ
  have hr := rho_pos hQ
  have hq := qr_gt_one hQ
  have hm := rho_mul Q
  have hstep := xi_max_step hQ
  have hS0 := Real.sqrt_nonneg (Real.log 2)
  obtain ⟨a1, a2, a3⟩ := anden_pos hQ hp
  have hsm0 : (0 : ℝ) < 0.1 / 2 ^ J := by positivity
  rw [← level_half]
  refine profile_lt (lt_of_lt_of_le hsm0 a3) hS0 ?_
  refine lt_of_lt_of_le ?_ (le_abs_self _)
  rcases lt_or_ge (0.1 / 2 ^ J) (rho Q * computeXiMax Q) with hs | hs
  · obtain ⟨K, hK1, hK2, he⟩ := anden_elbow hQ hs
    have hgeo : ∀ k, Real.sqrt (Real.log 2) * (rho Q * computeXiMax Q / qr Q ^ k) < 1 / 2 - computeXiMax Q / qr Q ^ k := by
      intro k
      have e1 : Real.sqrt (Real.log 2) * (rho Q * computeXiMax Q / qr Q ^ k) =
          (qr Q - 1) / (qr Q + 1) * computeXiMax Q / qr Q ^ k := by rw [← hm]; ring
      rw [e1]
      have h1 : 0 ≤ (qr Q - 1) / (qr Q + 1) := div_nonneg (by linarith) (by linarith)
      have h2 : (qr Q - 1) / (qr Q + 1) * computeXiMax Q / qr Q ^ k ≤ (qr Q - 1) / (qr Q + 1) * computeXiMax Q :=
        div_le_self (by positivity) (one_le_pow₀ hq.le)
      have h3 : computeXiMax Q / qr Q ^ k ≤ computeXiMax Q := div_le_self hX.le (one_le_pow₀ hq.le)
      linarith
    rw [he, List.mem_append, List.mem_map, List.mem_map] at hp
    rcases hp with ⟨k, -, rfl⟩ | ⟨q, -, rfl⟩
    · exact hgeo k
    · have h1 := hgeo K
      have h2 : Real.sqrt (Real.log 2) * (0.1 / 2 ^ J) ≤ Real.sqrt (Real.log 2) * (rho Q * computeXiMax Q / qr Q ^ K) :=
        mul_le_mul_of_nonneg_left hK2.le hS0
      have h3 : 0 ≤ ((q : ℝ) + 1) / Q * (computeXiMax Q / qr Q ^ K) := by positivity
      simp only
      linarith
  · have hc := (andenGenerator_closed J Q hQ 0.1 (Real.sqrt 0.5) (by norm_num)).1
    simp only [sigmaRatio_lib] at hc
    unfold anden at hp
    rw [hc hs, Option.getD_some, List.mem_map] at hp
    obtain ⟨q, -, rfl⟩ := hp
    have h1 : (0.1 : ℝ) / 2 ^ J ≤ 0.1 := div_le_self (by norm_num) (one_le_pow₀ (by norm_num))
    have h2 : 0 ≤ ((q : ℝ) + 1) / Q * (rho Q * computeXiMax Q) := by positivity
    have h3 := sqrt_log_two_lt
    have h4 : Real.sqrt (Real.log 2) * (0.1 / 2 ^ J) ≤ 1 * 0.1 :=
      mul_le_mul (by linarith) h1 hsm0.le (by norm_num)
    simp only
    norm_num at h1 h4 hs ⊢
    linarith

example : (computeXiMax 8, computeSigmaPsi (computeXiMax 8) 8 (Real.sqrt 0.5)) ∈ anden 6 8 := by
  have h := geo_mem_anden (J := 6) (Q := 8) (by norm_num) 0 (by
    rw [pow_zero, div_one]
    exact bank_first (by norm_num) (by norm_num))
  rw [computeSigmaPsi_eq, sigmaRatio_lib]
  simpa using h

/-- **C114, violated for large quality factors.**  For `Q ≥ 2^(J+2)` the first bandwidth is below `sigma_min`; the code then
takes the bandwidth for the centre frequency, and no wavelet reaches 1/1000 of its peak anywhere between `5 sigma_min`,
which is `1/2^(J+1)`, and `1/2`. -/
theorem C114_empty_violated (J Q : ℕ) (hQ : 2 ^ (J + 2) ≤ Q) (p : ℝ × ℝ) (hp : p ∈ anden J Q) (w : ℝ)
    (hw : 1 / 2 ^ (J + 1) ≤ w) : Spec.profile p w < 0.001 := by
  have hQ1 : 1 ≤ Q := le_trans Nat.one_le_two_pow hQ
  have hQ0 : (0 : ℝ) < Q := by exact_mod_cast hQ1
  have hX : 0 < computeXiMax Q := lt_of_lt_of_le (by norm_num) (computeXiMax_ge Q)
  have hX2 := computeXiMax_lt hQ1
  have hr := rho_pos hQ1
  have hsm0 : (0 : ℝ) < 0.1 / 2 ^ J := by positivity
  have hs : rho Q * computeXiMax Q ≤ 0.1 / 2 ^ J := by
    have h1 := rho_le_of hQ1 (qr_le hQ1)
    have h2 : (1 + 1 / (Q : ℝ) - 1) / (1 + 1 / Q + 1) / 0.83 ≤ 1 / Q / 2 / 0.83 := by
      have : (0 : ℝ) < 1 / Q := by positivity
      gcongr <;> linarith
    have h3 : rho Q * computeXiMax Q ≤ 1 / Q / 2 / 0.83 * (1 / 2) := mul_le_mul (h1.trans h2) hX2.le hX.le (by positivity)
    refine h3.trans ?_
    have h4 : (4 : ℝ) * 2 ^ J ≤ Q := by
      have : ((2 ^ (J + 2) : ℕ) : ℝ) ≤ Q := by exact_mod_cast hQ
      push_cast at this
      rw [pow_add] at this
      linarith
    have h5 : (0 : ℝ) < 2 ^ J := by positivity
    rw [div_div, div_div, div_mul_div_comm, div_le_div_iff₀ (by positivity) h5]
    norm_num
    linarith
  obtain ⟨a1, a2, a3⟩ := anden_pos hQ1 hp
  have hc := (andenGenerator_closed J Q hQ1 0.1 (Real.sqrt 0.5) (by norm_num)).1
  simp only [sigmaRatio_lib] at hc
  unfold anden at hp
  rw [hc hs, Option.getD_some, List.mem_map] at hp
  obtain ⟨q, -, rfl⟩ := hp
  have hw5 : 5 * (0.1 / 2 ^ J) ≤ w := by
    refine le_trans (le_of_eq ?_) hw
    rw [pow_succ]
    field_simp
    norm_num
  have h2 : 0 ≤ ((q : ℝ) + 1) / Q * (rho Q * computeXiMax Q) := by positivity
  have h3 : Real.exp (-((3.9 : ℝ) ^ 2 / 2)) ≤ 0.001 := by
    have := exp_neg_le (a := 3.9 ^ 2 / 2) (b := 0.001) (by norm_num) 20 (by norm_num)
      (by norm_num [sum_range_succ, Nat.factorial])
    exact this
  refine lt_of_lt_of_le (profile_lt hsm0 (c := 3.9) (by norm_num) ?_) h3
  refine lt_of_lt_of_le ?_ (le_abs_self _)
  simp only
  set sm : ℝ := 0.1 / 2 ^ J
  norm_num at hw5 ⊢
  linarith

/-- `J = 2`, `Q = 16`: fifteen wavelets, none of which responds between `1/8` and `1/2`. -/
example : (2 : ℕ) ^ (2 + 2) ≤ 16 ∧ (1 : ℝ) / 2 ^ (2 + 1) ≤ 0.35 ∧ 1 ≤ (anden 2 16).length :=
  ⟨by norm_num, by norm_num, (C25_number_of_filters_partial 2 16 (by norm_num)).1⟩

end Verif
