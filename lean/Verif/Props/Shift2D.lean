import Verif.Props.Stability2D
import Verif.Lemmas.Shift2D
import Verif.Props.Instances2D

/-!
# C117: small translations of an image
-/

namespace Verif

open Finset

/-! ## The low-pass filter -/

/-- One axis of the transform of the sum of five copies of a Gaussian. -/
noncomputable def axisGauss (a : ℝ) (N k : ℕ) : ℂ :=
  ∑ u ∈ range N, (∑ e ∈ range 5, Real.exp (-(a * ((u : ℝ) + ((e : ℝ) - 2) * N) ^ 2)) : ℝ) * tw N (-((k : ℤ) * u))

theorem norm_axisGauss (a : ℝ) (ha : 0 < a) (N k : ℕ) :
    ‖axisGauss a N k‖ ≤ Real.sqrt (Real.pi / a) * thetaBound (Real.pi ^ 2 / a) := by
  unfold axisGauss
  refine (norm_sum_le _ _).trans (le_trans (le_of_eq ?_) (gauss_sum_le a 0 ha (periods N)))
  rw [← sum_periods N fun n => Real.exp (-(a * ((n : ℝ) + 0) ^ 2))]
  refine sum_congr rfl fun u _ => ?_
  rw [norm_mul, norm_tw, mul_one, Complex.norm_real, Real.norm_eq_abs,
    abs_of_nonneg (sum_nonneg fun _ _ => (Real.exp_pos _).le)]
  refine sum_congr rfl fun e _ => ?_
  push_cast
  rw [add_zero]

/-- The five copies form one long Gaussian. -/
theorem axisGauss_long (a : ℝ) {N : ℕ} (hN : 0 < N) (k : ℕ) :
    axisGauss a N k = ∑ i ∈ range (5 * N), (Real.exp (-(a * ((i : ℝ) - 2 * N) ^ 2)) : ℝ) * tw N (-((k : ℤ) * i)) := by
  rw [sum_range_mul_block 5 N, sum_comm]
  unfold axisGauss
  refine sum_congr rfl fun u _ => ?_
  rw [Complex.ofReal_sum, sum_mul]
  refine sum_congr rfl fun e _ => ?_
  have h1 : tw N (-((k : ℤ) * ((e * N + u : ℕ) : ℤ))) = tw N (-((k : ℤ) * u)) := by
    rw [show -((k : ℤ) * ((e * N + u : ℕ) : ℤ)) = N * (-(k * e)) + -(k * u) by push_cast; ring, tw_add,
      tw_mul_self N (by omega), one_mul]
  rw [h1]
  congr 4
  push_cast
  ring

/-- Multiplying by the distance of a phase from one takes differences of consecutive samples, whose sum is twice the
peak. -/
theorem axisGauss_step (a : ℝ) (ha : 0 < a) {N : ℕ} (hN : 0 < N) (k : ℕ) :
    ‖axisGauss a N k‖ * ‖tw N (-(k : ℤ)) - 1‖ ≤ 2 := by
  rw [← norm_mul, axisGauss_long a hN, sum_mul]
  have e : ∀ i ∈ range (5 * N), (Real.exp (-(a * ((i : ℝ) - 2 * N) ^ 2)) : ℝ) * tw N (-((k : ℤ) * i)) *
      (tw N (-(k : ℤ)) - 1) = ((Real.exp (-(a * ((i : ℝ) - 2 * N) ^ 2)) : ℝ) : ℂ) *
        (tw N (-((k : ℤ) * ((i + 1 : ℕ) : ℤ))) - tw N (-((k : ℤ) * (i : ℕ)))) := by
    intro i _
    rw [show -((k : ℤ) * ((i + 1 : ℕ) : ℤ)) = -(k * i) + -k by push_cast; ring, tw_add]
    ring
  rw [sum_congr rfl e]
  have := norm_sum_unimodal (f := fun i : ℕ => Real.exp (-(a * ((i : ℝ) - 2 * N) ^ 2)))
    (z := fun i : ℕ => tw N (-((k : ℤ) * (i : ℕ)))) (p := 2 * N) (n := 5 * N) (fun i => (norm_tw _ _).le) (by omega)
    (fun i => (Real.exp_pos _).le) (fun i hi => Real.exp_le_exp.2 ?_) (fun i hi => Real.exp_le_exp.2 ?_)
  · refine this.trans (le_of_eq ?_)
    push_cast
    simp
  · have hi' : (i : ℝ) + 1 ≤ 2 * N := by exact_mod_cast hi
    push_cast
    have : ((i : ℝ) + 1 - 2 * N) ^ 2 ≤ ((i : ℝ) - 2 * N) ^ 2 := by nlinarith
    have := mul_le_mul_of_nonneg_left this ha.le
    linarith
  · have hi' : 2 * (N : ℝ) ≤ i := by exact_mod_cast hi
    push_cast
    have : ((i : ℝ) - 2 * N) ^ 2 ≤ ((i : ℝ) + 1 - 2 * N) ^ 2 := by nlinarith
    have := mul_le_mul_of_nonneg_left this ha.le
    linarith

/-- The low-pass filter is a product of one filter per axis. -/
theorem phiHat2_axes {H W J k l : ℕ} (hk : k < H) (hl : l < W) :
    (phiHat2 H W J).px k l = (axisGauss (1 / (2 * (0.8 * (2 ^ J / 2)) ^ 2)) H k *
      axisGauss (1 / (2 * (0.8 * (2 ^ J / 2)) ^ 2)) W l / ((2 * 3.1415 * (0.8 * (2 ^ J / 2)) ^ 2 : ℝ) : ℂ)).re := by
  unfold phiHat2 realFft2
  rw [Img.px_map _ _ (by exact hk) (by exact hl)]
  congr 1
  unfold dft2
  rw [Img.px_tab (by exact hk) (by exact hl)]
  show ∑ u ∈ range H, ∑ v ∈ range W, _ = _
  set σ : ℝ := 0.8 * (2 ^ J / 2) with hσ
  have hσ0 : σ ≠ 0 := by rw [hσ]; positivity
  unfold axisGauss
  rw [sum_mul_sum, sum_div]
  refine sum_congr rfl fun u hu => ?_
  rw [sum_div]
  refine sum_congr rfl fun v hv => ?_
  unfold gabor2d
  simp only
  rw [Img.px_tab (mem_range.1 hu) (mem_range.1 hv)]
  have key : ∑ ex ∈ range 5, ∑ ey ∈ range 5, Complex.exp
      ((-((Real.cos 0 * Real.cos 0 + Real.sin 0 * 1 ^ 2 * Real.sin 0) / (2 * σ * σ) *
            (((u : ℝ) + ((ex : ℝ) - 2) * H) * ((u : ℝ) + ((ex : ℝ) - 2) * H)) +
          ((Real.cos 0 * Real.sin 0 - Real.sin 0 * 1 ^ 2 * Real.cos 0) / (2 * σ * σ) +
            (Real.sin 0 * Real.cos 0 - Real.cos 0 * 1 ^ 2 * Real.sin 0) / (2 * σ * σ)) *
            (((u : ℝ) + ((ex : ℝ) - 2) * H) * ((v : ℝ) + ((ey : ℝ) - 2) * W)) +
          (Real.sin 0 * Real.sin 0 + Real.cos 0 * 1 ^ 2 * Real.cos 0) / (2 * σ * σ) *
            (((v : ℝ) + ((ey : ℝ) - 2) * W) * ((v : ℝ) + ((ey : ℝ) - 2) * W))) : ℝ) +
        Complex.I * ((((u : ℝ) + ((ex : ℝ) - 2) * H) * 0 * Real.cos 0 +
          ((v : ℝ) + ((ey : ℝ) - 2) * W) * 0 * Real.sin 0 : ℝ) : ℂ)) =
      ((∑ e ∈ range 5, Real.exp (-(1 / (2 * σ ^ 2) * ((u : ℝ) + ((e : ℝ) - 2) * H) ^ 2)) : ℝ) : ℂ) *
        ((∑ e ∈ range 5, Real.exp (-(1 / (2 * σ ^ 2) * ((v : ℝ) + ((e : ℝ) - 2) * W) ^ 2)) : ℝ) : ℂ) := by
    rw [← Complex.ofReal_mul, sum_mul_sum, Complex.ofReal_sum]
    refine sum_congr rfl fun ex _ => ?_
    rw [Complex.ofReal_sum]
    refine sum_congr rfl fun ey _ => ?_
    rw [← Real.exp_add, Complex.ofReal_exp]
    congr 1
    rw [Real.cos_zero, Real.sin_zero]
    simp only [mul_zero, zero_mul, add_zero, Complex.ofReal_zero]
    congr 1
    field_simp
    ring
  rw [key, show (2 * 3.1415 * σ * σ / 1 : ℝ) = 2 * 3.1415 * σ ^ 2 by ring]
  change _ * (tw H (-((k : ℤ) * u)) * tw W (-((l : ℤ) * v))) = _
  ring

/-- A translation by `(s, t)` changes the low-pass of an image by little: each frequency that passes is turned by a
small angle. -/
theorem phi_phase (H W J : ℕ) (hJ : 1 ≤ J) {k l : ℕ} (hk : k < H) (hl : l < W) (s t : ℤ) :
    |(phiHat2 H W J).px k l| * ‖tw H (-((k : ℤ) * s)) * tw W (-((l : ℤ) * t)) - 1‖ ≤
      2 * (|(s : ℝ)| + |(t : ℝ)|) / 2 ^ J := by
  rw [phiHat2_axes hk hl]
  set σ : ℝ := 0.8 * (2 ^ J / 2) with hσ
  have hσ8 : 0.8 ≤ σ := by
    have : (2 : ℝ) ^ 1 ≤ 2 ^ J := pow_le_pow_right₀ (by norm_num) hJ
    rw [pow_one] at this
    rw [hσ]; linarith
  have hσ0 : 0 < σ := by linarith
  set a : ℝ := 1 / (2 * σ ^ 2) with ha
  have ha0 : 0 < a := by rw [ha]; positivity
  set A := axisGauss a H k
  set B := axisGauss a W l
  have hpi := Real.pi_pos
  have hside : Real.sqrt (Real.pi / a) * thetaBound (Real.pi ^ 2 / a) ≤ 2.507 * σ := by
    have h1 : Real.sqrt (Real.pi / a) ≤ 2.5067 * σ := by
      rw [Real.sqrt_le_left (by positivity), ha]
      have : Real.pi / (1 / (2 * σ ^ 2)) = 2 * Real.pi * σ ^ 2 := by field_simp
      rw [this, mul_pow (2.5067 : ℝ) σ]
      refine mul_le_mul_of_nonneg_right ?_ (sq_nonneg σ)
      have := Real.pi_lt_d4
      norm_num at this ⊢
      linarith
    have h2 : thetaBound (Real.pi ^ 2 / a) ≤ 1.0001 := by
      refine (thetaBound_anti (by norm_num) ?_).trans theta_one
      rw [ha, div_one]
      have : Real.pi ^ 2 / (1 / (2 * σ ^ 2)) = 2 * Real.pi ^ 2 * σ ^ 2 := by field_simp
      rw [this]
      have h3 : (9.8 : ℝ) ≤ Real.pi ^ 2 := by
        have := Real.pi_gt_d2
        nlinarith
      have h4 : (0.64 : ℝ) ≤ σ ^ 2 := by nlinarith
      nlinarith
    have h5 := one_le_thetaBound (show 0 < Real.pi ^ 2 / a by positivity)
    calc _ ≤ 2.5067 * σ * 1.0001 := mul_le_mul h1 h2 (by linarith) (by positivity)
      _ ≤ _ := by nlinarith
  have hA := (norm_axisGauss a ha0 H k).trans hside
  have hB := (norm_axisGauss a ha0 W l).trans hside
  have hA2 := axisGauss_step a ha0 (by omega : 0 < H) k
  have hB2 := axisGauss_step a ha0 (by omega : 0 < W) l
  have hp : ‖tw H (-((k : ℤ) * s)) * tw W (-((l : ℤ) * t)) - 1‖ ≤
      |(s : ℝ)| * ‖tw H (-(k : ℤ)) - 1‖ + |(t : ℝ)| * ‖tw W (-(l : ℤ)) - 1‖ := by
    have e : tw H (-((k : ℤ) * s)) * tw W (-((l : ℤ) * t)) - 1 =
        tw W (-((l : ℤ) * t)) * (tw H (-(k : ℤ) * s) - 1) + (tw W (-(l : ℤ) * t) - 1) := by
      rw [neg_mul, neg_mul]; ring
    rw [e]
    refine (norm_add_le _ _).trans ?_
    rw [norm_mul, norm_tw, one_mul]
    exact add_le_add (norm_tw_mul_sub_one _ _ _) (norm_tw_mul_sub_one _ _ _)
  set D : ℝ := 2 * 3.1415 * σ ^ 2 with hD
  have hD0 : 0 < D := by positivity
  have hz : |(A * B / (D : ℂ)).re| ≤ ‖A‖ * ‖B‖ / D := by
    refine (Complex.abs_re_le_norm _).trans (le_of_eq ?_)
    rw [norm_div, norm_mul, Complex.norm_real, Real.norm_eq_abs, abs_of_pos hD0]
  have hJp : (0 : ℝ) < 2 ^ J := by positivity
  have hfin : 2 * (2.507 * σ) / D ≤ 2 / 2 ^ J := by
    have : (2 : ℝ) ^ J = 2.5 * σ := by rw [hσ]; ring
    rw [this, hD, div_le_div_iff₀ (by positivity) (by positivity)]
    nlinarith [sq_nonneg σ]
  calc _ ≤ ‖A‖ * ‖B‖ / D * (|(s : ℝ)| * ‖tw H (-(k : ℤ)) - 1‖ + |(t : ℝ)| * ‖tw W (-(l : ℤ)) - 1‖) :=
        mul_le_mul hz hp (norm_nonneg _) (by positivity)
    _ = (|(s : ℝ)| * (‖A‖ * ‖tw H (-(k : ℤ)) - 1‖ * ‖B‖) + |(t : ℝ)| * (‖B‖ * ‖tw W (-(l : ℤ)) - 1‖ * ‖A‖)) / D := by
        ring
    _ ≤ (|(s : ℝ)| * (2 * (2.507 * σ)) + |(t : ℝ)| * (2 * (2.507 * σ))) / D := by
        have h1 : ‖A‖ * ‖tw H (-(k : ℤ)) - 1‖ * ‖B‖ ≤ 2 * (2.507 * σ) := mul_le_mul hA2 hB (norm_nonneg _) (by norm_num)
        have h2 : ‖B‖ * ‖tw W (-(l : ℤ)) - 1‖ * ‖A‖ ≤ 2 * (2.507 * σ) := mul_le_mul hB2 hA (norm_nonneg _) (by norm_num)
        refine div_le_div_of_nonneg_right (add_le_add ?_ ?_) hD0.le
        · exact mul_le_mul_of_nonneg_left h1 (abs_nonneg _)
        · exact mul_le_mul_of_nonneg_left h2 (abs_nonneg _)
    _ = (|(s : ℝ)| + |(t : ℝ)|) * (2 * (2.507 * σ) / D) := by ring
    _ ≤ (|(s : ℝ)| + |(t : ℝ)|) * (2 / 2 ^ J) := mul_le_mul_of_nonneg_left hfin (by positivity)
    _ = _ := by ring

/-- The same at a stored level, for a shift that is a multiple of its step. -/
theorem level_phase (H W J : ℕ) (hJ : 1 ≤ J) {j : ℕ} (hH : 2 ^ (j + 1) ∣ H) (hW : 2 ^ (j + 1) ∣ W) {k l : ℕ}
    (hk : k < H / 2 ^ j) (hl : l < W / 2 ^ j) {s t : ℤ} (hs : (2 : ℤ) ^ j ∣ s) (ht : (2 : ℤ) ^ j ∣ t) :
    |(periodizeFilter (phiHat2 H W J) j).px k l| *
      ‖tw (H / 2 ^ j) (-((k : ℤ) * (s / 2 ^ j))) * tw (W / 2 ^ j) (-((l : ℤ) * (t / 2 ^ j))) - 1‖ ≤
      2 * (|(s : ℝ)| + |(t : ℝ)|) / 2 ^ J := by
  obtain ⟨-, -, h⟩ := C41_periodize_partial (phiHat2 H W J) j hH hW
  obtain ⟨i, i', hi, hi', e⟩ := h k l hk hl
  rw [e]
  have phase : ∀ {N k i : ℕ} {s : ℤ}, 2 ^ (j + 1) ∣ N → (2 : ℤ) ^ j ∣ s → i % (N / 2 ^ j) = k % (N / 2 ^ j) →
      tw (N / 2 ^ j) (-((k : ℤ) * (s / 2 ^ j))) = tw N (-((i : ℤ) * s)) := by
    intro N k i s hN hs hik
    obtain ⟨n, rfl⟩ : 2 ^ j ∣ N := (pow_dvd_pow 2 (by omega)).trans hN
    obtain ⟨s', rfl⟩ := hs
    have hp : 0 < 2 ^ j := by positivity
    rw [Nat.mul_div_cancel_left _ hp] at hik ⊢
    rw [Int.mul_ediv_cancel_left _ (by positivity)]
    have h1 := tw_scale (2 ^ j) n hp.ne' (-((i : ℤ) * s'))
    rw [show ((2 ^ j : ℕ) : ℤ) * (-((i : ℤ) * s')) = -((i : ℤ) * (2 ^ j * s')) by push_cast; ring] at h1
    rw [h1]
    apply tw_congr
    have h2 : (k : ℤ) ≡ i [ZMOD n] := by
      have : (k % n : ℕ) = (i % n : ℕ) := hik.symm
      show (k : ℤ) % n = (i : ℤ) % n
      exact_mod_cast this
    exact (h2.mul_right s').neg
  rw [phase hH hs hi.2.1, phase hW ht hi'.2.1]
  exact phi_phase H W J hJ hi.1 hi'.1 s t

/-! ## The cascade -/

/-- The last step: low-pass, decimation and crop of an image and of its roll. -/
theorem energy_low_shift {H W J M N : ℕ} (hJ : 1 ≤ J) (hH : H = padded2 M J) (hW : W = padded2 N J)
    (hM : 2 ^ J ≤ M) (hN : 2 ^ J ≤ N) (j : ℕ) (hj : j < J) {s t : ℤ} (hs : (2 : ℤ) ^ j ∣ s) (ht : (2 : ℤ) ^ j ∣ t)
    {x y : ℕ → ℕ → ℝ} (hr : Spec.IsRoll2 (H / 2 ^ j) (W / 2 ^ j) (s / 2 ^ j) (t / 2 ^ j) x y) :
    energy2 (M / 2 ^ J) (N / 2 ^ J) (fun i k =>
      Spec.low2 (H / 2 ^ j) (W / 2 ^ j) y (periodizeFilter (phiHat2 H W J) j).px (J - j) (i + 1) (k + 1) -
      Spec.low2 (H / 2 ^ j) (W / 2 ^ j) x (periodizeFilter (phiHat2 H W J) j).px (J - j) (i + 1) (k + 1)) ≤
      (2 * (|(s : ℝ)| + |(t : ℝ)|) / 2 ^ J) ^ 2 * energy2 (H / 2 ^ j) (W / 2 ^ j) x := by
  have d1 := C41_levels_of_the_bank M J j hj
  have d2 := C41_levels_of_the_bank N J j hj
  rw [← hH] at d1
  rw [← hW] at d2
  refine energy_shift2 _ _ (J - j) 1 _ _ (crop_room hM hH hj.le) (crop_room hN hW hj.le) hr
    (periodizeFilter (phiHat2 H W J) j).px (fun k l hk hl => level_phase H W J hJ d1 d2 hk hl hs ht) _ fun i _ k _ => ?_
  unfold Spec.low2
  rw [← Complex.sub_re]
  exact Complex.abs_re_le_norm _

/-- A band-pass filter bounded by `C` multiplies the energy by at most `C^2`. -/
theorem energy_band_single (h w e : ℕ) (x f : ℕ → ℕ → ℝ) {C : ℝ} (hC : ∀ k l, k < h → l < w → |f k l| ≤ C) :
    energy2 (h / 2 ^ e) (w / 2 ^ e) (fun i k => Spec.band2 h w x f e i k) ≤ C ^ 2 * energy2 h w x := by
  have h0 : ∀ m n : ℤ, Spec.conv2 h w (fun _ _ => 0) (Spec.impulse2 h w f) m n = 0 := by
    intro m n
    unfold Spec.conv2
    simp
  have := energy_band h w e x (fun _ _ => 0) f hC
  have e1 : energy2 (h / 2 ^ e) (w / 2 ^ e) (fun i k => Spec.band2 h w x f e i k) =
      energy2 (h / 2 ^ e) (w / 2 ^ e) (fun i k => Spec.band2 h w x f e i k - Spec.band2 h w (fun _ _ => 0) f e i k) := by
    refine energy2_congr fun i _ k _ => ?_
    have : Spec.band2 h w (fun _ _ => 0) f e i k = 0 := by
      unfold Spec.band2
      rw [h0, norm_zero]
    rw [this, sub_zero]
  rw [e1]
  refine this.trans (le_of_eq ?_)
  simp only [sub_zero]

/-- **C117.**  A translation by fewer than `2^J` pixels changes the coefficients by little: when the padded image is
rolled by `(s, t)`, multiples of the step of the last modulus of the path, every coefficient of the path moves, in the
Euclidean norm, by at most `2 (|s| + |t|) / 2^J` times the norm of the image and the gains of the wavelets. -/
theorem C117_shift (a : Args2D) (ho : a.outType = .list) (hpre : a.prePad = true) (x y : Img ℝ) (s t : ℤ)
    (hroll : Spec.IsRoll2 x.h x.w s t x.px y.px) (l m : List (Path2 (Img ℝ)))
    (hl : a.run x = .ok (.list l)) (hm : a.run y = .ok (.list m)) (p q : Path2 (Img ℝ)) (hp : p ∈ l) (hq : q ∈ m)
    (hpq : p.n = q.n) (hs : (2 : ℤ) ^ p.j.getLastD 0 ∣ s) (ht : (2 : ℤ) ^ p.j.getLastD 0 ∣ t) :
    q.coef.h = p.coef.h ∧ q.coef.w = p.coef.w ∧
      Spec.norm2 p.coef.h p.coef.w (fun i k => q.coef.px i k - p.coef.px i k) ≤
        2 * (|(s : ℝ)| + |(t : ℝ)|) / 2 ^ a.J * (if 4 ≤ a.L then 2.001 else 15) ^ p.n.length *
          Spec.norm2 x.h x.w x.px := by
  obtain ⟨hJ, hM, hN, -, hxs⟩ := (C94_returns_iff_2d a x).1 ⟨_, hl⟩
  obtain ⟨-, -, -, -, hys⟩ := (C94_returns_iff_2d a y).1 ⟨_, hm⟩
  obtain ⟨ph, pw⟩ := C38_output_size a x _ hl p.coef (List.mem_map.2 ⟨p, hp, rfl⟩)
  obtain ⟨qh, qw⟩ := C38_output_size a y _ hm q.coef (List.mem_map.2 ⟨q, hq, rfl⟩)
  refine ⟨by rw [ph, qh], by rw [pw, qw], ?_⟩
  obtain ⟨H, W, u, hH, hW, uh, uw, up, -, hXp⟩ := C58_closed_form a ho x l hl
  obtain ⟨H', W', v, hH', hW', vh, vw, vp, -, hYq⟩ := C58_closed_form a ho y m hm
  obtain rfl : H = H' := by rw [hH, hH']
  obtain rfl : W = W' := by rw [hW, hW']
  obtain rfl := up hpre
  obtain rfl := vp hpre
  rw [ph, pw]
  set G := waveletGain a.L with hG
  have hG0 : 0 ≤ G := (waveletGain_pos _).le
  have hGe : (if 4 ≤ a.L then (2.001 : ℝ) else 15) = G := rfl
  rw [hGe]
  set D : ℝ := 2 * (|(s : ℝ)| + |(t : ℝ)|) / 2 ^ a.J with hD
  have hD0 : 0 ≤ D := by rw [hD]; positivity
  apply norm2_le (mul_nonneg hD0 (pow_nonneg hG0 _))
  rw [uh, uw] at hroll ⊢
  have hdvd : ∀ {n N : ℕ}, N = padded2 n a.J → ∀ {e : ℕ}, e ≤ a.J → 2 ^ e ∣ N := by
    intro n N hNe e he
    rcases Nat.eq_zero_or_pos e with rfl | h0
    · simp
    · have := C41_levels_of_the_bank n a.J (e - 1) (by omega)
      rwa [Nat.sub_add_cancel h0, ← hNe] at this
  have z1 : H / 2 ^ 0 = H := by simp
  have z2 : W / 2 ^ 0 = W := by simp
  have h00 : 0 < a.M / 2 ^ a.J ∧ 0 < a.N / 2 ^ a.J :=
    ⟨Nat.div_pos hM (by positivity), Nat.div_pos hN (by positivity)⟩
  have P0 := hXp p hp 0 0 (by rw [ph]; exact h00.1) (by rw [pw]; exact h00.2)
  rcases P0 with ⟨n1, -⟩ | ⟨j, r, hj, hr, n1, pj, -, -⟩ | ⟨j, r, j', r', hjj, hj', hr, hr', n1, pj, -, -⟩
  · have e : energy2 (a.M / 2 ^ a.J) (a.N / 2 ^ a.J) (fun i k => q.coef.px i k - p.coef.px i k) =
        energy2 (a.M / 2 ^ a.J) (a.N / 2 ^ a.J) (fun i k =>
          Spec.low2 (H / 2 ^ 0) (W / 2 ^ 0) v.px (periodizeFilter (phiHat2 H W a.J) 0).px (a.J - 0) (i + 1) (k + 1) -
          Spec.low2 (H / 2 ^ 0) (W / 2 ^ 0) u.px (periodizeFilter (phiHat2 H W a.J) 0).px (a.J - 0) (i + 1) (k + 1)) := by
      refine energy2_congr fun i hi k hk => ?_
      have Pi := hXp p hp i k (by omega) (by omega)
      have Qi := hYq q hq i k (by omega) (by omega)
      rcases Pi with ⟨-, c1⟩ | ⟨_, _, _, _, h, -⟩ | ⟨_, _, _, _, _, _, _, _, h, -⟩
      · rcases Qi with ⟨-, c2⟩ | ⟨_, _, _, _, h, -⟩ | ⟨_, _, _, _, _, _, _, _, h, -⟩
        · rw [c1, c2, z1, z2, Nat.sub_zero]
          have hz := fun w : ℕ → ℕ → ℝ => low2_congr H W w (a.J) (i + 1) (k + 1)
            (f := (phiHat2 H W a.J).px) (g := (periodizeFilter (phiHat2 H W a.J) 0).px)
            fun k l hk hl => (C41_level_zero (phiHat2 H W a.J) k l hk hl).symm
          rw [hz u.px, hz v.px]
        · rw [← hpq, n1] at h; cases h
        · rw [← hpq, n1] at h; cases h
      · rw [n1] at h; exact absurd h (by simp)
      · rw [n1] at h; exact absurd h (by simp)
    rw [e, n1]
    refine (energy_low_shift hJ hH hW hM hN 0 (by omega) (s := s) (t := t) (by simp) (by simp) (x := u.px) (y := v.px)
      (by simpa using hroll)).trans (le_of_eq ?_)
    rw [z1, z2, List.length_nil, pow_zero, mul_one]
  · rw [pj] at hs ht
    have e : energy2 (a.M / 2 ^ a.J) (a.N / 2 ^ a.J) (fun i k => q.coef.px i k - p.coef.px i k) =
        energy2 (a.M / 2 ^ a.J) (a.N / 2 ^ a.J) (fun i k =>
          Spec.low2 (H / 2 ^ j) (W / 2 ^ j) (Spec.band2 H W v.px (psiHat2 H W a.L j r).px j)
            (periodizeFilter (phiHat2 H W a.J) j).px (a.J - j) (i + 1) (k + 1) -
          Spec.low2 (H / 2 ^ j) (W / 2 ^ j) (Spec.band2 H W u.px (psiHat2 H W a.L j r).px j)
            (periodizeFilter (phiHat2 H W a.J) j).px (a.J - j) (i + 1) (k + 1)) := by
      refine energy2_congr fun i hi k hk => ?_
      have Pi := hXp p hp i k (by omega) (by omega)
      have Qi := hYq q hq i k (by omega) (by omega)
      rcases Pi with ⟨h, -⟩ | ⟨j1, t1, b1, b2, h, -, -, c1⟩ | ⟨_, _, _, _, _, _, _, _, h, -⟩
      · rw [n1] at h; exact absurd h (by simp)
      · rcases Qi with ⟨h', -⟩ | ⟨j2, t2, d1, d2, h', -, -, c2⟩ | ⟨_, _, _, _, _, _, _, _, h', -⟩
        · rw [← hpq, n1] at h'; exact absurd h' (by simp)
        · rw [n1] at h
          rw [← hpq, n1] at h'
          obtain ⟨rfl, rfl⟩ := index_inj hr b2 (List.cons.inj h).1
          obtain ⟨rfl, rfl⟩ := index_inj hr d2 (List.cons.inj h').1
          rw [c1, c2]
        · rw [← hpq, n1] at h'; exact absurd h' (by simp)
      · rw [n1] at h; exact absurd h (by simp)
    rw [e, n1]
    have R1 := band2_roll (hdvd hH hj.le) (hdvd hW hj.le) (by simpa using hs) (by simpa using ht) hroll
      (psiHat2 H W a.L j r).px
    refine (energy_low_shift hJ hH hW hM hN j hj (by simpa using hs) (by simpa using ht) R1).trans ?_
    rw [mul_pow, mul_assoc]
    refine mul_le_mul_of_nonneg_left ?_ (sq_nonneg _)
    refine (energy_band_single H W j u.px (psiHat2 H W a.L j r).px
      (fun k l hk hl => psi_gain H W a.L j r (by omega) hk hl)).trans (le_of_eq ?_)
    rw [List.length_singleton, pow_one]
  · rw [pj] at hs ht
    have hs : (2 : ℤ) ^ j' ∣ s := by simpa using hs
    have ht : (2 : ℤ) ^ j' ∣ t := by simpa using ht
    have e : energy2 (a.M / 2 ^ a.J) (a.N / 2 ^ a.J) (fun i k => q.coef.px i k - p.coef.px i k) =
        energy2 (a.M / 2 ^ a.J) (a.N / 2 ^ a.J) (fun i k =>
          Spec.low2 (H / 2 ^ j') (W / 2 ^ j')
            (Spec.band2 (H / 2 ^ j) (W / 2 ^ j) (Spec.band2 H W v.px (psiHat2 H W a.L j r).px j)
              (periodizeFilter (psiHat2 H W a.L j' r') j).px (j' - j))
            (periodizeFilter (phiHat2 H W a.J) j').px (a.J - j') (i + 1) (k + 1) -
          Spec.low2 (H / 2 ^ j') (W / 2 ^ j')
            (Spec.band2 (H / 2 ^ j) (W / 2 ^ j) (Spec.band2 H W u.px (psiHat2 H W a.L j r).px j)
              (periodizeFilter (psiHat2 H W a.L j' r') j).px (j' - j))
            (periodizeFilter (phiHat2 H W a.J) j').px (a.J - j') (i + 1) (k + 1)) := by
      refine energy2_congr fun i hi k hk => ?_
      have Pi := hXp p hp i k (by omega) (by omega)
      have Qi := hYq q hq i k (by omega) (by omega)
      rcases Pi with ⟨h, -⟩ | ⟨_, _, _, _, h, -⟩ | ⟨j1, t1, j2, t2, b1, b2, b3, b4, h, -, -, c1⟩
      · rw [n1] at h; exact absurd h (by simp)
      · rw [n1] at h; exact absurd h (by simp)
      · rcases Qi with ⟨h', -⟩ | ⟨_, _, _, _, h', -⟩ | ⟨i1, s1, i2, s2, d1, d2, d3, d4, h', -, -, c2⟩
        · rw [← hpq, n1] at h'; exact absurd h' (by simp)
        · rw [← hpq, n1] at h'; exact absurd h' (by simp)
        · rw [n1] at h
          rw [← hpq, n1] at h'
          obtain ⟨rfl, rfl⟩ := index_inj hr b3 (List.cons.inj h).1
          obtain ⟨rfl, rfl⟩ := index_inj hr d3 (List.cons.inj h').1
          obtain ⟨rfl, rfl⟩ := index_inj hr' b4 (List.cons.inj (List.cons.inj h).2).1
          obtain ⟨rfl, rfl⟩ := index_inj hr' d4 (List.cons.inj (List.cons.inj h').2).1
          rw [c1, c2]
    rw [e, n1]
    have R1 := band2_roll (hdvd hH (by omega : j ≤ a.J)) (hdvd hW (by omega : j ≤ a.J))
      ((pow_dvd_pow 2 hjj.le).trans hs) ((pow_dvd_pow 2 hjj.le).trans ht) hroll (psiHat2 H W a.L j r).px
    have split : ∀ N : ℕ, N / 2 ^ j / 2 ^ (j' - j) = N / 2 ^ j' := by
      intro N
      rw [Nat.div_div_eq_div_mul, ← pow_add, Nat.add_sub_cancel' hjj.le]
    have quot : ∀ {c : ℤ}, (2 : ℤ) ^ j' ∣ c → (2 : ℤ) ^ (j' - j) ∣ c / 2 ^ j ∧ c / 2 ^ j / 2 ^ (j' - j) = c / 2 ^ j' := by
      intro c hc
      obtain ⟨d, rfl⟩ := hc
      have hz : (2 : ℤ) ^ j ≠ 0 := by positivity
      have e2 : (2 : ℤ) ^ j' = 2 ^ j * 2 ^ (j' - j) := by rw [← pow_add, Nat.add_sub_cancel' hjj.le]
      have e3 : (2 : ℤ) ^ j' * d / 2 ^ j = 2 ^ (j' - j) * d := by
        rw [e2, mul_assoc, Int.mul_ediv_cancel_left _ hz]
      rw [e3, Int.mul_ediv_cancel_left _ (by positivity), Int.mul_ediv_cancel_left _ (by positivity)]
      exact ⟨Dvd.intro _ rfl, rfl⟩
    have fits : ∀ {N n : ℕ}, N = padded2 n a.J → 2 ^ (j' - j) ∣ N / 2 ^ j := by
      intro N n hNe
      obtain ⟨d, hd⟩ := hdvd hNe hj'.le
      rw [hd, ← Nat.add_sub_cancel' hjj.le, pow_add, mul_assoc, Nat.mul_div_cancel_left _ (by positivity),
        Nat.add_sub_cancel_left]
      exact Dvd.intro _ rfl
    have R2 := band2_roll (fits hH) (fits hW) (quot hs).1 (quot ht).1 R1 (periodizeFilter (psiHat2 H W a.L j' r') j).px
    rw [split, split, (quot hs).2, (quot ht).2] at R2
    refine (energy_low_shift hJ hH hW hM hN j' hj' hs ht R2).trans ?_
    rw [mul_pow, mul_assoc]
    refine mul_le_mul_of_nonneg_left ?_ (sq_nonneg _)
    have d1 := C41_levels_of_the_bank a.M a.J j (by omega)
    have d2 := C41_levels_of_the_bank a.N a.J j (by omega)
    rw [← hH] at d1
    rw [← hW] at d2
    have g1 := energy_band_single H W j u.px (psiHat2 H W a.L j r).px
      (fun k l hk hl => psi_gain H W a.L j r (by omega) hk hl)
    have g2 := energy_band_single (H / 2 ^ j) (W / 2 ^ j) (j' - j) (Spec.band2 H W u.px (psiHat2 H W a.L j r).px j)
      (periodizeFilter (psiHat2 H W a.L j' r') j).px
      (level_gain (f := psiHat2 H W a.L j' r') (fun k l hk hl => psi_gain H W a.L j' r' (by omega) hk hl) j d1 d2)
    rw [split, split] at g2
    refine g2.trans ?_
    refine (mul_le_mul_of_nonneg_left g1 (sq_nonneg _)).trans (le_of_eq ?_)
    rw [← hG]
    simp only [List.length_cons, List.length_nil]
    ring

/-- An image of 16 by 20 pixels already padded, moved by two rows down and two columns to the left: half of `2^J`.  For
paths whose last modulus is at scale zero or one the bound holds (the scales are below `J = 2`, so this is all of
them). -/
example (f : ℕ → ℕ → ℝ) : ∃ l l', exArgs2p.run (Img.tab 16 20 f) = .ok (.list l) ∧
    exArgs2p.run (Img.tab 16 20 fun i j => f ((i + 14) % 16) ((j + 2) % 20)) = .ok (.list l') ∧
    ∀ p ∈ l, ∀ q ∈ l', p.n = q.n →
      Spec.norm2 p.coef.h p.coef.w (fun i k => q.coef.px i k - p.coef.px i k) ≤
        2 * 15 ^ p.n.length * Spec.norm2 16 20 (Img.tab 16 20 f).px := by
  obtain ⟨out, h⟩ := C40_no_error exArgs2p (by decide) (by decide) (by decide) (by decide) (Img.tab 16 20 f)
    ⟨rfl, rfl⟩
  obtain ⟨l, hl, hc⟩ := C39_channels exArgs2p rfl _ out h
  rw [hl] at h
  obtain ⟨out', h'⟩ := C40_no_error exArgs2p (by decide) (by decide) (by decide) (by decide)
    (Img.tab 16 20 fun i j => f ((i + 14) % 16) ((j + 2) % 20)) ⟨rfl, rfl⟩
  obtain ⟨l', hl', -⟩ := C39_channels exArgs2p rfl _ out' h'
  rw [hl'] at h'
  refine ⟨l, l', h, h', fun p hp q hq hpq => ?_⟩
  have last : p.j.getLastD 0 ≤ 1 := by
    have e : (p.j, p.n, p.theta) ∈ Spec.channels2 2 3 2 := by
      have hc' : l.map (fun p => (p.j, p.n, p.theta)) = Spec.channels2 2 3 2 := hc
      rw [← hc']
      exact List.mem_map.2 ⟨p, hp, rfl⟩
    exact (by decide : ∀ c ∈ Spec.channels2 2 3 2, c.1.getLastD 0 ≤ 1) _ e
  have d : (2 : ℤ) ^ p.j.getLastD 0 ∣ 2 := (pow_dvd_pow 2 last).trans (by norm_num)
  have := (C117_shift exArgs2p rfl rfl (Img.tab 16 20 f) _ 2 (-2) (by
      intro m n (hm : m < 16) (hn : n < 20)
      have e1 : (((m : ℤ) - 2) % (16 : ℕ)).toNat = (m + 14) % 16 := by omega
      have e2 : (((n : ℤ) - -2) % (20 : ℕ)).toNat = (n + 2) % 20 := by omega
      show (Img.tab 16 20 _).px m n = (Img.tab 16 20 f).px (((m : ℤ) - 2) % (16 : ℕ)).toNat
        (((n : ℤ) - -2) % (20 : ℕ)).toNat
      rw [Img.px_tab hm hn, e1, e2, Img.px_tab (Nat.mod_lt _ (by norm_num)) (Nat.mod_lt _ (by norm_num))]) l l' h h'
    p q hp hq hpq d ((dvd_neg).2 d)).2.2
  refine this.trans (le_of_eq ?_)
  have hc : 2 * (|((2 : ℤ) : ℝ)| + |((-2 : ℤ) : ℝ)|) / 2 ^ exArgs2p.J * (if 4 ≤ exArgs2p.L then (2.001 : ℝ) else 15) ^ p.n.length =
      2 * 15 ^ p.n.length := by
    rw [show exArgs2p.J = 2 from rfl, if_neg (by decide)]
    norm_num
  rw [hc]
  rfl

end Verif
