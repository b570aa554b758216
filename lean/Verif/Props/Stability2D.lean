import Verif.Props.Laws2D
import Verif.Props.Returns2D
import Verif.Lemmas.Energy2D
import Verif.Lemmas.GaussSum
import Verif.Lemmas.MirrorSum
import Mathlib.Analysis.Complex.ExponentialBounds

/-!
# Stability of the 2-D coefficients of every order in the Euclidean norm
-/

namespace Verif

open Finset

/-! ## Gain of the filters -/

/-- Exponent of the envelope. -/
noncomputable def quad (sigma theta slant : ℝ) (x y : ℝ) : ℝ :=
  (Real.cos theta * Real.cos theta + Real.sin theta * slant ^ 2 * Real.sin theta) / (2 * sigma * sigma) * (x * x) +
  ((Real.cos theta * Real.sin theta - Real.sin theta * slant ^ 2 * Real.cos theta) / (2 * sigma * sigma) +
    (Real.sin theta * Real.cos theta - Real.cos theta * slant ^ 2 * Real.sin theta) / (2 * sigma * sigma)) * (x * y) +
  (Real.sin theta * Real.sin theta + Real.cos theta * slant ^ 2 * Real.cos theta) / (2 * sigma * sigma) * (y * y)

/-- Integers `x + (e - 2) M` for `x < M`, `e < 5`. -/
def periods (M : ℕ) : Finset ℤ := (range M ×ˢ range 5).image fun p => (p.1 : ℤ) + ((p.2 : ℤ) - 2) * M

theorem sum_periods (M : ℕ) (F : ℤ → ℝ) :
    ∑ x ∈ range M, ∑ e ∈ range 5, F ((x : ℤ) + ((e : ℤ) - 2) * M) = ∑ n ∈ periods M, F n := by
  unfold periods
  rw [sum_image, sum_product]
  rintro ⟨x, e⟩ hx ⟨x', e'⟩ hx' h
  rw [mem_coe, mem_product, mem_range, mem_range] at hx hx'
  simp only at h hx hx'
  have h2 : x + e * M = x' + e' * M := by
    zify
    linear_combination h
  have h3 : x = x' := by
    have := congrArg (· % M) h2
    simpa [Nat.add_mul_mod_self_right, Nat.mod_eq_of_lt hx.1, Nat.mod_eq_of_lt hx'.1] using this
  subst h3
  have h4 : e = e' := Nat.eq_of_mul_eq_mul_right (by omega : 0 < M) (by omega)
  subst h4
  rfl

theorem norm_gabor_le (M N : ℕ) (sigma theta xi slant : ℝ) (hs : 0 < sigma) (hsl : 0 < slant) {x y : ℕ}
    (hx : x < M) (hy : y < N) :
    ‖(gabor2d M N sigma theta xi slant).px x y‖ ≤
      (∑ ex ∈ range 5, ∑ ey ∈ range 5, Real.exp (-(quad sigma theta slant (((x : ℤ) + ((ex : ℤ) - 2) * M : ℤ) : ℝ)
        (((y : ℤ) + ((ey : ℤ) - 2) * N : ℤ) : ℝ)))) / (2 * 3.1415 * sigma * sigma / slant) := by
  unfold gabor2d
  simp only
  rw [Img.px_tab hx hy, norm_div, Complex.norm_real, Real.norm_eq_abs,
    abs_of_pos (by positivity : (0 : ℝ) < 2 * 3.1415 * sigma * sigma / slant)]
  refine div_le_div_of_nonneg_right ?_ (by positivity)
  refine (norm_sum_le _ _).trans (sum_le_sum fun ex _ => (norm_sum_le _ _).trans (sum_le_sum fun ey _ => le_of_eq ?_))
  rw [Complex.norm_exp]
  congr 1
  rw [Complex.add_re, Complex.ofReal_re, Complex.I_mul_re, Complex.ofReal_im, neg_zero, add_zero]
  unfold quad
  push_cast
  ring

/-- The L1 norm of a Gabor function, for a width and an eccentricity bounded by the parameter `kappa`. -/
theorem gabor_l1 (M N : ℕ) (sigma theta xi slant kappa : ℝ) (hs : 0.8 ≤ sigma) (hsl : 0 < slant) (hk : 1 ≤ kappa)
    (hsk : slant ^ 2 ≤ kappa) :
    ∑ x ∈ range M, ∑ y ∈ range N, ‖(gabor2d M N sigma theta xi slant).px x y‖ ≤
      Real.pi / 3.1415 * (thetaBound (12.5 / kappa) * thetaBound (12.5 / kappa)) := by
  have hs0 : 0 < sigma := by linarith
  have hk0 : 0 < kappa := by linarith
  set c := Real.cos theta with hc
  set s := Real.sin theta with hsn
  have hcs : c ^ 2 + s ^ 2 = 1 := by rw [hc, hsn, add_comm]; exact Real.sin_sq_add_cos_sq theta
  set m := c ^ 2 + s ^ 2 * slant ^ 2 with hm
  have hm0 : 0 < m := by
    rcases eq_or_ne s 0 with h | h
    · have : c ^ 2 = 1 := by rw [h] at hcs; simpa using hcs
      rw [hm, this]; positivity
    · have : 0 < s ^ 2 * slant ^ 2 := by positivity
      have := sq_nonneg c
      rw [hm]; linarith
  have hm1 : m ≤ kappa := by
    have h1 : s ^ 2 * slant ^ 2 ≤ s ^ 2 * kappa := mul_le_mul_of_nonneg_left hsk (sq_nonneg s)
    have h2 : c ^ 2 * 1 ≤ c ^ 2 * kappa := mul_le_mul_of_nonneg_left hk (sq_nonneg c)
    have : c ^ 2 * kappa + s ^ 2 * kappa = kappa := by rw [← add_mul, hcs, one_mul]
    rw [hm]; linarith
  have hm2 : slant ^ 2 ≤ kappa * m := by
    have h1 : c ^ 2 * slant ^ 2 ≤ c ^ 2 * kappa := mul_le_mul_of_nonneg_left hsk (sq_nonneg c)
    have h2 : (s ^ 2 * slant ^ 2) * 1 ≤ (s ^ 2 * slant ^ 2) * kappa := mul_le_mul_of_nonneg_left hk (by positivity)
    have : c ^ 2 * slant ^ 2 + s ^ 2 * slant ^ 2 = slant ^ 2 := by rw [← add_mul, hcs, one_mul]
    rw [hm]; linarith
  set c00 := m / (2 * sigma ^ 2) with hc00
  set b := (c * s - s * slant ^ 2 * c) / (2 * sigma ^ 2) with hb
  set c11 := (s ^ 2 + c ^ 2 * slant ^ 2) / (2 * sigma ^ 2) with hc11
  have h00 : 0 < c00 := by rw [hc00]; positivity
  have hdet : c00 * c11 - b ^ 2 = (slant / (2 * sigma ^ 2)) ^ 2 := by
    rw [hc00, hb, hc11, hm]
    field_simp
    linear_combination (slant ^ 2 * (c ^ 2 + s ^ 2 + 1)) * hcs
  have hd0 : 0 < c00 * c11 - b ^ 2 := by rw [hdet]; positivity
  have hsig : (0.64 : ℝ) ≤ sigma ^ 2 := by nlinarith
  have hpi : (9.8 : ℝ) ≤ Real.pi ^ 2 := by
    have := Real.pi_gt_d2
    nlinarith
  have hb1 : 12.5 / kappa ≤ Real.pi ^ 2 / c00 := by
    rw [div_le_div_iff₀ hk0 h00, hc00]
    have h1 : m / (2 * sigma ^ 2) ≤ kappa / (2 * 0.64) :=
      div_le_div₀ hk0.le hm1 (by norm_num) (by linarith)
    have h2 : 9.8 * kappa ≤ Real.pi ^ 2 * kappa := mul_le_mul_of_nonneg_right hpi hk0.le
    have h3 : 12.5 * (m / (2 * sigma ^ 2)) ≤ 12.5 * (kappa / (2 * 0.64)) := mul_le_mul_of_nonneg_left h1 (by norm_num)
    have h4 : 12.5 * (kappa / (2 * 0.64)) ≤ 9.8 * kappa := by
      rw [show (12.5 : ℝ) * (kappa / (2 * 0.64)) = 9.765625 * kappa by ring]
      exact mul_le_mul_of_nonneg_right (by norm_num) hk0.le
    linarith
  have hb2 : 12.5 / kappa ≤ Real.pi ^ 2 / ((c00 * c11 - b ^ 2) / c00) := by
    rw [div_le_div_iff₀ hk0 (div_pos hd0 h00), hdet, hc00]
    have e : (slant / (2 * sigma ^ 2)) ^ 2 / (m / (2 * sigma ^ 2)) = slant ^ 2 / m / (2 * sigma ^ 2) := by
      field_simp
    rw [e]
    have h0 : slant ^ 2 / m ≤ kappa := by rw [div_le_iff₀ hm0]; exact hm2
    have h1 : slant ^ 2 / m / (2 * sigma ^ 2) ≤ kappa / (2 * 0.64) :=
      div_le_div₀ hk0.le h0 (by norm_num) (by linarith)
    have h2 : 9.8 * kappa ≤ Real.pi ^ 2 * kappa := mul_le_mul_of_nonneg_right hpi hk0.le
    have h3 : 12.5 * (slant ^ 2 / m / (2 * sigma ^ 2)) ≤ 12.5 * (kappa / (2 * 0.64)) :=
      mul_le_mul_of_nonneg_left h1 (by norm_num)
    have h4 : 12.5 * (kappa / (2 * 0.64)) ≤ 9.8 * kappa := by
      rw [show (12.5 : ℝ) * (kappa / (2 * 0.64)) = 9.765625 * kappa by ring]
      exact mul_le_mul_of_nonneg_right (by norm_num) hk0.le
    linarith
  have hnorm : (0 : ℝ) < 2 * 3.1415 * sigma * sigma / slant := by positivity
  have hq : ∀ X Y : ℤ, quad sigma theta slant X Y = c00 * ((X : ℝ) * X) + 2 * b * ((X : ℝ) * Y) + c11 * ((Y : ℝ) * Y) := by
    intro X Y
    unfold quad
    rw [← hc, ← hsn, hc00, hb, hc11, hm]
    field_simp
    ring
  have h5 : 0 < 12.5 / kappa := by positivity
  calc ∑ x ∈ range M, ∑ y ∈ range N, ‖(gabor2d M N sigma theta xi slant).px x y‖
      ≤ ∑ x ∈ range M, ∑ y ∈ range N, (∑ ex ∈ range 5, ∑ ey ∈ range 5,
          Real.exp (-(quad sigma theta slant (((x : ℤ) + ((ex : ℤ) - 2) * M : ℤ) : ℝ)
          (((y : ℤ) + ((ey : ℤ) - 2) * N : ℤ) : ℝ)))) / (2 * 3.1415 * sigma * sigma / slant) :=
        sum_le_sum fun x hx => sum_le_sum fun y hy =>
          norm_gabor_le M N sigma theta xi slant hs0 hsl (mem_range.1 hx) (mem_range.1 hy)
    _ = (∑ X ∈ periods M, ∑ Y ∈ periods N, Real.exp (-(quad sigma theta slant X Y))) /
          (2 * 3.1415 * sigma * sigma / slant) := by
        rw [← sum_periods M fun X => ∑ Y ∈ periods N, Real.exp (-(quad sigma theta slant X Y)), sum_div]
        refine sum_congr rfl fun x _ => ?_
        rw [← sum_div, sum_comm]
        congr 1
        refine sum_congr rfl fun ex _ => ?_
        rw [← sum_periods N]
    _ ≤ (Real.pi / Real.sqrt (c00 * c11 - b ^ 2) * (thetaBound (Real.pi ^ 2 / c00) *
          thetaBound (Real.pi ^ 2 / ((c00 * c11 - b ^ 2) / c00)))) / (2 * 3.1415 * sigma * sigma / slant) := by
        refine div_le_div_of_nonneg_right ?_ hnorm.le
        refine le_trans (le_of_eq ?_) (gauss2_sum_le c00 b c11 h00 hd0 (periods M) (periods N))
        exact sum_congr rfl fun X _ => sum_congr rfl fun Y _ => by rw [hq]
    _ = Real.pi / 3.1415 * (thetaBound (Real.pi ^ 2 / c00) * thetaBound (Real.pi ^ 2 / ((c00 * c11 - b ^ 2) / c00))) := by
        rw [hdet, Real.sqrt_sq (by positivity)]
        field_simp
    _ ≤ _ := by
        have t1 := thetaBound_anti h5 hb1
        have t2 := thetaBound_anti h5 hb2
        have o1 := one_le_thetaBound (lt_of_lt_of_le h5 hb2)
        have o2 := one_le_thetaBound h5
        refine mul_le_mul_of_nonneg_left (mul_le_mul t1 t2 (by linarith) (by linarith)) ?_
        exact div_nonneg Real.pi_pos.le (by norm_num)

/-- The envelope is a non-negative real image. -/
theorem gabor_envelope (M N : ℕ) (sigma theta slant : ℝ) (hsl : 0 < slant) {x y : ℕ} (hx : x < M) (hy : y < N) :
    ∃ r : ℝ, 0 ≤ r ∧ (gabor2d M N sigma theta 0 slant).px x y = r := by
  unfold gabor2d
  simp only
  rw [Img.px_tab hx hy]
  refine ⟨(∑ ex ∈ range 5, ∑ ey ∈ range 5, Real.exp (-(quad sigma theta slant ((x : ℝ) + ((ex : ℝ) - 2) * M)
        ((y : ℝ) + ((ey : ℝ) - 2) * N)))) / (2 * 3.1415 * sigma * sigma / slant), ?_, ?_⟩
  · refine div_nonneg (sum_nonneg fun _ _ => sum_nonneg fun _ _ => (Real.exp_pos _).le) ?_
    have := mul_self_nonneg sigma
    refine div_nonneg ?_ hsl.le
    rw [mul_assoc]
    positivity
  · refine ((Complex.ofReal_div _ _).trans ?_).symm
    rw [Complex.ofReal_sum]
    congr 1
    refine sum_congr rfl fun ex _ => ?_
    rw [Complex.ofReal_sum]
    refine sum_congr rfl fun ey _ => ?_
    rw [Complex.ofReal_exp]
    congr 1
    unfold quad
    simp only [mul_zero, zero_mul, add_zero, Complex.ofReal_zero]

/-- The L1 norm of a Morlet wavelet is at most twice that of the Gabor function. -/
theorem morlet_l1 (M N : ℕ) (sigma theta xi slant : ℝ) (hsl : 0 < slant) :
    ∑ x ∈ range M, ∑ y ∈ range N, ‖(morlet2d M N sigma theta xi slant).px x y‖ ≤
      2 * ∑ x ∈ range M, ∑ y ∈ range N, ‖(gabor2d M N sigma theta xi slant).px x y‖ := by
  set wv := gabor2d M N sigma theta xi slant with hwv
  set env := gabor2d M N sigma theta 0 slant with henv
  have hh : ∀ w, (gabor2d M N sigma theta w slant).h = M ∧ (gabor2d M N sigma theta w slant).w = N := fun w => ⟨rfl, rfl⟩
  have e1 : ‖imgSum env‖ = ∑ x ∈ range M, ∑ y ∈ range N, ‖env.px x y‖ := by
    have : imgSum env = ((∑ x ∈ range M, ∑ y ∈ range N, ‖env.px x y‖ : ℝ) : ℂ) := by
      unfold imgSum
      rw [(hh 0).1, (hh 0).2, Complex.ofReal_sum]
      refine sum_congr rfl fun x hx => ?_
      rw [Complex.ofReal_sum]
      refine sum_congr rfl fun y hy => ?_
      obtain ⟨r, h0, hr⟩ := gabor_envelope M N sigma theta slant hsl (mem_range.1 hx) (mem_range.1 hy)
      rw [henv, hr, Complex.norm_real, Real.norm_eq_abs, abs_of_nonneg h0]
    rw [this, Complex.norm_real, Real.norm_eq_abs, abs_of_nonneg]
    exact sum_nonneg fun _ _ => sum_nonneg fun _ _ => norm_nonneg _
  have e2 : ‖imgSum wv‖ ≤ ∑ x ∈ range M, ∑ y ∈ range N, ‖wv.px x y‖ := by
    unfold imgSum
    rw [(hh xi).1, (hh xi).2]
    exact (norm_sum_le _ _).trans (sum_le_sum fun _ _ => norm_sum_le _ _)
  have e3 : ∀ x ∈ range M, ∀ y ∈ range N, ‖(morlet2d M N sigma theta xi slant).px x y‖ ≤
      ‖wv.px x y‖ + ‖imgSum wv / imgSum env‖ * ‖env.px x y‖ := by
    intro x hx y hy
    unfold morlet2d
    simp only
    rw [Img.px_tab (mem_range.1 hx) (mem_range.1 hy), ← norm_mul]
    exact norm_sub_le _ _
  have e4 : ‖imgSum wv / imgSum env‖ * ∑ x ∈ range M, ∑ y ∈ range N, ‖env.px x y‖ ≤ ‖imgSum wv‖ := by
    rw [← e1, norm_div]
    rcases eq_or_ne ‖imgSum env‖ 0 with h | h
    · rw [h]; simp
    · rw [div_mul_cancel₀ _ h]
  calc ∑ x ∈ range M, ∑ y ∈ range N, ‖(morlet2d M N sigma theta xi slant).px x y‖
      ≤ ∑ x ∈ range M, ∑ y ∈ range N, (‖wv.px x y‖ + ‖imgSum wv / imgSum env‖ * ‖env.px x y‖) :=
        sum_le_sum fun x hx => sum_le_sum fun y hy => e3 x hx y hy
    _ = (∑ x ∈ range M, ∑ y ∈ range N, ‖wv.px x y‖) +
          ‖imgSum wv / imgSum env‖ * ∑ x ∈ range M, ∑ y ∈ range N, ‖env.px x y‖ := by
        rw [mul_sum, ← sum_add_distrib]
        refine sum_congr rfl fun x _ => ?_
        rw [mul_sum, ← sum_add_distrib]
    _ ≤ _ := by linarith

theorem abs_realFft2_le (f : Img ℂ) {k l : ℕ} (hk : k < f.h) (hl : l < f.w) :
    |(realFft2 f).px k l| ≤ ∑ x ∈ range f.h, ∑ y ∈ range f.w, ‖f.px x y‖ := by
  unfold realFft2
  rw [Img.px_map _ _ (by exact hk) (by exact hl)]
  refine (Complex.abs_re_le_norm _).trans ?_
  unfold dft2
  rw [Img.px_tab hk hl]
  refine (norm_sum_le _ _).trans (sum_le_sum fun x _ => (norm_sum_le _ _).trans (sum_le_sum fun y _ => ?_))
  rw [norm_mul, norm_mul, norm_tw, norm_tw, mul_one, mul_one]

theorem exp_small : Real.exp (-12.5) ≤ 1 / 100000 := by
  have h1 : (2.7 : ℝ) ^ 12 ≤ Real.exp 12 := by
    rw [show (12 : ℝ) = ((12 : ℕ) : ℝ) * 1 by norm_num, Real.exp_nat_mul]
    exact pow_le_pow_left₀ (by norm_num) (by linarith [Real.exp_one_gt_d9]) 12
  have h2 : Real.exp 12 ≤ Real.exp 12.5 := Real.exp_le_exp.2 (by norm_num)
  have h3 : (100000 : ℝ) ≤ Real.exp 12.5 := le_trans (by norm_num) (h1.trans h2)
  rw [Real.exp_neg, ← one_div]
  exact div_le_div_of_nonneg_left (by norm_num) (by norm_num) h3

theorem exp_half : Real.exp (-(12.5 / 16)) ≤ 0.461 := by
  have h : (2.17 : ℝ) ≤ Real.exp (12.5 / 16) := by
    have := Real.sum_le_exp_of_nonneg (show (0 : ℝ) ≤ 12.5 / 16 by norm_num) 5
    refine le_trans ?_ this
    simp only [Finset.sum_range_succ, Finset.sum_range_zero, Nat.factorial]
    norm_num
  rw [Real.exp_neg, ← one_div]
  refine (div_le_div_of_nonneg_left (by norm_num) (by norm_num) h).trans (by norm_num)

theorem thetaBound_le {b r : ℝ} (hb : Real.exp (-b) ≤ r) (hr : r < 1) : thetaBound b ≤ 1 + 2 / (1 - r) * r := by
  unfold thetaBound
  have h0 := Real.exp_pos (-b)
  have : 2 / (1 - Real.exp (-b)) ≤ 2 / (1 - r) :=
    div_le_div_of_nonneg_left (by norm_num) (by linarith) (by linarith)
  have h3 : 0 ≤ 2 / (1 - r) := div_nonneg (by norm_num) (by linarith)
  have := mul_le_mul this hb h0.le h3
  linarith

theorem theta_one : thetaBound (12.5 / 1) ≤ 1.0001 := by
  rw [div_one]
  exact (thetaBound_le exp_small (by norm_num)).trans (by norm_num)

theorem theta_sixteen : thetaBound (12.5 / 16) ≤ 2.711 :=
  (thetaBound_le exp_half (by norm_num)).trans (by norm_num)

theorem pi_ratio : Real.pi / 3.1415 ≤ 1.0001 := by
  rw [div_le_iff₀ (by norm_num)]
  linarith [Real.pi_lt_d4]

/-- Largest gain of the wavelets with `L` angles. -/
noncomputable def waveletGain (L : ℕ) : ℝ := if 4 ≤ L then 2.001 else 15

theorem phi_gain (M N J : ℕ) (hJ : 1 ≤ J) {k l : ℕ} (hk : k < M) (hl : l < N) :
    |(phiHat2 M N J).px k l| ≤ 1.001 := by
  unfold phiHat2
  refine (abs_realFft2_le _ hk hl).trans ?_
  have hs : (0.8 : ℝ) ≤ 0.8 * (2 ^ J / 2) := by
    have : (2 : ℝ) ^ 1 ≤ 2 ^ J := pow_le_pow_right₀ (by norm_num) hJ
    rw [pow_one] at this
    linarith
  refine (gabor_l1 M N _ 0 0 1 1 hs one_pos le_rfl (by norm_num)).trans ?_
  have h1 := one_le_thetaBound (show (0 : ℝ) < 12.5 / 1 by norm_num)
  have h2 := theta_one
  have h3 : thetaBound (12.5 / 1) * thetaBound (12.5 / 1) ≤ 1.0001 * 1.0001 :=
    mul_le_mul h2 h2 (by linarith) (by norm_num)
  exact (mul_le_mul pi_ratio h3 (by positivity) (by norm_num)).trans (by norm_num)

theorem psi_gain (M N L j t : ℕ) (hL : 0 < L) {k l : ℕ} (hk : k < M) (hl : l < N) :
    |(psiHat2 M N L j t).px k l| ≤ waveletGain L := by
  unfold psiHat2
  refine (abs_realFft2_le _ hk hl).trans ?_
  have hL' : (0 : ℝ) < L := by exact_mod_cast hL
  have hsl : (0 : ℝ) < 4 / L := by positivity
  refine (morlet_l1 M N _ _ _ _ hsl).trans ?_
  have hs : (0.8 : ℝ) ≤ 0.8 * 2 ^ j := by
    have : (1 : ℝ) ≤ 2 ^ j := one_le_pow₀ (by norm_num)
    linarith
  unfold waveletGain
  split
  · rename_i h4
    have h4' : (4 : ℝ) ≤ L := by exact_mod_cast h4
    have hk1 : ((4 : ℝ) / L) ^ 2 ≤ 1 := by
      have : (4 : ℝ) / L ≤ 1 := by rw [div_le_one hL']; exact h4'
      exact pow_le_one₀ hsl.le this
    have := gabor_l1 M N _ ((((L - 2) / 2 : Nat) - (t : ℝ)) * Real.pi / L) (3 / 4 * Real.pi / 2 ^ j) _ 1 hs hsl le_rfl hk1
    have h1 := one_le_thetaBound (show (0 : ℝ) < 12.5 / 1 by norm_num)
    have h3 : thetaBound (12.5 / 1) * thetaBound (12.5 / 1) ≤ 1.0001 * 1.0001 :=
      mul_le_mul theta_one theta_one (by linarith) (by norm_num)
    have h5 := mul_le_mul pi_ratio h3 (by positivity) (by norm_num)
    linarith
  · have h1' : (1 : ℝ) ≤ L := by exact_mod_cast hL
    have hk1 : ((4 : ℝ) / L) ^ 2 ≤ 16 := by
      have : (4 : ℝ) / L ≤ 4 := by rw [div_le_iff₀ hL']; linarith
      calc ((4 : ℝ) / L) ^ 2 ≤ 4 ^ 2 := pow_le_pow_left₀ hsl.le this 2
        _ = 16 := by norm_num
    have := gabor_l1 M N _ ((((L - 2) / 2 : Nat) - (t : ℝ)) * Real.pi / L) (3 / 4 * Real.pi / 2 ^ j) _ 16 hs hsl
      (by norm_num) hk1
    have h1 := one_le_thetaBound (show (0 : ℝ) < 12.5 / 16 by norm_num)
    have h3 : thetaBound (12.5 / 16) * thetaBound (12.5 / 16) ≤ 2.711 * 2.711 :=
      mul_le_mul theta_sixteen theta_sixteen (by linarith) (by norm_num)
    have h5 := mul_le_mul pi_ratio h3 (by positivity) (by norm_num)
    linarith

/-- The stored levels have no larger gain. -/
theorem level_gain {f : Img ℝ} {C : ℝ} (hC : ∀ k l, k < f.h → l < f.w → |f.px k l| ≤ C) (res : ℕ)
    (hh : 2 ^ (res + 1) ∣ f.h) (hw : 2 ^ (res + 1) ∣ f.w) :
    ∀ k l, k < f.h / 2 ^ res → l < f.w / 2 ^ res → |(periodizeFilter f res).px k l| ≤ C := by
  intro k l hk hl
  obtain ⟨-, -, h⟩ := C41_periodize_partial f res hh hw
  obtain ⟨i, j, hi, hj, e⟩ := h k l hk hl
  rw [e]
  exact hC i j hi.1 hj.1

/-! ## The cascade -/

section

variable {H W J : ℕ} {M N : ℕ} (hJ : 1 ≤ J) (hH : H = padded2 M J) (hW : W = padded2 N J)
  (hM : 2 ^ J ≤ M) (hN : 2 ^ J ≤ N)

/-- Room for the decimated and cropped output on the grid of step `2^j`. -/
theorem crop_room (hM : 2 ^ J ≤ M) (hH : H = padded2 M J) {j : ℕ} (hj : j ≤ J) :
    M / 2 ^ J = 0 ∨ (1 + M / 2 ^ J - 1) * 2 ^ (J - j) < H / 2 ^ j := by
  right
  obtain ⟨h1, h2, -⟩ := C38_padding M J hM
  rw [← hH] at h1 h2
  have hd : 2 ^ j ∣ H := (pow_dvd_pow 2 hj).trans h1
  have hp : 0 < 2 ^ j := by positivity
  apply Nat.lt_of_mul_lt_mul_right (a := 2 ^ j)
  rw [Nat.div_mul_cancel hd, mul_assoc, ← pow_add, Nat.sub_add_cancel hj, Nat.add_sub_cancel_left]
  exact lt_of_le_of_lt (Nat.div_mul_le_self _ _) h2

theorem grid_room (h e : ℕ) : h / 2 ^ e = 0 ∨ (0 + h / 2 ^ e - 1) * 2 ^ e < h := by
  rcases Nat.eq_zero_or_pos (h / 2 ^ e) with h0 | h0
  · exact Or.inl h0
  · right
    have hp : 0 < 2 ^ e := by positivity
    calc (0 + h / 2 ^ e - 1) * 2 ^ e < h / 2 ^ e * 2 ^ e := Nat.mul_lt_mul_of_pos_right (by omega) hp
      _ ≤ h := Nat.div_mul_le_self _ _

theorem energy_band (h w e : ℕ) (x y f : ℕ → ℕ → ℝ) {C : ℝ} (hC : ∀ k l, k < h → l < w → |f k l| ≤ C) :
    energy2 (h / 2 ^ e) (w / 2 ^ e) (fun i k => Spec.band2 h w x f e i k - Spec.band2 h w y f e i k) ≤
      C ^ 2 * energy2 h w fun i k => x i k - y i k :=
  energy_step h w e 0 _ _ (grid_room h e) (grid_room w e) x y f hC _ fun i _ k _ => by
    unfold Spec.band2
    exact abs_norm_sub_norm_le _ _

include hJ hH hW hM hN

theorem energy_low (j : ℕ) (hj : j < J) (x y : ℕ → ℕ → ℝ) :
    energy2 (M / 2 ^ J) (N / 2 ^ J) (fun i k =>
      Spec.low2 (H / 2 ^ j) (W / 2 ^ j) x (periodizeFilter (phiHat2 H W J) j).px (J - j) (i + 1) (k + 1) -
      Spec.low2 (H / 2 ^ j) (W / 2 ^ j) y (periodizeFilter (phiHat2 H W J) j).px (J - j) (i + 1) (k + 1)) ≤
      1.001 ^ 2 * energy2 (H / 2 ^ j) (W / 2 ^ j) fun i k => x i k - y i k := by
  refine energy_step _ _ (J - j) 1 _ _ (crop_room hM hH hj.le) (crop_room hN hW hj.le) x y
    (periodizeFilter (phiHat2 H W J) j).px ?_ _ fun i _ k _ => ?_
  · have d1 := C41_levels_of_the_bank M J j hj
    have d2 := C41_levels_of_the_bank N J j hj
    rw [← hH] at d1
    rw [← hW] at d2
    exact level_gain (f := phiHat2 H W J) (fun k l hk hl => phi_gain H W J hJ hk hl) j d1 d2
  · unfold Spec.low2
    rw [← Complex.sub_re]
    exact Complex.abs_re_le_norm _

omit hJ hM hN in
theorem energy_psi (L t j' : ℕ) (hL : 0 < L) (j : ℕ) (hj : j < J) (e : ℕ) (x y : ℕ → ℕ → ℝ) :
    energy2 (H / 2 ^ j / 2 ^ e) (W / 2 ^ j / 2 ^ e) (fun i k =>
      Spec.band2 (H / 2 ^ j) (W / 2 ^ j) x (periodizeFilter (psiHat2 H W L j' t) j).px e i k -
      Spec.band2 (H / 2 ^ j) (W / 2 ^ j) y (periodizeFilter (psiHat2 H W L j' t) j).px e i k) ≤
      waveletGain L ^ 2 * energy2 (H / 2 ^ j) (W / 2 ^ j) fun i k => x i k - y i k := by
  refine energy_band _ _ e x y _ ?_
  have d1 := C41_levels_of_the_bank M J j hj
  have d2 := C41_levels_of_the_bank N J j hj
  rw [← hH] at d1
  rw [← hW] at d2
  exact level_gain (f := psiHat2 H W L j' t) (fun k l hk hl => psi_gain H W L j' t hL hk hl) j d1 d2

end

theorem energy2_congr {h w : ℕ} {x y : ℕ → ℕ → ℝ} (e : ∀ i < h, ∀ k < w, x i k = y i k) :
    energy2 h w x = energy2 h w y :=
  sum_congr rfl fun i hi => sum_congr rfl fun k hk => by rw [e i (mem_range.1 hi) k (mem_range.1 hk)]

theorem low2_congr (h w : ℕ) (x : ℕ → ℕ → ℝ) (e i k : ℕ) {f g : ℕ → ℕ → ℝ}
    (hfg : ∀ i j, i < h → j < w → f i j = g i j) : Spec.low2 h w x f e i k = Spec.low2 h w x g e i k := by
  unfold Spec.low2
  rw [conv2_congr (fun _ _ _ _ => rfl) hfg]

theorem index_inj {L j t j' t' : ℕ} (ht : t < L) (ht' : t' < L) (h : j * L + t = j' * L + t') : j = j' ∧ t = t' := by
  have e1 : (j * L + t) / L = j := by
    rw [Nat.add_comm, Nat.add_mul_div_right _ _ (by omega), Nat.div_eq_of_lt ht, Nat.zero_add]
  have e2 : (j' * L + t') / L = j' := by
    rw [Nat.add_comm, Nat.add_mul_div_right _ _ (by omega), Nat.div_eq_of_lt ht', Nat.zero_add]
  have : j = j' := by rw [← e1, h, e2]
  subst this
  exact ⟨rfl, by omega⟩

/-- Padding multiplies the energy of a difference by at most 16. -/
theorem energy_padded {H W M N J : ℕ} (hJ : 1 ≤ J) (hM : 2 ^ J ≤ M) (hN : 2 ^ J ≤ N) (hH : H = padded2 M J)
    (hW : W = padded2 N J) {x y u v : Img ℝ} (hx : x.h = M ∧ x.w = N) (hy : y.h = M ∧ y.w = N)
    (hu : np2Pad ((H - M) / 2) ((H - M + 1) / 2) ((W - N) / 2) ((W - N + 1) / 2) x = .ok u)
    (hv : np2Pad ((H - M) / 2) ((H - M + 1) / 2) ((W - N) / 2) ((W - N + 1) / 2) y = .ok v) :
    energy2 H W (fun i k => u.px i k - v.px i k) ≤ 4 ^ 2 * energy2 M N fun i k => x.px i k - y.px i k := by
  have h2 : 2 ≤ 2 ^ J := by
    calc 2 = 2 ^ 1 := rfl
      _ ≤ 2 ^ J := Nat.pow_le_pow_right (by norm_num) hJ
  obtain ⟨-, -, a1, a2, a3, a4, a5⟩ := C38_padding M J hM
  obtain ⟨-, -, b1, b2, b3, b4, b5⟩ := C38_padding N J hN
  rw [← hH] at a1 a2 a3 a4 a5
  rw [← hW] at b1 b2 b3 b4 b5
  have three : ∀ {n t : ℕ}, 2 ^ J ≤ n → t ≤ 2 ^ J → n = 3 → t ≠ 3 := by
    intro n t hn ht h3 h
    subst h3 h
    have e : 2 ^ J = 3 := by omega
    have : Even (2 ^ J) := (Nat.even_pow.2 ⟨even_two, by omega⟩)
    rw [e] at this
    exact absurd this (by decide)
  obtain ⟨u', hu', hh, hw, pu⟩ := C43_numpy_mirror x ((H - M) / 2) ((H - M + 1) / 2) ((W - N) / 2) ((W - N + 1) / 2)
    (by omega) (by omega)
  obtain ⟨v', hv', hh', hw', pv⟩ := C43_numpy_mirror y ((H - M) / 2) ((H - M + 1) / 2) ((W - N) / 2) ((W - N + 1) / 2)
    (by omega) (by omega)
  rw [hu] at hu'
  rw [hv] at hv'
  obtain rfl := Except.ok.inj hu'
  obtain rfl := Except.ok.inj hv'
  set D : ℕ → ℕ → ℝ := fun i k => (x.px i k - y.px i k) ^ 2 with hD
  have hD0 : ∀ i k, 0 ≤ D i k := fun i k => sq_nonneg _
  have e1 : energy2 H W (fun i k => u.px i k - v.px i k) =
      ∑ i ∈ range ((H - M) / 2 + M + (H - M + 1) / 2), ∑ k ∈ range ((W - N) / 2 + N + (W - N + 1) / 2),
        D (Spec.mirror M ((i : ℤ) - ((H - M) / 2 : ℕ))) (Spec.mirror N ((k : ℤ) - ((W - N) / 2 : ℕ))) := by
    rw [a1, b1]
    refine sum_congr rfl fun i hi => sum_congr rfl fun k hk => ?_
    rw [mem_range] at hi hk
    show (u.px i k - v.px i k) ^ 2 = _
    rw [pu i k (by omega) (by omega), pv i k (by omega) (by omega), hx.1, hx.2, hy.1, hy.2]
  rw [e1]
  have inner : ∀ i, ∑ k ∈ range ((W - N) / 2 + N + (W - N + 1) / 2), D i (Spec.mirror N ((k : ℤ) - ((W - N) / 2 : ℕ))) ≤
      4 * ∑ k ∈ range N, D i k := fun i =>
    sum_mirror_le N _ _ (by omega) b4 b5 (three hN b2) (D i) (hD0 i)
  calc _ ≤ ∑ i ∈ range ((H - M) / 2 + M + (H - M + 1) / 2),
        4 * ∑ k ∈ range N, D (Spec.mirror M ((i : ℤ) - ((H - M) / 2 : ℕ))) k := sum_le_sum fun i _ => inner _
    _ = 4 * ∑ i ∈ range ((H - M) / 2 + M + (H - M + 1) / 2),
        (fun i => ∑ k ∈ range N, D i k) (Spec.mirror M ((i : ℤ) - ((H - M) / 2 : ℕ))) := by rw [mul_sum]
    _ ≤ 4 * (4 * ∑ i ∈ range M, ∑ k ∈ range N, D i k) :=
        mul_le_mul_of_nonneg_left (sum_mirror_le M _ _ (by omega) a4 a5 (three hM a2)
          (fun i => ∑ k ∈ range N, D i k) fun i => sum_nonneg fun k _ => hD0 i k) (by norm_num)
    _ = _ := by rw [← mul_assoc]; norm_num [energy2, hD]

theorem norm2_le {h w h' w' : ℕ} {d x : ℕ → ℕ → ℝ} {C : ℝ} (hC : 0 ≤ C)
    (he : energy2 h w d ≤ C ^ 2 * energy2 h' w' x) : Spec.norm2 h w d ≤ C * Spec.norm2 h' w' x := by
  unfold Spec.norm2
  rw [← Real.sqrt_sq hC, ← Real.sqrt_mul (sq_nonneg C)]
  exact Real.sqrt_le_sqrt he

theorem waveletGain_pos (L : ℕ) : 0 < waveletGain L := by
  unfold waveletGain; split <;> norm_num

/-- **C97.**  For two images of the declared shape, corresponding coefficients of every order have the same
shape, and their distance in the Euclidean norm is at most a constant times the distance of the images.  The constant
depends on nothing but the order, `pre_pad` (reflection may repeat a pixel 16 times) and whether there
are at least four angles: not on the size of the image, nor on `J`, nor on the path. -/
theorem C97_euclidean (a : Args2D) (ho : a.outType = .list) (x y : Img ℝ) (l m : List (Path2 (Img ℝ)))
    (hl : a.run x = .ok (.list l)) (hm : a.run y = .ok (.list m)) (p q : Path2 (Img ℝ)) (hp : p ∈ l) (hq : q ∈ m)
    (hpq : p.n = q.n) :
    q.coef.h = p.coef.h ∧ q.coef.w = p.coef.w ∧
      Spec.norm2 p.coef.h p.coef.w (fun i k => p.coef.px i k - q.coef.px i k) ≤
        1.001 * (if 4 ≤ a.L then 2.001 else 15) ^ p.n.length *
          ((if a.prePad then 1 else 4) * Spec.norm2 x.h x.w fun i k => x.px i k - y.px i k) := by
  obtain ⟨hJ, hM, hN, -, hxs⟩ := (C94_returns_iff_2d a x).1 ⟨_, hl⟩
  obtain ⟨-, -, -, -, hys⟩ := (C94_returns_iff_2d a y).1 ⟨_, hm⟩
  obtain ⟨ph, pw⟩ := C38_output_size a x _ hl p.coef (List.mem_map.2 ⟨p, hp, rfl⟩)
  obtain ⟨qh, qw⟩ := C38_output_size a y _ hm q.coef (List.mem_map.2 ⟨q, hq, rfl⟩)
  refine ⟨by rw [ph, qh], by rw [pw, qw], ?_⟩
  obtain ⟨H, W, u, hH, hW, uh, uw, up, un, hXp⟩ := C58_closed_form a ho x l hl
  obtain ⟨H', W', v, hH', hW', vh, vw, vp, vn, hYq⟩ := C58_closed_form a ho y m hm
  obtain rfl : H = H' := by rw [hH, hH']
  obtain rfl : W = W' := by rw [hW, hW']
  rw [ph, pw]
  set P : ℝ := if a.prePad then 1 else 4 with hP
  have hP0 : 0 ≤ P := by rw [hP]; split <;> norm_num
  have hE0 : energy2 H W (fun i k => u.px i k - v.px i k) ≤ P ^ 2 * energy2 x.h x.w fun i k => x.px i k - y.px i k := by
    rw [hP]
    split
    · rename_i hpp
      rw [if_pos hpp] at hxs
      rw [up hpp, vp hpp, hxs.1, hxs.2, ← hH, ← hW, one_pow, one_mul]
    · rename_i hpp
      rw [if_neg hpp] at hxs hys
      rw [hxs.1, hxs.2]
      have hpp : a.prePad = false := by simpa using hpp
      exact energy_padded hJ hM hN hH hW hxs hys (un hpp) (vn hpp)
  set G := waveletGain a.L with hG
  have hG0 : 0 ≤ G := (waveletGain_pos _).le
  have hGe : (if 4 ≤ a.L then (2.001 : ℝ) else 15) = G := rfl
  rw [hGe, ← mul_assoc]
  apply norm2_le (mul_nonneg (mul_nonneg (by norm_num) (pow_nonneg hG0 _)) hP0)
  have hlow := fun j hj X Y => energy_low (M := a.M) (N := a.N) hJ hH hW hM hN j hj X Y
  have main : energy2 (a.M / 2 ^ a.J) (a.N / 2 ^ a.J) (fun i k => p.coef.px i k - q.coef.px i k) ≤
      1.001 ^ 2 * ((G ^ 2) ^ p.n.length * energy2 H W fun i k => u.px i k - v.px i k) := by
    have z1 : H / 2 ^ 0 = H := by simp
    have z2 : W / 2 ^ 0 = W := by simp
    have h00 : 0 < a.M / 2 ^ a.J ∧ 0 < a.N / 2 ^ a.J :=
      ⟨Nat.div_pos hM (by positivity), Nat.div_pos hN (by positivity)⟩
    have P0 := hXp p hp 0 0 (by rw [ph]; exact h00.1) (by rw [pw]; exact h00.2)
    rcases P0 with ⟨n1, -⟩ | ⟨j, t, hj, ht, n1, -⟩ | ⟨j, t, j', t', hjj, hj', ht, ht', n1, -⟩
    · have e : energy2 (a.M / 2 ^ a.J) (a.N / 2 ^ a.J) (fun i k => p.coef.px i k - q.coef.px i k) =
          energy2 (a.M / 2 ^ a.J) (a.N / 2 ^ a.J) (fun i k =>
            Spec.low2 (H / 2 ^ 0) (W / 2 ^ 0) u.px (periodizeFilter (phiHat2 H W a.J) 0).px (a.J - 0) (i + 1) (k + 1) -
            Spec.low2 (H / 2 ^ 0) (W / 2 ^ 0) v.px (periodizeFilter (phiHat2 H W a.J) 0).px (a.J - 0) (i + 1) (k + 1)) := by
        refine energy2_congr fun i hi k hk => ?_
        have Pi := hXp p hp i k (by omega) (by omega)
        have Qi := hYq q hq i k (by omega) (by omega)
        rcases Pi with ⟨-, c1⟩ | ⟨_, _, _, _, h, -⟩ | ⟨_, _, _, _, _, _, _, _, h, -⟩
        · rcases Qi with ⟨-, c2⟩ | ⟨_, _, _, _, h, -⟩ | ⟨_, _, _, _, _, _, _, _, h, -⟩
          · rw [c1, c2, z1, z2, Nat.sub_zero]
            have hz := fun w : ℕ → ℕ → ℝ => low2_congr H W w (a.J) (i + 1) (k + 1)
              (f := (phiHat2 H W a.J).px) (g := (periodizeFilter (phiHat2 H W a.J) 0).px)
              fun k l hk hl => (C41_level_zero (phiHat2 H W a.J) k l hk hl).symm
            rw [hz u.px, hz v.px]
          · rw [← hpq, n1] at h; cases h
          · rw [← hpq, n1] at h; cases h
        · rw [n1] at h; exact absurd h (by simp)
        · rw [n1] at h; exact absurd h (by simp)
      rw [e, n1]
      refine (hlow 0 (by omega) u.px v.px).trans (le_of_eq ?_)
      rw [z1, z2]; simp
    · have e : energy2 (a.M / 2 ^ a.J) (a.N / 2 ^ a.J) (fun i k => p.coef.px i k - q.coef.px i k) =
          energy2 (a.M / 2 ^ a.J) (a.N / 2 ^ a.J) (fun i k =>
            Spec.low2 (H / 2 ^ j) (W / 2 ^ j) (Spec.band2 H W u.px (psiHat2 H W a.L j t).px j)
              (periodizeFilter (phiHat2 H W a.J) j).px (a.J - j) (i + 1) (k + 1) -
            Spec.low2 (H / 2 ^ j) (W / 2 ^ j) (Spec.band2 H W v.px (psiHat2 H W a.L j t).px j)
              (periodizeFilter (phiHat2 H W a.J) j).px (a.J - j) (i + 1) (k + 1)) := by
        refine energy2_congr fun i hi k hk => ?_
        have Pi := hXp p hp i k (by omega) (by omega)
        have Qi := hYq q hq i k (by omega) (by omega)
        rcases Pi with ⟨h, -⟩ | ⟨j1, t1, b1, b2, h, -, -, c1⟩ | ⟨_, _, _, _, _, _, _, _, h, -⟩
        · rw [n1] at h; exact absurd h (by simp)
        · rcases Qi with ⟨h', -⟩ | ⟨j2, t2, d1, d2, h', -, -, c2⟩ | ⟨_, _, _, _, _, _, _, _, h', -⟩
          · rw [← hpq, n1] at h'; exact absurd h' (by simp)
          · rw [n1] at h
            rw [← hpq, n1] at h'
            obtain ⟨rfl, rfl⟩ := index_inj ht b2 (List.cons.inj h).1
            obtain ⟨rfl, rfl⟩ := index_inj ht d2 (List.cons.inj h').1
            rw [c1, c2]
          · rw [← hpq, n1] at h'; exact absurd h' (by simp)
        · rw [n1] at h; exact absurd h (by simp)
      rw [e, n1]
      refine (hlow j hj _ _).trans ?_
      refine mul_le_mul_of_nonneg_left ?_ (by norm_num)
      refine (energy_band H W j u.px v.px (psiHat2 H W a.L j t).px
        (fun k l hk hl => psi_gain H W a.L j t (by omega) hk hl)).trans (le_of_eq ?_)
      rw [List.length_singleton, pow_one]
    · have e : energy2 (a.M / 2 ^ a.J) (a.N / 2 ^ a.J) (fun i k => p.coef.px i k - q.coef.px i k) =
          energy2 (a.M / 2 ^ a.J) (a.N / 2 ^ a.J) (fun i k =>
            Spec.low2 (H / 2 ^ j') (W / 2 ^ j')
              (Spec.band2 (H / 2 ^ j) (W / 2 ^ j) (Spec.band2 H W u.px (psiHat2 H W a.L j t).px j)
                (periodizeFilter (psiHat2 H W a.L j' t') j).px (j' - j))
              (periodizeFilter (phiHat2 H W a.J) j').px (a.J - j') (i + 1) (k + 1) -
            Spec.low2 (H / 2 ^ j') (W / 2 ^ j')
              (Spec.band2 (H / 2 ^ j) (W / 2 ^ j) (Spec.band2 H W v.px (psiHat2 H W a.L j t).px j)
                (periodizeFilter (psiHat2 H W a.L j' t') j).px (j' - j))
              (periodizeFilter (phiHat2 H W a.J) j').px (a.J - j') (i + 1) (k + 1)) := by
        refine energy2_congr fun i hi k hk => ?_
        have Pi := hXp p hp i k (by omega) (by omega)
        have Qi := hYq q hq i k (by omega) (by omega)
        rcases Pi with ⟨h, -⟩ | ⟨_, _, _, _, h, -⟩ | ⟨j1, t1, j2, t2, b1, b2, b3, b4, h, -, -, c1⟩
        · rw [n1] at h; exact absurd h (by simp)
        · rw [n1] at h; exact absurd h (by simp)
        · rcases Qi with ⟨h', -⟩ | ⟨_, _, _, _, h', -⟩ | ⟨i1, s1, i2, s2, d1, d2, d3, d4, h', -, -, c2⟩
          · rw [← hpq, n1] at h'; exact absurd h' (by simp)
          · rw [← hpq, n1] at h'; exact absurd h' (by simp)
          · rw [n1] at h
            rw [← hpq, n1] at h'
            obtain ⟨rfl, rfl⟩ := index_inj ht b3 (List.cons.inj h).1
            obtain ⟨rfl, rfl⟩ := index_inj ht d3 (List.cons.inj h').1
            obtain ⟨rfl, rfl⟩ := index_inj ht' b4 (List.cons.inj (List.cons.inj h).2).1
            obtain ⟨rfl, rfl⟩ := index_inj ht' d4 (List.cons.inj (List.cons.inj h').2).1
            rw [c1, c2]
      rw [e, n1]
      refine (hlow j' hj' _ _).trans ?_
      refine mul_le_mul_of_nonneg_left ?_ (by norm_num)
      have g1 := energy_band H W j u.px v.px (psiHat2 H W a.L j t).px
        (fun k l hk hl => psi_gain H W a.L j t (by omega) hk hl)
      have g2 := energy_psi (M := a.M) (N := a.N) hH hW a.L t' j' (by omega) j (by omega : j < a.J) (j' - j)
        (Spec.band2 H W u.px (psiHat2 H W a.L j t).px j) (Spec.band2 H W v.px (psiHat2 H W a.L j t).px j)
      rw [Nat.div_div_eq_div_mul, Nat.div_div_eq_div_mul, ← pow_add, Nat.add_sub_cancel' hjj.le] at g2
      refine g2.trans ?_
      refine (mul_le_mul_of_nonneg_left g1 (sq_nonneg _)).trans (le_of_eq ?_)
      rw [← hG]
      simp only [List.length_cons, List.length_nil]
      ring
  calc _ ≤ _ := main
    _ ≤ 1.001 ^ 2 * ((G ^ 2) ^ p.n.length * (P ^ 2 * energy2 x.h x.w fun i k => x.px i k - y.px i k)) := by
        refine mul_le_mul_of_nonneg_left (mul_le_mul_of_nonneg_left hE0 (by positivity)) (by norm_num)
    _ = _ := by rw [mul_pow, mul_pow, ← pow_mul, ← pow_mul, mul_comm 2 p.n.length]; ring

theorem norm2_congr {h w : ℕ} {x y : ℕ → ℕ → ℝ} (e : ∀ i < h, ∀ k < w, x i k = y i k) :
    Spec.norm2 h w x = Spec.norm2 h w y := congrArg Real.sqrt (energy2_congr e)

/-- The norm of a coefficient is at most the same constant times the norm of the image. -/
theorem C97_bounded (a : Args2D) (ho : a.outType = .list) (x : Img ℝ) (l : List (Path2 (Img ℝ)))
    (hl : a.run x = .ok (.list l)) (p : Path2 (Img ℝ)) (hp : p ∈ l) :
    Spec.norm2 p.coef.h p.coef.w p.coef.px ≤
      1.001 * (if 4 ≤ a.L then 2.001 else 15) ^ p.n.length *
        ((if a.prePad then 1 else 4) * Spec.norm2 x.h x.w x.px) := by
  let y : Img ℝ := Img.tab x.h x.w fun _ _ => 0
  have hy : ∀ i k, i < x.h → k < x.w → y.px i k = 0 := fun i k hi hk => Img.px_tab hi hk
  obtain ⟨m, hm, hr⟩ := C44_scaling a ho 0 x y rfl rfl (fun i k hi hk => by rw [hy i k hi hk, zero_mul]) l hl
  obtain ⟨q, hq, h1, h2, h3, h4, h5, h6⟩ := forall₂_mem_left hr hp
  obtain ⟨-, -, e⟩ := C97_euclidean a ho x y l m hl hm p q hp hq h2
  rw [norm2_congr (y := p.coef.px), norm2_congr (h := x.h) (w := x.w) (y := x.px)] at e
  · exact e
  · intro i hi k hk
    rw [hy i k hi hk, sub_zero]
  · intro i hi k hk
    rw [h6 i k hi hk]
    simp

/-- The hypotheses hold for two different images of shape `(5, 7)`, with order two. -/
example : ∃ (x y : Img ℝ) (l m : List (Path2 (Img ℝ))), x.px 1 2 ≠ y.px 1 2 ∧
    (⟨2, 5, 7, 3, 2, false, .list⟩ : Args2D).run x = .ok (.list l) ∧
    (⟨2, 5, 7, 3, 2, false, .list⟩ : Args2D).run y = .ok (.list m) ∧ (∃ p ∈ l, ∃ q ∈ m, p.n = [0, 3] ∧ p.n = q.n) := by
  have run : ∀ c : ℝ, ∃ l, (⟨2, 5, 7, 3, 2, false, .list⟩ : Args2D).run (Img.tab 5 7 fun _ _ => c) = .ok (.list l) ∧
      ∃ p ∈ l, p.n = [0, 3] := by
    intro c
    obtain ⟨out, h⟩ := (C94_returns_iff_2d ⟨2, 5, 7, 3, 2, false, .list⟩ (Img.tab 5 7 fun _ _ => c)).2 (by simp)
    obtain ⟨s, l, hs, hc, hl, -, hli⟩ := run_eq_ok h
    obtain rfl := hli rfl
    refine ⟨l, h, ?_⟩
    have e := Core2D.labels_eq np2Backend _ hl
    rw [(make_eq_ok hs).2.2.2.2.2, labels_bank] at e
    have hmem : (([0, 1], [0, 3], [0, 0]) : List ℕ × List ℕ × List ℕ) ∈ Spec.channels2 2 3 2 := by decide
    rw [← e] at hmem
    obtain ⟨p, hp, hpe⟩ := List.mem_map.1 hmem
    exact ⟨p, hp, (Prod.mk.inj (Prod.mk.inj hpe).2).1⟩
  obtain ⟨l, h1, p, hp, e1⟩ := run 0
  obtain ⟨m, h2, q, hq, e2⟩ := run 1
  refine ⟨_, _, l, m, ?_, h1, h2, p, hp, q, hq, e1, by rw [e1, e2]⟩
  rw [Img.px_tab (by norm_num) (by norm_num), Img.px_tab (by norm_num) (by norm_num)]
  norm_num

end Verif
