import Verif.Lemmas.GaussSums
import Verif.Lemmas.Transpose2D
import Verif.Lemmas.Energy2D

/-!
# Filters along an axis, images that vary along one axis only

For the counterexample to C83: the transfer functions of the 24 x 24 wavelets of angle zero on the
first frequency axis, and circular convolution of images that depend on the first coordinate only.
-/

namespace Verif

open Finset

/-- The sum over the five copies of each pixel is the sum over the window `[-48, 72)`. -/
theorem sum_copies (g : ℝ → ℂ) :
    ∑ m ∈ range 24, ∑ e ∈ range 5, g ((m : ℝ) + ((e : ℝ) - 2) * (24 : ℕ)) = ∑ n ∈ range 120, g ((n : ℝ) - 48) := by
  rw [Finset.sum_comm, show 120 = 5 * 24 from rfl, sum_range_mul_block 5 24 fun n => g ((n : ℝ) - 48)]
  refine Finset.sum_congr rfl fun e _ => Finset.sum_congr rfl fun m _ => ?_
  congr 1
  push_cast
  ring

theorem tw_copies (k m e : ℕ) : tw 24 (-((k : ℤ) * m)) =
    Complex.exp (Complex.I * ((-(k * (Real.pi / 12)) * ((m : ℝ) + ((e : ℝ) - 2) * (24 : ℕ)) : ℝ) : ℂ)) := by
  rw [← tw_congr 24 (a := -((k : ℤ) * m) + 24 * (-(k * ((e : ℤ) - 2)))) (by push_cast; simp)]
  unfold tw
  congr 1
  push_cast
  ring

/-- A Gabor filter of angle zero on the first frequency axis. -/
theorem gabor_axis (sigma xi slant : ℝ) {k : ℕ} (hk : k < 24) :
    (dft2 (gabor2d 24 24 sigma 0 xi slant)).px k 0 =
      gs (1 / (2 * sigma * sigma)) (xi - k * (Real.pi / 12)) * gs (slant ^ 2 / (2 * sigma * sigma)) 0 /
        ((2 * 3.1415 * sigma * sigma / slant : ℝ) : ℂ) := by
  have hh : (gabor2d 24 24 sigma 0 xi slant).h = 24 := rfl
  have hw : (gabor2d 24 24 sigma 0 xi slant).w = 24 := rfl
  unfold dft2
  rw [hh, hw, Img.px_tab hk (by norm_num)]
  have hpx : ∀ m < 24, ∀ n < 24, (gabor2d 24 24 sigma 0 xi slant).px m n * (tw 24 (-((k : ℤ) * m)) * tw 24 (-(((0 : ℕ) : ℤ) * n))) =
      (∑ e ∈ range 5, (Real.exp (-(1 / (2 * sigma * sigma) * ((m : ℝ) + ((e : ℝ) - 2) * (24 : ℕ)) ^ 2)) : ℂ) *
        Complex.exp (Complex.I * ((xi - k * (Real.pi / 12)) * ((m : ℝ) + ((e : ℝ) - 2) * (24 : ℕ)) : ℝ))) *
      (∑ e ∈ range 5, (Real.exp (-(slant ^ 2 / (2 * sigma * sigma) * ((n : ℝ) + ((e : ℝ) - 2) * (24 : ℕ)) ^ 2)) : ℂ) *
        Complex.exp (Complex.I * (0 * ((n : ℝ) + ((e : ℝ) - 2) * (24 : ℕ)) : ℝ))) /
        ((2 * 3.1415 * sigma * sigma / slant : ℝ) : ℂ) := by
    intro m hm n hn
    unfold gabor2d
    simp only []
    rw [Img.px_tab hm hn, div_mul_eq_mul_div, Finset.sum_mul_sum, Finset.sum_mul]
    congr 1
    refine Finset.sum_congr rfl fun e _ => ?_
    rw [Finset.sum_mul]
    refine Finset.sum_congr rfl fun e' _ => ?_
    rw [tw_copies k m e, show tw 24 (-(((0 : ℕ) : ℤ) * n)) = 1 by simp [tw_zero]]
    rw [Complex.ofReal_exp, Complex.ofReal_exp, ← Complex.exp_add, ← Complex.exp_add, ← Complex.exp_add, mul_one,
      ← Complex.exp_add]
    congr 1
    push_cast [Real.cos_zero, Real.sin_zero]
    ring
  rw [Finset.sum_congr rfl fun m hm => Finset.sum_congr rfl fun n hn => hpx m (mem_range.1 hm) n (mem_range.1 hn)]
  simp only [← Finset.sum_div, ← Finset.mul_sum, ← Finset.sum_mul]
  rw [sum_copies fun u => (Real.exp (-(1 / (2 * sigma * sigma) * u ^ 2)) : ℂ) *
      Complex.exp (Complex.I * ((xi - k * (Real.pi / 12)) * u : ℝ)),
    sum_copies fun u => (Real.exp (-(slant ^ 2 / (2 * sigma * sigma) * u ^ 2)) : ℂ) *
      Complex.exp (Complex.I * (0 * u : ℝ))]
  rfl

theorem gs_zero (gamma : ℝ) : gs gamma 0 = ((∑ n ∈ range 120, Real.exp (-(gamma * ((n : ℝ) - 48) ^ 2)) : ℝ) : ℂ) := by
  unfold gs
  push_cast
  refine Finset.sum_congr rfl fun n _ => ?_
  simp

theorem gs_zero_pos (gamma : ℝ) : 0 < ∑ n ∈ range 120, Real.exp (-(gamma * ((n : ℝ) - 48) ^ 2)) :=
  Finset.sum_pos (fun _ _ => Real.exp_pos _) ⟨0, by simp⟩

theorem norm_gs_le (gamma omega : ℝ) : ‖gs gamma omega‖ ≤ ∑ n ∈ range 120, Real.exp (-(gamma * ((n : ℝ) - 48) ^ 2)) := by
  refine norm_sum_le_of_le _ fun n _ => ?_
  rw [norm_mul, mul_comm Complex.I, Complex.norm_exp_ofReal_mul_I, mul_one, Complex.norm_real,
    Real.norm_of_nonneg (Real.exp_pos _).le]

theorem imgSum_eq_dft (x : Img ℂ) (hh : x.h = 24) (hw : x.w = 24) : imgSum x = (dft2 x).px 0 0 := by
  unfold imgSum dft2
  rw [hh, hw, Img.px_tab (by norm_num) (by norm_num)]
  refine Finset.sum_congr rfl fun m _ => Finset.sum_congr rfl fun n _ => ?_
  simp [tw_zero]

/-- A Morlet filter of angle zero on the first frequency axis, up to a positive factor. -/
theorem morlet_axis (sigma xi slant : ℝ) (hs : 0 < sigma) (hsl : 0 < slant) :
    ∃ c : ℝ, 0 < c ∧ ∀ k < 24, (realFft2 (morlet2d 24 24 sigma 0 xi slant)).px k 0 =
      c * (gs (1 / (2 * sigma * sigma)) (xi - k * (Real.pi / 12)) -
        gs (1 / (2 * sigma * sigma)) xi / gs (1 / (2 * sigma * sigma)) 0 *
          gs (1 / (2 * sigma * sigma)) (-(k * (Real.pi / 12)))).re := by
  set c : ℝ := (∑ n ∈ range 120, Real.exp (-(slant ^ 2 / (2 * sigma * sigma) * ((n : ℝ) - 48) ^ 2))) /
    (2 * 3.1415 * sigma * sigma / slant) with hc
  have hc0 : 0 < c := div_pos (gs_zero_pos _) (by positivity)
  refine ⟨c, hc0, fun k hk => ?_⟩
  have hg : ∀ xi : ℝ, ∀ k < 24, (dft2 (gabor2d 24 24 sigma 0 xi slant)).px k 0 =
      c * gs (1 / (2 * sigma * sigma)) (xi - k * (Real.pi / 12)) := by
    intro xi k hk
    rw [gabor_axis sigma xi slant hk, gs_zero (slant ^ 2 / _), hc]
    push_cast
    ring
  have hK : imgSum (gabor2d 24 24 sigma 0 xi slant) / imgSum (gabor2d 24 24 sigma 0 0 slant) =
      gs (1 / (2 * sigma * sigma)) xi / gs (1 / (2 * sigma * sigma)) 0 := by
    rw [imgSum_eq_dft _ rfl rfl, imgSum_eq_dft _ rfl rfl, hg _ 0 (by norm_num), hg _ 0 (by norm_num)]
    have : (c : ℂ) ≠ 0 := by exact_mod_cast hc0.ne'
    rw [mul_div_mul_left _ _ this]
    simp
  have hlin : (dft2 (morlet2d 24 24 sigma 0 xi slant)).px k 0 = (dft2 (gabor2d 24 24 sigma 0 xi slant)).px k 0 -
      imgSum (gabor2d 24 24 sigma 0 xi slant) / imgSum (gabor2d 24 24 sigma 0 0 slant) *
        (dft2 (gabor2d 24 24 sigma 0 0 slant)).px k 0 := by
    unfold dft2
    have a1 : (morlet2d 24 24 sigma 0 xi slant).h = 24 := rfl
    have a2 : (morlet2d 24 24 sigma 0 xi slant).w = 24 := rfl
    have a3 : ∀ xi, (gabor2d 24 24 sigma 0 xi slant).h = 24 := fun _ => rfl
    have a4 : ∀ xi, (gabor2d 24 24 sigma 0 xi slant).w = 24 := fun _ => rfl
    simp only [a1, a2, a3, a4]
    rw [Img.px_tab hk (by norm_num), Img.px_tab hk (by norm_num), Img.px_tab hk (by norm_num), Finset.mul_sum,
      ← Finset.sum_sub_distrib]
    refine Finset.sum_congr rfl fun m hm => ?_
    rw [Finset.mul_sum, ← Finset.sum_sub_distrib]
    refine Finset.sum_congr rfl fun n hn => ?_
    have : (morlet2d 24 24 sigma 0 xi slant).px m n = (gabor2d 24 24 sigma 0 xi slant).px m n -
      imgSum (gabor2d 24 24 sigma 0 xi slant) / imgSum (gabor2d 24 24 sigma 0 0 slant) *
        (gabor2d 24 24 sigma 0 0 slant).px m n := Img.px_tab (mem_range.1 hm) (mem_range.1 hn)
    rw [this]
    ring
  have hre : (realFft2 (morlet2d 24 24 sigma 0 xi slant)).px k 0 = ((dft2 (morlet2d 24 24 sigma 0 xi slant)).px k 0).re :=
    Img.px_tab (by exact hk) (by show 0 < 24; norm_num)
  rw [hre, hlin, hK, hg _ k hk, hg _ k hk, zero_sub, ← Complex.re_ofReal_mul]
  congr 1
  ring

/-- Circular convolution of an image that depends on the first coordinate only. -/
theorem conv2_axis {h w : ℕ} (hh : h ≠ 0) (hw : w ≠ 0) (x f : ℕ → ℕ → ℝ) (c : ℕ → ℂ)
    (hx : ∀ u < h, ∀ v < w, (x u v : ℂ) = ∑ a ∈ range h, c a * tw h (a * u)) (m n : ℤ) :
    Spec.conv2 h w x (Spec.impulse2 h w f) m n = ∑ a ∈ range h, c a * f a 0 * tw h (a * m) := by
  have hh' : (h : ℂ) ≠ 0 := by exact_mod_cast hh
  have hw' : (w : ℂ) ≠ 0 := by exact_mod_cast hw
  unfold Spec.conv2 Spec.impulse2
  have e1 : ∀ u ∈ range h, ∀ v ∈ range w, (x u v : ℂ) * ((∑ k ∈ range h, ∑ l ∈ range w, (f k l : ℂ) *
      Complex.exp (2 * Real.pi * Complex.I * ((k * (m - u) : ℤ) / h + (l * (n - v) : ℤ) / w))) / (h * w)) =
      ∑ a ∈ range h, ∑ k ∈ range h, ∑ l ∈ range w, (c a * f k l * tw h (k * m) * tw w (l * n) / (h * w)) *
        (tw h (u * ((a : ℤ) - k)) * tw w (v * (-(l : ℤ)))) := by
    intro u hu v hv
    rw [hx u (mem_range.1 hu) v (mem_range.1 hv), Finset.sum_mul]
    refine Finset.sum_congr rfl fun a _ => ?_
    rw [Finset.sum_div, Finset.mul_sum]
    refine Finset.sum_congr rfl fun k _ => ?_
    rw [Finset.sum_div, Finset.mul_sum]
    refine Finset.sum_congr rfl fun l _ => ?_
    rw [exp_eq_tw2]
    have t1 : tw h ((k : ℤ) * (m - u)) * tw h (a * u) = tw h (k * m) * tw h (u * ((a : ℤ) - k)) := by
      rw [← tw_add, ← tw_add]; congr 1; ring
    have t2 : tw w ((l : ℤ) * (n - v)) = tw w (l * n) * tw w (v * (-(l : ℤ))) := by
      rw [← tw_add]; congr 1; ring
    rw [t2]
    linear_combination (c a * f k l * tw w (l * n) * tw w (v * (-(l : ℤ))) / (h * w)) * t1
  rw [Finset.sum_congr rfl fun u hu => Finset.sum_congr rfl fun v hv => e1 u hu v hv]
  simp_rw [Finset.sum_comm (s := range w) (t := range h)]
  rw [Finset.sum_comm]
  refine Finset.sum_congr rfl fun a ha => ?_
  rw [Finset.sum_comm]
  have ha := mem_range.1 ha
  have inner : ∀ k ∈ range h, ∑ u ∈ range h, ∑ v ∈ range w, ∑ l ∈ range w,
      (c a * f k l * tw h (k * m) * tw w (l * n) / (h * w)) * (tw h (u * ((a : ℤ) - k)) * tw w (v * (-(l : ℤ)))) =
      if k = a then c a * f a 0 * tw h (a * m) else 0 := by
    intro k hk
    have hk := mem_range.1 hk
    have : ∀ u ∈ range h, ∑ v ∈ range w, ∑ l ∈ range w,
        (c a * f k l * tw h (k * m) * tw w (l * n) / (h * w)) * (tw h (u * ((a : ℤ) - k)) * tw w (v * (-(l : ℤ)))) =
        (c a * f k 0 * tw h (k * m) / h) * tw h (u * ((a : ℤ) - k)) := by
      intro u _
      rw [Finset.sum_comm]
      rw [Finset.sum_eq_single_of_mem 0 (mem_range.2 (Nat.pos_of_ne_zero hw))]
      · rw [← Finset.mul_sum, ← Finset.mul_sum, sum_tw w hw]
        simp only [Nat.cast_zero, neg_zero, dvd_zero, if_true, zero_mul, tw_zero]
        field_simp
      · intro l hl hl0
        rw [← Finset.mul_sum, ← Finset.mul_sum, sum_tw w hw, if_neg]
        · simp
        · intro hd
          have hl := mem_range.1 hl
          rw [dvd_neg] at hd
          have := Nat.le_of_dvd (Nat.pos_of_ne_zero hl0) (by exact_mod_cast hd)
          omega
    rw [Finset.sum_congr rfl this, ← Finset.mul_sum, sum_tw h hh]
    by_cases hka : k = a
    · subst hka
      rw [if_pos (by simp), if_pos rfl]
      field_simp
    · rw [if_neg, if_neg hka, mul_zero]
      intro hd
      obtain ⟨z, hz⟩ := hd
      have : (a : ℤ) - k = 0 := by
        apply Int.eq_zero_of_abs_lt_dvd (m := h) ⟨z, hz⟩
        rw [abs_lt]; omega
      omega
  rw [Finset.sum_congr rfl inner]
  simp [ha]

end Verif
