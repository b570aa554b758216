import Verif.Props.Transpose2D
import Verif.Lemmas.AxisResponse2D

/-!
# C83: exchanging the axes does not always exchange the axes of the coefficients

Three scales, two angles, images of 8 x 8 pixels (24 x 24 once padded).  The image is a cosine of
frequency `pi / 4` along the first axis.
-/

namespace Verif

open Finset

theorem gs_period (gamma omega : ℝ) (z : ℤ) : gs gamma (omega + z * (2 * Real.pi)) = gs gamma omega := by
  unfold gs
  refine Finset.sum_congr rfl fun n _ => ?_
  congr 1
  rw [Complex.exp_eq_exp_iff_exists_int]
  refine ⟨z * ((n : ℤ) - 48), ?_⟩
  push_cast
  ring

theorem gs_int {s : ℕ} (hs : s = 1 ∨ s = 2) (k : ℤ) (v : ℤ) (hv : gsTab s (k % 32).toNat = v) :
    ‖gs (s ^ 2 * (25 / 512)) (k * (Real.pi / 16)) - ((v / 10 ^ 14 : ℝ) : ℂ)‖ ≤ 1e-3 := by
  have h := gs_table hs (k % 32).toNat
  rw [hv] at h
  have e : (((k % 32).toNat : ℕ) : ℝ) = ((k % 32 : ℤ) : ℝ) := by
    exact_mod_cast congrArg (Int.cast (R := ℝ)) (Int.toNat_of_nonneg (Int.emod_nonneg k (by norm_num)))
  rw [e] at h
  have : (k : ℝ) * (Real.pi / 16) = ((k % 32 : ℤ) : ℝ) * (Real.pi / 16) + ((k / 32 : ℤ) : ℝ) * (2 * Real.pi) := by
    have hd : (k : ℝ) = 32 * ((k / 32 : ℤ) : ℝ) + ((k % 32 : ℤ) : ℝ) := by exact_mod_cast (Int.mul_ediv_add_emod k 32).symm
    rw [hd]
    ring
  rw [this, gs_period]
  exact h

/-- The wavelets of scales 1 (`s = 2`) and 2 (`s = 1`) and angle zero on the first frequency axis. -/
theorem psi_axis (s j : ℕ) (hsj : s * 2 ^ j = 4) :
    ∃ c : ℝ, 0 < c ∧ ∀ r < 8, (psiHat2 24 24 2 j 0).px (3 * r) 0 =
      c * (gs (s ^ 2 * (25 / 512)) ((3 * s - 4 * r : ℤ) * (Real.pi / 16)) -
        gs (s ^ 2 * (25 / 512)) ((3 * s : ℤ) * (Real.pi / 16)) / gs (s ^ 2 * (25 / 512)) 0 *
          gs (s ^ 2 * (25 / 512)) ((-(4 * r) : ℤ) * (Real.pi / 16))).re := by
  obtain ⟨c, hc, h⟩ := morlet_axis (0.8 * 2 ^ j) (3 / 4 * Real.pi / 2 ^ j) (4 / (2 : ℕ)) (by positivity) (by norm_num)
  refine ⟨c, hc, fun r hr => ?_⟩
  have hp : (2 : ℝ) ^ j ≠ 0 := by positivity
  have hs : (s : ℝ) = 4 / 2 ^ j := by
    rw [eq_div_iff hp]
    exact_mod_cast hsj
  have e1 : (1 : ℝ) / (2 * (0.8 * 2 ^ j) * (0.8 * 2 ^ j)) = s ^ 2 * (25 / 512) := by
    rw [hs]
    field_simp
    norm_num
  have e2 : (3 / 4 * Real.pi / 2 ^ j : ℝ) = (3 * s : ℤ) * (Real.pi / 16) := by
    push_cast
    rw [hs]
    field_simp
    norm_num
  have e3 : (((2 - 2) / 2 : ℕ) : ℝ) - ((0 : ℕ) : ℝ) = 0 := by norm_num
  have e4 : ((3 * r : ℕ) : ℝ) * (Real.pi / 12) = (4 * r : ℤ) * (Real.pi / 16) := by push_cast; ring
  have h := h (3 * r) (by omega)
  rw [e1, e2, e4] at h
  unfold psiHat2
  rw [e3, zero_mul, zero_div, e2]
  rw [h, ← sub_mul, ← neg_mul]
  norm_cast

theorem gs_value {s : ℕ} (hs : s = 1 ∨ s = 2) (k : ℤ) (v : ℤ) (hv : gsTab s (k % 32).toNat = v) :
    |(gs (s ^ 2 * (25 / 512)) (k * (Real.pi / 16))).re - v / 10 ^ 14| ≤ 1e-3 ∧
    |(gs (s ^ 2 * (25 / 512)) (k * (Real.pi / 16))).im| ≤ 1e-3 ∧
    ‖gs (s ^ 2 * (25 / 512)) (k * (Real.pi / 16))‖ ≤ |(v / 10 ^ 14 : ℝ)| + 1e-3 := by
  have h := gs_int hs k v hv
  refine ⟨?_, ?_, ?_⟩
  · have := (Complex.abs_re_le_norm _).trans h
    rwa [Complex.sub_re, Complex.ofReal_re] at this
  · have := (Complex.abs_im_le_norm _).trans h
    rwa [Complex.sub_im, Complex.ofReal_im, sub_zero] at this
  · have := norm_le_norm_add_norm_sub' (gs (s ^ 2 * (25 / 512)) (k * (Real.pi / 16))) ((v / 10 ^ 14 : ℝ) : ℂ)
    rw [Complex.norm_real, Real.norm_eq_abs] at this
    linarith

theorem norm_ratio_le (gamma omega : ℝ) : ‖gs gamma omega / gs gamma 0‖ ≤ 1 := by
  rw [norm_div, gs_zero, Complex.norm_real, Real.norm_of_nonneg (gs_zero_pos gamma).le]
  exact div_le_one_of_le₀ (norm_gs_le _ _) (gs_zero_pos gamma).le

theorem re_near (a b c : ℂ) (hb : ‖b‖ ≤ 1) : |(a - b * c).re - a.re| ≤ ‖c‖ := by
  rw [Complex.sub_re, sub_sub_cancel_left, abs_neg]
  refine (Complex.abs_re_le_norm _).trans ?_
  rw [norm_mul]
  exact mul_le_of_le_one_left (norm_nonneg _) hb

/-- At scale 2 the wavelet is much larger at frequency `pi / 2` than at `- pi / 2`. -/
theorem psi2_values : |(psiHat2 24 24 2 2 0).px 18 0| < |(psiHat2 24 24 2 2 0).px 6 0| := by
  obtain ⟨c, hc, h⟩ := psi_axis 1 2 (by norm_num)
  have hA := h 2 (by norm_num)
  have hB := h 6 (by norm_num)
  simp only [Nat.reduceMul] at hA hB
  rw [hA, hB, abs_mul, abs_mul]
  refine mul_lt_mul_of_pos_left ?_ (abs_pos.2 hc.ne')
  rw [show (3 * ((1 : ℕ) : ℤ) - 4 * ((2 : ℕ) : ℤ)) = -5 from rfl, show (-(4 * ((2 : ℕ) : ℤ))) = -8 from rfl,
    show (3 * ((1 : ℕ) : ℤ) - 4 * ((6 : ℕ) : ℤ)) = -21 from rfl, show (-(4 * ((6 : ℕ) : ℤ))) = -24 from rfl]
  obtain ⟨v1, -, -⟩ := gs_value (s := 1) (.inl rfl) (-5) 5768809814894 (by decide)
  obtain ⟨-, -, v2⟩ := gs_value (s := 1) (.inl rfl) (-8) 2620000000 (by decide)
  obtain ⟨v3, -, -⟩ := gs_value (s := 1) (.inl rfl) (-21) (-91086394) (by decide)
  obtain ⟨-, -, v4⟩ := gs_value (s := 1) (.inl rfl) (-24) 2620000000 (by decide)
  rw [abs_of_pos (by norm_num)] at v2 v4
  have hr := norm_ratio_le (((1 : ℕ) : ℝ) ^ 2 * (25 / 512)) ((3 * ((1 : ℕ) : ℤ) : ℤ) * (Real.pi / 16))
  have n1 := re_near (gs (((1 : ℕ) : ℝ) ^ 2 * (25 / 512)) ((-5 : ℤ) * (Real.pi / 16))) _
    (gs (((1 : ℕ) : ℝ) ^ 2 * (25 / 512)) ((-8 : ℤ) * (Real.pi / 16))) hr
  have n2 := re_near (gs (((1 : ℕ) : ℝ) ^ 2 * (25 / 512)) ((-21 : ℤ) * (Real.pi / 16))) _
    (gs (((1 : ℕ) : ℝ) ^ 2 * (25 / 512)) ((-24 : ℤ) * (Real.pi / 16))) hr
  have n1 := n1.trans v2
  have n2 := n2.trans v4
  generalize (gs _ _ - _ * gs _ ((-8 : ℤ) * (Real.pi / 16))).re = A at *
  generalize (gs _ _ - _ * gs _ ((-24 : ℤ) * (Real.pi / 16))).re = B at *
  generalize (gs _ ((-5 : ℤ) * (Real.pi / 16))).re = a at *
  generalize (gs _ ((-21 : ℤ) * (Real.pi / 16))).re = b at *
  rw [abs_le] at v1 v3 n1 n2
  norm_num at v1 v3 n1 n2
  rw [abs_of_pos (a := A) (by linarith), abs_lt]
  constructor <;> linarith

/-- At scale 1 it vanishes at neither of `pi / 4`, `- pi / 4`. -/
theorem psi1_values : (psiHat2 24 24 2 1 0).px 3 0 ≠ 0 ∧ (psiHat2 24 24 2 1 0).px 21 0 ≠ 0 := by
  obtain ⟨c, hc, h⟩ := psi_axis 2 1 (by norm_num)
  have hA := h 1 (by norm_num)
  have hB := h 7 (by norm_num)
  simp only [Nat.reduceMul] at hA hB
  rw [hA, hB]
  rw [show (3 * ((2 : ℕ) : ℤ) - 4 * ((1 : ℕ) : ℤ)) = 2 from rfl, show (-(4 * ((1 : ℕ) : ℤ))) = -4 from rfl,
    show (3 * ((2 : ℕ) : ℤ) - 4 * ((7 : ℕ) : ℤ)) = -22 from rfl, show (-(4 * ((7 : ℕ) : ℤ))) = -28 from rfl,
    show (3 * ((2 : ℕ) : ℤ)) = 6 from rfl]
  obtain ⟨v1, -, -⟩ := gs_value (s := 2) (.inr rfl) 2 329218070783088 (by decide)
  obtain ⟨-, -, v2⟩ := gs_value (s := 2) (.inr rfl) (-4) 182097811146136 (by decide)
  obtain ⟨v3, -, -⟩ := gs_value (s := 2) (.inr rfl) (-22) 2884359364250 (by decide)
  obtain ⟨v4, v5, -⟩ := gs_value (s := 2) (.inr rfl) (-28) 182097811146136 (by decide)
  obtain ⟨v6, v7, -⟩ := gs_value (s := 2) (.inr rfl) 6 67869292868838 (by decide)
  obtain ⟨v8, -, -⟩ := gs_value (s := 2) (.inr rfl) 0 401060500000000 (by decide)
  constructor
  · refine mul_ne_zero hc.ne' ?_
    rw [abs_of_pos (by norm_num)] at v2
    have hr := norm_ratio_le (((2 : ℕ) : ℝ) ^ 2 * (25 / 512)) ((6 : ℤ) * (Real.pi / 16))
    have n1 := (re_near (gs (((2 : ℕ) : ℝ) ^ 2 * (25 / 512)) ((2 : ℤ) * (Real.pi / 16))) _
      (gs (((2 : ℕ) : ℝ) ^ 2 * (25 / 512)) ((-4 : ℤ) * (Real.pi / 16))) hr).trans v2
    generalize (gs _ _ - _ * gs _ ((-4 : ℤ) * (Real.pi / 16))).re = A at *
    generalize (gs _ ((2 : ℤ) * (Real.pi / 16))).re = a at *
    rw [abs_le] at v1 n1
    norm_num at v1 n1
    intro h0
    linarith
  · refine mul_ne_zero hc.ne' ?_
    rw [Int.cast_zero, zero_mul, gs_zero, Complex.ofReal_re] at v8
    rw [gs_zero, Complex.sub_re, div_mul_eq_mul_div, Complex.div_ofReal_re, Complex.mul_re]
    have hpos := gs_zero_pos (((2 : ℕ) : ℝ) ^ 2 * (25 / 512))
    generalize (∑ n ∈ range 120, Real.exp (-(((2 : ℕ) : ℝ) ^ 2 * (25 / 512) * ((n : ℝ) - 48) ^ 2))) = Z at *
    generalize (gs _ ((-22 : ℤ) * (Real.pi / 16))).re = a at *
    generalize (gs _ ((6 : ℤ) * (Real.pi / 16))).re = b at *
    generalize (gs _ ((6 : ℤ) * (Real.pi / 16))).im = b' at *
    generalize (gs _ ((-28 : ℤ) * (Real.pi / 16))).re = d at *
    generalize (gs _ ((-28 : ℤ) * (Real.pi / 16))).im = d' at *
    rw [abs_le] at v3 v4 v5 v6 v7 v8
    norm_num at v3 v4 v5 v6 v7 v8
    have h1 : (1.2 : ℝ) ≤ b * d - b' * d' := by nlinarith
    have h2 : (0.2 : ℝ) ≤ (b * d - b' * d') / Z := by
      rw [le_div_iff₀ hpos]
      norm_num at h1 ⊢
      linarith
    norm_num at h2
    intro h0
    linarith

/-! ## The cascade on the cosine -/

theorem tw_half (n : ℕ) (hn : n ≠ 0) : tw (2 * n) n = -1 := by
  unfold tw
  rw [← Complex.exp_pi_mul_I]
  congr 1
  have : (n : ℂ) ≠ 0 := by exact_mod_cast hn
  push_cast
  field_simp

/-- `cos (pi u / 4)` along the first axis. -/
noncomputable def cosImg : Img ℝ := Img.tab 24 24 fun u _ => Real.cos (u * (Real.pi / 4))

theorem cosImg_char (u : ℕ) (hu : u < 24) (v : ℕ) (hv : v < 24) : ((cosImg.px u v : ℝ) : ℂ) =
    ∑ a ∈ range 24, (if a = 3 ∨ a = 21 then (1 / 2 : ℂ) else 0) * tw 24 (a * u) := by
  have e : ∀ a ∈ range 24, (if a = 3 ∨ a = 21 then (1 / 2 : ℂ) else 0) * tw 24 (a * u) =
      (if a = 3 then 1 / 2 * tw 24 ((3 : ℕ) * u) else 0) + (if a = 21 then 1 / 2 * tw 24 ((21 : ℕ) * u) else 0) := by
    intro a _
    by_cases h3 : a = 3
    · subst h3; simp
    · by_cases h21 : a = 21
      · subst h21; simp
      · simp [h3, h21]
  rw [Finset.sum_congr rfl e, Finset.sum_add_distrib]
  simp only [Finset.sum_ite_eq', mem_range, show (3 : ℕ) < 24 by norm_num, show (21 : ℕ) < 24 by norm_num, if_true]
  have h21 : tw 24 ((21 : ℕ) * u) = tw 24 (-((3 : ℕ) * u)) := by
    apply tw_congr
    push_cast
    omega
  rw [h21]
  unfold cosImg
  rw [Img.px_tab hu hv, Complex.ofReal_cos, Complex.cos]
  unfold tw
  rw [← mul_add, div_eq_mul_inv, mul_comm, ← one_div]
  congr 2
  · congr 1; push_cast; ring
  · congr 1; push_cast; ring

/-- First order on the cosine: two values, by parity along the first axis. -/
theorem band_cosImg (f : ℕ → ℕ → ℝ) (m n : ℕ) : Spec.band2 24 24 cosImg.px f 1 m n =
    if m % 2 = 0 then |f 3 0 + f 21 0| / 2 else |f 3 0 - f 21 0| / 2 := by
  unfold Spec.band2
  rw [conv2_axis (by norm_num) (by norm_num) _ _ _ cosImg_char]
  have e : ∀ a ∈ range 24, (if a = 3 ∨ a = 21 then (1 / 2 : ℂ) else 0) * f a 0 * tw 24 (a * (m * 2 ^ 1)) =
      (if a = 3 then 1 / 2 * f 3 0 * tw 24 ((3 : ℕ) * (m * 2 ^ 1)) else 0) +
      (if a = 21 then 1 / 2 * f 21 0 * tw 24 ((21 : ℕ) * (m * 2 ^ 1)) else 0) := by
    intro a _
    by_cases h3 : a = 3
    · subst h3; simp
    · by_cases h21 : a = 21
      · subst h21; simp
      · simp [h3, h21]
  rw [Finset.sum_congr rfl e, Finset.sum_add_distrib]
  simp only [Finset.sum_ite_eq', mem_range, show (3 : ℕ) < 24 by norm_num, show (21 : ℕ) < 24 by norm_num, if_true]
  split
  · have : tw 24 ((21 : ℕ) * (m * 2 ^ 1)) = tw 24 ((3 : ℕ) * (m * 2 ^ 1)) := by
      apply tw_congr
      push_cast
      omega
    rw [this, ← add_mul, norm_mul, norm_tw, mul_one]
    rw [show (1 / 2 * (f 3 0 : ℂ) + 1 / 2 * (f 21 0 : ℂ)) = (((f 3 0 + f 21 0) / 2 : ℝ) : ℂ) by push_cast; ring,
      Complex.norm_real, Real.norm_eq_abs, abs_div, abs_two]
  · have : tw 24 ((21 : ℕ) * (m * 2 ^ 1)) = -tw 24 ((3 : ℕ) * (m * 2 ^ 1)) := by
      rw [tw_congr 24 (b := (3 : ℕ) * (m * 2 ^ 1) + (12 : ℕ)) (by push_cast; omega), tw_add, tw_half 12 (by norm_num)]
      ring
    rw [this, mul_neg, ← sub_eq_add_neg, ← sub_mul, norm_mul, norm_tw, mul_one]
    rw [show (1 / 2 * (f 3 0 : ℂ) - 1 / 2 * (f 21 0 : ℂ)) = (((f 3 0 - f 21 0) / 2 : ℝ) : ℂ) by push_cast; ring,
      Complex.norm_real, Real.norm_eq_abs, abs_div, abs_two]

/-- Second order on an image with two values, by parity along the first axis. -/
theorem band_parity (x f : ℕ → ℕ → ℝ) (p q : ℝ) (hx : ∀ u < 12, ∀ v < 12, x u v = if u % 2 = 0 then p else q)
    (hf : f 0 0 = 0) (m n : ℕ) : Spec.band2 12 12 x f 1 m n = |p - q| / 2 * |f 6 0| := by
  have hc : ∀ u < 12, ∀ v < 12, ((x u v : ℝ) : ℂ) =
      ∑ a ∈ range 12, (if a = 0 then (((p + q) / 2 : ℝ) : ℂ) else if a = 6 then (((p - q) / 2 : ℝ) : ℂ) else 0) * tw 12 (a * u) := by
    intro u hu v hv
    rw [hx u hu v hv, Finset.sum_eq_add_of_mem 0 6 (by simp) (by simp) (by norm_num)]
    · simp only [if_true, if_neg (show ¬ (6 : ℕ) = 0 by norm_num), Nat.cast_zero, zero_mul, tw_zero]
      split
      · rw [tw_congr 12 (b := 0) (by push_cast; omega), tw_zero]
        push_cast; ring
      · rw [tw_congr 12 (b := (6 : ℕ)) (by push_cast; omega), tw_half 6 (by norm_num)]
        push_cast; ring
    · intro c _ hc
      simp [hc.1, hc.2]
  unfold Spec.band2
  rw [conv2_axis (by norm_num) (by norm_num) _ _ _ hc, Finset.sum_eq_single_of_mem 6 (by simp)]
  · simp only [if_true, if_neg (show ¬ (6 : ℕ) = 0 by norm_num)]
    rw [norm_mul, norm_tw, mul_one, norm_mul, Complex.norm_real, Complex.norm_real, Real.norm_eq_abs, Real.norm_eq_abs,
      abs_div, abs_two]
  · intro c _ hc
    by_cases h0 : c = 0
    · subst h0; simp [hf]
    · simp [h0, hc]

/-- Averaging a constant. -/
theorem low_const {h w : ℕ} (hh : h ≠ 0) (hw : w ≠ 0) (x f : ℕ → ℕ → ℝ) (p : ℝ)
    (hx : ∀ u < h, ∀ v < w, x u v = p) (e m n : ℕ) : Spec.low2 h w x f e m n = p * f 0 0 := by
  unfold Spec.low2
  rw [conv2_axis hh hw x f (fun a => if a = 0 then (p : ℂ) else 0) (fun u hu v hv => by
    rw [hx u hu v hv, Finset.sum_eq_single_of_mem 0 (by simp; omega)]
    · simp [tw_zero]
    · intro b _ hb; simp [hb]), Finset.sum_eq_single_of_mem 0 (by simp; omega)]
  · simp [tw_zero]
  · intro b _ hb; simp [hb]

/-- Level 1 of a 24 x 24 table: frequency `-6` is kept, frequency `6` is not. -/
theorem level_one (f : Img ℝ) (hh : f.h = 24) (hw : f.w = 24) :
    (periodizeFilter f 1).px 0 0 = f.px 0 0 ∧ (periodizeFilter f 1).px 6 0 = f.px 18 0 ∧
    (periodizeFilter f 1).px 0 6 = f.px 0 18 := by
  unfold periodizeFilter
  simp [Img.tab, masked, Finset.sum_range_succ, hh, hw]

theorem level_two (f : Img ℝ) (hh : f.h = 24) (hw : f.w = 24) : (periodizeFilter f 2).px 0 0 = f.px 0 0 := by
  unfold periodizeFilter
  simp [Img.tab, masked, Finset.sum_range_succ, hh, hw]

theorem psi_zero (j : ℕ) (s : ℕ) (hsj : s * 2 ^ j = 4) : (psiHat2 24 24 2 j 0).px 0 0 = 0 := by
  obtain ⟨c, -, h⟩ := psi_axis s j hsj
  have h := h 0 (by norm_num)
  have hz : gs (s ^ 2 * (25 / 512)) 0 ≠ 0 := by
    rw [gs_zero]
    exact_mod_cast (gs_zero_pos _).ne'
  simpa [hz] using h

theorem phi_zero_pos : 0 < (phiHat2 24 24 3).px 0 0 := by
  unfold phiHat2
  have hre : (realFft2 (gabor2d 24 24 (0.8 * (2 ^ 3 / 2)) 0 0 1)).px 0 0 =
      ((dft2 (gabor2d 24 24 (0.8 * (2 ^ 3 / 2)) 0 0 1)).px 0 0).re :=
    Img.px_tab (by show 0 < 24; norm_num) (by show 0 < 24; norm_num)
  rw [hre, gabor_axis _ _ _ (by norm_num)]
  simp only [Nat.cast_zero, zero_mul, sub_zero]
  rw [gs_zero, gs_zero, ← Complex.ofReal_mul, ← Complex.ofReal_div, Complex.ofReal_re]
  exact div_pos (mul_pos (gs_zero_pos _) (gs_zero_pos _)) (by norm_num)

/-- The object of the counterexample. -/
def witness83 : Args2D := ⟨3, 8, 8, 2, 2, true, .list⟩

/-- **Exchanging the axes does not exchange the axes of every coefficient**: on the cosine, the
second-order coefficient of scales `(1, 2)` and angles `(0, 0)` differs, at every pixel, from the one
of the transposed image at the mirrored angles `(1, 1)`. -/
theorem C83_violated : ∃ (x y : Img ℝ) (l l' : List (Path2 (Img ℝ))), Tr x y ∧
    witness83.run x = .ok (.list l) ∧ witness83.flip.run y = .ok (.list l') ∧
    ∃ p ∈ l, p.j = [1, 2] ∧ p.theta = [0, 0] ∧ 0 < p.coef.h ∧ 0 < p.coef.w ∧
      ∀ q ∈ l', q.j = p.j → q.theta = p.theta.map (Spec.flipAngle 2) →
        ∀ i k, i < p.coef.h → k < p.coef.w → q.coef.px k i ≠ p.coef.px i k := by
  have hT : Tr cosImg (Img.tab 24 24 fun k i => cosImg.px i k) := ⟨rfl, rfl, fun i k hi hk => Img.px_tab hk hi⟩
  obtain ⟨out, hout⟩ := C40_no_error witness83 (by decide) (by decide) (by decide) (by simp [witness83]) cosImg (by decide)
  obtain ⟨l, rfl, hlab⟩ := C39_channels witness83 rfl cosImg out hout
  obtain ⟨l', hout'⟩ := flip_run witness83 (by decide) rfl hT hout
  refine ⟨_, _, l, l', hT, hout, hout', ?_⟩
  have hmem : ([1, 2], [2, 4], [0, 0]) ∈ Spec.channels2 witness83.J witness83.L witness83.maxOrder := by decide
  rw [← hlab] at hmem
  obtain ⟨p, hp, hpe⟩ := List.mem_map.1 hmem
  simp only [Prod.mk.injEq] at hpe
  obtain ⟨p1, p2, p3⟩ := hpe
  have hsz := C38_output_size witness83 cosImg _ hout p.coef (List.mem_map.2 ⟨p, hp, rfl⟩)
  have hsz' := C38_output_size witness83.flip _ _ hout'
  refine ⟨p, hp, p1, p3, ?_, ?_, ?_⟩
  · rw [hsz.1]; decide
  · rw [hsz.2]; decide
  intro q hq q1 q3 i k hi hk
  obtain ⟨H, W, u, hH, hW, uh, uw, up, un, hcl⟩ := C58_closed_form witness83 rfl cosImg l hout
  obtain ⟨W', H', v, hW', hH', vh, vw, vp, vn, hcl'⟩ := C58_closed_form witness83.flip rfl _ l' hout'
  have eH : H = 24 := hH
  have eW : W = 24 := hW
  have eH' : H' = 24 := hH'
  have eW' : W' = 24 := hW'
  subst eH eW eH' eW'
  have up := up rfl
  have vp := vp rfl
  subst up vp
  have A := hcl p hp i k hi hk
  have hq' := hsz' q.coef (List.mem_map.2 ⟨q, hq, rfl⟩)
  have B := hcl' q hq k i (lt_of_lt_of_eq hk (hsz.2.trans hq'.1.symm)) (lt_of_lt_of_eq hi (hsz.1.trans hq'.2.symm))
  rw [p1] at q1
  rw [p3] at q3
  have q3 : q.theta = [1, 1] := q3
  rcases A with ⟨A, -⟩ | ⟨_, _, -, -, A, -⟩ | ⟨j, t, j', t', -, -, -, -, -, A1, A2, A⟩
  · rw [p2] at A; simp at A
  · rw [p2] at A; simp at A
  rw [p1] at A1
  rw [p3] at A2
  simp only [List.cons.injEq, and_true] at A1 A2
  obtain ⟨rfl, rfl⟩ := A1
  obtain ⟨rfl, rfl⟩ := A2
  rcases B with ⟨B0, B⟩ | ⟨_, _, -, -, -, B1, -⟩ | ⟨j, t, j', t', -, -, -, -, -, B1, B2, B⟩
  · exfalso
    obtain ⟨l1, e1, hlab'⟩ := C39_channels witness83.flip rfl _ _ hout'
    injection e1 with e1
    subst e1
    have hm : (q.j, q.n, q.theta) ∈ Spec.channels2 3 2 2 := by
      rw [show Spec.channels2 3 2 2 = _ from hlab'.symm]; exact List.mem_map.2 ⟨q, hq, rfl⟩
    have : ∀ c ∈ Spec.channels2 3 2 2, c.1 = [1, 2] → c.2.1 ≠ [] := by decide
    exact this _ hm q1 B0
  · rw [q1] at B1; simp at B1
  rw [q1] at B1
  rw [q3] at B2
  simp only [List.cons.injEq, and_true] at B1 B2
  obtain ⟨rfl, rfl⟩ := B1
  obtain ⟨rfl, rfl⟩ := B2
  set P := (psiHat2 24 24 2 1 0).px 3 0 with hP
  set Q := (psiHat2 24 24 2 1 0).px 21 0 with hQ
  obtain ⟨w1, w2⟩ := C83_wavelets (M := 24) (N := 24) (L := 2) (j := 1) (t := 0) rfl (by norm_num)
  obtain ⟨-, w4⟩ := C83_wavelets (M := 24) (N := 24) (L := 2) (j := 2) (t := 0) rfl (by norm_num)
  have w2 := w2 (by norm_num)
  have w4 := w4 (by norm_num)
  have U1 : ∀ m n, Spec.band2 24 24 (Img.tab 24 24 fun k i => cosImg.px i k).px (psiHat2 24 24 2 1 1).px 1 n m =
      Spec.band2 24 24 cosImg.px (psiHat2 24 24 2 1 0).px 1 m n := fun m n =>
    band2_tr (fun i k hi hk => hT.px i k hi hk) (.inr fun i k hi hk => w2 i k hi hk) _ _ _
  have E1 : ∀ m n, Spec.band2 12 12 (Spec.band2 24 24 cosImg.px (psiHat2 24 24 2 1 0).px 1)
      (periodizeFilter (psiHat2 24 24 2 2 0) 1).px 1 m n = |(|P + Q| / 2) - |P - Q| / 2| / 2 * |(psiHat2 24 24 2 2 0).px 18 0| := by
    intro m n
    rw [band_parity _ _ (|P + Q| / 2) (|P - Q| / 2) (fun u _ v _ => band_cosImg _ _ _)
      (by rw [(level_one _ rfl rfl).1, psi_zero 2 1 (by norm_num)]), (level_one _ rfl rfl).2.1]
  have E2 : ∀ m n, Spec.band2 12 12 (Spec.band2 24 24 (Img.tab 24 24 fun k i => cosImg.px i k).px (psiHat2 24 24 2 1 1).px 1)
      (periodizeFilter (psiHat2 24 24 2 2 1) 1).px 1 n m = |(|P + Q| / 2) - |P - Q| / 2| / 2 * |(psiHat2 24 24 2 2 0).px 6 0| := by
    intro m n
    rw [band2_tr (h := 12) (w := 12) (x := Spec.band2 24 24 cosImg.px (psiHat2 24 24 2 1 0).px 1)
      (f := fun a b => (periodizeFilter (psiHat2 24 24 2 2 1) 1).px b a) (fun i k _ _ => U1 i k) (.inl fun i k _ _ => rfl)]
    have z1 := w4 0 0 (by norm_num) (by norm_num)
    have z2 := w4 18 0 (by norm_num) (by norm_num)
    have z1 : (psiHat2 24 24 2 2 1).px 0 0 = (psiHat2 24 24 2 2 0).px 0 0 := z1
    have z2 : (psiHat2 24 24 2 2 1).px 0 18 = (psiHat2 24 24 2 2 0).px 6 0 := z2
    rw [band_parity _ _ (|P + Q| / 2) (|P - Q| / 2) (fun u _ v _ => band_cosImg _ _ _)
      (by rw [(level_one _ rfl rfl).1, z1, psi_zero 2 1 (by norm_num)]), (level_one _ rfl rfl).2.2, z2]
  have A : p.coef.px i k = |(|P + Q| / 2) - |P - Q| / 2| / 2 * |(psiHat2 24 24 2 2 0).px 18 0| * (phiHat2 24 24 3).px 0 0 := by
    rw [A, ← level_two (phiHat2 24 24 3) rfl rfl]
    exact low_const (by norm_num) (by norm_num) _ _ _ (fun u _ v _ => E1 u v) _ _ _
  have B : q.coef.px k i = |(|P + Q| / 2) - |P - Q| / 2| / 2 * |(psiHat2 24 24 2 2 0).px 6 0| * (phiHat2 24 24 3).px 0 0 := by
    rw [B, ← level_two (phiHat2 24 24 3) rfl rfl]
    exact low_const (by norm_num) (by norm_num) _ _ _ (fun u _ v _ => E2 v u) _ _ _
  rw [A, B]
  have hPQ : |(|P + Q| / 2) - |P - Q| / 2| / 2 ≠ 0 := by
    intro h
    have h : |P + Q| = |P - Q| := by
      rw [div_eq_zero_iff, abs_eq_zero] at h
      rcases h with h | h
      · linarith
      · norm_num at h
    rcases abs_eq_abs.1 h with h | h
    · exact psi1_values.2 (by rw [← hQ]; linarith)
    · exact psi1_values.1 (by rw [← hP]; linarith)
  intro h
  have h := mul_left_cancel₀ hPQ (mul_right_cancel₀ phi_zero_pos.ne' h)
  exact absurd h.symm psi2_values.ne

end Verif
