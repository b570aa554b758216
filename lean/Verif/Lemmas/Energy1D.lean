import Verif.Lemmas.Covariance1D
import Verif.Lemmas.Energy2D

/-!
# Energy of filtered and decimated signals
-/

namespace Verif

open Finset

/-- Energy of a real signal. -/
noncomputable def energy1 (x : List ℝ) : ℝ := ∑ i ∈ range x.length, x.getD i 0 ^ 2

theorem energy1_nonneg (x : List ℝ) : 0 ≤ energy1 x := sum_nonneg fun _ _ => sq_nonneg _

theorem char1_orthogonal {N : ℕ} (hN : N ≠ 0) : ∀ a ∈ range N, ∀ b ∈ range N,
    ∑ m ∈ range N, tw N ((a : ℤ) * m) * (starRingEnd ℂ) (tw N ((b : ℤ) * m)) =
      if a = b then ((N : ℝ) : ℂ) else 0 := by
  intro a ha b hb
  rw [mem_range] at ha hb
  have : ∀ m ∈ range N, tw N ((a : ℤ) * m) * (starRingEnd ℂ) (tw N ((b : ℤ) * m)) =
      tw N ((m : ℤ) * (a - b)) := by
    intro m _
    rw [conj_tw, ← tw_add]; congr 1; ring
  rw [sum_congr rfl this, sum_tw N hN]
  have : (N : ℤ) ∣ (a : ℤ) - b ↔ a = b := by
    constructor
    · intro hd
      have := Int.eq_zero_of_abs_lt_dvd hd (by rw [abs_lt]; constructor <;> omega)
      omega
    · rintro rfl; simp
  simp [this]

/-- Parseval for the impulse response. -/
theorem parseval_imp (z : List ℂ) (hz : 0 < z.length) :
    ∑ n ∈ range z.length, ‖imp z n‖ ^ 2 = (∑ k ∈ range z.length, ‖z.getD k 0‖ ^ 2) / z.length := by
  have hN : (z.length : ℝ) ≠ 0 := by positivity
  have h := sum_sq_of_orthogonal (range z.length) (range z.length)
    (fun a m => tw z.length ((a : ℤ) * m)) (z.length : ℝ) (char1_orthogonal (by omega)) fun k => z.getD k 0
  have e : ∀ n ∈ range z.length, ‖imp z n‖ ^ 2 =
      ‖∑ k ∈ range z.length, z.getD k 0 * tw z.length ((k : ℤ) * n)‖ ^ 2 / (z.length : ℝ) ^ 2 := by
    intro n _
    unfold imp
    rw [norm_div, Complex.norm_natCast, div_pow]
  rw [sum_congr rfl e, ← sum_div, h]
  field_simp

/-- Parseval for the Fourier transform of a real signal. -/
theorem parseval_rfft (x : List ℝ) :
    ∑ k ∈ range x.length, ‖(npRfft x).getD k 0‖ ^ 2 = x.length * energy1 x := by
  rcases Nat.eq_zero_or_pos x.length with h0 | hpos
  · simp [h0]
  have h := sum_sq_of_orthogonal (range x.length) (range x.length)
    (fun a m => (starRingEnd ℂ) (tw x.length ((a : ℤ) * m))) (x.length : ℝ) (by
      intro k hk k' hk'
      have := congrArg (starRingEnd ℂ) (char1_orthogonal (N := x.length) (by omega) k hk k' hk')
      rw [map_sum] at this
      simp only [map_mul] at this
      rw [this]
      split <;> simp) fun k => (x.getD k 0 : ℂ)
  have e : ∀ k ∈ range x.length, ‖(npRfft x).getD k 0‖ ^ 2 =
      ‖∑ a ∈ range x.length, (x.getD a 0 : ℂ) * (starRingEnd ℂ) (tw x.length ((a : ℤ) * k))‖ ^ 2 := by
    intro k hk
    unfold npRfft
    rw [getD_dft _ (by simpa using mem_range.1 hk), List.length_map]
    congr 2
    refine sum_congr rfl fun a _ => ?_
    rw [getD_ofReal, conj_tw, mul_comm (k : ℤ)]
  rw [sum_congr rfl e, h]
  congr 1
  unfold energy1
  refine sum_congr rfl fun a _ => ?_
  rw [Complex.norm_real, Real.norm_eq_abs, sq_abs]

/-- Multiplying the spectrum of `x` by numbers of modulus at most `C` multiplies the energy by at most `C^2`, also
after decimation. -/
theorem energy_multiplier (x : List ℝ) (w : ℕ → ℂ) {C : ℝ} (hC : ∀ k < x.length, ‖w k‖ ≤ C) (z : List ℂ)
    (hz : z.length = x.length) (hw : ∀ k < x.length, z.getD k 0 = (npRfft x).getD k 0 * w k) (n q : ℕ)
    (hn : n * q ≤ x.length) (hq : 0 < q) :
    ∑ t ∈ range n, ‖imp z ((t : ℤ) * q)‖ ^ 2 ≤ C ^ 2 * energy1 x := by
  rcases Nat.eq_zero_or_pos x.length with h0 | hpos
  · have : n = 0 := by
      rcases Nat.eq_zero_or_pos n with h | h
      · exact h
      · have : 0 < n * q := by positivity
        omega
    subst this
    simp [energy1, h0]
  have h1 : ∑ t ∈ range n, ‖imp z ((t : ℤ) * q)‖ ^ 2 ≤ ∑ i ∈ range z.length, ‖imp z i‖ ^ 2 := by
    have := sum_decimate_le z.length q 0 n hq (by
      rcases Nat.eq_zero_or_pos n with h | h
      · exact Or.inl h
      · right
        rw [hz]
        refine lt_of_lt_of_le ?_ hn
        exact Nat.mul_lt_mul_of_pos_right (by omega) hq) (fun i => ‖imp z i‖ ^ 2) fun i => by positivity
    simpa using this
  refine h1.trans ?_
  rw [parseval_imp z (by omega), hz]
  have hN : (0 : ℝ) < x.length := by exact_mod_cast hpos
  rw [div_le_iff₀ hN]
  calc ∑ k ∈ range x.length, ‖z.getD k 0‖ ^ 2
      ≤ ∑ k ∈ range x.length, C ^ 2 * ‖(npRfft x).getD k 0‖ ^ 2 := by
        refine sum_le_sum fun k hk => ?_
        rw [hw k (mem_range.1 hk), norm_mul, mul_pow, mul_comm]
        exact mul_le_mul_of_nonneg_right
          (pow_le_pow_left₀ (norm_nonneg _) (hC k (mem_range.1 hk)) 2) (by positivity)
    _ = C ^ 2 * energy1 x * x.length := by rw [← mul_sum, parseval_rfft]; ring

/-- Energy of decimated samples of a convolution. -/
theorem energy_conv1 (x f : List ℝ) (hl : f.length = x.length) {C : ℝ} (hC : ∀ k < x.length, |f.getD k 0| ≤ C)
    (n q : ℕ) (hn : n * q ≤ x.length) (hq : 0 < q) :
    ∑ t ∈ range n, ‖Spec.convR x (Spec.impulseR f) ((t : ℤ) * q)‖ ^ 2 ≤ C ^ 2 * energy1 x := by
  have h1 : npCdgmm (npRfft x) f = .ok _ := (npCdgmm_eq _ _ _).2 ⟨by simp [hl], rfl⟩
  have := energy_multiplier x (fun k => (f.getD k 0 : ℂ)) (C := C)
    (fun k hk => by rw [Complex.norm_real]; exact hC k hk) _ (by rw [length_of_cdgmm h1]; simp)
    (fun k _ => getD_cdgmm h1 k) n q hn hq
  simpa only [imp_cdgmm_rfft h1] using this

/-- Energy of the change of a decimated convolution when the signal is rolled by `s`. -/
theorem energy_shift1 (x y f : List ℝ) (s : ℤ) (hroll : Spec.IsRoll s x y) (hl : f.length = x.length) {C : ℝ}
    (hC : ∀ k < x.length, |f.getD k 0| * ‖tw x.length (-((k : ℤ) * s)) - 1‖ ≤ C)
    (n q : ℕ) (hn : n * q ≤ x.length) (hq : 0 < q) :
    ∑ t ∈ range n, ‖Spec.convR y (Spec.impulseR f) ((t : ℤ) * q) - Spec.convR x (Spec.impulseR f) ((t : ℤ) * q)‖ ^ 2 ≤
      C ^ 2 * energy1 x := by
  have h1 : npCdgmm (npRfft x) f = .ok _ := (npCdgmm_eq _ _ _).2 ⟨by simp [hl], rfl⟩
  have h2 : npCdgmm (npRfft y) f = .ok _ := (npCdgmm_eq _ _ _).2 ⟨by simp [hl, hroll.1], rfl⟩
  set w : ℕ → ℂ := fun k => (f.getD k 0 : ℂ) * (tw x.length (-((k : ℤ) * s)) - 1) with hw
  set z : List ℂ := tab x.length fun k => (npRfft x).getD k 0 * w k with hz
  have hzl : z.length = x.length := by simp [hz]
  have := energy_multiplier x w (C := C) (fun k hk => by
    rw [hw]; simp only; rw [norm_mul, Complex.norm_real, Real.norm_eq_abs]; exact hC k hk) z hzl
    (fun k hk => getD_tab_lt hk) n q hn hq
  refine le_trans (le_of_eq (sum_congr rfl fun t _ => ?_)) this
  rw [← imp_cdgmm_rfft h1, ← imp_cdgmm_rfft h2]
  congr 2
  unfold imp
  rw [length_of_cdgmm h1, length_of_cdgmm h2, hzl, length_npRfft, length_npRfft, hroll.1, ← sub_div,
    ← sum_sub_distrib]
  congr 1
  refine sum_congr rfl fun k hk => ?_
  have hk := mem_range.1 hk
  have hr : (npRfft y).getD k 0 = (npRfft x).getD k 0 * tw x.length (-((k : ℤ) * s)) := by
    unfold npRfft
    rw [dft_roll (toC_roll hroll)]
    unfold shiftF
    rw [getD_tab_lt (by simpa using hk)]
    simp
  rw [getD_cdgmm h1, getD_cdgmm h2, hr, hz, getD_tab_lt hk, hw]
  ring

end Verif
