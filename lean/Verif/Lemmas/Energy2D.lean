import Verif.Lemmas.NpOps2D
import Verif.Spec.Image

/-!
# Energy of filtered and decimated images
-/

namespace Verif

open Finset

/-- Parseval for a family of orthogonal vectors of the same norm. -/
theorem sum_sq_of_orthogonal {ι κ : Type} [DecidableEq ι] (A : Finset ι) (B : Finset κ) (E : ι → κ → ℂ)
    (N : ℝ) (ho : ∀ a ∈ A, ∀ a' ∈ A, ∑ b ∈ B, E a b * (starRingEnd ℂ) (E a' b) = if a = a' then (N : ℂ) else 0)
    (c : ι → ℂ) : ∑ b ∈ B, ‖∑ a ∈ A, c a * E a b‖ ^ 2 = N * ∑ a ∈ A, ‖c a‖ ^ 2 := by
  have e : ∀ z : ℂ, ((‖z‖ ^ 2 : ℝ) : ℂ) = z * (starRingEnd ℂ) z := fun z => by
    rw [Complex.mul_conj, Complex.normSq_eq_norm_sq]
  apply Complex.ofReal_injective
  rw [Complex.ofReal_mul, Complex.ofReal_sum, Complex.ofReal_sum]
  simp_rw [e]
  calc ∑ b ∈ B, (∑ a ∈ A, c a * E a b) * (starRingEnd ℂ) (∑ a ∈ A, c a * E a b)
      = ∑ b ∈ B, ∑ a ∈ A, ∑ a' ∈ A, c a * (starRingEnd ℂ) (c a') * (E a b * (starRingEnd ℂ) (E a' b)) := by
        refine sum_congr rfl fun b _ => ?_
        rw [map_sum, sum_mul_sum]
        refine sum_congr rfl fun a _ => sum_congr rfl fun a' _ => ?_
        rw [map_mul]; ring
    _ = ∑ a ∈ A, ∑ a' ∈ A, c a * (starRingEnd ℂ) (c a') * ∑ b ∈ B, E a b * (starRingEnd ℂ) (E a' b) := by
        rw [sum_comm]
        refine sum_congr rfl fun a _ => ?_
        rw [sum_comm]
        exact sum_congr rfl fun a' _ => by rw [mul_sum]
    _ = ∑ a ∈ A, c a * (starRingEnd ℂ) (c a) * N := by
        refine sum_congr rfl fun a ha => ?_
        rw [sum_eq_single a]
        · rw [ho a ha a ha, if_pos rfl]
        · intro a' ha' hne
          rw [ho a ha a' ha', if_neg (Ne.symm hne), mul_zero]
        · exact fun h => absurd ha h
    _ = _ := by rw [mul_sum]; exact sum_congr rfl fun a _ => by ring

theorem conj_tw (N : ℕ) (a : ℤ) : (starRingEnd ℂ) (tw N a) = tw N (-a) := by
  have h : tw N a * tw N (-a) = 1 := by rw [← tw_add]; simp [tw_zero]
  have h2 : tw N a * (starRingEnd ℂ) (tw N a) = 1 := by
    rw [Complex.mul_conj, Complex.normSq_eq_norm_sq, norm_tw]; simp
  have h0 : tw N a ≠ 0 := fun h0 => by rw [h0, zero_mul] at h; exact zero_ne_one h
  exact mul_left_cancel₀ h0 (h2.trans h.symm)

/-- The two-dimensional characters. -/
noncomputable def char2 (h w : ℕ) (k m : ℕ × ℕ) : ℂ := tw h ((k.1 : ℤ) * m.1) * tw w ((k.2 : ℤ) * m.2)

theorem char2_orthogonal {h w : ℕ} (hh : h ≠ 0) (hw : w ≠ 0) :
    ∀ k ∈ range h ×ˢ range w, ∀ k' ∈ range h ×ˢ range w,
      ∑ m ∈ range h ×ˢ range w, char2 h w k m * (starRingEnd ℂ) (char2 h w k' m) =
        if k = k' then (((h : ℝ) * w : ℝ) : ℂ) else 0 := by
  rintro ⟨k, l⟩ hk ⟨k', l'⟩ hk'
  rw [mem_product, mem_range, mem_range] at hk hk'
  have one : ∀ {N a b : ℕ}, N ≠ 0 → a < N → b < N →
      ∑ m ∈ range N, tw N ((a : ℤ) * m) * (starRingEnd ℂ) (tw N ((b : ℤ) * m)) = if a = b then (N : ℂ) else 0 := by
    intro N a b hN ha hb
    have : ∀ m ∈ range N, tw N ((a : ℤ) * m) * (starRingEnd ℂ) (tw N ((b : ℤ) * m)) =
        tw N ((m : ℤ) * (a - b)) := by
      intro m _
      rw [conj_tw, ← tw_add]; congr 1; ring
    rw [sum_congr rfl this, sum_tw N hN]
    congr 1
    apply propext
    constructor
    · intro hd
      have := Int.eq_zero_of_abs_lt_dvd hd (by rw [abs_lt]; constructor <;> omega)
      omega
    · rintro rfl; simp
  rw [sum_product]
  have : ∀ x ∈ range h, ∑ y ∈ range w, char2 h w (k, l) (x, y) * (starRingEnd ℂ) (char2 h w (k', l') (x, y)) =
      (tw h ((k : ℤ) * x) * (starRingEnd ℂ) (tw h ((k' : ℤ) * x))) *
        ∑ y ∈ range w, tw w ((l : ℤ) * y) * (starRingEnd ℂ) (tw w ((l' : ℤ) * y)) := by
    intro x _
    rw [mul_sum]
    refine sum_congr rfl fun y _ => ?_
    unfold char2
    rw [map_mul]; ring
  rw [sum_congr rfl this, ← sum_mul, one hh hk.1 hk'.1, one hw hk.2 hk'.2]
  by_cases h1 : k = k' <;> by_cases h2 : l = l' <;> simp [h1, h2]

/-- Energy of a real image of shape `(h, w)`. -/
noncomputable def energy2 (h w : ℕ) (x : ℕ → ℕ → ℝ) : ℝ := ∑ i ∈ range h, ∑ k ∈ range w, x i k ^ 2

theorem energy2_nonneg (h w : ℕ) (x : ℕ → ℕ → ℝ) : 0 ≤ energy2 h w x :=
  sum_nonneg fun _ _ => sum_nonneg fun _ _ => sq_nonneg _

theorem exp_eq_tw2 (h w : ℕ) (a b : ℤ) :
    Complex.exp (2 * Real.pi * Complex.I * ((a : ℤ) / h + (b : ℤ) / w)) = tw h a * tw w b := by
  unfold tw
  rw [← Complex.exp_add]
  congr 1; ring

/-- A transfer function bounded by `C` multiplies the energy by at most `C^2`. -/
theorem energy_conv2 (h w : ℕ) (x f : ℕ → ℕ → ℝ) {C : ℝ}
    (hC : ∀ k l, k < h → l < w → |f k l| ≤ C) :
    ∑ m ∈ range h, ∑ n ∈ range w, ‖Spec.conv2 h w x (Spec.impulse2 h w f) m n‖ ^ 2 ≤ C ^ 2 * energy2 h w x := by
  rcases Nat.eq_zero_or_pos h with rfl | hh
  · simp [energy2]
  rcases Nat.eq_zero_or_pos w with rfl | hw
  · simp [energy2]
  have hC0 : 0 ≤ C := (abs_nonneg _).trans (hC 0 0 hh hw)
  have hN : (0 : ℝ) < (h : ℝ) * w := by positivity
  set P := range h ×ˢ range w with hP
  set X : ℕ × ℕ → ℂ := fun k => ∑ u ∈ P, (x u.1 u.2 : ℂ) * (starRingEnd ℂ) (char2 h w k u) with hX
  have hconv : ∀ m ∈ P, Spec.conv2 h w x (Spec.impulse2 h w f) m.1 m.2 =
      ∑ k ∈ P, (f k.1 k.2 * X k / ((h : ℂ) * w)) * char2 h w k m := by
    rintro ⟨m, n⟩ _
    unfold Spec.conv2 Spec.impulse2
    simp only [exp_eq_tw2]
    have e1 : ∀ u ∈ range h, ∀ v ∈ range w, (x u v : ℂ) *
        ((∑ k ∈ range h, ∑ l ∈ range w, (f k l : ℂ) * (tw h ((k : ℤ) * ((m : ℤ) - u)) * tw w ((l : ℤ) * ((n : ℤ) - v)))) /
          (h * w)) = ∑ k ∈ P, (x u v : ℂ) * (starRingEnd ℂ) (char2 h w k (u, v)) *
            (f k.1 k.2 / ((h : ℂ) * w) * char2 h w k (m, n)) := by
      intro u _ v _
      rw [hP, sum_product, sum_div, mul_sum]
      refine sum_congr rfl fun k _ => ?_
      rw [sum_div, mul_sum]
      refine sum_congr rfl fun l _ => ?_
      unfold char2
      rw [map_mul, conj_tw, conj_tw]
      rw [show (k : ℤ) * ((m : ℤ) - u) = k * m + -(k * u) by ring,
        show (l : ℤ) * ((n : ℤ) - v) = l * n + -(l * v) by ring, tw_add, tw_add]
      ring
    rw [sum_congr rfl fun u hu => sum_congr rfl (e1 u hu)]
    rw [← sum_product' (range h) (range w) fun u v => ∑ k ∈ P, (x u v : ℂ) * (starRingEnd ℂ) (char2 h w k (u, v)) *
            (f k.1 k.2 / ((h : ℂ) * w) * char2 h w k (m, n)), sum_comm]
    refine sum_congr rfl fun k _ => ?_
    rw [hX]
    simp only
    rw [mul_sum, sum_div, sum_mul]
    exact sum_congr rfl fun u _ => by ring
  have horth := char2_orthogonal (by omega : h ≠ 0) (by omega : w ≠ 0)
  have h1 : ∑ m ∈ range h, ∑ n ∈ range w, ‖Spec.conv2 h w x (Spec.impulse2 h w f) m n‖ ^ 2 =
      (h * w) * ∑ k ∈ P, ‖(f k.1 k.2 * X k / ((h : ℂ) * w))‖ ^ 2 := by
    rw [← sum_sq_of_orthogonal P P (char2 h w) _ horth]
    rw [← sum_product' (range h) (range w) fun m n => ‖Spec.conv2 h w x (Spec.impulse2 h w f) m n‖ ^ 2]
    exact sum_congr rfl fun m hm => by rw [hconv m hm]
  have h2 : ∑ k ∈ P, ‖X k‖ ^ 2 = (h * w) * energy2 h w x := by
    have := sum_sq_of_orthogonal P P (fun k m => (starRingEnd ℂ) (char2 h w k m)) ((h : ℝ) * w) (by
      intro k hk k' hk'
      have := congrArg (starRingEnd ℂ) (horth k hk k' hk')
      rw [map_sum] at this
      simp only [map_mul] at this
      rw [this]
      split <;> simp) (fun k => (x k.1 k.2 : ℂ))
    have sym : ∀ k m, char2 h w k m = char2 h w m k := by
      intro k m; unfold char2; rw [mul_comm (k.1 : ℤ), mul_comm (k.2 : ℤ)]
    have e : ∀ k ∈ P, ‖X k‖ ^ 2 = ‖∑ a ∈ P, (x a.1 a.2 : ℂ) * (starRingEnd ℂ) (char2 h w a k)‖ ^ 2 := by
      intro k _
      rw [hX]
      simp only
      congr 2
      exact sum_congr rfl fun u _ => by rw [sym]
    rw [sum_congr rfl e, this]
    congr 1
    unfold energy2
    rw [← sum_product' (range h) (range w) fun i k => x i k ^ 2]
    refine sum_congr rfl fun k _ => ?_
    rw [Complex.norm_real, Real.norm_eq_abs, sq_abs]
  rw [h1]
  have h3 : ∀ k ∈ P, ‖(f k.1 k.2 * X k / ((h : ℂ) * w))‖ ^ 2 ≤ C ^ 2 / (h * w) ^ 2 * ‖X k‖ ^ 2 := by
    intro k hk
    rw [hP, mem_product, mem_range, mem_range] at hk
    rw [norm_div, norm_mul, Complex.norm_real, Real.norm_eq_abs, div_pow, mul_pow]
    have e : ‖((h : ℂ) * w)‖ = (h : ℝ) * w := by
      rw [norm_mul, Complex.norm_natCast, Complex.norm_natCast]
    rw [e, div_mul_eq_mul_div]
    have : |f k.1 k.2| ^ 2 ≤ C ^ 2 := pow_le_pow_left₀ (abs_nonneg _) (hC _ _ hk.1 hk.2) 2
    gcongr
  calc (h * w : ℝ) * ∑ k ∈ P, ‖(f k.1 k.2 * X k / ((h : ℂ) * w))‖ ^ 2
      ≤ (h * w) * ∑ k ∈ P, C ^ 2 / (h * w) ^ 2 * ‖X k‖ ^ 2 := by
        exact mul_le_mul_of_nonneg_left (sum_le_sum h3) hN.le
    _ = C ^ 2 * energy2 h w x := by
        rw [← mul_sum, h2]
        field_simp

/-- Samples at multiples of `q`, from an offset on, have at most the energy of all samples. -/
theorem sum_decimate_le (h q o n : ℕ) (hq : 0 < q) (hn : n = 0 ∨ (o + n - 1) * q < h) (F : ℕ → ℝ) (hF : ∀ i, 0 ≤ F i) :
    ∑ i ∈ range n, F ((i + o) * q) ≤ ∑ i ∈ range h, F i := by
  rw [← sum_image (f := F) (g := fun i => (i + o) * q)]
  · apply sum_le_sum_of_subset_of_nonneg
    · intro m hm
      obtain ⟨i, hi, rfl⟩ := mem_image.1 hm
      rw [mem_range] at hi ⊢
      rcases hn with rfl | hn
      · omega
      · exact lt_of_le_of_lt (Nat.mul_le_mul_right q (by omega)) hn
    · exact fun _ _ _ => hF _
  · intro a _ b _ hab
    have := Nat.eq_of_mul_eq_mul_right hq hab
    omega

theorem conv2_sub (h w : ℕ) (x y : ℕ → ℕ → ℝ) (g : ℤ → ℤ → ℂ) (m n : ℤ) :
    Spec.conv2 h w x g m n - Spec.conv2 h w y g m n = Spec.conv2 h w (fun i k => x i k - y i k) g m n := by
  unfold Spec.conv2
  rw [← sum_sub_distrib]
  refine sum_congr rfl fun u _ => ?_
  rw [← sum_sub_distrib]
  refine sum_congr rfl fun v _ => ?_
  push_cast; ring

/-- Decimated outputs of a filter bounded by `C`, for two images. -/
theorem energy_step (h w e o n n' : ℕ) (hn : n = 0 ∨ (o + n - 1) * 2 ^ e < h) (hn' : n' = 0 ∨ (o + n' - 1) * 2 ^ e < w)
    (x y f : ℕ → ℕ → ℝ) {C : ℝ} (hC : ∀ k l, k < h → l < w → |f k l| ≤ C) (d : ℕ → ℕ → ℝ)
    (hd : ∀ i < n, ∀ k < n', |d i k| ≤ ‖Spec.conv2 h w x (Spec.impulse2 h w f) ((i + o : ℕ) * 2 ^ e) ((k + o : ℕ) * 2 ^ e) -
      Spec.conv2 h w y (Spec.impulse2 h w f) ((i + o : ℕ) * 2 ^ e) ((k + o : ℕ) * 2 ^ e)‖) :
    energy2 n n' d ≤ C ^ 2 * energy2 h w fun i k => x i k - y i k := by
  refine le_trans ?_ (energy_conv2 h w _ f hC)
  set G : ℕ → ℕ → ℝ := fun m n => ‖Spec.conv2 h w (fun i k => x i k - y i k) (Spec.impulse2 h w f) m n‖ ^ 2 with hG
  have hG0 : ∀ m n, 0 ≤ G m n := fun m n => by rw [hG]; positivity
  have h1 : energy2 n n' d ≤ ∑ i ∈ range n, ∑ k ∈ range n', G ((i + o) * 2 ^ e) ((k + o) * 2 ^ e) := by
    refine sum_le_sum fun i hi => sum_le_sum fun k hk => ?_
    rw [← sq_abs, hG]
    simp only
    have := hd i (mem_range.1 hi) k (mem_range.1 hk)
    rw [conv2_sub] at this
    push_cast at this ⊢
    exact pow_le_pow_left₀ (abs_nonneg _) this 2
  have hq : 0 < 2 ^ e := by positivity
  calc energy2 n n' d ≤ ∑ i ∈ range n, ∑ k ∈ range n', G ((i + o) * 2 ^ e) ((k + o) * 2 ^ e) := h1
    _ ≤ ∑ i ∈ range n, ∑ k ∈ range w, G ((i + o) * 2 ^ e) k :=
        sum_le_sum fun i _ => sum_decimate_le w _ o n' hq hn' (G ((i + o) * 2 ^ e)) (hG0 _)
    _ ≤ ∑ i ∈ range h, ∑ k ∈ range w, G i k :=
        sum_decimate_le h _ o n hq hn (fun i => ∑ k ∈ range w, G i k) fun i => sum_nonneg fun k _ => hG0 _ _

end Verif
