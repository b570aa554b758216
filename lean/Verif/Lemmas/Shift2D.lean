import Verif.Lemmas.Energy2D
import Verif.Lemmas.Covariance2D

/-!
# Circular convolutions of translated images
-/

namespace Verif

open Finset

theorem tw_neg_mul (N : ℕ) (a : ℤ) : tw N a * tw N (-a) = 1 := by rw [← tw_add]; simp [tw_zero]

/-- A circular convolution in terms of the spectrum. -/
theorem conv2_spectrum (h w : ℕ) (x f : ℕ → ℕ → ℝ) (m n : ℤ) :
    Spec.conv2 h w x (Spec.impulse2 h w f) m n = ∑ k ∈ range h ×ˢ range w,
      (f k.1 k.2 * (∑ u ∈ range h ×ˢ range w, (x u.1 u.2 : ℂ) * (starRingEnd ℂ) (char2 h w k u)) / ((h : ℂ) * w)) *
        (tw h (k.1 * m) * tw w (k.2 * n)) := by
  unfold Spec.conv2 Spec.impulse2
  simp only [exp_eq_tw2]
  have e1 : ∀ u ∈ range h, ∀ v ∈ range w, (x u v : ℂ) *
      ((∑ k ∈ range h, ∑ l ∈ range w, (f k l : ℂ) * (tw h ((k : ℤ) * (m - u)) * tw w ((l : ℤ) * (n - v)))) /
        (h * w)) = ∑ k ∈ range h ×ˢ range w, (x u v : ℂ) * (starRingEnd ℂ) (char2 h w k (u, v)) *
          (f k.1 k.2 / ((h : ℂ) * w) * (tw h (k.1 * m) * tw w (k.2 * n))) := by
    intro u _ v _
    rw [sum_product, sum_div, mul_sum]
    refine sum_congr rfl fun k _ => ?_
    rw [sum_div, mul_sum]
    refine sum_congr rfl fun l _ => ?_
    unfold char2
    rw [map_mul, conj_tw, conj_tw]
    rw [show (k : ℤ) * (m - u) = k * m + -(k * u) by ring,
      show (l : ℤ) * (n - v) = l * n + -(l * v) by ring, tw_add, tw_add]
    ring
  rw [sum_congr rfl fun u hu => sum_congr rfl (e1 u hu)]
  rw [← sum_product' (range h) (range w) fun u v => ∑ k ∈ range h ×ˢ range w,
    (x u v : ℂ) * (starRingEnd ℂ) (char2 h w k (u, v)) *
      (f k.1 k.2 / ((h : ℂ) * w) * (tw h (k.1 * m) * tw w (k.2 * n))), sum_comm]
  refine sum_congr rfl fun k _ => ?_
  rw [mul_sum, sum_div, sum_mul]
  exact sum_congr rfl fun u _ => by ring

/-- A multiplier bounded by `C` multiplies the energy by at most `C^2`. -/
theorem energy_mult2 (h w : ℕ) (hh : 0 < h) (hw : 0 < w) (x : ℕ → ℕ → ℝ) (c : ℕ × ℕ → ℂ) {C : ℝ}
    (hC : ∀ k ∈ range h ×ˢ range w, ‖c k‖ ≤ C) :
    ∑ m ∈ range h, ∑ n ∈ range w, ‖∑ k ∈ range h ×ˢ range w,
      (c k * (∑ u ∈ range h ×ˢ range w, (x u.1 u.2 : ℂ) * (starRingEnd ℂ) (char2 h w k u)) / ((h : ℂ) * w)) *
        char2 h w k (m, n)‖ ^ 2 ≤ C ^ 2 * energy2 h w x := by
  have hN : (0 : ℝ) < (h : ℝ) * w := by positivity
  set P := range h ×ˢ range w with hP
  set X : ℕ × ℕ → ℂ := fun k => ∑ u ∈ P, (x u.1 u.2 : ℂ) * (starRingEnd ℂ) (char2 h w k u) with hX
  have horth := char2_orthogonal (by omega : h ≠ 0) (by omega : w ≠ 0)
  have h1 : ∑ m ∈ range h, ∑ n ∈ range w, ‖∑ k ∈ P, (c k * X k / ((h : ℂ) * w)) * char2 h w k (m, n)‖ ^ 2 =
      (h * w) * ∑ k ∈ P, ‖(c k * X k / ((h : ℂ) * w))‖ ^ 2 := by
    rw [← sum_sq_of_orthogonal P P (char2 h w) _ horth]
    rw [← sum_product' (range h) (range w) fun m n => ‖∑ k ∈ P, (c k * X k / ((h : ℂ) * w)) * char2 h w k (m, n)‖ ^ 2]
  have h2 : ∑ k ∈ P, ‖X k‖ ^ 2 = (h * w) * energy2 h w x := by
    have := sum_sq_of_orthogonal P P (fun k m => (starRingEnd ℂ) (char2 h w k m)) ((h : ℝ) * w) (by
      intro k hk k' hk'
      have := congrArg (starRingEnd ℂ) (horth k hk k' hk')
      rw [map_sum] at this
      simp only [map_mul] at this
      rw [this]
      split <;> simp) (fun k => (x k.1 k.2 : ℂ))
    have sym : ∀ k m, char2 h w k m = char2 h w m k := by
      intro k m; unfold char2; rw [mul_comm (k.1 : ℤ), mul_comm (k.2 : ℤ)]
    have e : ∀ k ∈ P, ‖X k‖ ^ 2 = ‖∑ a ∈ P, (x a.1 a.2 : ℂ) * (starRingEnd ℂ) (char2 h w a k)‖ ^ 2 := by
      intro k _
      rw [hX]
      simp only
      congr 2
      exact sum_congr rfl fun u _ => by rw [sym]
    rw [sum_congr rfl e, this]
    congr 1
    unfold energy2
    rw [← sum_product' (range h) (range w) fun i k => x i k ^ 2]
    refine sum_congr rfl fun k _ => ?_
    rw [Complex.norm_real, Real.norm_eq_abs, sq_abs]
  rw [h1]
  have h3 : ∀ k ∈ P, ‖(c k * X k / ((h : ℂ) * w))‖ ^ 2 ≤ C ^ 2 / (h * w) ^ 2 * ‖X k‖ ^ 2 := by
    intro k hk
    rw [norm_div, norm_mul, div_pow, mul_pow]
    have e : ‖((h : ℂ) * w)‖ = (h : ℝ) * w := by
      rw [norm_mul, Complex.norm_natCast, Complex.norm_natCast]
    rw [e, div_mul_eq_mul_div]
    have : ‖c k‖ ^ 2 ≤ C ^ 2 := pow_le_pow_left₀ (norm_nonneg _) (hC _ hk) 2
    gcongr
  calc (h * w : ℝ) * ∑ k ∈ P, ‖(c k * X k / ((h : ℂ) * w))‖ ^ 2
      ≤ (h * w) * ∑ k ∈ P, C ^ 2 / (h * w) ^ 2 * ‖X k‖ ^ 2 := by
        exact mul_le_mul_of_nonneg_left (sum_le_sum h3) hN.le
    _ = C ^ 2 * energy2 h w x := by
        rw [← mul_sum, h2]
        field_simp

theorem impulse2_congr (h w : ℕ) (f : ℕ → ℕ → ℝ) {a b c d : ℤ} (hab : a % h = b % h) (hcd : c % w = d % w) :
    Spec.impulse2 h w f a c = Spec.impulse2 h w f b d := by
  unfold Spec.impulse2
  simp only [exp_eq_tw2]
  congr 1
  refine sum_congr rfl fun k _ => sum_congr rfl fun l _ => ?_
  rw [tw_congr h (show ((k : ℤ) * a) % h = (k * b) % h from (show a ≡ b [ZMOD h] from hab).mul_left k),
    tw_congr w (show ((l : ℤ) * c) % w = (l * d) % w from (show c ≡ d [ZMOD w] from hcd).mul_left l)]

/-- Convolving a rolled image rolls the convolution. -/
theorem conv2_roll {h w : ℕ} {s t : ℤ} {x y : ℕ → ℕ → ℝ} (hr : Spec.IsRoll2 h w s t x y) (f : ℕ → ℕ → ℝ) (m n : ℤ) :
    Spec.conv2 h w y (Spec.impulse2 h w f) m n = Spec.conv2 h w x (Spec.impulse2 h w f) (m - s) (n - t) := by
  set G : ℤ → ℤ → ℂ := fun a b => (x (a % h).toNat (b % w).toNat : ℂ) * Spec.impulse2 h w f (m - s - a) (n - t - b) with hG
  have hG1 : ∀ a b c : ℤ, a % h = b % h → G a c = G b c := by
    intro a b c hab
    simp only [hG, hab]
    congr 1
    exact impulse2_congr h w f ((Int.ModEq.refl (m - s)).sub (show a ≡ b [ZMOD h] from hab)) rfl
  have hG2 : ∀ a b c : ℤ, a % w = b % w → G c a = G c b := by
    intro a b c hab
    simp only [hG, hab]
    congr 1
    exact impulse2_congr h w f rfl ((Int.ModEq.refl (n - t)).sub (show a ≡ b [ZMOD w] from hab))
  unfold Spec.conv2
  have e1 : ∀ u ∈ range h, ∀ v ∈ range w, (y u v : ℂ) * Spec.impulse2 h w f (m - u) (n - v) = G (u - s) (v - t) := by
    intro u hu v hv
    rw [hr u v (mem_range.1 hu) (mem_range.1 hv)]
    simp only [hG]
    congr 2 <;> ring
  rw [sum_congr rfl fun u hu => sum_congr rfl fun v hv => e1 u hu v hv]
  have e2 : ∀ u ∈ range h, ∑ v ∈ range w, G (u - s) (v - t) = ∑ v ∈ range w, G (u - s) v :=
    fun u _ => sum_shift (fun b => G (u - s) b) (fun a b hab => hG2 a b _ hab) t
  rw [sum_congr rfl e2, sum_shift (fun a => ∑ v ∈ range w, G a v)
    (fun a b hab => sum_congr rfl fun v _ => hG1 a b v hab) s]
  refine sum_congr rfl fun u hu => sum_congr rfl fun v hv => ?_
  have hu := mem_range.1 hu
  have hv := mem_range.1 hv
  simp only [hG]
  rw [Int.emod_eq_of_lt (by omega) (by omega), Int.emod_eq_of_lt (by omega) (by omega),
    Int.toNat_natCast, Int.toNat_natCast]

theorem conv2_periodic {h w : ℕ} (x f : ℕ → ℕ → ℝ) {a b c d : ℤ} (hab : a % h = b % h) (hcd : c % w = d % w) :
    Spec.conv2 h w x (Spec.impulse2 h w f) a c = Spec.conv2 h w x (Spec.impulse2 h w f) b d := by
  unfold Spec.conv2
  refine sum_congr rfl fun u _ => sum_congr rfl fun v _ => ?_
  rw [impulse2_congr h w f ((show a ≡ b [ZMOD h] from hab).sub_right u) ((show c ≡ d [ZMOD w] from hcd).sub_right v)]

theorem roll_index (e H M : ℕ) (S : ℤ) (hM : M < H) :
    ((M : ℤ) * 2 ^ e - 2 ^ e * S) % ((2 ^ e * H : ℕ) : ℤ) =
      (((((M : ℤ) - S) % H).toNat : ℤ) * 2 ^ e) % ((2 ^ e * H : ℕ) : ℤ) := by
  have h1 : ((((M : ℤ) - S) % H).toNat : ℤ) = ((M : ℤ) - S) % H :=
    Int.toNat_of_nonneg (Int.emod_nonneg _ (by omega))
  have h2 : ((2 ^ e * H : ℕ) : ℤ) = 2 ^ e * (H : ℤ) := by push_cast; rfl
  rw [h1, h2, show (M : ℤ) * 2 ^ e - 2 ^ e * S = 2 ^ e * (M - S) by ring, mul_comm (((M : ℤ) - S) % H),
    Int.mul_emod_mul_of_pos _ _ (by positivity), Int.mul_emod_mul_of_pos _ _ (by positivity), Int.emod_emod_of_dvd _ dvd_rfl]

/-- Band-pass, modulus and decimation carry a roll to a roll. -/
theorem band2_roll {h w e : ℕ} (hh : 2 ^ e ∣ h) (hw : 2 ^ e ∣ w) {s t : ℤ} (hs : (2 : ℤ) ^ e ∣ s) (ht : (2 : ℤ) ^ e ∣ t)
    {x y : ℕ → ℕ → ℝ} (hr : Spec.IsRoll2 h w s t x y) (f : ℕ → ℕ → ℝ) :
    Spec.IsRoll2 (h / 2 ^ e) (w / 2 ^ e) (s / 2 ^ e) (t / 2 ^ e) (Spec.band2 h w x f e) (Spec.band2 h w y f e) := by
  obtain ⟨h', rfl⟩ := hh
  obtain ⟨w', rfl⟩ := hw
  obtain ⟨s', rfl⟩ := hs
  obtain ⟨t', rfl⟩ := ht
  have hp : 0 < 2 ^ e := by positivity
  have hz : (2 : ℤ) ^ e ≠ 0 := by positivity
  have e1 : 2 ^ e * h' / 2 ^ e = h' := Nat.mul_div_cancel_left _ hp
  have e2 : 2 ^ e * w' / 2 ^ e = w' := Nat.mul_div_cancel_left _ hp
  have e3 : (2 : ℤ) ^ e * s' / 2 ^ e = s' := Int.mul_ediv_cancel_left _ hz
  have e4 : (2 : ℤ) ^ e * t' / 2 ^ e = t' := Int.mul_ediv_cancel_left _ hz
  rw [e1, e2, e3, e4]
  intro m n hm hn
  show ‖_‖ = ‖_‖
  rw [conv2_roll hr]
  exact congrArg _ (conv2_periodic x f (roll_index e h' m s' hm) (roll_index e w' n t' hn))

/-- Decimated outputs of a filter for an image and a rolled copy: what counts is the filter times the distance of the
phases from one. -/
theorem energy_shift2 (h w e o n n' : ℕ) (hn : n = 0 ∨ (o + n - 1) * 2 ^ e < h) (hn' : n' = 0 ∨ (o + n' - 1) * 2 ^ e < w)
    {x y : ℕ → ℕ → ℝ} {s t : ℤ} (hr : Spec.IsRoll2 h w s t x y) (f : ℕ → ℕ → ℝ) {C : ℝ}
    (hC : ∀ k l, k < h → l < w → |f k l| * ‖tw h (-((k : ℤ) * s)) * tw w (-((l : ℤ) * t)) - 1‖ ≤ C) (d : ℕ → ℕ → ℝ)
    (hd : ∀ i < n, ∀ k < n', |d i k| ≤ ‖Spec.conv2 h w y (Spec.impulse2 h w f) ((i + o : ℕ) * 2 ^ e) ((k + o : ℕ) * 2 ^ e) -
      Spec.conv2 h w x (Spec.impulse2 h w f) ((i + o : ℕ) * 2 ^ e) ((k + o : ℕ) * 2 ^ e)‖) :
    energy2 n n' d ≤ C ^ 2 * energy2 h w x := by
  rcases Nat.eq_zero_or_pos n with rfl | hn0
  · have : energy2 0 n' d = 0 := by simp [energy2]
    rw [this]
    exact mul_nonneg (sq_nonneg _) (energy2_nonneg _ _ _)
  rcases Nat.eq_zero_or_pos n' with rfl | hn0'
  · have : energy2 n 0 d = 0 := by simp [energy2]
    rw [this]
    exact mul_nonneg (sq_nonneg _) (energy2_nonneg _ _ _)
  have hh : 0 < h := by rcases hn with h0 | h0 <;> omega
  have hw : 0 < w := by rcases hn' with h0 | h0 <;> omega
  set c : ℕ × ℕ → ℂ := fun k => f k.1 k.2 * (tw h (-((k.1 : ℤ) * s)) * tw w (-((k.2 : ℤ) * t)) - 1) with hc
  refine le_trans ?_ (energy_mult2 h w hh hw x c (C := C) fun k hk => by
    rw [mem_product, mem_range, mem_range] at hk
    rw [hc]
    simp only
    rw [norm_mul, Complex.norm_real, Real.norm_eq_abs]
    exact hC _ _ hk.1 hk.2)
  have key : ∀ m n : ℕ, Spec.conv2 h w y (Spec.impulse2 h w f) m n - Spec.conv2 h w x (Spec.impulse2 h w f) m n =
      ∑ k ∈ range h ×ˢ range w,
      (c k * (∑ u ∈ range h ×ˢ range w, (x u.1 u.2 : ℂ) * (starRingEnd ℂ) (char2 h w k u)) / ((h : ℂ) * w)) *
        char2 h w k (m, n) := by
    intro m n
    rw [conv2_roll hr, conv2_spectrum, conv2_spectrum, ← sum_sub_distrib]
    refine sum_congr rfl fun k _ => ?_
    rw [hc]
    simp only
    unfold char2
    rw [show (k.1 : ℤ) * (m - s) = k.1 * m + -(k.1 * s) by ring,
      show (k.2 : ℤ) * (n - t) = k.2 * n + -(k.2 * t) by ring, tw_add, tw_add]
    ring
  set G : ℕ → ℕ → ℝ := fun m n => ‖∑ k ∈ range h ×ˢ range w,
      (c k * (∑ u ∈ range h ×ˢ range w, (x u.1 u.2 : ℂ) * (starRingEnd ℂ) (char2 h w k u)) / ((h : ℂ) * w)) *
        char2 h w k (m, n)‖ ^ 2 with hG
  have hG0 : ∀ m n, 0 ≤ G m n := fun m n => by rw [hG]; positivity
  have h1 : energy2 n n' d ≤ ∑ i ∈ range n, ∑ k ∈ range n', G ((i + o) * 2 ^ e) ((k + o) * 2 ^ e) := by
    refine sum_le_sum fun i hi => sum_le_sum fun k hk => ?_
    rw [← sq_abs, hG]
    simp only
    have := hd i (mem_range.1 hi) k (mem_range.1 hk)
    rw [← key]
    push_cast at this ⊢
    exact pow_le_pow_left₀ (abs_nonneg _) this 2
  have hq : 0 < 2 ^ e := by positivity
  calc energy2 n n' d ≤ ∑ i ∈ range n, ∑ k ∈ range n', G ((i + o) * 2 ^ e) ((k + o) * 2 ^ e) := h1
    _ ≤ ∑ i ∈ range n, ∑ k ∈ range w, G ((i + o) * 2 ^ e) k :=
        sum_le_sum fun i _ => sum_decimate_le w _ o n' hq hn' (G ((i + o) * 2 ^ e)) (hG0 _)
    _ ≤ ∑ i ∈ range h, ∑ k ∈ range w, G i k :=
        sum_decimate_le h _ o n hq hn (fun i => ∑ k ∈ range w, G i k) fun i => sum_nonneg fun k _ => hG0 _ _

/-! ## Total variation -/

/-- Summation by parts against a sequence in the unit disc: a profile that rises to its peak and then falls. -/
theorem norm_sum_unimodal {f : ℕ → ℝ} {z : ℕ → ℂ} (hz : ∀ i, ‖z i‖ ≤ 1) {p n : ℕ} (hpn : p ≤ n) (h0 : ∀ i, 0 ≤ f i)
    (hup : ∀ i < p, f i ≤ f (i + 1)) (hdown : ∀ i, p ≤ i → f (i + 1) ≤ f i) :
    ‖∑ i ∈ range n, (f i : ℂ) * (z (i + 1) - z i)‖ ≤ 2 * f p := by
  have scale : ∀ (r : ℝ) (i : ℕ), 0 ≤ r → ‖(r : ℂ) * z i‖ ≤ r := by
    intro r i hr
    rw [norm_mul, Complex.norm_real, Real.norm_eq_abs, abs_of_nonneg hr]
    exact mul_le_of_le_one_right hr (hz i)
  have up : ∀ m, m ≤ p → ‖∑ i ∈ range m, (f i : ℂ) * (z (i + 1) - z i) - f m * z m‖ ≤ f m := by
    intro m
    induction m with
    | zero =>
      intro _
      rw [sum_range_zero, zero_sub, norm_neg]
      exact scale _ _ (h0 0)
    | succ m ih =>
      intro hm
      have h1 := ih (by omega)
      have h2 := hup m (by omega)
      have h3 := scale (f (m + 1) - f m) (m + 1) (by linarith)
      have e : ∑ i ∈ range (m + 1), (f i : ℂ) * (z (i + 1) - z i) - f (m + 1) * z (m + 1) =
          (∑ i ∈ range m, (f i : ℂ) * (z (i + 1) - z i) - f m * z m) - ((f (m + 1) - f m : ℝ) : ℂ) * z (m + 1) := by
        rw [sum_range_succ]; push_cast; ring
      rw [e]
      have := norm_sub_le (∑ i ∈ range m, (f i : ℂ) * (z (i + 1) - z i) - f m * z m)
        (((f (m + 1) - f m : ℝ) : ℂ) * z (m + 1))
      linarith
  have down : ∀ m, p ≤ m → ‖∑ i ∈ range m, (f i : ℂ) * (z (i + 1) - z i) - f m * z m‖ ≤ 2 * f p - f m := by
    intro m hm
    induction m, hm using Nat.le_induction with
    | base => linarith [up p le_rfl]
    | succ m hm ih =>
      have h2 := hdown m hm
      have h3 := scale (f m - f (m + 1)) (m + 1) (by linarith)
      have e : ∑ i ∈ range (m + 1), (f i : ℂ) * (z (i + 1) - z i) - f (m + 1) * z (m + 1) =
          (∑ i ∈ range m, (f i : ℂ) * (z (i + 1) - z i) - f m * z m) + ((f m - f (m + 1) : ℝ) : ℂ) * z (m + 1) := by
        rw [sum_range_succ]; push_cast; ring
      rw [e]
      have := norm_add_le (∑ i ∈ range m, (f i : ℂ) * (z (i + 1) - z i) - f m * z m)
        (((f m - f (m + 1) : ℝ) : ℂ) * z (m + 1))
      linarith
  have h1 := down n hpn
  have h2 := scale (f n) n (h0 n)
  have := norm_add_le (∑ i ∈ range n, (f i : ℂ) * (z (i + 1) - z i) - f n * z n) (f n * z n)
  rw [sub_add_cancel] at this
  linarith

/-- A phase of `s` steps is at most `|s|` times as far from one as a phase of one step. -/
theorem norm_tw_mul_sub_one (N : ℕ) (a s : ℤ) : ‖tw N (a * s) - 1‖ ≤ |(s : ℝ)| * ‖tw N a - 1‖ := by
  have nat : ∀ k : ℕ, ‖tw N (a * k) - 1‖ ≤ k * ‖tw N a - 1‖ := by
    intro k
    induction k with
    | zero => simp [tw_zero]
    | succ k ih =>
      have e : tw N (a * (k + 1 : ℕ)) - 1 = tw N (a * k) * (tw N a - 1) + (tw N (a * k) - 1) := by
        rw [show a * ((k + 1 : ℕ) : ℤ) = a * k + a by push_cast; ring, tw_add]; ring
      rw [e]
      refine (norm_add_le _ _).trans ?_
      rw [norm_mul, norm_tw, one_mul]
      push_cast
      linarith
  obtain ⟨k, rfl | rfl⟩ := Int.eq_nat_or_neg s
  · have := nat k
    rwa [show |(((k : ℤ)) : ℝ)| = (k : ℝ) by simp]
  · have h1 : ‖tw N (a * (-(k : ℤ))) - 1‖ = ‖tw N (a * k) - 1‖ := by
      have e : tw N (a * (-(k : ℤ))) - 1 = -(tw N (-(a * k)) * (tw N (a * k) - 1)) := by
        rw [mul_neg, mul_sub, mul_one, mul_comm (tw N (-(a * k))), tw_neg_mul]; ring
      rw [e, norm_neg, norm_mul, norm_tw, one_mul]
    rw [h1, show |((-(k : ℤ) : ℤ) : ℝ)| = (k : ℝ) by simp]
    exact nat k

end Verif
