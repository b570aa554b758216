import Verif.Props.Shift2D
import Verif.Props.Algebra

/-!
# C118: local averages of images keep signs and order
-/

namespace Verif

open Finset

/-- A sum of characters is not negative. -/
theorem sum_tw_nonneg {N : ℕ} (hN : N ≠ 0) (a : ℤ) : ∃ r : ℝ, 0 ≤ r ∧ ∑ k ∈ range N, tw N (k * a) = (r : ℂ) := by
  rw [sum_tw N hN]
  split
  · exact ⟨N, Nat.cast_nonneg _, by simp⟩
  · exact ⟨0, le_rfl, by simp⟩

theorem sum_tw2_nonneg {h w : ℕ} (hh : h ≠ 0) (hw : w ≠ 0) (a b : ℤ) :
    0 ≤ (∑ k ∈ range h, ∑ l ∈ range w, tw h (k * a) * tw w (l * b)).re := by
  obtain ⟨r, hr, e⟩ := sum_tw_nonneg hh a
  obtain ⟨s, hs, e'⟩ := sum_tw_nonneg hw b
  rw [← sum_mul_sum, e, e', ← Complex.ofReal_mul, Complex.ofReal_re]
  exact mul_nonneg hr hs

/-- A transfer function that is the real part of the transform of a non-negative image has a non-negative impulse
response. -/
theorem impulse2_nonneg {h w : ℕ} (hh : h ≠ 0) (hw : w ≠ 0) (g : ℕ → ℕ → ℝ) (hg : ∀ u v, 0 ≤ g u v) (f : ℕ → ℕ → ℝ)
    (hf : ∀ k < h, ∀ l < w, f k l = (∑ u ∈ range h, ∑ v ∈ range w,
      (g u v : ℂ) * (tw h (-((k : ℤ) * u)) * tw w (-((l : ℤ) * v)))).re) (m n : ℤ) :
    0 ≤ (Spec.impulse2 h w f m n).re := by
  unfold Spec.impulse2
  simp only [exp_eq_tw2]
  rw [show ((h : ℂ) * w) = ((h * w : ℝ) : ℂ) by push_cast; rfl, Complex.div_ofReal_re]
  refine div_nonneg ?_ (by positivity)
  have e : (∑ k ∈ range h, ∑ l ∈ range w, (f k l : ℂ) * (tw h ((k : ℤ) * m) * tw w ((l : ℤ) * n))).re =
      ∑ u ∈ range h, ∑ v ∈ range w, g u v * ((∑ k ∈ range h, ∑ l ∈ range w, tw h (k * (m - u)) * tw w (l * (n - v))).re +
        (∑ k ∈ range h, ∑ l ∈ range w, tw h (k * (-(m + u))) * tw w (l * (-(n + v)))).re) / 2 := by
    have lhs : ∀ k ∈ range h, ∀ l ∈ range w, ((f k l : ℂ) * (tw h ((k : ℤ) * m) * tw w ((l : ℤ) * n))).re =
        ∑ u ∈ range h, ∑ v ∈ range w, g u v * ((tw h (k * (m - u)) * tw w (l * (n - v))).re +
          (tw h (k * (-(m + u))) * tw w (l * (-(n + v)))).re) / 2 := by
      intro k hk l hl
      rw [Complex.re_ofReal_mul, hf k (mem_range.1 hk) l (mem_range.1 hl), Complex.re_sum, sum_mul]
      refine sum_congr rfl fun u _ => ?_
      rw [Complex.re_sum, sum_mul]
      refine sum_congr rfl fun v _ => ?_
      rw [Complex.re_ofReal_mul]
      set z := tw h (-((k : ℤ) * u)) * tw w (-((l : ℤ) * v)) with hz
      set c := tw h ((k : ℤ) * m) * tw w ((l : ℤ) * n) with hc
      have e1 : tw h (k * (m - u)) * tw w (l * (n - v)) = z * c := by
        rw [show (k : ℤ) * (m - u) = -(k * u) + k * m by ring, show (l : ℤ) * (n - v) = -(l * v) + l * n by ring,
          tw_add, tw_add, hz, hc]
        ring
      have e2 : tw h (k * (-(m + u))) * tw w (l * (-(n + v))) = z * (starRingEnd ℂ) c := by
        rw [hc, map_mul, conj_tw, conj_tw, show (k : ℤ) * (-(m + u)) = -(k * u) + -(k * m) by ring,
          show (l : ℤ) * (-(n + v)) = -(l * v) + -(l * n) by ring, tw_add, tw_add, hz]
        ring
      rw [e1, e2]
      clear_value z c
      rw [Complex.mul_re z, Complex.mul_re z, Complex.conj_re, Complex.conj_im]
      ring
    rw [Complex.re_sum]
    rw [sum_congr rfl fun k hk => (Complex.re_sum _ _).trans (sum_congr rfl (lhs k hk))]
    have sw : ∀ F : ℕ → ℕ → ℕ → ℕ → ℝ, ∑ k ∈ range h, ∑ l ∈ range w, ∑ u ∈ range h, ∑ v ∈ range w, F k l u v =
        ∑ u ∈ range h, ∑ v ∈ range w, ∑ k ∈ range h, ∑ l ∈ range w, F k l u v := by
      intro F
      have : ∀ k ∈ range h, ∑ l ∈ range w, ∑ u ∈ range h, ∑ v ∈ range w, F k l u v =
          ∑ u ∈ range h, ∑ v ∈ range w, ∑ l ∈ range w, F k l u v := by
        intro k _
        rw [sum_comm]
        exact sum_congr rfl fun u _ => sum_comm
      rw [sum_congr rfl this, sum_comm]
      exact sum_congr rfl fun u _ => sum_comm
    rw [sw]
    refine sum_congr rfl fun u _ => sum_congr rfl fun v _ => ?_
    rw [Complex.re_sum, Complex.re_sum, ← sum_add_distrib, mul_sum, sum_div]
    refine sum_congr rfl fun k _ => ?_
    rw [Complex.re_sum, Complex.re_sum, ← sum_add_distrib, mul_sum, sum_div]
  rw [e]
  refine sum_nonneg fun u _ => sum_nonneg fun v _ => ?_
  exact div_nonneg (mul_nonneg (hg u v) (add_nonneg (sum_tw2_nonneg hh hw _ _) (sum_tw2_nonneg hh hw _ _))) (by norm_num)

/-- The impulse response of the low-pass filter of full resolution is not negative. -/
theorem phi_impulse_nonneg {H W : ℕ} (hH : H ≠ 0) (hW : W ≠ 0) (J : ℕ) (m n : ℤ) :
    0 ≤ (Spec.impulse2 H W (phiHat2 H W J).px m n).re := by
  set σ : ℝ := 0.8 * (2 ^ J / 2) with hσ
  set a : ℝ := 1 / (2 * σ ^ 2) with ha
  set D : ℝ := 2 * 3.1415 * σ ^ 2 with hD
  have hD0 : 0 ≤ D := by positivity
  refine impulse2_nonneg hH hW (fun u v => (∑ e ∈ range 5, Real.exp (-(a * ((u : ℝ) + ((e : ℝ) - 2) * H) ^ 2))) *
    (∑ e ∈ range 5, Real.exp (-(a * ((v : ℝ) + ((e : ℝ) - 2) * W) ^ 2))) / D) (fun u v => ?_) _ (fun k hk l hl => ?_) m n
  · exact div_nonneg (mul_nonneg (sum_nonneg fun _ _ => (Real.exp_pos _).le) (sum_nonneg fun _ _ => (Real.exp_pos _).le)) hD0
  · rw [phiHat2_axes hk hl]
    congr 1
    unfold axisGauss
    rw [sum_mul_sum, sum_div]
    refine sum_congr rfl fun u _ => ?_
    rw [sum_div]
    refine sum_congr rfl fun v _ => ?_
    generalize (∑ e ∈ range 5, Real.exp (-(a * ((u : ℝ) + ((e : ℝ) - 2) * H) ^ 2))) = p
    generalize (∑ e ∈ range 5, Real.exp (-(a * ((v : ℝ) + ((e : ℝ) - 2) * W) ^ 2))) = q
    rw [Complex.ofReal_div, Complex.ofReal_mul p q]
    ring

/-! ## Averages -/

theorem low2_re {h w : ℕ} (x f : ℕ → ℕ → ℝ) (e m n : ℕ) :
    Spec.low2 h w x f e m n = ∑ u ∈ range h, ∑ v ∈ range w,
      x u v * (Spec.impulse2 h w f ((m : ℤ) * 2 ^ e - u) ((n : ℤ) * 2 ^ e - v)).re := by
  unfold Spec.low2 Spec.conv2
  rw [Complex.re_sum]
  refine sum_congr rfl fun u _ => ?_
  rw [Complex.re_sum]
  refine sum_congr rfl fun v _ => ?_
  rw [Complex.re_ofReal_mul]

/-- Averaging with the filter of full resolution keeps the order of two images. -/
theorem low2_mono {H W : ℕ} (hH : H ≠ 0) (hW : W ≠ 0) (J : ℕ) {x y : ℕ → ℕ → ℝ}
    (hxy : ∀ i < H, ∀ j < W, x i j ≤ y i j) (e m n : ℕ) :
    Spec.low2 H W x (phiHat2 H W J).px e m n ≤ Spec.low2 H W y (phiHat2 H W J).px e m n := by
  rw [low2_re, low2_re]
  exact sum_le_sum fun u hu => sum_le_sum fun v hv =>
    mul_le_mul_of_nonneg_right (hxy u (mem_range.1 hu) v (mem_range.1 hv)) (phi_impulse_nonneg hH hW J _ _)

theorem low2_zero_image {H W : ℕ} (f : ℕ → ℕ → ℝ) (e m n : ℕ) : Spec.low2 H W (fun _ _ => 0) f e m n = 0 := by
  rw [low2_re]
  simp

theorem low2_add {H W : ℕ} (x y f : ℕ → ℕ → ℝ) (e m n : ℕ) :
    Spec.low2 H W (fun i j => x i j + y i j) f e m n = Spec.low2 H W x f e m n + Spec.low2 H W y f e m n := by
  rw [low2_re, low2_re, low2_re, ← sum_add_distrib]
  refine sum_congr rfl fun u _ => ?_
  rw [← sum_add_distrib]
  exact sum_congr rfl fun v _ => by ring

/-- The average of a constant. -/
theorem low2_const {H W : ℕ} (hH : H ≠ 0) (hW : W ≠ 0) (c : ℝ) (f : ℕ → ℕ → ℝ) (e m n : ℕ) :
    Spec.low2 H W (fun _ _ => c) f e m n = c * f 0 0 := by
  unfold Spec.low2
  rw [conv2_const hH hW (c := c) fun _ _ _ _ => rfl, Complex.ofReal_re]

/-- Row of the given image that padding copies to row `s`. -/
def srcRow (a : Args2D) (s : ℕ) : ℕ :=
  if a.prePad then s else Spec.mirror a.M ((s : ℤ) - ((padded2 a.M a.J - a.M) / 2 : ℕ))

/-- Column of the given image that padding copies to column `t`. -/
def srcCol (a : Args2D) (t : ℕ) : ℕ :=
  if a.prePad then t else Spec.mirror a.N ((t : ℤ) - ((padded2 a.N a.J - a.N) / 2 : ℕ))

/-- The padded image pixel by pixel, and the coefficients that use the filter of full resolution. -/
theorem padded_source (a : Args2D) (ho : a.outType = .list) (x : Img ℝ) (l : List (Path2 (Img ℝ)))
    (hl : a.run x = .ok (.list l)) :
    ∃ H W : ℕ, ∃ u : ℕ → ℕ → ℝ, H = padded2 a.M a.J ∧ W = padded2 a.N a.J ∧ H ≠ 0 ∧ W ≠ 0 ∧ 1 ≤ a.J ∧
      (∀ s < H, ∀ t < W, srcRow a s < x.h ∧ srcCol a t < x.w ∧ u s t = x.px (srcRow a s) (srcCol a t)) ∧
      (∀ p ∈ l, p.n = [] → ∀ i < p.coef.h, ∀ k < p.coef.w,
        p.coef.px i k = Spec.low2 H W u (phiHat2 H W a.J).px a.J (i + 1) (k + 1)) ∧
      ∀ p ∈ l, p.j = [0] → ∀ i < p.coef.h, ∀ k < p.coef.w, ∃ t, p.n = [t] ∧
        p.coef.px i k = Spec.low2 H W (Spec.band2 H W u (psiHat2 H W a.L 0 t).px 0) (phiHat2 H W a.J).px a.J
          (i + 1) (k + 1) := by
  obtain ⟨hJ, hM, hN, -, hxs⟩ := (C94_returns_iff_2d a x).1 ⟨_, hl⟩
  obtain ⟨H, W, u, hH, hW, uh, uw, up, un, cX⟩ := C58_closed_form a ho x l hl
  have h2 : 2 ≤ 2 ^ a.J := by
    calc 2 = 2 ^ 1 := rfl
      _ ≤ 2 ^ a.J := Nat.pow_le_pow_right (by norm_num) hJ
  obtain ⟨-, -, a1, -⟩ := C38_padding a.M a.J hM
  obtain ⟨-, -, b1, -⟩ := C38_padding a.N a.J hN
  rw [← hH] at a1
  rw [← hW] at b1
  refine ⟨H, W, u.px, hH, hW, by omega, by omega, hJ, fun s hs t ht => ?_, fun p hp hn i hi k hk => ?_,
    fun p hp hj i hi k hk => ?_⟩
  · unfold srcRow srcCol
    cases hpp : a.prePad with
    | true =>
      rw [if_pos rfl, if_pos rfl, ← up hpp, uh, uw]
      exact ⟨hs, ht, rfl⟩
    | false =>
      rw [if_neg (by simp), if_neg (by simp), ← hH, ← hW]
      rw [if_neg (by simp [hpp])] at hxs
      obtain ⟨C, h1, h1h, h1w, h4⟩ := C43_numpy_mirror x ((H - a.M) / 2) ((H - a.M + 1) / 2) ((W - a.N) / 2)
        ((W - a.N + 1) / 2) (by omega) (by omega)
      obtain rfl := Except.ok.inj ((un hpp).symm.trans h1)
      refine ⟨?_, ?_, ?_⟩
      · rw [hxs.1]; exact mirror_lt (by omega) _
      · rw [hxs.2]; exact mirror_lt (by omega) _
      · rw [h4 s t (by omega) (by omega), hxs.1, hxs.2]
  · rcases cX p hp i k hi hk with ⟨-, e⟩ | ⟨_, _, _, _, h, -⟩ | ⟨_, _, _, _, _, _, _, _, h, -⟩
    · exact e
    · rw [hn] at h; cases h
    · rw [hn] at h; cases h
  · obtain ⟨l', hl', hc⟩ := C39_channels a ho x _ hl
    obtain rfl := Out2D.list.inj hl'
    rcases cX p hp i k hi hk with ⟨h, -⟩ | ⟨j, t, b1, b2, h, h', -, e⟩ | ⟨_, _, _, _, _, _, _, _, -, h, -⟩
    · have : (p.j, p.n, p.theta) ∈ Spec.channels2 a.J a.L a.maxOrder := by
        rw [← hc]
        exact List.mem_map.2 ⟨p, hp, rfl⟩
      rw [hj, h] at this
      unfold Spec.channels2 at this
      simp only [List.mem_append, List.mem_singleton, List.mem_flatMap, List.mem_map, Prod.mk.injEq] at this
      rcases this with (h | ⟨_, _, _, _, -, h, -⟩) | h
      · exact absurd h.1 (by simp)
      · exact absurd h (by simp)
      · split at h
        · exact absurd h (by simp)
        · simp at h
    · rw [hj] at h'
      obtain rfl : j = 0 := ((List.cons.inj h').1).symm
      refine ⟨t, by simpa using h, ?_⟩
      rw [e]
      have z1 : H / 2 ^ 0 = H := by simp
      have z2 : W / 2 ^ 0 = W := by simp
      rw [z1, z2, Nat.sub_zero]
      exact low2_congr H W _ a.J (i + 1) (k + 1) fun i j hi hj => C41_level_zero (phiHat2 H W a.J) i j hi hj
    · rw [hj] at h; exact absurd h (by simp)

/-- **C118.**  The averages of a non-negative image are not negative, and neither are those of the moduli of the
finest wavelets. -/
theorem C118_nonneg (a : Args2D) (ho : a.outType = .list) (x : Img ℝ) (l : List (Path2 (Img ℝ)))
    (hl : a.run x = .ok (.list l)) (p : Path2 (Img ℝ)) (hp : p ∈ l)
    (hsign : p.j = [0] ∨ p.n = [] ∧ ∀ i < x.h, ∀ j < x.w, 0 ≤ x.px i j) :
    ∀ i < p.coef.h, ∀ k < p.coef.w, 0 ≤ p.coef.px i k := by
  intro i hi k hk
  obtain ⟨H, W, u, -, -, hH0, hW0, -, hu, c0, c1⟩ := padded_source a ho x l hl
  rcases hsign with hj | ⟨hn, hx⟩
  · obtain ⟨t, -, e⟩ := c1 p hp hj i hi k hk
    rw [e, ← low2_zero_image (H := H) (W := W) (phiHat2 H W a.J).px a.J (i + 1) (k + 1)]
    exact low2_mono hH0 hW0 _ (fun s _ t _ => norm_nonneg _) _ _ _
  · rw [c0 p hp hn i hi k hk, ← low2_zero_image (H := H) (W := W) (phiHat2 H W a.J).px a.J (i + 1) (k + 1)]
    refine low2_mono hH0 hW0 _ (fun s hs t ht => ?_) _ _ _
    obtain ⟨h1, h2, e⟩ := hu s hs t ht
    rw [e]
    exact hx _ h1 _ h2

/-- **C118.**  A brighter image has larger averages. -/
theorem C118_monotone (a : Args2D) (ho : a.outType = .list) (x y : Img ℝ)
    (hxy : ∀ i < x.h, ∀ j < x.w, x.px i j ≤ y.px i j) (l m : List (Path2 (Img ℝ)))
    (hl : a.run x = .ok (.list l)) (hm : a.run y = .ok (.list m)) (p q : Path2 (Img ℝ)) (hp : p ∈ l) (hq : q ∈ m)
    (np : p.n = []) (nq : q.n = []) :
    p.coef.h = q.coef.h ∧ p.coef.w = q.coef.w ∧ ∀ i < p.coef.h, ∀ k < p.coef.w, p.coef.px i k ≤ q.coef.px i k := by
  obtain ⟨ph, pw⟩ := C38_output_size a x _ hl p.coef (List.mem_map.2 ⟨p, hp, rfl⟩)
  obtain ⟨qh, qw⟩ := C38_output_size a y _ hm q.coef (List.mem_map.2 ⟨q, hq, rfl⟩)
  refine ⟨by rw [ph, qh], by rw [pw, qw], fun i hi k hk => ?_⟩
  obtain ⟨H, W, u, hH, hW, hH0, hW0, -, hu, c0, -⟩ := padded_source a ho x l hl
  obtain ⟨H', W', v, hH', hW', -, -, -, hv, d0, -⟩ := padded_source a ho y m hm
  obtain rfl : H' = H := by rw [hH, hH']
  obtain rfl : W' = W := by rw [hW, hW']
  rw [c0 p hp np i hi k hk, d0 q hq nq i (by omega) k (by omega)]
  refine low2_mono hH0 hW0 _ (fun s hs t ht => ?_) _ _ _
  obtain ⟨h1, h2, e⟩ := hu s hs t ht
  rw [e, (hv s hs t ht).2.2]
  exact hxy _ h1 _ h2

/-- **C118.**  The averages of an image between `-B` and `B` stay there, up to one part in a thousand. -/
theorem C118_bounded (a : Args2D) (ho : a.outType = .list) (x : Img ℝ) (B : ℝ)
    (hB : ∀ i < x.h, ∀ j < x.w, |x.px i j| ≤ B) (l : List (Path2 (Img ℝ))) (hl : a.run x = .ok (.list l))
    (p : Path2 (Img ℝ)) (hp : p ∈ l) (np : p.n = []) :
    ∀ i < p.coef.h, ∀ k < p.coef.w, |p.coef.px i k| ≤ 1.001 * B := by
  intro i hi k hk
  obtain ⟨H, W, u, -, -, hH0, hW0, hJ, hu, c0, -⟩ := padded_source a ho x l hl
  rw [c0 p hp np i hi k hk]
  have hu' : ∀ s < H, ∀ t < W, |u s t| ≤ B := by
    intro s hs t ht
    obtain ⟨h1, h2, e⟩ := hu s hs t ht
    rw [e]
    exact hB _ h1 _ h2
  have hB0 : 0 ≤ B := (abs_nonneg _).trans (hu' 0 (by omega) 0 (by omega))
  have g := le_of_abs_le (phi_gain H W a.J hJ (by omega : 0 < H) (by omega : 0 < W))
  have g' := mul_le_mul_of_nonneg_left g hB0
  rw [abs_le]
  constructor
  · have := low2_mono hH0 hW0 a.J (x := fun _ _ => -B) (y := u) (fun s hs t ht => (abs_le.1 (hu' s hs t ht)).1) a.J
      (i + 1) (k + 1)
    rw [low2_const hH0 hW0] at this
    linarith
  · have := low2_mono hH0 hW0 a.J (x := u) (y := fun _ _ => B) (fun s hs t ht => (abs_le.1 (hu' s hs t ht)).2) a.J
      (i + 1) (k + 1)
    rw [low2_const hH0 hW0] at this
    linarith

/-- **C118.**  The coefficients of the finest wavelets for a sum of two images are at most the sum of theirs. -/
theorem C118_subadditive (a : Args2D) (ho : a.outType = .list) (x y z : Img ℝ)
    (hz : ∀ i < z.h, ∀ j < z.w, z.px i j = x.px i j + y.px i j) (l m r : List (Path2 (Img ℝ)))
    (hl : a.run x = .ok (.list l)) (hm : a.run y = .ok (.list m)) (hr : a.run z = .ok (.list r))
    (p q c : Path2 (Img ℝ)) (hp : p ∈ l) (hq : q ∈ m) (hc : c ∈ r) (jp : p.j = [0]) (jq : q.j = [0]) (jc : c.j = [0])
    (hpq : p.n = q.n) (hpc : p.n = c.n) :
    ∀ i < c.coef.h, ∀ k < c.coef.w, c.coef.px i k ≤ p.coef.px i k + q.coef.px i k := by
  obtain ⟨ph, pw⟩ := C38_output_size a x _ hl p.coef (List.mem_map.2 ⟨p, hp, rfl⟩)
  obtain ⟨qh, qw⟩ := C38_output_size a y _ hm q.coef (List.mem_map.2 ⟨q, hq, rfl⟩)
  obtain ⟨ch, cw⟩ := C38_output_size a z _ hr c.coef (List.mem_map.2 ⟨c, hc, rfl⟩)
  intro i hi k hk
  obtain ⟨H, W, u, hH, hW, hH0, hW0, -, hu, -, c1⟩ := padded_source a ho x l hl
  obtain ⟨H', W', v, hH', hW', -, -, -, hv, -, d1⟩ := padded_source a ho y m hm
  obtain ⟨H'', W'', w, hH'', hW'', -, -, -, hw, -, e1⟩ := padded_source a ho z r hr
  obtain rfl : H' = H := by rw [hH, hH']
  obtain rfl : W' = W := by rw [hW, hW']
  obtain rfl : H'' = H' := by rw [hH', hH'']
  obtain rfl : W'' = W' := by rw [hW', hW'']
  obtain ⟨t1, n1, k1⟩ := c1 p hp jp i (by omega) k (by omega)
  obtain ⟨t2, n2, k2⟩ := d1 q hq jq i (by omega) k (by omega)
  obtain ⟨t3, n3, k3⟩ := e1 c hc jc i (by omega) k (by omega)
  obtain rfl : t1 = t2 := by rw [n1, n2] at hpq; exact (List.cons.inj hpq).1
  obtain rfl : t1 = t3 := by rw [n1, n3] at hpc; exact (List.cons.inj hpc).1
  rw [k1, k2, k3, ← low2_add]
  refine low2_mono hH0 hW0 _ (fun s _ t _ => ?_) _ _ _
  unfold Spec.band2
  refine le_trans (le_of_eq ?_) (norm_add_le _ _)
  congr 1
  unfold Spec.conv2
  rw [← sum_add_distrib]
  refine sum_congr rfl fun s' hs' => ?_
  rw [← sum_add_distrib]
  refine sum_congr rfl fun t' ht' => ?_
  obtain ⟨h1, h2, e⟩ := hw s' (mem_range.1 hs') t' (mem_range.1 ht')
  rw [e, hz _ h1 _ h2, (hu s' (mem_range.1 hs') t' (mem_range.1 ht')).2.2,
    (hv s' (mem_range.1 hs') t' (mem_range.1 ht')).2.2]
  push_cast
  ring

/-- An image of 9 by 14 pixels, a brighter one and their sum: every hypothesis is met, with paths of order zero and of
the finest wavelets. -/
example (f g : ℕ → ℕ → ℝ) (hf : ∀ i j, 0 ≤ f i j) (hg : ∀ i j, f i j ≤ g i j ∧ g i j ≤ 3) : ∃ l m r,
    exArgs2.run (Img.tab 9 14 f) = .ok (.list l) ∧ exArgs2.run (Img.tab 9 14 g) = .ok (.list m) ∧
    exArgs2.run (Img.tab 9 14 fun i j => f i j + g i j) = .ok (.list r) ∧
    (∃ p ∈ l, p.n = [] ∧ ∀ i < p.coef.h, ∀ k < p.coef.w, 0 ≤ p.coef.px i k) ∧
    (∃ p ∈ l, ∃ q ∈ m, p.n = [] ∧ q.n = [] ∧ ∀ i < p.coef.h, ∀ k < p.coef.w, p.coef.px i k ≤ q.coef.px i k ∧
      |q.coef.px i k| ≤ 1.001 * 3) ∧
    ∃ p ∈ l, ∃ q ∈ m, ∃ c ∈ r, p.j = [0] ∧ p.n = [1] ∧ ∀ i < c.coef.h, ∀ k < c.coef.w,
      c.coef.px i k ≤ p.coef.px i k + q.coef.px i k := by
  obtain ⟨l, hl⟩ := exArgs2_run (Img.tab 9 14 f) rfl rfl
  obtain ⟨m, hm⟩ := exArgs2_run (Img.tab 9 14 g) rfl rfl
  obtain ⟨r, hr⟩ := exArgs2_run (Img.tab 9 14 fun i j => f i j + g i j) rfl rfl
  have find : ∀ {x : Img ℝ} {l : List (Path2 (Img ℝ))}, exArgs2.run x = .ok (.list l) →
      ∀ c ∈ Spec.channels2 exArgs2.J exArgs2.L exArgs2.maxOrder, ∃ p ∈ l, (p.j, p.n, p.theta) = c := by
    intro x l h c hc
    obtain ⟨l', hl', e⟩ := C39_channels exArgs2 rfl x _ h
    obtain rfl := Out2D.list.inj hl'
    rw [← e] at hc
    exact List.mem_map.1 hc
  have m0 : (([], [], []) : List ℕ × List ℕ × List ℕ) ∈ Spec.channels2 exArgs2.J exArgs2.L exArgs2.maxOrder := by decide
  have m1 : (([0], [1], [1]) : List ℕ × List ℕ × List ℕ) ∈ Spec.channels2 exArgs2.J exArgs2.L exArgs2.maxOrder := by
    decide
  obtain ⟨p, hp, ep⟩ := find hl _ m0
  obtain ⟨q, hq, eq⟩ := find hm _ m0
  obtain ⟨p', hp', ep'⟩ := find hl _ m1
  obtain ⟨q', hq', eq'⟩ := find hm _ m1
  obtain ⟨c', hc', ec'⟩ := find hr _ m1
  simp only [Prod.mk.injEq] at ep eq ep' eq' ec'
  have pf : ∀ i < 9, ∀ j < 14, (Img.tab 9 14 f).px i j = f i j := fun i hi j hj => Img.px_tab hi hj
  have pg : ∀ i < 9, ∀ j < 14, (Img.tab 9 14 g).px i j = g i j := fun i hi j hj => Img.px_tab hi hj
  refine ⟨l, m, r, hl, hm, hr, ⟨p, hp, ep.2.1, ?_⟩, ⟨p, hp, q, hq, ep.2.1, eq.2.1, fun i hi k hk => ?_⟩,
    p', hp', q', hq', c', hc', ep'.1, ep'.2.1, ?_⟩
  · exact C118_nonneg exArgs2 rfl _ l hl p hp (.inr ⟨ep.2.1, fun i hi j hj => by rw [pf i hi j hj]; exact hf i j⟩)
  · obtain ⟨e1, e2, h⟩ := C118_monotone exArgs2 rfl (Img.tab 9 14 f) (Img.tab 9 14 g)
      (fun i hi j hj => by rw [pf i hi j hj, pg i hi j hj]; exact (hg i j).1) l m hl hm p q hp hq ep.2.1 eq.2.1
    refine ⟨h i hi k hk, C118_bounded exArgs2 rfl _ 3 (fun i hi j hj => ?_) m hm q hq eq.2.1 i (by omega) k (by omega)⟩
    rw [pg i hi j hj, abs_of_nonneg ((hf i j).trans (hg i j).1)]
    exact (hg i j).2
  · exact C118_subadditive exArgs2 rfl (Img.tab 9 14 f) (Img.tab 9 14 g) _
      (fun i hi j hj => by rw [pf i hi j hj, pg i hi j hj]; exact Img.px_tab hi hj) l m r hl hm hr p' q' c' hp' hq' hc'
      ep'.1 eq'.1 ec'.1 (by rw [ep'.2.1, eq'.2.1]) (by rw [ep'.2.1, ec'.2.1])

end Verif
