import Verif.Model.Rounded2D
import Verif.Lemmas.Energy2D
import Verif.Lemmas.Core2D
import Mathlib.Analysis.InnerProductSpace.PiL2
import Mathlib.Algebra.Order.Chebyshev

/-!
# Propagation of rounding errors, in numbers and for images
-/

namespace Verif

open Finset

/-! ## One operation -/

/-- Bookkeeping of one array: `n` is the norm of the exact array, `d` the distance to the computed one, after `k`
operations of relative accuracy `δ`, when the exact operations allow a norm up to `M`. -/
structure Err (δ : ℝ) (k : ℕ) (M n d : ℝ) : Prop where
  n0 : 0 ≤ n
  norm : n ≤ M
  dist : d ≤ ((1 + δ) ^ k - 1) * M

theorem err_factor {δ : ℝ} (hδ : 0 ≤ δ) (k : ℕ) : 0 ≤ (1 + δ) ^ k - 1 :=
  sub_nonneg.2 (one_le_pow₀ (by linarith))

/-- One inexact operation of gain `g`. -/
theorem Err.step {δ : ℝ} (hδ : 0 ≤ δ) {k : ℕ} {M n d g n' d' dz nz : ℝ} (hg : 0 ≤ g) (h : Err δ k M n d)
    (h0 : 0 ≤ n') (hn : n' ≤ g * n) (hnz : nz ≤ n + d) (hz : dz ≤ δ * (g * nz)) (hd : d' ≤ g * d + dz) :
    Err δ (k + 1) (g * M) n' d' := by
  refine ⟨h0, hn.trans (mul_le_mul_of_nonneg_left h.norm hg), ?_⟩
  have h1 := h.norm
  have h2 := mul_le_mul_of_nonneg_left h.dist hg
  have h3 : nz ≤ (1 + δ) ^ k * M := by
    have := h.dist
    linarith
  have h4 := mul_le_mul_of_nonneg_left (mul_le_mul_of_nonneg_left h3 hg) hδ
  calc d' ≤ g * (((1 + δ) ^ k - 1) * M) + δ * (g * ((1 + δ) ^ k * M)) := by linarith
    _ = ((1 + δ) ^ (k + 1) - 1) * (g * M) := by rw [pow_succ]; ring

theorem Err.nonneg {δ : ℝ} {k : ℕ} {M n d : ℝ} (h : Err δ k M n d) : 0 ≤ M := h.n0.trans h.norm

theorem Err.mono {δ : ℝ} (hδ : 0 ≤ δ) {k k' : ℕ} {M M' n d n' d' : ℝ} (h : Err δ k M n d) (hk : k ≤ k') (hM : M ≤ M')
    (h0 : 0 ≤ n') (hn : n' ≤ n) (hd : d' ≤ d) : Err δ k' M' n' d' := by
  refine ⟨h0, hn.trans (h.norm.trans hM), hd.trans (h.dist.trans ?_)⟩
  have h1 : (1 + δ) ^ k ≤ (1 + δ) ^ k' := pow_le_pow_right₀ (by linarith) hk
  exact mul_le_mul (by linarith) hM h.nonneg (err_factor hδ k')

/-! ## Norms of images -/

theorem norm2_nonneg (h w : ℕ) (x : ℕ → ℕ → ℝ) : 0 ≤ Spec.norm2 h w x := Real.sqrt_nonneg _

theorem norm2_sq (h w : ℕ) (x : ℕ → ℕ → ℝ) : Spec.norm2 h w x ^ 2 = ∑ i ∈ range h, ∑ k ∈ range w, x i k ^ 2 :=
  Real.sq_sqrt (sum_nonneg fun _ _ => sum_nonneg fun _ _ => sq_nonneg _)

theorem norm2_add_le (h w : ℕ) (u v : ℕ → ℕ → ℝ) :
    Spec.norm2 h w (fun i k => u i k + v i k) ≤ Spec.norm2 h w u + Spec.norm2 h w v := by
  have e : ∀ z : ℕ → ℕ → ℝ, Spec.norm2 h w z =
      ‖(WithLp.toLp 2 (fun i : Fin h × Fin w => z i.1 i.2) : EuclideanSpace ℝ (Fin h × Fin w))‖ := by
    intro z
    rw [EuclideanSpace.norm_eq]
    unfold Spec.norm2
    rw [Fintype.sum_prod_type, Finset.sum_range]
    congr 1
    refine Finset.sum_congr rfl fun i _ => ?_
    rw [Finset.sum_range]
    simp
  have h1 := norm_add_le (WithLp.toLp 2 (fun i : Fin h × Fin w => u i.1 i.2) : EuclideanSpace ℝ (Fin h × Fin w))
    (WithLp.toLp 2 fun i : Fin h × Fin w => v i.1 i.2)
  rw [← WithLp.toLp_add, ← e, ← e] at h1
  rw [e]
  exact h1

theorem norm2_mono {h w : ℕ} {u v : ℕ → ℕ → ℝ} (h0 : ∀ i < h, ∀ k < w, 0 ≤ u i k)
    (h1 : ∀ i < h, ∀ k < w, u i k ≤ v i k) : Spec.norm2 h w u ≤ Spec.norm2 h w v :=
  Real.sqrt_le_sqrt (sum_le_sum fun i hi => sum_le_sum fun k hk =>
    pow_le_pow_left₀ (h0 i (mem_range.1 hi) k (mem_range.1 hk)) (h1 i (mem_range.1 hi) k (mem_range.1 hk)) 2)

theorem norm2_ext {h w : ℕ} {u v : ℕ → ℕ → ℝ} (h1 : ∀ i < h, ∀ k < w, u i k = v i k) :
    Spec.norm2 h w u = Spec.norm2 h w v := by
  unfold Spec.norm2
  congr 1
  exact sum_congr rfl fun i hi => sum_congr rfl fun k hk => by rw [h1 i (mem_range.1 hi) k (mem_range.1 hk)]

/-- Euclidean norm of an image. -/
noncomputable def Spec.inorm {E : Type} [NormedAddCommGroup E] (x : Img E) : ℝ :=
  Spec.norm2 x.h x.w fun i k => ‖x.px i k‖

/-- Euclidean distance of two images of the same shape. -/
noncomputable def Spec.idist {E : Type} [NormedAddCommGroup E] (x y : Img E) : ℝ :=
  Spec.norm2 x.h x.w fun i k => ‖x.px i k - y.px i k‖

section

variable {E E' : Type} [NormedAddCommGroup E] [NormedAddCommGroup E']

theorem inorm_nonneg (x : Img E) : 0 ≤ Spec.inorm x := Real.sqrt_nonneg _

theorem idist_self (x : Img E) : Spec.idist x x = 0 := by
  unfold Spec.idist Spec.norm2
  simp

theorem idist_triangle {x y : Img E} (z : Img E) (hh : y.h = x.h) (hw : y.w = x.w) :
    Spec.idist x z ≤ Spec.idist x y + Spec.idist y z := by
  unfold Spec.idist
  rw [hh, hw]
  refine le_trans (norm2_mono (fun _ _ _ _ => norm_nonneg _) fun i _ k _ => ?_) (norm2_add_le _ _ _ _)
  exact norm_sub_le_norm_sub_add_norm_sub _ _ _

theorem inorm_le_add {x y : Img E} (hh : y.h = x.h) (hw : y.w = x.w) :
    Spec.inorm y ≤ Spec.inorm x + Spec.idist x y := by
  unfold Spec.inorm Spec.idist
  rw [hh, hw]
  refine le_trans (norm2_mono (fun _ _ _ _ => norm_nonneg _) fun i _ k _ => ?_) (norm2_add_le _ _ _ _)
  have := norm_sub_le (x.px i k) (x.px i k - y.px i k)
  simpa using this

/-- The image of differences. -/
def subI (x y : Img E) : Img E := Img.tab x.h x.w fun i k => x.px i k - y.px i k

theorem px_subI (x y : Img E) {i k : ℕ} (hi : i < x.h) (hk : k < x.w) :
    (subI x y).px i k = x.px i k - y.px i k := if_pos ⟨hi, hk⟩

theorem inorm_subI (x y : Img E) : Spec.inorm (subI x y) = Spec.idist x y := by
  unfold Spec.inorm Spec.idist
  exact norm2_ext fun i hi k hk => by rw [px_subI x y hi hk]

/-- `y` was computed instead of `x`. -/
structure Near2 (δ : ℝ) (k : ℕ) (M : ℝ) (x y : Img E) : Prop where
  h : y.h = x.h
  w : y.w = x.w
  err : Err δ k M (Spec.inorm x) (Spec.idist x y)

theorem Near2.mono {δ : ℝ} (hδ : 0 ≤ δ) {k k' : ℕ} {M M' : ℝ} {x y : Img E} (h : Near2 δ k M x y) (hk : k ≤ k')
    (hM : M ≤ M') : Near2 δ k' M' x y :=
  ⟨h.h, h.w, h.err.mono hδ hk hM (inorm_nonneg _) le_rfl le_rfl⟩

theorem Near2.refl {δ : ℝ} (x : Img E) : Near2 δ 0 (Spec.inorm x) x x :=
  ⟨rfl, rfl, inorm_nonneg _, le_rfl, by rw [idist_self]; simp⟩

/-- One inexact operation: `y` exact on the exact argument, `z` exact on the computed argument, `w` computed. -/
theorem Near2.step {δ : ℝ} (hδ : 0 ≤ δ) {k : ℕ} {M g : ℝ} (hg : 0 ≤ g) {x x' : Img E} {y z w : Img E'}
    (h : Near2 δ k M x x') (hy : Spec.inorm y ≤ g * Spec.inorm x) (hzh : z.h = y.h) (hzw : z.w = y.w)
    (hyz : Spec.idist y z ≤ g * Spec.idist x x') (hwh : w.h = z.h) (hww : w.w = z.w)
    (herr : Spec.idist z w ≤ δ * (g * Spec.inorm x')) : Near2 δ (k + 1) (g * M) y w :=
  ⟨hwh.trans hzh, hww.trans hzw, h.err.step hδ hg (inorm_nonneg _) hy (inorm_le_add h.h h.w) herr
    ((idist_triangle w hzh hzw).trans (by linarith))⟩

/-- One inexact additive operation. -/
theorem Near2.additive {δ : ℝ} (hδ : 0 ≤ δ) {k : ℕ} {M g : ℝ} (hg : 0 ≤ g) {x x' : Img E} {w : Img E'}
    (f : Img E → Img E') (h : Near2 δ k M x x') (hh : (f x').h = (f x).h) (hw : (f x').w = (f x).w)
    (hsh : (f (subI x x')).h = (f x).h) (hsw : (f (subI x x')).w = (f x).w)
    (hsub : ∀ i < (f x).h, ∀ l < (f x).w, (f (subI x x')).px i l = (f x).px i l - (f x').px i l)
    (hgain : ∀ z : Img E, z.h = x.h → z.w = x.w → Spec.inorm (f z) ≤ g * Spec.inorm z)
    (hwh : w.h = (f x').h) (hww : w.w = (f x').w)
    (herr : Spec.idist (f x') w ≤ δ * (g * Spec.inorm x')) : Near2 δ (k + 1) (g * M) (f x) w := by
  refine h.step hδ hg (hgain x rfl rfl) hh hw ?_ hwh hww herr
  have := hgain (subI x x') rfl rfl
  rw [inorm_subI] at this
  refine le_trans (le_of_eq ?_) this
  unfold Spec.idist Spec.inorm
  rw [hsh, hsw]
  exact norm2_ext fun i hi l hl => by rw [hsub i hi l hl]

theorem inorm_sq (x : Img E) : Spec.inorm x ^ 2 = ∑ i ∈ range x.h, ∑ k ∈ range x.w, ‖x.px i k‖ ^ 2 := norm2_sq _ _ _

theorem inorm_le_of_sq {x : Img E} {y : Img E'} {g : ℝ} (hg : 0 ≤ g)
    (h : Spec.inorm y ^ 2 ≤ g ^ 2 * Spec.inorm x ^ 2) : Spec.inorm y ≤ g * Spec.inorm x := by
  rw [← mul_pow] at h
  exact (le_abs_self _).trans (abs_le_of_sq_le_sq h (mul_nonneg hg (inorm_nonneg x)))

end

theorem inorm_real (x : Img ℝ) : Spec.inorm x = Spec.norm2 x.h x.w x.px := by
  unfold Spec.inorm Spec.norm2
  congr 1
  exact sum_congr rfl fun i _ => sum_congr rfl fun k _ => by simp only [Real.norm_eq_abs, sq_abs]

theorem idist_real (x y : Img ℝ) : Spec.idist x y = Spec.norm2 x.h x.w fun i k => x.px i k - y.px i k := by
  unfold Spec.idist Spec.norm2
  congr 1
  exact sum_congr rfl fun i _ => sum_congr rfl fun k _ => by simp only [Real.norm_eq_abs, sq_abs]

/-! ## Parseval -/

theorem parseval2 (h w : ℕ) (c : ℕ → ℕ → ℂ) :
    ∑ m ∈ range h, ∑ n ∈ range w,
      ‖∑ k ∈ range h, ∑ l ∈ range w, c k l * (tw h ((k : ℤ) * m) * tw w ((l : ℤ) * n))‖ ^ 2 =
    (h * w : ℝ) * ∑ k ∈ range h, ∑ l ∈ range w, ‖c k l‖ ^ 2 := by
  rcases Nat.eq_zero_or_pos h with rfl | hh
  · simp
  rcases Nat.eq_zero_or_pos w with rfl | hw
  · simp
  have := sum_sq_of_orthogonal (range h ×ˢ range w) (range h ×ˢ range w) (char2 h w) _
    (char2_orthogonal (by omega) (by omega)) fun k => c k.1 k.2
  rw [sum_product, sum_product] at this
  rw [← this]
  refine sum_congr rfl fun m _ => sum_congr rfl fun n _ => ?_
  rw [sum_product]
  rfl

theorem parseval2' (h w : ℕ) (c : ℕ → ℕ → ℂ) :
    ∑ k ∈ range h, ∑ l ∈ range w,
      ‖∑ m ∈ range h, ∑ n ∈ range w, c m n * (tw h (-((k : ℤ) * m)) * tw w (-((l : ℤ) * n)))‖ ^ 2 =
    (h * w : ℝ) * ∑ k ∈ range h, ∑ l ∈ range w, ‖c k l‖ ^ 2 := by
  have := parseval2 h w fun k l => (starRingEnd ℂ) (c k l)
  simp only [Complex.norm_conj] at this
  rw [← this]
  refine sum_congr rfl fun k _ => sum_congr rfl fun l _ => ?_
  rw [← Complex.norm_conj, map_sum]
  congr 2
  refine sum_congr rfl fun m _ => ?_
  rw [map_sum]
  refine sum_congr rfl fun n _ => ?_
  rw [map_mul, map_mul, conj_tw, conj_tw, neg_neg, neg_neg, mul_comm (k : ℤ), mul_comm (l : ℤ)]

theorem sqrt_hw (h w : ℕ) : Real.sqrt (h * w) ^ 2 = (h : ℝ) * w := Real.sq_sqrt (by positivity)

theorem px_rfft2 (x : Img ℝ) {k l : ℕ} (hk : k < x.h) (hl : l < x.w) :
    (np2Rfft x).px k l = ∑ m ∈ range x.h, ∑ n ∈ range x.w,
      (x.px m n : ℂ) * (tw x.h (-((k : ℤ) * m)) * tw x.w (-((l : ℤ) * n))) := by
  unfold np2Rfft dft2
  refine (if_pos ⟨hk, hl⟩).trans ?_
  refine sum_congr rfl fun m hm => sum_congr rfl fun n hn => ?_
  congr 1
  exact if_pos ⟨mem_range.1 hm, mem_range.1 hn⟩

theorem px_ifft2 (x : Img ℂ) {m n : ℕ} (hm : m < x.h) (hn : n < x.w) :
    (idft2 x).px m n = (∑ k ∈ range x.h, ∑ l ∈ range x.w,
      x.px k l * (tw x.h ((k : ℤ) * m) * tw x.w ((l : ℤ) * n))) / (x.h * x.w) := if_pos ⟨hm, hn⟩

theorem inorm_rfft2 (x : Img ℝ) : Spec.inorm (np2Rfft x) ≤ Real.sqrt (x.h * x.w) * Spec.inorm x := by
  refine inorm_le_of_sq (Real.sqrt_nonneg _) (le_of_eq ?_)
  rw [inorm_sq, inorm_sq, sqrt_hw]
  have := parseval2' x.h x.w fun m n => (x.px m n : ℂ)
  simp only [Complex.norm_real] at this
  rw [← this]
  exact sum_congr rfl fun k hk => sum_congr rfl fun l hl => by rw [px_rfft2 x (mem_range.1 hk) (mem_range.1 hl)]

theorem inorm_idft2 (x : Img ℂ) : Spec.inorm (idft2 x) ≤ 1 / Real.sqrt (x.h * x.w) * Spec.inorm x := by
  refine inorm_le_of_sq (by positivity) (le_of_eq ?_)
  rw [inorm_sq, inorm_sq, div_pow, sqrt_hw, one_pow]
  have hc : ∀ m ∈ range x.h, ∀ n ∈ range x.w, ‖(idft2 x).px m n‖ ^ 2 = 1 / ((x.h : ℝ) * x.w) ^ 2 *
      ‖∑ k ∈ range x.h, ∑ l ∈ range x.w, x.px k l * (tw x.h ((k : ℤ) * m) * tw x.w ((l : ℤ) * n))‖ ^ 2 := by
    intro m hm n hn
    rw [px_ifft2 x (mem_range.1 hm) (mem_range.1 hn), norm_div, norm_mul, Complex.norm_natCast, Complex.norm_natCast,
      div_pow]
    ring
  have e : ∑ i ∈ range (idft2 x).h, ∑ k ∈ range (idft2 x).w, ‖(idft2 x).px i k‖ ^ 2 =
      1 / ((x.h : ℝ) * x.w) ^ 2 * ∑ m ∈ range x.h, ∑ n ∈ range x.w,
        ‖∑ k ∈ range x.h, ∑ l ∈ range x.w, x.px k l * (tw x.h ((k : ℤ) * m) * tw x.w ((l : ℤ) * n))‖ ^ 2 := by
    rw [mul_sum]
    refine sum_congr rfl fun m hm => ?_
    rw [mul_sum]
    exact sum_congr rfl fun n hn => hc m hm n hn
  rw [e, parseval2]
  rcases eq_or_ne ((x.h : ℝ) * x.w) 0 with h0 | h0
  · rw [h0]; simp
  · field_simp

theorem px_irfft2 (x : Img ℂ) {m n : ℕ} (hm : m < x.h) (hn : n < x.w) :
    (np2Irfft x).px m n = ((idft2 x).px m n).re := if_pos ⟨hm, hn⟩

theorem inorm_irfft2 (x : Img ℂ) : Spec.inorm (np2Irfft x) ≤ 1 / Real.sqrt (x.h * x.w) * Spec.inorm x := by
  refine le_trans ?_ (inorm_idft2 x)
  refine norm2_mono (h := x.h) (w := x.w) (fun _ _ _ _ => norm_nonneg _) fun i hi k hk => ?_
  rw [px_irfft2 x hi hk]
  exact Complex.abs_re_le_norm _

theorem px_modulus2 (x : Img ℂ) {m n : ℕ} (hm : m < x.h) (hn : n < x.w) :
    (np2Modulus x).px m n = ‖x.px m n‖ := if_pos ⟨hm, hn⟩

theorem inorm_modulus2 (x : Img ℂ) : Spec.inorm (np2Modulus x) = Spec.inorm x :=
  norm2_ext (h := x.h) (w := x.w) fun i hi k hk => by rw [px_modulus2 x hi hk, norm_norm]

theorem idist_modulus2 {x y : Img ℂ} (hh : y.h = x.h) (hw : y.w = x.w) :
    Spec.idist (np2Modulus x) (np2Modulus y) ≤ Spec.idist x y :=
  norm2_mono (h := x.h) (w := x.w) (fun _ _ _ _ => norm_nonneg _) fun i hi k hk => by
    rw [px_modulus2 x hi hk, px_modulus2 y (by omega) (by omega)]
    exact abs_norm_sub_norm_le _ _

theorem px_mul2 (x : Img ℂ) (f : Img ℝ) {m n : ℕ} (hm : m < x.h) (hn : n < x.w) :
    (Rounded2.exact.mul x f).px m n = x.px m n * (f.px m n : ℂ) := if_pos ⟨hm, hn⟩

theorem inorm_mul2 {x : Img ℂ} {f : Img ℝ} {C : ℝ} (hC0 : 0 ≤ C)
    (hC : ∀ m < x.h, ∀ n < x.w, |f.px m n| ≤ C) : Spec.inorm (Rounded2.exact.mul x f) ≤ C * Spec.inorm x := by
  refine inorm_le_of_sq hC0 ?_
  rw [inorm_sq, inorm_sq, mul_sum]
  refine sum_le_sum fun i hi => ?_
  rw [mul_sum]
  refine sum_le_sum fun k hk => ?_
  have hi : i < x.h := mem_range.1 hi
  have hk : k < x.w := mem_range.1 hk
  rw [px_mul2 x f hi hk, norm_mul, mul_pow, mul_comm, Complex.norm_real, Real.norm_eq_abs]
  exact mul_le_mul_of_nonneg_right (pow_le_pow_left₀ (abs_nonneg _) (hC i hi k hk) 2) (sq_nonneg _)

theorem px_mean2 (x : Img ℂ) (k : ℕ) {r c : ℕ} (hr : r < x.h / k) (hc : c < x.w / k) :
    (Rounded2.exact.mean x k).px r c =
      (∑ i ∈ range k, ∑ j ∈ range k, x.px (i * (x.h / k) + r) (j * (x.w / k) + c)) / (k * k) := if_pos ⟨hr, hc⟩

theorem sum_blocks2 (k n : ℕ) (f : ℕ → ℝ) :
    ∑ i ∈ range (k * n), f i = ∑ m ∈ range n, ∑ i ∈ range k, f (i * n + m) := by
  rw [sum_comm]
  induction k with
  | zero => simp
  | succ k ih => rw [Nat.succ_mul, sum_range_add, ih, sum_range_succ]

theorem inorm_mean2 {x : Img ℂ} {k : ℕ} (hk : 0 < k) (hh : k * (x.h / k) = x.h) (hw : k * (x.w / k) = x.w) :
    Spec.inorm (Rounded2.exact.mean x k) ≤ 1 / k * Spec.inorm x := by
  have hk' : (0 : ℝ) < k := by exact_mod_cast hk
  refine inorm_le_of_sq (by positivity) ?_
  rw [inorm_sq, inorm_sq]
  set p := x.h / k with hp
  set q := x.w / k with hq
  have e : ∑ i ∈ range x.h, ∑ j ∈ range x.w, ‖x.px i j‖ ^ 2 =
      ∑ r ∈ range p, ∑ c ∈ range q, ∑ i ∈ range k, ∑ j ∈ range k, ‖x.px (i * p + r) (j * q + c)‖ ^ 2 := by
    rw [← hh, ← hw, sum_blocks2]
    refine sum_congr rfl fun r _ => ?_
    symm
    rw [sum_comm]
    refine sum_congr rfl fun i _ => ?_
    rw [sum_blocks2]
  rw [e, mul_sum]
  refine sum_le_sum fun r hr => ?_
  rw [mul_sum]
  refine sum_le_sum fun c hc => ?_
  rw [px_mean2 x k (mem_range.1 hr) (mem_range.1 hc), ← hp, ← hq, norm_div, norm_mul, Complex.norm_natCast, div_pow,
    div_le_iff₀ (by positivity)]
  rw [← sum_product' (range k) (range k) fun i j => x.px (i * p + r) (j * q + c),
    ← sum_product' (range k) (range k) fun i j => ‖x.px (i * p + r) (j * q + c)‖ ^ 2]
  have h1 : ‖∑ t ∈ range k ×ˢ range k, x.px (t.1 * p + r) (t.2 * q + c)‖ ≤
      ∑ t ∈ range k ×ˢ range k, ‖x.px (t.1 * p + r) (t.2 * q + c)‖ := norm_sum_le _ _
  have h2 := sq_sum_le_card_mul_sum_sq (s := range k ×ˢ range k) (f := fun t => ‖x.px (t.1 * p + r) (t.2 * q + c)‖)
  rw [card_product, card_range] at h2
  push_cast at h2
  calc _ ≤ (∑ t ∈ range k ×ˢ range k, ‖x.px (t.1 * p + r) (t.2 * q + c)‖) ^ 2 :=
        pow_le_pow_left₀ (norm_nonneg _) h1 2
    _ ≤ _ := h2
    _ = _ := by field_simp

/-! ## The operations are additive -/

theorem rfft2_sub {x y : Img ℝ} (hh : y.h = x.h) (hw : y.w = x.w) {k l : ℕ} (hk : k < x.h) (hl : l < x.w) :
    (np2Rfft (subI x y)).px k l = (np2Rfft x).px k l - (np2Rfft y).px k l := by
  rw [px_rfft2 (subI x y) hk hl, px_rfft2 x hk hl, px_rfft2 y (by omega) (by omega), hh, hw, ← sum_sub_distrib]
  refine sum_congr rfl fun m hm => ?_
  rw [← sum_sub_distrib]
  refine sum_congr rfl fun n hn => ?_
  rw [px_subI x y (mem_range.1 hm) (mem_range.1 hn), ← sub_mul]
  push_cast
  rfl

theorem idft2_sub {x y : Img ℂ} (hh : y.h = x.h) (hw : y.w = x.w) {k l : ℕ} (hk : k < x.h) (hl : l < x.w) :
    (idft2 (subI x y)).px k l = (idft2 x).px k l - (idft2 y).px k l := by
  rw [px_ifft2 (subI x y) hk hl, px_ifft2 x hk hl, px_ifft2 y (by omega) (by omega), hh, hw, ← sub_div,
    ← sum_sub_distrib]
  congr 1
  refine sum_congr rfl fun m hm => ?_
  rw [← sum_sub_distrib]
  refine sum_congr rfl fun n hn => ?_
  rw [px_subI x y (mem_range.1 hm) (mem_range.1 hn), ← sub_mul]
  rfl

theorem irfft2_sub {x y : Img ℂ} (hh : y.h = x.h) (hw : y.w = x.w) {k l : ℕ} (hk : k < x.h) (hl : l < x.w) :
    (np2Irfft (subI x y)).px k l = (np2Irfft x).px k l - (np2Irfft y).px k l := by
  rw [px_irfft2 (subI x y) hk hl, px_irfft2 x hk hl, px_irfft2 y (by omega) (by omega), idft2_sub hh hw hk hl,
    Complex.sub_re]

theorem mul2_sub {x y : Img ℂ} (f : Img ℝ) (hh : y.h = x.h) (hw : y.w = x.w) {k l : ℕ} (hk : k < x.h) (hl : l < x.w) :
    (Rounded2.exact.mul (subI x y) f).px k l = (Rounded2.exact.mul x f).px k l - (Rounded2.exact.mul y f).px k l := by
  rw [px_mul2 (subI x y) f hk hl, px_mul2 x f hk hl, px_mul2 y f (by omega) (by omega), px_subI x y hk hl, sub_mul]

theorem mean2_sub {x y : Img ℂ} {d : ℕ} (hh : y.h = x.h) (hw : y.w = x.w) (dh : d * (x.h / d) = x.h)
    (dw : d * (x.w / d) = x.w) {k l : ℕ} (hk : k < x.h / d) (hl : l < x.w / d) :
    (Rounded2.exact.mean (subI x y) d).px k l =
      (Rounded2.exact.mean x d).px k l - (Rounded2.exact.mean y d).px k l := by
  rw [px_mean2 (subI x y) d hk hl, px_mean2 x d hk hl, px_mean2 y d (by rw [hh]; exact hk) (by rw [hw]; exact hl), hh, hw,
    ← sub_div, ← sum_sub_distrib]
  congr 1
  have bound : ∀ {n i r : ℕ}, d * (n / d) = n → i < d → r < n / d → i * (n / d) + r < n := by
    intro n i r e hi hr
    calc i * (n / d) + r < i * (n / d) + n / d := by omega
      _ = (i + 1) * (n / d) := by ring
      _ ≤ d * (n / d) := Nat.mul_le_mul_right _ hi
      _ = n := e
  refine sum_congr rfl fun m hm => ?_
  rw [← sum_sub_distrib]
  refine sum_congr rfl fun n hn => ?_
  exact px_subI x y (bound dh (mem_range.1 hm) hk) (bound dw (mem_range.1 hn) hl)

end Verif
