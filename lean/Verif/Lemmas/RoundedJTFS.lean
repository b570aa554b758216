import Verif.Model.RoundedJTFS
import Verif.Lemmas.Rounded1D
import Verif.Lemmas.Rounded2D
import Verif.Lemmas.NpJTFS

/-!
# Propagation of rounding errors through operations on stacks
-/

namespace Verif

open Finset

/-! ## Parseval along the last axis -/

theorem parseval1 (w : ℕ) (c : ℕ → ℂ) :
    ∑ n ∈ range w, ‖∑ k ∈ range w, c k * tw w ((k : ℤ) * n)‖ ^ 2 = w * ∑ k ∈ range w, ‖c k‖ ^ 2 := by
  have := parseval2 1 w fun _ k => c k
  simpa [tw_zero] using this

theorem parseval1' (w : ℕ) (c : ℕ → ℂ) :
    ∑ k ∈ range w, ‖∑ n ∈ range w, c n * tw w (-((k : ℤ) * n))‖ ^ 2 = w * ∑ n ∈ range w, ‖c n‖ ^ 2 := by
  have := parseval2' 1 w fun _ k => c k
  simpa [tw_zero] using this

theorem px_rowDft (x : Img ℂ) {i k : ℕ} (hi : i < x.h) (hk : k < x.w) :
    (rowDft x).px i k = ∑ n ∈ range x.w, x.px i n * tw x.w (-((k : ℤ) * n)) := if_pos ⟨hi, hk⟩

theorem px_rowIdft (x : Img ℂ) {i n : ℕ} (hi : i < x.h) (hn : n < x.w) :
    (rowIdft x).px i n = (∑ k ∈ range x.w, x.px i k * tw x.w ((k : ℤ) * n)) / x.w := if_pos ⟨hi, hn⟩

theorem px_mapJ {α β : Type} [Zero β] (g : α → β) (x : Img α) {i n : ℕ} (hi : i < x.h) (hn : n < x.w) :
    (x.map g).px i n = g (x.px i n) := if_pos ⟨hi, hn⟩

theorem px_mulJ (x : Img ℂ) (f : List ℝ) {i n : ℕ} (hi : i < x.h) (hn : n < x.w) :
    (RoundedJ.exact.mul x f).px i n = x.px i n * (f.getD n 0 : ℂ) := if_pos ⟨hi, hn⟩

theorem px_meanJ (x : Img ℂ) (k : ℕ) {i m : ℕ} (hi : i < x.h) (hm : m < x.w / k) :
    (RoundedJ.exact.mean x k).px i m = (∑ r ∈ range k, x.px i (r * (x.w / k) + m)) / k := if_pos ⟨hi, hm⟩

theorem px_sumJ (x : Img ℝ) {i : ℕ} (hi : i < x.h) : (rowAverage x).px i 0 = ∑ j ∈ range x.w, x.px i j :=
  if_pos ⟨hi, one_pos⟩

/-! ## Gains -/

theorem inorm_rowDft (x : Img ℂ) : Spec.inorm (rowDft x) ≤ Real.sqrt x.w * Spec.inorm x := by
  refine inorm_le_of_sq (Real.sqrt_nonneg _) (le_of_eq ?_)
  rw [inorm_sq, inorm_sq, Real.sq_sqrt (Nat.cast_nonneg _), mul_sum]
  refine sum_congr rfl fun i hi => ?_
  rw [← parseval1' x.w (x.px i)]
  exact sum_congr rfl fun k hk => by rw [px_rowDft x (mem_range.1 hi) (mem_range.1 hk)]

theorem inorm_ofReal (x : Img ℝ) : Spec.inorm (x.map fun r : ℝ => (r : ℂ)) = Spec.inorm x :=
  norm2_ext (h := x.h) (w := x.w) fun i hi k hk => by rw [px_mapJ _ x hi hk, Complex.norm_real]

theorem inorm_rfftJ (x : Img ℝ) : Spec.inorm (RoundedJ.exact.rfft x) ≤ Real.sqrt x.w * Spec.inorm x := by
  rw [← inorm_ofReal x]
  exact inorm_rowDft _

theorem inorm_rowIdft (x : Img ℂ) : Spec.inorm (rowIdft x) ≤ 1 / Real.sqrt x.w * Spec.inorm x := by
  refine inorm_le_of_sq (by positivity) (le_of_eq ?_)
  rw [inorm_sq, inorm_sq, div_pow, Real.sq_sqrt (Nat.cast_nonneg _), one_pow, mul_sum]
  refine sum_congr rfl fun i hi => ?_
  have e : ∀ n ∈ range x.w, ‖(rowIdft x).px i n‖ ^ 2 =
      1 / (x.w : ℝ) ^ 2 * ‖∑ k ∈ range x.w, x.px i k * tw x.w ((k : ℤ) * n)‖ ^ 2 := fun n hn => by
    rw [px_rowIdft x (mem_range.1 hi) (mem_range.1 hn), norm_div, Complex.norm_natCast, div_pow]
    ring
  refine (sum_congr rfl e).trans ?_
  rw [← mul_sum, parseval1]
  rcases eq_or_ne (x.w : ℝ) 0 with h0 | h0
  · rw [h0]; simp
  · field_simp

theorem inorm_reJ (x : Img ℂ) : Spec.inorm (x.map Complex.re) ≤ Spec.inorm x :=
  norm2_mono (h := x.h) (w := x.w) (fun _ _ _ _ => norm_nonneg _) fun i hi k hk => by
    rw [px_mapJ _ x hi hk]
    exact Complex.abs_re_le_norm _

theorem inorm_irfftJ (x : Img ℂ) : Spec.inorm (RoundedJ.exact.irfft x) ≤ 1 / Real.sqrt x.w * Spec.inorm x :=
  (inorm_reJ (rowIdft x)).trans (inorm_rowIdft x)

theorem inorm_modulusJ (x : Img ℂ) : Spec.inorm (RoundedJ.exact.modulus x) = Spec.inorm x :=
  norm2_ext (h := x.h) (w := x.w) fun i hi k hk => by
    rw [show (RoundedJ.exact.modulus x).px i k = ‖x.px i k‖ from px_mapJ _ x hi hk, norm_norm]

theorem idist_modulusJ {x y : Img ℂ} (hh : y.h = x.h) (hw : y.w = x.w) :
    Spec.idist (RoundedJ.exact.modulus x) (RoundedJ.exact.modulus y) ≤ Spec.idist x y :=
  norm2_mono (h := x.h) (w := x.w) (fun _ _ _ _ => norm_nonneg _) fun i hi k hk => by
    rw [show (RoundedJ.exact.modulus x).px i k = ‖x.px i k‖ from px_mapJ _ x hi hk,
      show (RoundedJ.exact.modulus y).px i k = ‖y.px i k‖ from px_mapJ _ y (by omega) (by omega)]
    exact abs_norm_sub_norm_le _ _

theorem inorm_mulJ {x : Img ℂ} {f : List ℝ} {C : ℝ} (hC0 : 0 ≤ C) (hC : ∀ n < x.w, |f.getD n 0| ≤ C) :
    Spec.inorm (RoundedJ.exact.mul x f) ≤ C * Spec.inorm x := by
  refine inorm_le_of_sq hC0 ?_
  rw [inorm_sq, inorm_sq, mul_sum]
  refine sum_le_sum fun i hi => ?_
  rw [mul_sum]
  refine sum_le_sum fun k hk => ?_
  have hi : i < x.h := mem_range.1 hi
  have hk : k < x.w := mem_range.1 hk
  rw [px_mulJ x f hi hk, norm_mul, mul_pow, mul_comm, Complex.norm_real, Real.norm_eq_abs]
  exact mul_le_mul_of_nonneg_right (pow_le_pow_left₀ (abs_nonneg _) (hC k hk) 2) (sq_nonneg _)

theorem inorm_meanJ {x : Img ℂ} {k : ℕ} (hk : 0 < k) (hd : k * (x.w / k) = x.w) :
    Spec.inorm (RoundedJ.exact.mean x k) ≤ 1 / Real.sqrt k * Spec.inorm x := by
  have hk' : (0 : ℝ) < k := by exact_mod_cast hk
  refine inorm_le_of_sq (by positivity) ?_
  rw [inorm_sq, inorm_sq, div_pow, Real.sq_sqrt (Nat.cast_nonneg _), one_pow, mul_sum]
  refine sum_le_sum fun i hi => ?_
  set q := x.w / k with hq
  have e : ∑ j ∈ range x.w, ‖x.px i j‖ ^ 2 = ∑ m ∈ range q, ∑ r ∈ range k, ‖x.px i (r * q + m)‖ ^ 2 := by
    rw [← hd, sum_blocks2]
  rw [e, mul_sum]
  refine sum_le_sum fun m hm => ?_
  rw [px_meanJ x k (mem_range.1 hi) (mem_range.1 hm), ← hq, norm_div, Complex.norm_natCast, div_pow,
    div_le_iff₀ (by positivity)]
  have h1 : ‖∑ r ∈ range k, x.px i (r * q + m)‖ ≤ ∑ r ∈ range k, ‖x.px i (r * q + m)‖ := norm_sum_le _ _
  have h2 := sq_sum_le_card_mul_sum_sq (s := range k) (f := fun r => ‖x.px i (r * q + m)‖)
  rw [card_range] at h2
  calc _ ≤ (∑ r ∈ range k, ‖x.px i (r * q + m)‖) ^ 2 := pow_le_pow_left₀ (norm_nonneg _) h1 2
    _ ≤ _ := h2
    _ = _ := by field_simp

/-- Rows bounded by the sum of the absolute values. -/
theorem inorm_col_le {x y : Img ℝ} {u : ℝ} (hu : 0 ≤ u) (hh : y.h = x.h) (hw : y.w = 1)
    (h : ∀ i < x.h, |y.px i 0| ≤ u * ∑ j ∈ range x.w, |x.px i j|) :
    Spec.inorm y ≤ u * (Real.sqrt x.w * Spec.inorm x) := by
  rw [← mul_assoc]
  refine inorm_le_of_sq (by positivity) ?_
  rw [inorm_sq, inorm_sq, mul_pow, Real.sq_sqrt (Nat.cast_nonneg _), hh, hw, mul_sum]
  refine sum_le_sum fun i hi => ?_
  rw [sum_range_one, Real.norm_eq_abs]
  have h1 := pow_le_pow_left₀ (abs_nonneg _) (h i (mem_range.1 hi)) 2
  have h2 := sq_sum_le_card_mul_sum_sq (s := range x.w) (f := fun j => |x.px i j|)
  rw [card_range] at h2
  rw [mul_pow] at h1
  simp only [Real.norm_eq_abs]
  calc _ ≤ _ := h1
    _ ≤ u ^ 2 * (x.w * ∑ j ∈ range x.w, |x.px i j| ^ 2) := mul_le_mul_of_nonneg_left h2 (sq_nonneg u)
    _ = _ := by ring

theorem inorm_sumJ (x : Img ℝ) : Spec.inorm (rowAverage x) ≤ Real.sqrt x.w * Spec.inorm x := by
  have := inorm_col_le (x := x) (y := rowAverage x) zero_le_one rfl rfl fun i hi => by
    rw [px_sumJ x hi, one_mul]
    exact abs_sum_le_sum_abs _ _
  rwa [one_mul] at this

/-! ## The operations are additive -/

section

variable {x y : Img ℂ} (hh : y.h = x.h) (hw : y.w = x.w) {i k : ℕ} (hi : i < x.h) (hk : k < x.w)
include hh hw hi hk

theorem rowDft_sub : (rowDft (subI x y)).px i k = (rowDft x).px i k - (rowDft y).px i k := by
  rw [px_rowDft (subI x y) hi hk, px_rowDft x hi hk, px_rowDft y (by omega) (by omega), hw, ← sum_sub_distrib]
  refine sum_congr rfl fun n hn => ?_
  rw [px_subI x y hi (mem_range.1 hn), ← sub_mul]
  rfl

theorem rowIdft_sub : (rowIdft (subI x y)).px i k = (rowIdft x).px i k - (rowIdft y).px i k := by
  rw [px_rowIdft (subI x y) hi hk, px_rowIdft x hi hk, px_rowIdft y (by omega) (by omega), hw, ← sub_div,
    ← sum_sub_distrib]
  congr 1
  refine sum_congr rfl fun n hn => ?_
  rw [px_subI x y hi (mem_range.1 hn), ← sub_mul]
  rfl

theorem irfftJ_sub : (RoundedJ.exact.irfft (subI x y)).px i k =
    (RoundedJ.exact.irfft x).px i k - (RoundedJ.exact.irfft y).px i k := by
  have e : ∀ z : Img ℂ, z.h = x.h → z.w = x.w → (RoundedJ.exact.irfft z).px i k = ((rowIdft z).px i k).re :=
    fun z h1 h2 => px_mapJ Complex.re (rowIdft z) (show i < z.h by omega) (show k < z.w by omega)
  rw [e (subI x y) rfl rfl, e x rfl rfl, e y hh hw, rowIdft_sub hh hw hi hk, Complex.sub_re]

theorem mulJ_sub (f : List ℝ) : (RoundedJ.exact.mul (subI x y) f).px i k =
    (RoundedJ.exact.mul x f).px i k - (RoundedJ.exact.mul y f).px i k := by
  rw [px_mulJ (subI x y) f hi hk, px_mulJ x f hi hk, px_mulJ y f (by omega) (by omega), px_subI x y hi hk, sub_mul]

end

theorem rfftJ_sub {x y : Img ℝ} (hh : y.h = x.h) (hw : y.w = x.w) {i k : ℕ} (hi : i < x.h) (hk : k < x.w) :
    (RoundedJ.exact.rfft (subI x y)).px i k = (RoundedJ.exact.rfft x).px i k - (RoundedJ.exact.rfft y).px i k := by
  have e : ∀ z : Img ℝ, z.h = x.h → z.w = x.w → (RoundedJ.exact.rfft z).px i k =
      ∑ n ∈ range z.w, (z.px i n : ℂ) * tw z.w (-((k : ℤ) * n)) := fun z h1 h2 => by
    refine (px_rowDft (z.map fun r : ℝ => (r : ℂ)) (show i < z.h by omega) (show k < z.w by omega)).trans ?_
    refine sum_congr rfl fun n hn => ?_
    rw [px_mapJ _ z (by omega) (mem_range.1 hn)]
    rfl
  rw [e (subI x y) rfl rfl, e x rfl rfl, e y hh hw, hw, ← sum_sub_distrib]
  refine sum_congr rfl fun n hn => ?_
  rw [px_subI x y hi (mem_range.1 hn), ← sub_mul]
  push_cast
  rfl

theorem meanJ_sub {x y : Img ℂ} {d : ℕ} (hh : y.h = x.h) (hw : y.w = x.w) (dw : d * (x.w / d) = x.w) {i l : ℕ}
    (hi : i < x.h) (hl : l < x.w / d) : (RoundedJ.exact.mean (subI x y) d).px i l =
      (RoundedJ.exact.mean x d).px i l - (RoundedJ.exact.mean y d).px i l := by
  rw [px_meanJ (subI x y) d hi hl, px_meanJ x d hi hl, px_meanJ y d (by omega) (by rw [hw]; exact hl), hw, ← sub_div,
    ← sum_sub_distrib]
  congr 1
  refine sum_congr rfl fun n hn => ?_
  refine px_subI x y hi ?_
  show n * (x.w / d) + l < x.w
  calc n * (x.w / d) + l < n * (x.w / d) + x.w / d := by omega
    _ = (n + 1) * (x.w / d) := by ring
    _ ≤ d * (x.w / d) := Nat.mul_le_mul_right _ (mem_range.1 hn)
    _ = x.w := dw

theorem sumJ_sub {x y : Img ℝ} (hh : y.h = x.h) (hw : y.w = x.w) {i : ℕ} (hi : i < x.h) :
    (rowAverage (subI x y)).px i 0 = (rowAverage x).px i 0 - (rowAverage y).px i 0 := by
  rw [px_sumJ (subI x y) hi, px_sumJ x hi, px_sumJ y (by omega), hw, ← sum_sub_distrib]
  exact sum_congr rfl fun n hn => px_subI x y hi (mem_range.1 hn)

/-! ## Copying operations -/

section

variable {E : Type} [NormedAddCommGroup E] {δ : ℝ} {k : ℕ} {M : ℝ}

theorem norm2_swap (h w : ℕ) (u : ℕ → ℕ → ℝ) : Spec.norm2 w h (fun i k => u k i) = Spec.norm2 h w u := by
  unfold Spec.norm2
  rw [sum_comm]

theorem Near2.swap {x x' : Img E} (h : Near2 δ k M x x') : Near2 δ k M x.swap x'.swap := by
  have e1 : Spec.inorm x.swap = Spec.inorm x := by
    refine Eq.trans ?_ (norm2_swap x.h x.w fun i k => ‖x.px i k‖)
    exact norm2_ext (h := x.w) (w := x.h) fun i hi k hk => congrArg norm (Img.px_tab' hi hk)
  have e2 : Spec.idist x.swap x'.swap = Spec.idist x x' := by
    refine Eq.trans ?_ (norm2_swap x.h x.w fun i k => ‖x.px i k - x'.px i k‖)
    refine norm2_ext (h := x.w) (w := x.h) fun i hi k hk => ?_
    rw [show x.swap.px i k = x.px k i from Img.px_tab' hi hk,
      show x'.swap.px i k = x'.px k i from Img.px_tab' (by rw [h.w]; exact hi) (by rw [h.h]; exact hk)]
  refine ⟨h.w, h.h, ?_⟩
  rw [e1, e2]
  exact h.err

theorem norm2_zeros (h w p : ℕ) (u : ℕ → ℕ → ℝ) :
    Spec.norm2 h (w + p) (fun i k => if k < w then u i k else 0) = Spec.norm2 h w u := by
  unfold Spec.norm2
  congr 1
  refine sum_congr rfl fun i _ => ?_
  rw [sum_range_add, sum_eq_zero (s := range p) (fun m _ => by simp), add_zero]
  exact sum_congr rfl fun m hm => by simp only [if_pos (mem_range.1 hm)]

theorem Near2.pad {x x' y : Img E} {p : ℤ} (h : Near2 δ k M x x') (hy : padFrequencyImg x p = .ok y) :
    0 ≤ p ∧ y.h = x.h ∧ y.w = x.w + p.toNat ∧ ∃ y', padFrequencyImg x' p = .ok y' ∧ Near2 δ k M y y' := by
  unfold padFrequencyImg at hy ⊢
  split at hy
  · cases hy
  rename_i hp
  injection hy with hy
  subst hy
  rw [if_neg hp]
  refine ⟨by omega, rfl, rfl, _, rfl, h.h, congrArg (· + p.toNat) h.w, ?_⟩
  have e1 : Spec.inorm (Img.tab x.h (x.w + p.toNat) fun i j => if j < x.w then x.px i j else 0) = Spec.inorm x := by
    refine Eq.trans ?_ (norm2_zeros x.h x.w p.toNat fun i k => ‖x.px i k‖)
    refine norm2_ext (h := x.h) (w := x.w + p.toNat) fun i hi k hk => ?_
    rw [Img.px_tab' hi hk]
    split <;> simp
  have e2 : Spec.idist (Img.tab x.h (x.w + p.toNat) fun i j => if j < x.w then x.px i j else 0)
      (Img.tab x'.h (x'.w + p.toNat) fun i j => if j < x'.w then x'.px i j else 0) = Spec.idist x x' := by
    refine Eq.trans ?_ (norm2_zeros x.h x.w p.toNat fun i k => ‖x.px i k - x'.px i k‖)
    refine norm2_ext (h := x.h) (w := x.w + p.toNat) fun i hi k hk => ?_
    rw [Img.px_tab' hi hk, h.h, h.w, Img.px_tab' hi hk]
    split <;> simp
  rw [e1, e2]
  exact h.err

theorem norm2_rows {h h' : ℕ} (w : ℕ) (hle : h' ≤ h) (u : ℕ → ℕ → ℝ) : Spec.norm2 h' w u ≤ Spec.norm2 h w u :=
  Real.sqrt_le_sqrt (sum_le_sum_of_subset_of_nonneg (range_subset_range.2 hle) fun _ _ _ =>
    sum_nonneg fun _ _ => sq_nonneg _)

theorem Near2.unpadFrequency {x x' y : Img E} {n s : ℕ} (hδ : 0 ≤ δ) (h : Near2 δ k M x x')
    (hy : unpadFrequencyImg x n s = .ok y) :
    ∃ y', unpadFrequencyImg x' n s = .ok y' ∧ Near2 δ k M y y' := by
  unfold unpadFrequencyImg at hy ⊢
  split at hy
  · cases hy
  rename_i hp
  injection hy with hy
  subst hy
  rw [if_neg hp]
  refine ⟨_, rfl, by show min x'.h _ = min x.h _; rw [h.h], h.w, h.err.mono hδ le_rfl le_rfl (inorm_nonneg _) ?_ ?_⟩
  · refine le_trans (le_of_eq ?_) (norm2_rows x.w (min_le_left x.h (1 + n / s)) fun i k => ‖x.px i k‖)
    exact norm2_ext (h := min x.h (1 + n / s)) (w := x.w) fun i hi k hk => congrArg norm (Img.px_tab' hi hk)
  · refine le_trans (le_of_eq ?_) (norm2_rows x.w (min_le_left x.h (1 + n / s)) fun i k => ‖x.px i k - x'.px i k‖)
    refine norm2_ext (h := min x.h (1 + n / s)) (w := x.w) fun i hi k hk => ?_
    rw [Img.px_tab' hi hk, h.h, h.w, Img.px_tab' hi hk]

theorem norm2_window (h w i0 i1 : ℕ) (u : ℕ → ℕ → ℝ) :
    Spec.norm2 h (min i1 w - i0) (fun i j => u i (i0 + j)) ≤ Spec.norm2 h w u := by
  refine Real.sqrt_le_sqrt (sum_le_sum fun i _ => ?_)
  rw [← sum_image (s := range (min i1 w - i0)) (g := fun j => i0 + j) (f := fun j => u i j ^ 2) (by
    intro a _ b _ hab
    simpa using hab)]
  refine sum_le_sum_of_subset_of_nonneg (fun j hj => ?_) fun _ _ _ => sq_nonneg _
  obtain ⟨m, hm, rfl⟩ := mem_image.1 hj
  have := mem_range.1 hm
  exact mem_range.2 (by omega)

theorem Near2.window {x x' : Img E} (hδ : 0 ≤ δ) (h : Near2 δ k M x x') (i0 i1 : ℕ) :
    Near2 δ k M (Img.tab x.h (min i1 x.w - i0) fun i j => x.px i (i0 + j))
      (Img.tab x'.h (min i1 x'.w - i0) fun i j => x'.px i (i0 + j)) := by
  refine ⟨h.h, by show min i1 x'.w - i0 = _; rw [h.w]; rfl, h.err.mono hδ le_rfl le_rfl (inorm_nonneg _) ?_ ?_⟩
  · refine le_trans (le_of_eq ?_) (norm2_window x.h x.w i0 i1 fun i k => ‖x.px i k‖)
    exact norm2_ext (h := x.h) (w := min i1 x.w - i0) fun i hi k hk => congrArg norm (Img.px_tab' hi hk)
  · refine le_trans (le_of_eq ?_) (norm2_window x.h x.w i0 i1 fun i k => ‖x.px i k - x'.px i k‖)
    refine norm2_ext (h := x.h) (w := min i1 x.w - i0) fun i hi k hk => ?_
    rw [Img.px_tab' hi hk, h.h, h.w, Img.px_tab' hi hk]

/-- A row has at most the norm of the stack. -/
theorem norm2_row {h : ℕ} (w : ℕ) {i : ℕ} (hi : i < h) (u : ℕ → ℕ → ℝ) : Spec.l2 w (u i) ≤ Spec.norm2 h w u :=
  Real.sqrt_le_sqrt (single_le_sum (f := fun i => ∑ k ∈ range w, u i k ^ 2)
    (fun _ _ => sum_nonneg fun _ _ => sq_nonneg _) (mem_range.2 hi))

theorem Near2.row {x x' : Img E} (h : Near2 δ k M x x') {i : ℕ} (hi : i < x.h) :
    Near δ k M (tab x.w fun j => x.px i j) (tab x'.w fun j => x'.px i j) := by
  refine ⟨by simp [h.w], le_trans ?_ h.err.norm, le_trans ?_ h.err.dist⟩
  · refine le_trans (le_of_eq ?_) (norm2_row x.w hi fun i k => ‖x.px i k‖)
    unfold Spec.anorm
    rw [length_tab]
    exact Spec.l2_congr fun j hj => by rw [getD_tab_lt hj]
  · refine le_trans (le_of_eq ?_) (norm2_row x.w hi fun i k => ‖x.px i k - x'.px i k‖)
    unfold Spec.adist
    rw [length_tab, h.w]
    exact Spec.l2_congr fun j hj => by rw [getD_tab_lt hj, getD_tab_lt hj]

theorem norm2_le_sqrt {h w H : ℕ} {u : ℕ → ℕ → ℝ} {A : ℝ} (hA : 0 ≤ A) (hH : h ≤ H)
    (hu : ∀ i < h, Spec.l2 w (u i) ≤ A) : Spec.norm2 h w u ≤ Real.sqrt H * A := by
  refine Real.sqrt_le_iff.2 ⟨by positivity, ?_⟩
  rw [mul_pow, Real.sq_sqrt (Nat.cast_nonneg _)]
  calc ∑ i ∈ range h, ∑ k ∈ range w, u i k ^ 2 ≤ ∑ i ∈ range h, A ^ 2 := by
        refine sum_le_sum fun i hi => ?_
        have := pow_le_pow_left₀ (Spec.l2_nonneg _ _) (hu i (mem_range.1 hi)) 2
        unfold Spec.l2 at this
        rwa [Real.sq_sqrt (sum_nonneg fun _ _ => sq_nonneg _)] at this
    _ = h * A ^ 2 := by simp
    _ ≤ H * A ^ 2 := mul_le_mul_of_nonneg_right (by exact_mod_cast hH) (sq_nonneg A)

theorem forall₂_getD {α β : Type} {P : α → β → Prop} {l : List α} {m : List β} (h : List.Forall₂ P l m) {i : ℕ}
    (hi : i < l.length) (a : α) (b : β) : P (l.getD i a) (m.getD i b) := by
  rw [List.getD_eq_getElem _ _ hi, List.getD_eq_getElem _ _ (by rw [← h.length_eq]; exact hi)]
  exact h.get hi (by rw [← h.length_eq]; exact hi)

/-- Stacking at most `H` arrays. -/
theorem Near2.stack {l m : List (List E)} {y : Img E} {H : ℕ} (hδ : 0 ≤ δ) (hM : 0 ≤ M) (h : List.Forall₂ (Near δ k M) l m)
    (hH : l.length ≤ H) (hy : stackImg l = .ok y) : y.h = l.length ∧ (∀ a ∈ l, a.length = y.w) ∧
      ∃ y', stackImg m = .ok y' ∧ Near2 δ k (Real.sqrt H * M) y y' := by
  obtain ⟨hne, hall, hh, -, hpx⟩ := Is.stack hy
  refine ⟨hh, hall, ?_⟩
  have hall' : ∀ b ∈ m, b.length = y.w := by
    intro b hb
    obtain ⟨a, ha, hab⟩ := forall₂_mem_right h hb
    rw [hab.len, hall a ha]
  have hm : stackImg m = .ok (Img.tab m.length y.w fun i j => (m.getD i []).getD j 0) := by
    cases m with
    | nil => cases h; exact absurd rfl hne
    | cons b m =>
      show (if _ then Except.ok (Img.tab _ b.length _) else _) = _
      rw [hall' b List.mem_cons_self, if_pos (List.all_eq_true.2 fun c hc => by rw [beq_iff_eq]; exact hall' c hc)]
  refine ⟨_, hm, ?_, rfl, inorm_nonneg _, ?_, ?_⟩
  · rw [hh]; exact h.length_eq.symm
  · refine norm2_le_sqrt hM (by rw [hh]; exact hH) fun i hi => ?_
    rw [hh] at hi
    have hn := forall₂_getD h hi [] []
    have hl : (l.getD i []).length = y.w := hall _ (by rw [List.getD_eq_getElem _ _ hi]; exact List.getElem_mem hi)
    refine le_trans (le_of_eq ?_) hn.norm
    unfold Spec.anorm
    rw [hl]
    exact Spec.l2_congr fun j hj => by rw [hpx i j hi hj]
  · have hf := pow_sub_one_nonneg hδ k
    rw [show ((1 + δ) ^ k - 1) * (Real.sqrt H * M) = Real.sqrt H * (((1 + δ) ^ k - 1) * M) by ring]
    refine norm2_le_sqrt (mul_nonneg hf hM) (by rw [hh]; exact hH) fun i hi => ?_
    rw [hh] at hi
    have hn := forall₂_getD h hi [] []
    have hl : (l.getD i []).length = y.w := hall _ (by rw [List.getD_eq_getElem _ _ hi]; exact List.getElem_mem hi)
    refine le_trans (le_of_eq ?_) hn.dist
    unfold Spec.adist
    rw [hl]
    refine Spec.l2_congr fun j hj => ?_
    rw [hpx i j hi hj, Img.px_tab' (by rw [← h.length_eq]; exact hi) hj]

end

end Verif
