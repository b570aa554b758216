import Verif.Model.Rounded1D
import Verif.Props.Energy1D
import Verif.Lemmas.Dtype
import Mathlib.Analysis.InnerProductSpace.PiL2

/-!
# Propagation of rounding errors
-/

namespace Verif

open Finset Core1D Front1D

/-- Euclidean norm of an array. -/
noncomputable def Spec.anorm {E : Type} [NormedAddCommGroup E] (x : List E) : ℝ :=
  Spec.l2 x.length fun i => ‖x.getD i 0‖

/-- Euclidean distance of two arrays of the same length. -/
noncomputable def Spec.adist {E : Type} [NormedAddCommGroup E] (x y : List E) : ℝ :=
  Spec.l2 x.length fun i => ‖x.getD i 0 - y.getD i 0‖

theorem Spec.l2_add_le (n : ℕ) (u v : ℕ → ℝ) :
    Spec.l2 n (fun i => u i + v i) ≤ Spec.l2 n u + Spec.l2 n v := by
  have e : ∀ w : ℕ → ℝ, Spec.l2 n w = ‖(WithLp.toLp 2 (fun i : Fin n => w i) : EuclideanSpace ℝ (Fin n))‖ := by
    intro w
    rw [EuclideanSpace.norm_eq]
    unfold Spec.l2
    rw [Finset.sum_range]
    simp
  have h := norm_add_le (WithLp.toLp 2 (fun i : Fin n => u i) : EuclideanSpace ℝ (Fin n))
    (WithLp.toLp 2 fun i : Fin n => v i)
  rw [← WithLp.toLp_add, ← e, ← e] at h
  rw [e]
  exact h

theorem Spec.l2_mono {n : ℕ} {u v : ℕ → ℝ} (h0 : ∀ i < n, 0 ≤ u i) (h : ∀ i < n, u i ≤ v i) :
    Spec.l2 n u ≤ Spec.l2 n v :=
  Real.sqrt_le_sqrt (sum_le_sum fun i hi =>
    pow_le_pow_left₀ (h0 i (mem_range.1 hi)) (h i (mem_range.1 hi)) 2)

section

variable {E E' : Type} [NormedAddCommGroup E] [NormedAddCommGroup E']

theorem anorm_nonneg (x : List E) : 0 ≤ Spec.anorm x := Spec.l2_nonneg _ _

theorem adist_nonneg (x y : List E) : 0 ≤ Spec.adist x y := Spec.l2_nonneg _ _

theorem adist_self (x : List E) : Spec.adist x x = 0 := by
  unfold Spec.adist Spec.l2
  simp

theorem adist_triangle {x y : List E} (z : List E) (h : y.length = x.length) :
    Spec.adist x z ≤ Spec.adist x y + Spec.adist y z := by
  unfold Spec.adist
  rw [h]
  refine le_trans (Spec.l2_mono (fun _ _ => norm_nonneg _) fun i _ => ?_) (Spec.l2_add_le _ _ _)
  simpa using norm_sub_le_norm_sub_add_norm_sub (x.getD i 0) (y.getD i 0) (z.getD i 0)

theorem anorm_le_add {x y : List E} (h : y.length = x.length) : Spec.anorm y ≤ Spec.anorm x + Spec.adist x y := by
  unfold Spec.anorm Spec.adist
  rw [h]
  refine le_trans (Spec.l2_mono (fun _ _ => norm_nonneg _) fun i _ => ?_) (Spec.l2_add_le _ _ _)
  have := norm_sub_le (x.getD i 0) (x.getD i 0 - y.getD i 0)
  simpa using this

/-- The array of differences. -/
def subL (x y : List E) : List E := tab x.length fun i => x.getD i 0 - y.getD i 0

@[simp] theorem length_subL (x y : List E) : (subL x y).length = x.length := by simp [subL]

theorem getD_subL {x y : List E} (h : y.length = x.length) (i : ℕ) :
    (subL x y).getD i 0 = x.getD i 0 - y.getD i 0 := by
  rcases Nat.lt_or_ge i x.length with hi | hi
  · rw [subL, getD_tab_lt hi]
  · rw [List.getD_eq_default _ _ (by simpa using hi), List.getD_eq_default _ _ hi,
      List.getD_eq_default _ _ (by omega), sub_zero]

theorem anorm_subL {x y : List E} (h : y.length = x.length) : Spec.anorm (subL x y) = Spec.adist x y := by
  unfold Spec.anorm Spec.adist
  rw [length_subL]
  exact Spec.l2_congr fun i _ => by rw [getD_subL h]

/-- `y` was computed instead of `x`, through `k` operations of relative accuracy `δ`, when the exact operations allow a
norm up to `M`. -/
structure Near (δ : ℝ) (k : ℕ) (M : ℝ) (x y : List E) : Prop where
  len : y.length = x.length
  norm : Spec.anorm x ≤ M
  dist : Spec.adist x y ≤ ((1 + δ) ^ k - 1) * M

theorem Near.nonneg {δ : ℝ} {k : ℕ} {M : ℝ} {x y : List E} (h : Near δ k M x y) : 0 ≤ M :=
  (anorm_nonneg x).trans h.norm

theorem pow_sub_one_nonneg {δ : ℝ} (hδ : 0 ≤ δ) (k : ℕ) : 0 ≤ (1 + δ) ^ k - 1 :=
  sub_nonneg.2 (one_le_pow₀ (by linarith))

theorem Near.mono {δ : ℝ} (hδ : 0 ≤ δ) {k : ℕ} {M M' : ℝ} {x y : List E} (h : Near δ k M x y) (hM : M ≤ M') :
    Near δ k M' x y :=
  ⟨h.len, h.norm.trans hM, h.dist.trans (mul_le_mul_of_nonneg_left hM (pow_sub_one_nonneg hδ k))⟩

theorem Near.refl {δ : ℝ} (x : List E) : Near δ 0 (Spec.anorm x) x x :=
  ⟨rfl, le_rfl, by rw [adist_self]; simp⟩

theorem Near.norm_right {δ : ℝ} {k : ℕ} {M : ℝ} {x y : List E} (h : Near δ k M x y) :
    Spec.anorm y ≤ (1 + δ) ^ k * M := by
  have := anorm_le_add h.len
  have h1 := h.norm
  have h2 := h.dist
  nlinarith

/-- One inexact operation: `y` exact on the exact argument, `z` exact on the computed argument, `w` computed. -/
theorem Near.step {δ : ℝ} (hδ : 0 ≤ δ) {k : ℕ} {M g : ℝ} (hg : 0 ≤ g) {x x' : List E} {y z w : List E'}
    (h : Near δ k M x x') (hy : Spec.anorm y ≤ g * Spec.anorm x) (hz : z.length = y.length)
    (hyz : Spec.adist y z ≤ g * Spec.adist x x') (hw : w.length = z.length)
    (hzw : Spec.adist z w ≤ δ * (g * Spec.anorm x')) : Near δ (k + 1) (g * M) y w := by
  refine ⟨hw.trans hz, hy.trans (mul_le_mul_of_nonneg_left h.norm hg), ?_⟩
  have h1 := adist_triangle w hz
  have h2 := mul_le_mul_of_nonneg_left h.dist hg
  have h3 := mul_le_mul_of_nonneg_left (mul_le_mul_of_nonneg_left h.norm_right hg) hδ
  calc Spec.adist y w ≤ g * (((1 + δ) ^ k - 1) * M) + δ * (g * ((1 + δ) ^ k * M)) := by linarith
    _ = ((1 + δ) ^ (k + 1) - 1) * (g * M) := by rw [pow_succ]; ring

/-- One inexact additive operation. -/
theorem Near.additive {δ : ℝ} (hδ : 0 ≤ δ) {k : ℕ} {M g : ℝ} (hg : 0 ≤ g) {x x' : List E} {w : List E'}
    (f : List E → List E') (h : Near δ k M x x')
    (hlen : (f x').length = (f x).length)
    (hsub : f (subL x x') = subL (f x) (f x'))
    (hgain : ∀ z : List E, z.length = x.length → Spec.anorm (f z) ≤ g * Spec.anorm z)
    (hw : w.length = (f x').length) (hzw : Spec.adist (f x') w ≤ δ * (g * Spec.anorm x')) :
    Near δ (k + 1) (g * M) (f x) w := by
  refine h.step hδ hg (hgain x rfl) hlen ?_ hw hzw
  have := hgain (subL x x') (length_subL _ _)
  rwa [hsub, anorm_subL hlen, anorm_subL h.len] at this

end

/-! ## Gains of the exact operations -/

theorem anorm_sq {E : Type} [NormedAddCommGroup E] (x : List E) :
    Spec.anorm x ^ 2 = ∑ i ∈ range x.length, ‖x.getD i 0‖ ^ 2 :=
  Real.sq_sqrt (sum_nonneg fun _ _ => sq_nonneg _)

theorem anorm_real_sq (x : List ℝ) : Spec.anorm x ^ 2 = energy1 x := by
  rw [anorm_sq]
  exact sum_congr rfl fun i _ => by rw [Real.norm_eq_abs, sq_abs]

theorem anorm_real (x : List ℝ) : Spec.anorm x = Spec.l2 x.length fun i => x.getD i 0 := by
  unfold Spec.anorm Spec.l2
  congr 1
  exact sum_congr rfl fun i _ => by simp only [Real.norm_eq_abs, sq_abs]

theorem adist_real (x y : List ℝ) : Spec.adist x y = Spec.l2 x.length fun i => x.getD i 0 - y.getD i 0 := by
  unfold Spec.adist Spec.l2
  congr 1
  exact sum_congr rfl fun i _ => by simp only [Real.norm_eq_abs, sq_abs]

theorem anorm_le_of_sq {E E' : Type} [NormedAddCommGroup E] [NormedAddCommGroup E'] {x : List E} {y : List E'} {g : ℝ}
    (hg : 0 ≤ g) (h : Spec.anorm y ^ 2 ≤ g ^ 2 * Spec.anorm x ^ 2) : Spec.anorm y ≤ g * Spec.anorm x := by
  rw [← mul_pow] at h
  exact (le_abs_self _).trans (abs_le_of_sq_le_sq h (mul_nonneg hg (anorm_nonneg x)))

theorem anorm_rfft (x : List ℝ) : Spec.anorm (npRfft x) ≤ Real.sqrt x.length * Spec.anorm x := by
  refine anorm_le_of_sq (Real.sqrt_nonneg _) ?_
  rw [anorm_sq, length_npRfft, parseval_rfft, Real.sq_sqrt (Nat.cast_nonneg _), anorm_real_sq]

theorem anorm_idft (z : List ℂ) : Spec.anorm (idft z) ≤ 1 / Real.sqrt z.length * Spec.anorm z := by
  refine anorm_le_of_sq (by positivity) ?_
  rw [anorm_sq, anorm_sq, show (idft z).length = z.length by simp [idft], div_pow, one_pow,
    Real.sq_sqrt (Nat.cast_nonneg _)]
  rcases Nat.eq_zero_or_pos z.length with h0 | hpos
  · simp [h0]
  rw [sum_congr rfl fun n hn => by rw [getD_idft_imp z (mem_range.1 hn)], parseval_imp z hpos]
  rw [one_div, div_eq_inv_mul]

theorem getD_irfft (z : List ℂ) (n : ℕ) : (npIrfft z).getD n 0 = ((idft z).getD n 0).re := by
  unfold npIrfft
  rcases Nat.lt_or_ge n (idft z).length with h | h
  · rw [List.getD_eq_getElem _ _ (by simpa using h), List.getD_eq_getElem _ _ h, List.getElem_map]
  · rw [List.getD_eq_default _ _ (by simpa using h), List.getD_eq_default _ _ h, Complex.zero_re]

theorem anorm_irfft (z : List ℂ) : Spec.anorm (npIrfft z) ≤ 1 / Real.sqrt z.length * Spec.anorm z := by
  refine le_trans ?_ (anorm_idft z)
  unfold Spec.anorm
  rw [show (npIrfft z).length = (idft z).length by simp [npIrfft]]
  refine Spec.l2_mono (fun _ _ => norm_nonneg _) fun i _ => ?_
  rw [getD_irfft]
  exact Complex.abs_re_le_norm _

theorem anorm_modulus (z : List ℂ) : Spec.anorm (npModulus z) = Spec.anorm z := by
  unfold Spec.anorm
  rw [show (npModulus z).length = z.length by simp [npModulus]]
  refine Spec.l2_congr fun i hi => ?_
  unfold npModulus
  rw [List.getD_eq_getElem _ _ (by simpa using hi), List.getD_eq_getElem _ _ hi, List.getElem_map, norm_norm]

theorem adist_modulus {y z : List ℂ} (h : z.length = y.length) :
    Spec.adist (npModulus y) (npModulus z) ≤ Spec.adist y z := by
  unfold Spec.adist
  rw [show (npModulus y).length = y.length by simp [npModulus]]
  refine Spec.l2_mono (fun _ _ => norm_nonneg _) fun i hi => ?_
  unfold npModulus
  rw [List.getD_eq_getElem _ _ (by simpa using hi), List.getD_eq_getElem _ _ hi,
    List.getD_eq_getElem _ _ (by simpa [h] using hi), List.getD_eq_getElem _ _ (by omega), List.getElem_map,
    List.getElem_map]
  exact abs_norm_sub_norm_le _ _

theorem length_exact_mul {z : List ℂ} {f : List ℝ} (h : z.length = f.length) :
    (Rounded.exact.mul z f).length = z.length := by
  simp [Rounded.exact, h]

theorem getD_exact_mul {z : List ℂ} {f : List ℝ} (h : z.length = f.length) (i : ℕ) :
    (Rounded.exact.mul z f).getD i 0 = z.getD i 0 * (f.getD i 0 : ℂ) := by
  rcases Nat.lt_or_ge i z.length with hi | hi
  · rw [List.getD_eq_getElem _ _ (by rw [length_exact_mul h]; exact hi), List.getD_eq_getElem _ _ hi,
      List.getD_eq_getElem _ _ (by omega)]
    simp [Rounded.exact]
  · rw [List.getD_eq_default _ _ (by rw [length_exact_mul h]; exact hi), List.getD_eq_default _ _ hi, zero_mul]

theorem anorm_mul {z : List ℂ} {f : List ℝ} (h : z.length = f.length) {C : ℝ} (hC0 : 0 ≤ C)
    (hC : ∀ m < f.length, |f.getD m 0| ≤ C) : Spec.anorm (Rounded.exact.mul z f) ≤ C * Spec.anorm z := by
  refine anorm_le_of_sq hC0 ?_
  rw [anorm_sq, anorm_sq, length_exact_mul h, mul_sum]
  refine sum_le_sum fun i hi => ?_
  rw [getD_exact_mul h, norm_mul, mul_pow, mul_comm, Complex.norm_real, Real.norm_eq_abs]
  exact mul_le_mul_of_nonneg_right (pow_le_pow_left₀ (abs_nonneg _) (hC i (by rw [← h]; exact mem_range.1 hi)) 2)
    (sq_nonneg _)

theorem length_exact_mean (z : List ℂ) (k : ℕ) : (Rounded.exact.mean z k).length = z.length / k := by
  simp [Rounded.exact]

theorem getD_exact_mean {z : List ℂ} {k m : ℕ} (hm : m < z.length / k) :
    (Rounded.exact.mean z k).getD m 0 = (∑ i ∈ range k, z.getD (i * (z.length / k) + m) 0) / k := by
  show (tab _ _).getD m 0 = _
  rw [getD_tab_lt hm]

theorem sum_range_mul_real (k n : ℕ) (f : ℕ → ℝ) :
    ∑ i ∈ range (k * n), f i = ∑ i ∈ range k, ∑ m ∈ range n, f (i * n + m) := by
  induction k with
  | zero => simp
  | succ k ih => rw [Nat.succ_mul, sum_range_add, ih, sum_range_succ]

theorem anorm_mean {z : List ℂ} {k : ℕ} (hk : 0 < k) (hd : k * (z.length / k) = z.length) :
    Spec.anorm (Rounded.exact.mean z k) ≤ 1 / Real.sqrt k * Spec.anorm z := by
  refine anorm_le_of_sq (by positivity) ?_
  rw [anorm_sq, anorm_sq, length_exact_mean, div_pow, one_pow, Real.sq_sqrt (Nat.cast_nonneg _)]
  have hk' : (0 : ℝ) < k := by exact_mod_cast hk
  set n := z.length / k with hn
  have e : ∑ i ∈ range z.length, ‖z.getD i 0‖ ^ 2 = ∑ m ∈ range n, ∑ i ∈ range k, ‖z.getD (i * n + m) 0‖ ^ 2 := by
    rw [← hd, Finset.sum_comm, sum_range_mul_real]
  rw [e, mul_sum]
  refine sum_le_sum fun m hm => ?_
  rw [getD_exact_mean (mem_range.1 hm), norm_div, Complex.norm_natCast, div_pow, div_le_iff₀ (by positivity)]
  have h1 : ‖∑ i ∈ range k, z.getD (i * n + m) 0‖ ≤ ∑ i ∈ range k, ‖z.getD (i * n + m) 0‖ := norm_sum_le _ _
  have h2 := sq_sum_le_card_mul_sum_sq (s := range k) (f := fun i => ‖z.getD (i * n + m) 0‖)
  rw [card_range] at h2
  calc _ ≤ (∑ i ∈ range k, ‖z.getD (i * n + m) 0‖) ^ 2 := pow_le_pow_left₀ (norm_nonneg _) h1 2
    _ ≤ _ := h2
    _ = _ := by field_simp

/-! ## The operations are additive -/

theorem sub_ext {E : Type} [NormedAddCommGroup E] {a b c : List E} (h1 : a.length = b.length) (h2 : c.length = b.length)
    (h : ∀ i < b.length, a.getD i 0 = b.getD i 0 - c.getD i 0) : a = subL b c := by
  apply list_ext_getD 0
  · rw [h1, length_subL]
  · intro i hi
    rw [h i (by omega), getD_subL h2]

theorem rfft_subL {x y : List ℝ} (h : y.length = x.length) : npRfft (subL x y) = subL (npRfft x) (npRfft y) := by
  refine sub_ext (by simp) (by simp [h]) fun k hk => ?_
  have hk' : k < x.length := by simpa using hk
  unfold npRfft
  rw [getD_dft _ (by simpa using hk'), getD_dft _ (by simpa using hk'), getD_dft _ (by simpa [h] using hk'),
    List.length_map, List.length_map, List.length_map, length_subL, h, ← sum_sub_distrib]
  refine sum_congr rfl fun i _ => ?_
  rw [getD_ofReal, getD_ofReal, getD_ofReal, getD_subL h]
  push_cast
  ring

theorem idft_subL {x y : List ℂ} (h : y.length = x.length) : idft (subL x y) = subL (idft x) (idft y) := by
  refine sub_ext (by simp [idft]) (by simp [idft, h]) fun k hk => ?_
  have hk' : k < x.length := by simpa [idft] using hk
  rw [getD_idft_imp _ (by simpa using hk'), getD_idft_imp _ hk', getD_idft_imp _ (by omega)]
  unfold imp
  rw [length_subL, h, ← sub_div, ← sum_sub_distrib]
  congr 1
  refine sum_congr rfl fun i _ => ?_
  rw [getD_subL h]
  ring

theorem irfft_subL {x y : List ℂ} (h : y.length = x.length) : npIrfft (subL x y) = subL (npIrfft x) (npIrfft y) := by
  refine sub_ext (by simp [npIrfft, idft]) (by simp [npIrfft, idft, h]) fun k hk => ?_
  rw [getD_irfft, getD_irfft, getD_irfft, idft_subL h, getD_subL (by simp [idft, h]), Complex.sub_re]

theorem mul_subL {x y : List ℂ} (h : y.length = x.length) {f : List ℝ} (hf : x.length = f.length) :
    Rounded.exact.mul (subL x y) f = subL (Rounded.exact.mul x f) (Rounded.exact.mul y f) := by
  refine sub_ext ?_ ?_ fun k hk => ?_
  · rw [length_exact_mul (by simpa using hf), length_exact_mul hf, length_subL]
  · rw [length_exact_mul (by omega), length_exact_mul hf, h]
  · rw [getD_exact_mul (by simpa using hf), getD_exact_mul hf, getD_exact_mul (by omega), getD_subL h, sub_mul]

theorem mean_subL {x y : List ℂ} (h : y.length = x.length) (k : ℕ) :
    Rounded.exact.mean (subL x y) k = subL (Rounded.exact.mean x k) (Rounded.exact.mean y k) := by
  refine sub_ext ?_ ?_ fun m hm => ?_
  · simp [length_exact_mean]
  · simp [length_exact_mean, h]
  · rw [length_exact_mean] at hm
    rw [getD_exact_mean (by simpa using hm), getD_exact_mean hm, getD_exact_mean (by rw [h]; exact hm), length_subL, h,
      ← sub_div, ← sum_sub_distrib]
    congr 1
    exact sum_congr rfl fun i _ => getD_subL h _

end Verif
