import Verif.Lemmas.Morlet
import Verif.Lemmas.Backend1D
import Mathlib.Analysis.SpecialFunctions.Trigonometric.Bounds
import Mathlib.Analysis.Real.Pi.Bounds

/-!
# Alias sums of the low-pass filter

Level `l` of a filter at frequency `m` is the sum of the full-rate filter over the frequencies
`m/N + i/2^l`.  For the low-pass filter, a periodised Gaussian of width at most a tenth of `1/2^l`, these are sums of a
Gaussian over an arithmetic progression.
-/

namespace Verif

open Finset

/-- A sum whose terms decay at least as fast as `10^(-6 n)` after the first. -/
theorem sum_le_head (a : ℕ → ℝ) (K : ℕ) {A : ℝ} (h0 : a 0 ≤ A) (hA : 0 ≤ A)
    (h : ∀ n, 1 ≤ n → a n ≤ (1 / 10 ^ 6) ^ n) : ∑ n ∈ range K, a n ≤ A + 1 / 999999 := by
  have key : ∀ K, ∑ n ∈ range (K + 1), a n ≤ A + 1 / 999999 - 1 / 999999 * (1 / 10 ^ 6) ^ K := by
    intro K
    induction K with
    | zero => simp; exact h0
    | succ K ih =>
      rw [sum_range_succ]
      have := h (K + 1) (by omega)
      have e : ((1 : ℝ) / 10 ^ 6) ^ (K + 1) = (1 / 10 ^ 6) ^ K * (1 / 10 ^ 6) := pow_succ _ _
      rw [e] at this ⊢
      linarith
  cases K with
  | zero => simp; linarith
  | succ K =>
    have := key K
    have : (0 : ℝ) ≤ 1 / 999999 * (1 / 10 ^ 6) ^ K := by positivity
    linarith [key K]

theorem exp_neg_half : Real.exp (-(1 / 2)) ≤ 0.60656 := by
  rw [Real.exp_neg]
  apply inv_le_of_inv_le₀ (by norm_num)
  refine le_trans ?_ (Real.sum_le_exp_of_nonneg (by norm_num : (0 : ℝ) ≤ 1 / 2) 7)
  norm_num [sum_range_succ, Nat.factorial]

theorem exp_neg_forty : Real.exp (-40) ≤ 1 / 10 ^ 6 := by
  rw [Real.exp_neg]
  apply inv_le_of_inv_le₀ (by norm_num)
  refine le_trans ?_ (Real.sum_le_exp_of_nonneg (by norm_num : (0 : ℝ) ≤ 40) 8)
  norm_num [sum_range_succ, Nat.factorial]

theorem exp_neg_far : Real.exp (-(25 / 2)) ≤ 1 / 10 ^ 4 := by
  rw [Real.exp_neg]
  apply inv_le_of_inv_le₀ (by norm_num)
  refine le_trans ?_ (Real.sum_le_exp_of_nonneg (by norm_num : (0 : ℝ) ≤ 25 / 2) 10)
  norm_num [sum_range_succ, Nat.factorial]

/-- The largest value of `t exp(-t^2/2)`. -/
theorem mul_gauss_le (t : ℝ) : t * Real.exp (-(t ^ 2 / 2)) ≤ 0.60656 := by
  have h : t ≤ Real.exp ((t ^ 2 - 1) / 2) := by
    have := Real.add_one_le_exp ((t ^ 2 - 1) / 2)
    nlinarith [sq_nonneg (t - 1)]
  calc t * Real.exp (-(t ^ 2 / 2)) ≤ Real.exp ((t ^ 2 - 1) / 2) * Real.exp (-(t ^ 2 / 2)) :=
        mul_le_mul_of_nonneg_right h (Real.exp_pos _).le
    _ = Real.exp (-(1 / 2)) := by rw [← Real.exp_add]; congr 1; ring
    _ ≤ _ := exp_neg_half

theorem gauss_tail {t : ℝ} {n : ℕ} (hn : 1 ≤ n) (ht : 10 * (n : ℝ) ≤ t) :
    t * Real.exp (-(t ^ 2 / 2)) ≤ (1 / 10 ^ 6) ^ n ∧ Real.exp (-(t ^ 2 / 2)) ≤ (1 / 10 ^ 6) ^ n := by
  have hn' : (1 : ℝ) ≤ n := by exact_mod_cast hn
  have ht10 : 10 ≤ t := by linarith
  have h1 : Real.exp (-(t ^ 2 / 2)) ≤ Real.exp (-(5 * t)) := Real.exp_le_exp.2 (by nlinarith)
  have h2 : t ≤ Real.exp t := by have := Real.add_one_le_exp t; linarith
  have h3 : t * Real.exp (-(t ^ 2 / 2)) ≤ (1 / 10 ^ 6) ^ n := by
    calc t * Real.exp (-(t ^ 2 / 2)) ≤ Real.exp t * Real.exp (-(5 * t)) :=
          mul_le_mul h2 h1 (Real.exp_pos _).le (Real.exp_pos _).le
      _ = Real.exp (-(4 * t)) := by rw [← Real.exp_add]; congr 1; ring
      _ ≤ Real.exp ((n : ℝ) * (-40)) := Real.exp_le_exp.2 (by linarith)
      _ = Real.exp (-40) ^ n := by rw [Real.exp_nat_mul]
      _ ≤ _ := pow_le_pow_left₀ (Real.exp_pos _).le exp_neg_forty n
  refine ⟨h3, le_trans ?_ h3⟩
  exact le_mul_of_one_le_left (Real.exp_pos _).le (by linarith)

/-- `exp(-x^2 / (2 sigma^2))`. -/
noncomputable def gaussAt (sigma x : ℝ) : ℝ := Real.exp (-(x ^ 2) / (2 * sigma ^ 2))

theorem gaussAt_nonneg (sigma x : ℝ) : 0 ≤ gaussAt sigma x := (Real.exp_pos _).le

theorem gaussAt_eq {sigma : ℝ} (hs : 0 < sigma) (x : ℝ) : gaussAt sigma x = Real.exp (-((|x| / sigma) ^ 2 / 2)) := by
  unfold gaussAt
  congr 1
  rw [div_pow, sq_abs]
  field_simp

/-- The points `d (r + s)` on either side of zero. -/
theorem sum_two_sides (f : ℝ → ℝ) (d s : ℝ) (A B : ℕ) :
    ∑ r ∈ range (A + B), f (d * ((r : ℝ) - A + s)) =
      ∑ r ∈ range A, f (d * (-1 - (r : ℝ) + s)) + ∑ r ∈ range B, f (d * ((r : ℝ) + s)) := by
  rw [sum_range_add]
  congr 1
  · rw [← sum_range_reflect]
    refine sum_congr rfl fun r hr => ?_
    have hr := mem_range.1 hr
    congr 2
    rw [Nat.cast_sub (by omega), Nat.cast_sub (by omega)]
    push_cast; ring
  · refine sum_congr rfl fun r _ => ?_
    congr 2
    push_cast; ring

section

variable {sigma d s : ℝ} (hs : 0 < sigma) (hd : 10 * sigma ≤ d) (h0 : 0 ≤ s) (h1 : s ≤ 1)
include hs hd h0

theorem right_far (n : ℕ) : 10 * (n : ℝ) ≤ |d * ((n : ℝ) + s)| / sigma := by
  have hn : (0 : ℝ) ≤ n := Nat.cast_nonneg n
  have hd0 : 0 < d := by linarith
  rw [le_div_iff₀ hs, abs_of_nonneg (by positivity)]
  nlinarith

omit h0 in
include h1 in
theorem left_far (n : ℕ) : 10 * (n : ℝ) ≤ |d * (-1 - (n : ℝ) + s)| / sigma := by
  have hn : (0 : ℝ) ≤ n := Nat.cast_nonneg n
  have hd0 : 0 < d := by linarith
  rw [show d * (-1 - (n : ℝ) + s) = -(d * ((n : ℝ) + (1 - s))) by ring, abs_neg]
  exact right_far hs hd (by linarith) n

include h1

/-- Sum of `|x| exp(-x^2/(2 sigma^2))` over a progression. -/
theorem sum_moment (A B : ℕ) :
    ∑ r ∈ range (A + B), |d * ((r : ℝ) - A + s)| * gaussAt sigma (d * ((r : ℝ) - A + s)) ≤ 1.2132 * sigma := by
  rw [sum_two_sides (fun x => |x| * gaussAt sigma x)]
  have e : ∀ x, |x| * gaussAt sigma x = sigma * (|x| / sigma * Real.exp (-((|x| / sigma) ^ 2 / 2))) := by
    intro x
    rw [gaussAt_eq hs]
    field_simp
  simp only [e, ← mul_sum]
  have hr := sum_le_head (fun n => |d * ((n : ℝ) + s)| / sigma * Real.exp (-((|d * ((n : ℝ) + s)| / sigma) ^ 2 / 2))) B
    (A := 0.60656) (mul_gauss_le _) (by norm_num) fun n hn => (gauss_tail hn (right_far hs hd h0 n)).1
  have hl := sum_le_head (fun n => |d * (-1 - (n : ℝ) + s)| / sigma *
    Real.exp (-((|d * (-1 - (n : ℝ) + s)| / sigma) ^ 2 / 2))) A
    (A := 0.60656) (mul_gauss_le _) (by norm_num) fun n hn => (gauss_tail hn (left_far hs hd h1 n)).1
  have := add_le_add hl hr
  rw [← mul_add]
  calc sigma * _ ≤ sigma * (0.60656 + 1 / 999999 + (0.60656 + 1 / 999999)) := mul_le_mul_of_nonneg_left this hs.le
    _ ≤ 1.2132 * sigma := by rw [mul_comm]; exact mul_le_mul_of_nonneg_right (by norm_num) hs.le

/-- Sum of a Gaussian over a progression. -/
theorem sum_gauss (A B : ℕ) : ∑ r ∈ range (A + B), gaussAt sigma (d * ((r : ℝ) - A + s)) ≤ 1.001 := by
  rw [sum_two_sides (gaussAt sigma)]
  simp only [gaussAt_eq hs]
  have ex : ∀ t : ℝ, Real.exp (-(t ^ 2 / 2)) ≤ 1 := fun t => Real.exp_le_one_iff.2 (by nlinarith [sq_nonneg t])
  have far : ∀ t : ℝ, 5 ≤ t → Real.exp (-(t ^ 2 / 2)) ≤ 1 / 10 ^ 4 := fun t ht =>
    (Real.exp_le_exp.2 (by nlinarith)).trans exp_neg_far
  have hd0 : 0 < d := by linarith
  have tail_r := fun n (hn : 1 ≤ n) => (gauss_tail hn (right_far hs hd h0 n)).2
  have tail_l := fun n (hn : 1 ≤ n) => (gauss_tail hn (left_far hs hd h1 n)).2
  rcases le_total s (1 / 2) with hs2 | hs2
  · have hr := sum_le_head (fun n => Real.exp (-((|d * ((n : ℝ) + s)| / sigma) ^ 2 / 2))) B (ex _) (by norm_num) tail_r
    have hl := sum_le_head (fun n => Real.exp (-((|d * (-1 - (n : ℝ) + s)| / sigma) ^ 2 / 2))) A (A := 1 / 10 ^ 4) (far _ (by
      rw [le_div_iff₀ hs, show d * (-1 - ((0 : ℕ) : ℝ) + s) = -(d * (1 - s)) by push_cast; ring, abs_neg,
        abs_of_nonneg (mul_nonneg hd0.le (by linarith))]
      nlinarith)) (by norm_num) tail_l
    norm_num at hr hl ⊢
    linarith
  · have hl := sum_le_head (fun n => Real.exp (-((|d * (-1 - (n : ℝ) + s)| / sigma) ^ 2 / 2))) A (ex _) (by norm_num) tail_l
    have hr := sum_le_head (fun n => Real.exp (-((|d * ((n : ℝ) + s)| / sigma) ^ 2 / 2))) B (A := 1 / 10 ^ 4) (far _ (by
      rw [le_div_iff₀ hs, abs_of_nonneg (mul_nonneg hd0.le (by simpa using h0))]
      push_cast
      nlinarith)) (by norm_num) tail_r
    norm_num at hr hl ⊢
    linarith

end

/-! ## The low-pass filter -/

theorem getD_morletLow {N : ℕ} {sigma : ℝ} (hs : 0 < sigma) {k : ℕ} (hk : k < N) :
    (morletLow N sigma).getD k 0 = (∑ p ∈ range (2 * morletP sigma - 1),
      gaussAt sigma ((p : ℝ) - (morletP sigma - 1 : ℕ) + (k : ℝ) / N)) / ((2 * morletP sigma - 1 : ℕ) : ℝ) := by
  have hP := morletP_ge hs
  have hl := length_morletLow (N := N) hs
  have hN : (N : ℝ) ≠ 0 := by
    have : 0 < N := by omega
    positivity
  unfold morletLow reshapeMean at *
  rw [length_tab] at hl
  rw [getD_tab_lt (by omega), hl]
  congr 1
  refine sum_congr rfl fun p hp => ?_
  rw [mem_range] at hp
  have hlt : p * N + k < ((2 * morletP sigma - 1) * N) := by
    calc p * N + k < p * N + N := by omega
      _ = (p + 1) * N := by ring
      _ ≤ _ := Nat.mul_le_mul_right _ (by omega)
  have hlt' : p * N + k < ((morletFreqs N (morletP sigma)).map fun w =>
      Real.exp (-(w ^ 2) / (2 * sigma ^ 2))).length := by
    rw [List.length_map, length_morletFreqs]; exact hlt
  rw [List.getD_eq_getElem?_getD, List.getElem?_eq_getElem hlt', Option.getD_some, List.getElem_map]
  have hf : (morletFreqs N (morletP sigma))[p * N + k]'(by rw [length_morletFreqs]; exact hlt) =
      (((1 : ℝ) - morletP sigma) * N + (p * N + k : ℕ)) / N := by
    have := getD_tab_lt (α := ℝ) (d := 0) (f := fun i : ℕ => (((1 : ℝ) - morletP sigma) * N + i) / N) hlt
    rw [← this, List.getD_eq_getElem?_getD]
    unfold morletFreqs
    rw [List.getElem?_eq_getElem (by rw [length_tab]; exact hlt), Option.getD_some]
  rw [hf]
  unfold gaussAt
  congr 4
  rw [Nat.cast_sub (by omega)]
  push_cast
  field_simp
  ring

/-- The low-pass filter lies between zero and the sum of the Gaussian over its periods. -/
theorem gauss1d_le {N : ℕ} {sigma : ℝ} (hs : 0 < sigma) {k : ℕ} (hk : k < N) :
    0 ≤ (gauss1d N sigma).getD k 0 ∧ (gauss1d N sigma).getD k 0 ≤
      ∑ p ∈ range (2 * morletP sigma - 1), gaussAt sigma ((p : ℝ) - (morletP sigma - 1 : ℕ) + (k : ℝ) / N) := by
  have hP := morletP_ge hs
  have hP0 : (0 : ℝ) < ((2 * morletP sigma - 1 : ℕ) : ℝ) := by
    have : 0 < 2 * morletP sigma - 1 := by omega
    exact_mod_cast this
  have e : (gauss1d N sigma).getD k 0 = (morletLow N sigma).getD k 0 / l1norm (morletLow N sigma) := by
    unfold gauss1d morlet1d
    simp only
    rw [morletRaw_low hs]
    have := getD_map' (morletLow N sigma) (fun v => v / l1norm (morletLow N sigma)) k 0
    simpa using this
  have hlow : 1 / ((2 * morletP sigma - 1 : ℕ) : ℝ) ≤ l1norm (morletLow N sigma) := by
    refine le_trans ?_ ((le_abs_self _).trans (gain_le_l1norm _ 0))
    rw [getD_morletLow hs (by omega)]
    apply div_le_div_of_nonneg_right _ hP0.le
    have hmem : morletP sigma - 1 ∈ range (2 * morletP sigma - 1) := mem_range.2 (by omega)
    refine le_trans (le_of_eq ?_) (single_le_sum (fun p _ => gaussAt_nonneg sigma _) hmem)
    unfold gaussAt
    simp
  have hl0 : 0 < l1norm (morletLow N sigma) := lt_of_lt_of_le (by positivity) hlow
  have hpos := (morletLow_pos hs hk).le
  rw [e]
  refine ⟨div_nonneg hpos hl0.le, ?_⟩
  rw [div_le_iff₀ hl0, getD_morletLow hs hk, div_le_iff₀ hP0]
  have hsum : 0 ≤ ∑ p ∈ range (2 * morletP sigma - 1), gaussAt sigma ((p : ℝ) - (morletP sigma - 1 : ℕ) + (k : ℝ) / N) :=
    sum_nonneg fun p _ => gaussAt_nonneg sigma _
  have : 1 ≤ l1norm (morletLow N sigma) * ((2 * morletP sigma - 1 : ℕ) : ℝ) := by
    rwa [div_le_iff₀ hP0] at hlow
  rw [mul_assoc]
  exact le_mul_of_one_le_right hsum this

theorem sum_blocks (k M : ℕ) (f : ℕ → ℝ) :
    ∑ j ∈ range (k * M), f j = ∑ i ∈ range k, ∑ m ∈ range M, f (i * M + m) := by
  induction k with
  | zero => simp
  | succ k ih => rw [sum_range_succ, ← ih, add_mul, one_mul, sum_range_add]

/-- A weighted alias sum of the low-pass filter is a sum over a progression, if the weight `W` at full-rate frequency `k` is
at most `G` at every frequency congruent to `k/N`. -/
theorem alias_le {N l M : ℕ} (hM : M * 2 ^ l = N) {sigma : ℝ} (hs : 0 < sigma) {m : ℕ} (hm : m < M) (W : ℕ → ℝ)
    (G : ℝ → ℝ) (hW : ∀ k, 0 ≤ W k) (hG : ∀ k : ℕ, ∀ a : ℤ, W k ≤ G (a + (k : ℝ) / N)) :
    ∑ i ∈ range (2 ^ l), (gauss1d N sigma).getD (i * M + m) 0 * W (i * M + m) ≤
      ∑ r ∈ range ((morletP sigma - 1) * 2 ^ l + morletP sigma * 2 ^ l),
        G (1 / 2 ^ l * ((r : ℝ) - ((morletP sigma - 1) * 2 ^ l : ℕ) + m / M)) *
          gaussAt sigma (1 / 2 ^ l * ((r : ℝ) - ((morletP sigma - 1) * 2 ^ l : ℕ) + m / M)) := by
  have hP := morletP_ge hs
  set P := morletP sigma with hPdef
  have hl : 0 < 2 ^ l := by positivity
  have hlt : ∀ i < 2 ^ l, i * M + m < N := by
    intro i hi
    calc i * M + m < i * M + M := by omega
      _ = (i + 1) * M := by ring
      _ ≤ 2 ^ l * M := Nat.mul_le_mul_right _ hi
      _ = N := by rw [mul_comm, hM]
  have hMr : (M : ℝ) ≠ 0 := by have : 0 < M := by omega
                               positivity
  have hNr : (N : ℝ) = M * 2 ^ l := by rw [← hM]; push_cast; ring
  set f : ℕ → ℝ := fun r => G (1 / 2 ^ l * ((r : ℝ) - ((P - 1) * 2 ^ l : ℕ) + m / M)) *
          gaussAt sigma (1 / 2 ^ l * ((r : ℝ) - ((P - 1) * 2 ^ l : ℕ) + m / M)) with hf
  have h1 : ∀ i ∈ range (2 ^ l), (gauss1d N sigma).getD (i * M + m) 0 * W (i * M + m) ≤
      ∑ p ∈ range (2 * P - 1), f (i + 2 ^ l * p) := by
    intro i hi
    have hi := mem_range.1 hi
    refine (mul_le_mul_of_nonneg_right (gauss1d_le hs (hlt i hi)).2 (hW _)).trans ?_
    rw [sum_mul]
    refine sum_le_sum fun p _ => ?_
    have e : ((p : ℝ) - (P - 1 : ℕ) + ((i * M + m : ℕ) : ℝ) / N) =
        1 / 2 ^ l * (((i + 2 ^ l * p : ℕ) : ℝ) - ((P - 1) * 2 ^ l : ℕ) + m / M) := by
      rw [hNr]
      push_cast
      field_simp
      ring
    have g := hG (i * M + m) ((p : ℤ) - (P - 1 : ℕ))
    push_cast at g e
    rw [hf]
    simp only
    push_cast
    rw [← e, mul_comm]
    exact mul_le_mul_of_nonneg_right g (gaussAt_nonneg _ _)
  refine (sum_le_sum h1).trans (le_of_eq ?_)
  have e2 : (P - 1) * 2 ^ l + P * 2 ^ l = 2 ^ l * (2 * P - 1) := by
    rw [← add_mul, mul_comm]; congr 1; omega
  rw [e2, sum_comm]
  rw [mul_comm (2 ^ l) (2 * P - 1), sum_blocks]
  refine sum_congr rfl fun p _ => sum_congr rfl fun i _ => ?_
  congr 1
  ring

/-! ## Levels of the low-pass filter -/

section

variable {N l M : ℕ} (hM : M * 2 ^ l = N) {T : ℝ} (hT : (2 : ℝ) ^ l ≤ T) {m : ℕ} (hm : m < M)
include hM hT hm

/-- The gain of a stored level of the low-pass filter is at most 1.001. -/
theorem phi_alias_gain : ∑ i ∈ range (2 ^ l), (gauss1d N (0.1 / T)).getD (i * M + m) 0 ≤ 1.001 := by
  have hl : (0 : ℝ) < 2 ^ l := by positivity
  have hT0 : 0 < T := lt_of_lt_of_le hl hT
  have hs : 0 < 0.1 / T := by positivity
  have hM0 : (0 : ℝ) < M := by exact_mod_cast (by omega : 0 < M)
  have hmM : (m : ℝ) ≤ M := by exact_mod_cast hm.le
  have h := alias_le hM hs hm (fun _ => 1) (fun _ => 1) (fun _ => zero_le_one) (fun _ _ => le_refl _)
  simp only [mul_one, one_mul] at h
  refine h.trans (sum_gauss hs ?_ (by positivity) (by rw [div_le_one hM0]; exact hmM) _ _)
  rw [show (10 : ℝ) * (0.1 / T) = 1 / T by ring]
  exact one_div_le_one_div_of_le hl hT

/-- The gain of a stored level, weighted by the change of phase under a shift by `c` full-rate samples. -/
theorem phi_shift (c : ℤ) (s : ℤ) (hc : c = 2 ^ l * s) :
    (∑ i ∈ range (2 ^ l), (gauss1d N (0.1 / T)).getD (i * M + m) 0) * ‖tw M (-((m : ℤ) * s)) - 1‖ ≤
      0.77 * |(c : ℝ)| / T := by
  have hl : (0 : ℝ) < 2 ^ l := by positivity
  have hT0 : 0 < T := lt_of_lt_of_le hl hT
  have hs : 0 < 0.1 / T := by positivity
  have hM0 : (0 : ℝ) < M := by exact_mod_cast (by omega : 0 < M)
  have hmM : (m : ℝ) ≤ M := by exact_mod_cast hm.le
  have hN : N ≠ 0 := by
    rw [← hM]
    have : 0 < M := by omega
    positivity
  have hNr : (N : ℝ) ≠ 0 := by exact_mod_cast hN
  have ht : ∀ i : ℕ, tw M (-((m : ℤ) * s)) = tw N (-(((i * M + m : ℕ) : ℤ) * c)) := by
    intro i
    have e : (-(((i * M + m : ℕ) : ℤ) * c)) = ((2 ^ l : ℕ) : ℤ) * (-((m : ℤ) * s) + M * (-(i * s))) := by
      rw [hc]; push_cast; ring
    rw [e, ← hM, mul_comm M, tw_scale _ _ (by positivity), tw_add, tw_mul_self M (by omega), mul_one]
  have hphase : ∀ k : ℕ, ∀ a : ℤ, ‖tw N (-((k : ℤ) * c)) - 1‖ ≤ 2 * Real.pi * |(c : ℝ)| * |(a : ℝ) + (k : ℝ) / N| := by
    intro k a
    have e : tw N (-((k : ℤ) * c)) = Complex.exp (Complex.I * ((-(2 * Real.pi * c * (a + (k : ℝ) / N)) : ℝ) : ℂ)) := by
      have : tw N (-((k : ℤ) * c)) = tw N (-((k : ℤ) * c) + N * (-(a * c))) := by
        rw [tw_add, tw_mul_self N hN, mul_one]
      rw [this]
      unfold tw
      congr 1
      have : (N : ℂ) ≠ 0 := by exact_mod_cast hN
      push_cast
      field_simp
      ring
    rw [e]
    refine (Real.norm_exp_I_mul_ofReal_sub_one_le).trans (le_of_eq ?_)
    rw [Real.norm_eq_abs, abs_neg, abs_mul, abs_mul, abs_of_pos (by positivity : (0 : ℝ) < 2 * Real.pi)]
  rw [sum_mul]
  have h := alias_le hM hs hm (fun k => ‖tw N (-((k : ℤ) * c)) - 1‖) (fun x => 2 * Real.pi * |(c : ℝ)| * |x|)
    (fun _ => norm_nonneg _) hphase
  rw [sum_congr rfl fun i _ => by rw [ht i]]
  refine h.trans ?_
  have h2 := sum_moment hs (d := 1 / 2 ^ l) (s := m / M) (by
    rw [show (10 : ℝ) * (0.1 / T) = 1 / T by ring]
    exact one_div_le_one_div_of_le hl hT) (by positivity) (by rw [div_le_one hM0]; exact hmM)
    ((morletP (0.1 / T) - 1) * 2 ^ l) (morletP (0.1 / T) * 2 ^ l)
  simp only [mul_assoc]
  rw [← mul_sum, ← mul_sum, ← mul_sum]
  have hpi := Real.pi_lt_d2
  calc 2 * (Real.pi * (|(c : ℝ)| * _)) ≤ 2 * (Real.pi * (|(c : ℝ)| * (1.2132 * (0.1 / T)))) := by gcongr
    _ = (2 * Real.pi * 0.12132) * (|(c : ℝ)| / T) := by ring
    _ ≤ 0.77 * (|(c : ℝ)| / T) := by
        apply mul_le_mul_of_nonneg_right _ (by positivity)
        linarith
    _ = _ := by ring

end

end Verif
