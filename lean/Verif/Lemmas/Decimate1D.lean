import Verif.Lemmas.Energy1D
import Verif.Lemmas.GaussAlias
import Mathlib.Algebra.Order.BigOperators.Ring.Finset

/-!
# What decimation does to the energy of a filtered signal
-/

namespace Verif

open Finset

theorem sum_blocksC (k M : ℕ) (f : ℕ → ℂ) :
    ∑ j ∈ range (k * M), f j = ∑ i ∈ range k, ∑ m ∈ range M, f (i * M + m) := by
  induction k with
  | zero => simp
  | succ k ih => rw [sum_range_succ, ← ih, add_mul, one_mul, sum_range_add]

/-- Decimation folds the spectrum. -/
theorem imp_decimate (z : List ℂ) {q M : ℕ} (hq : q ≠ 0) (hz : z.length = q * M) (t : ℕ) :
    imp z ((t : ℤ) * q) =
      (∑ r ∈ range M, (∑ a ∈ range q, z.getD (a * M + r) 0) * tw M ((r : ℤ) * t)) / (q * M : ℕ) := by
  unfold imp
  rw [hz, sum_blocksC, sum_comm]
  congr 1
  refine sum_congr rfl fun r _ => ?_
  rw [sum_mul]
  refine sum_congr rfl fun a _ => ?_
  congr 1
  have e : (((a * M + r : ℕ) : ℤ) * ((t : ℤ) * q)) = (q : ℤ) * ((M : ℤ) * (a * t) + (r : ℤ) * t) := by
    push_cast; ring
  rw [e, tw_scale q M hq]
  rcases Nat.eq_zero_or_pos M with h0 | hM
  · subst h0
    simp [tw]
  · rw [tw_add, tw_mul_self M (by omega), one_mul]

/-- Energy of decimated samples: Parseval for the folded spectrum. -/
theorem parseval_decimate (z : List ℂ) {q M : ℕ} (hq : q ≠ 0) (hM : M ≠ 0) (hz : z.length = q * M) :
    ∑ t ∈ range M, ‖imp z ((t : ℤ) * q)‖ ^ 2 =
      (∑ r ∈ range M, ‖∑ a ∈ range q, z.getD (a * M + r) 0‖ ^ 2) / (q * (q * M)) := by
  have h := sum_sq_of_orthogonal (range M) (range M) (fun a m => tw M ((a : ℤ) * m)) (M : ℝ)
    (char1_orthogonal hM) fun r => ∑ a ∈ range q, z.getD (a * M + r) 0
  have e : ∀ t ∈ range M, ‖imp z ((t : ℤ) * q)‖ ^ 2 =
      ‖∑ r ∈ range M, (∑ a ∈ range q, z.getD (a * M + r) 0) * tw M ((r : ℤ) * t)‖ ^ 2 / ((q * M : ℕ) : ℝ) ^ 2 := by
    intro t _
    rw [imp_decimate z hq hz, norm_div, Complex.norm_natCast, div_pow]
  rw [sum_congr rfl e, ← sum_div, h]
  have hq' : (q : ℝ) ≠ 0 := by exact_mod_cast hq
  have hM' : (M : ℝ) ≠ 0 := by exact_mod_cast hM
  push_cast
  field_simp

/-- Cauchy-Schwarz with the filter as weight. -/
theorem norm_sq_sum_le {ι : Type} (s : Finset ι) (X : ι → ℂ) (f : ι → ℝ) :
    ‖∑ a ∈ s, X a * (f a : ℂ)‖ ^ 2 ≤ (∑ a ∈ s, |f a|) * ∑ a ∈ s, ‖X a‖ ^ 2 * |f a| := by
  have h1 : ‖∑ a ∈ s, X a * (f a : ℂ)‖ ≤ ∑ a ∈ s, ‖X a‖ * |f a| := by
    refine (norm_sum_le _ _).trans (le_of_eq (sum_congr rfl fun a _ => ?_))
    rw [norm_mul, Complex.norm_real, Real.norm_eq_abs]
  refine (pow_le_pow_left₀ (norm_nonneg _) h1 2).trans ?_
  refine sum_sq_le_sum_mul_sum_of_sq_le_mul s (fun _ _ => abs_nonneg _)
    (fun _ _ => mul_nonneg (sq_nonneg _) (abs_nonneg _)) fun a _ => le_of_eq ?_
  ring

/-- The power spectrum of a real signal, per sample. -/
noncomputable def power1 (x : List ℝ) (k : ℕ) : ℝ := ‖(npRfft x).getD k 0‖ ^ 2 / x.length

theorem power1_nonneg (x : List ℝ) (k : ℕ) : 0 ≤ power1 x k := by unfold power1; positivity

theorem sum_power1 (x : List ℝ) : ∑ k ∈ range x.length, power1 x k = energy1 x := by
  unfold power1
  rw [← sum_div, parseval_rfft]
  rcases Nat.eq_zero_or_pos x.length with h0 | hpos
  · simp [h0, energy1]
  · field_simp

/-- **Energy of a filtered and decimated signal.**  Keeping one sample in `q` divides the energy by `q`, up to the
sum `B` of the moduli of the filter over the frequencies that the decimation identifies. -/
theorem energy_decim (x f : List ℝ) (hl : f.length = x.length) {q M : ℕ} (hq : q ≠ 0) (hx : x.length = q * M) {B : ℝ}
    (hB : ∀ r < M, ∑ a ∈ range q, |f.getD (a * M + r) 0| ≤ B) :
    q * ∑ t ∈ range M, ‖Spec.convR x (Spec.impulseR f) ((t : ℤ) * q)‖ ^ 2 ≤
      B * ∑ k ∈ range x.length, power1 x k * |f.getD k 0| := by
  rcases Nat.eq_zero_or_pos M with h0 | hM
  · subst h0
    rw [hx]; simp
  obtain ⟨z, h1⟩ : ∃ z, npCdgmm (npRfft x) f = .ok z := ⟨_, (npCdgmm_eq _ _ _).2 ⟨by simp [hl], rfl⟩⟩
  have hz : z.length = q * M := by rw [length_of_cdgmm h1, length_npRfft, hx]
  have hp := parseval_decimate z hq (by omega) hz
  simp only [imp_cdgmm_rfft h1] at hp
  rw [hp]
  have hq' : (0 : ℝ) < q := by exact_mod_cast Nat.pos_of_ne_zero hq
  have hM' : (0 : ℝ) < M := by exact_mod_cast hM
  have e : ∀ r, (∑ a ∈ range q, z.getD (a * M + r) 0) =
      ∑ a ∈ range q, (npRfft x).getD (a * M + r) 0 * ((f.getD (a * M + r) 0 : ℝ) : ℂ) :=
    fun r => sum_congr rfl fun a _ => getD_cdgmm h1 _
  have h2 : ∑ r ∈ range M, ‖∑ a ∈ range q, z.getD (a * M + r) 0‖ ^ 2 ≤
      B * ∑ k ∈ range x.length, ‖(npRfft x).getD k 0‖ ^ 2 * |f.getD k 0| := by
    rw [hx, sum_blocks, sum_comm, mul_sum]
    refine sum_le_sum fun r hr => ?_
    rw [e]
    refine (norm_sq_sum_le _ _ _).trans ?_
    exact mul_le_mul_of_nonneg_right (hB r (mem_range.1 hr)) (sum_nonneg fun _ _ => by positivity)
  have h3 : ∑ k ∈ range x.length, power1 x k * |f.getD k 0| =
      (∑ k ∈ range x.length, ‖(npRfft x).getD k 0‖ ^ 2 * |f.getD k 0|) / (q * M) := by
    rw [sum_div]
    refine sum_congr rfl fun k _ => ?_
    unfold power1
    rw [hx]; push_cast; ring
  rw [h3]
  have h4 := div_le_div_of_nonneg_right h2 (by positivity : (0 : ℝ) ≤ q * M)
  refine le_trans (le_of_eq ?_) (h4.trans (le_of_eq ?_))
  · field_simp
  · ring

end Verif
