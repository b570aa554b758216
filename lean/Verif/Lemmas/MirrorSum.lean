import Verif.Spec.Signal
import Mathlib.Algebra.Order.BigOperators.Group.Finset
import Mathlib.Algebra.BigOperators.Intervals

/-!
# How often the mirror reflection repeats a sample
-/

namespace Verif

open Finset

theorem mirror_of {N : ℕ} {t r k : ℤ} (ht : t = r + (2 * N - 2) * k) (h0 : 0 ≤ r) (h1 : r < 2 * N - 2) :
    Spec.mirror N t = (min r (2 * N - 2 - r)).toNat := by
  unfold Spec.mirror
  have : t % (2 * N - 2) = r := by
    rw [ht, Int.add_mul_emod_self_left, Int.emod_eq_of_lt h0 h1]
  simp only [this]

theorem mirror_mid {N i : ℕ} (hN : 2 ≤ N) (hi : i < N) : Spec.mirror N i = i := by
  rcases Nat.lt_or_ge i (2 * N - 2) with h | h
  · rw [mirror_of (r := i) (k := 0) (by ring) (by omega) (by omega)]; omega
  · omega

theorem mirror_left {N d : ℕ} (hN : 2 ≤ N) (h0 : 0 < d) (hd : d < N) : Spec.mirror N (-(d : ℤ)) = d := by
  rw [mirror_of (r := 2 * N - 2 - d) (k := -1) (by ring) (by omega) (by omega)]; omega

theorem mirror_left_end {N : ℕ} (hN : 2 ≤ N) : Spec.mirror N (-(N : ℤ)) = N - 2 := by
  rcases Nat.lt_or_ge 2 N with h | h
  · rw [mirror_of (r := N - 2) (k := -1) (by ring) (by omega) (by omega)]; omega
  · have : N = 2 := by omega
    subst this
    rw [mirror_of (r := 0) (k := -1) (by norm_num) (by omega) (by omega)]; simp

theorem mirror_right {N d : ℕ} (hN : 2 ≤ N) (hd : d + 1 < N) : Spec.mirror N ((N : ℤ) + d) = N - 2 - d := by
  rcases Nat.lt_or_ge (N + d) (2 * N - 2) with h | h
  · rw [mirror_of (r := N + d) (k := 0) (by ring) (by omega) (by omega)]; omega
  · rw [mirror_of (r := N + d - (2 * N - 2)) (k := 1) (by ring) (by omega) (by omega)]; omega

theorem mirror_right_end {N : ℕ} (hN : 2 ≤ N) : Spec.mirror N ((N : ℤ) + (N - 1 : ℕ)) = 1 := by
  rcases Nat.lt_or_ge 2 N with h | h
  · rw [mirror_of (r := 1) (k := 1) (by push_cast [Nat.cast_sub (by omega : 1 ≤ N)]; ring) (by omega) (by omega)]; omega
  · have : N = 2 := by omega
    subst this
    rw [mirror_of (r := 1) (k := 1) (by norm_num) (by omega) (by omega)]; simp

theorem sum_shift_le (n : ℕ) (F : ℕ → ℝ) (hF : ∀ i, 0 ≤ F i) :
    ∑ d ∈ range (n - 1), F (d + 1) ≤ ∑ i ∈ range n, F i := by
  rcases n with _ | n
  · simp
  · rw [Nat.add_sub_cancel, Finset.sum_range_succ']
    exact le_add_of_nonneg_right (hF 0)

theorem sum_reverse_le (n : ℕ) (F : ℕ → ℝ) (hF : ∀ i, 0 ≤ F i) :
    ∑ d ∈ range (n - 1), F (n - 2 - d) ≤ ∑ i ∈ range n, F i := by
  have e : ∑ d ∈ range (n - 1), F (n - 2 - d) = ∑ d ∈ range (n - 1), F d := by
    rw [← Finset.sum_range_reflect F (n - 1)]
    exact sum_congr rfl fun d _ => by congr 1
  rw [e]
  exact sum_le_sum_of_subset_of_nonneg (range_subset_range.2 (by omega)) fun _ _ _ => hF _

theorem sum_mirror_left (n t : ℕ) (hn : 2 ≤ n) (ht : t ≤ n) (F : ℕ → ℝ) (hF : ∀ i, 0 ≤ F i) :
    ∑ i ∈ range t, F (Spec.mirror n ((i : ℤ) - t)) ≤ ∑ i ∈ range n, F i + if t = n then F (n - 2) else 0 := by
  have e : ∑ i ∈ range t, F (Spec.mirror n ((i : ℤ) - t)) = ∑ d ∈ range t, F (Spec.mirror n (-((d + 1 : ℕ) : ℤ))) := by
    rw [← Finset.sum_range_reflect (fun d => F (Spec.mirror n (-((d + 1 : ℕ) : ℤ)))) t]
    refine sum_congr rfl fun i hi => ?_
    rw [mem_range] at hi
    congr 2
    omega
  rw [e]
  have key : ∀ s ≤ n - 1, ∑ d ∈ range s, F (Spec.mirror n (-((d + 1 : ℕ) : ℤ))) ≤ ∑ i ∈ range n, F i := by
    intro s hs
    have : ∀ d ∈ range s, F (Spec.mirror n (-((d + 1 : ℕ) : ℤ))) = F (d + 1) := by
      intro d hd
      rw [mem_range] at hd
      rw [mirror_left hn (by omega) (by omega)]
    rw [sum_congr rfl this]
    exact (sum_le_sum_of_subset_of_nonneg (range_subset_range.2 hs) fun _ _ _ => hF _).trans (sum_shift_le n F hF)
  split
  · rename_i h
    subst h
    obtain ⟨m, rfl⟩ : ∃ m, t = m + 1 := ⟨t - 1, by omega⟩
    rw [Finset.sum_range_succ, mirror_left_end hn]
    have := key m (by omega)
    linarith
  · rw [add_zero]
    exact key t (by omega)

theorem sum_mirror_right (n b : ℕ) (hn : 2 ≤ n) (hb : b ≤ n) (F : ℕ → ℝ) (hF : ∀ i, 0 ≤ F i) :
    ∑ d ∈ range b, F (Spec.mirror n ((n : ℤ) + d)) ≤ ∑ i ∈ range n, F i + if b = n then F 1 else 0 := by
  have key : ∀ s ≤ n - 1, ∑ d ∈ range s, F (Spec.mirror n ((n : ℤ) + d)) ≤ ∑ i ∈ range n, F i := by
    intro s hs
    have : ∀ d ∈ range s, F (Spec.mirror n ((n : ℤ) + d)) = F (n - 2 - d) := by
      intro d hd
      rw [mem_range] at hd
      rw [mirror_right hn (by omega)]
    rw [sum_congr rfl this]
    exact (sum_le_sum_of_subset_of_nonneg (range_subset_range.2 hs) fun _ _ _ => hF _).trans (sum_reverse_le n F hF)
  split
  · rename_i h
    subst h
    obtain ⟨m, rfl⟩ : ∃ m, b = m + 1 := ⟨b - 1, by omega⟩
    rw [Finset.sum_range_succ]
    have e := mirror_right_end hn
    rw [Nat.add_sub_cancel] at e
    rw [e]
    have := key m (by omega)
    linarith
  · rw [add_zero]
    exact key b (by omega)

/-- Reflection by at most the length on both sides (less for three samples) repeats no sample more than four times. -/
theorem sum_mirror_le (n t b : ℕ) (hn : 2 ≤ n) (ht : t ≤ n) (hb : b ≤ n) (h3 : n = 3 → t ≠ 3) (F : ℕ → ℝ)
    (hF : ∀ i, 0 ≤ F i) :
    ∑ i ∈ range (t + n + b), F (Spec.mirror n ((i : ℤ) - t)) ≤ 4 * ∑ i ∈ range n, F i := by
  rw [Finset.sum_range_add, Finset.sum_range_add]
  have e1 : ∑ x ∈ range n, F (Spec.mirror n (((t + x : ℕ) : ℤ) - t)) = ∑ i ∈ range n, F i := by
    refine sum_congr rfl fun i hi => ?_
    rw [show ((t + i : ℕ) : ℤ) - t = (i : ℕ) by omega, mirror_mid hn (mem_range.1 hi)]
  have e2 : ∑ x ∈ range b, F (Spec.mirror n (((t + n + x : ℕ) : ℤ) - t)) =
      ∑ d ∈ range b, F (Spec.mirror n ((n : ℤ) + d)) := by
    refine sum_congr rfl fun i _ => ?_
    congr 2; omega
  rw [e1, e2]
  have hl := sum_mirror_left n t hn ht F hF
  have hr := sum_mirror_right n b hn hb F hF
  have hx : (if t = n then F (n - 2) else 0) + (if b = n then F 1 else 0) ≤ ∑ i ∈ range n, F i := by
    have s1 : F (n - 2) ≤ ∑ i ∈ range n, F i :=
      single_le_sum (f := F) (fun i _ => hF i) (mem_range.2 (by omega))
    have s2 : F 1 ≤ ∑ i ∈ range n, F i :=
      single_le_sum (f := F) (fun i _ => hF i) (mem_range.2 (by omega))
    split
    · split
      · have hne : n - 2 ≠ 1 := by
          intro h
          have : n = 3 := by omega
          exact h3 this (by omega)
        rw [← sum_pair (f := F) hne]
        apply sum_le_sum_of_subset_of_nonneg
        · intro i hi
          rw [mem_insert, mem_singleton] at hi
          rw [mem_range]; omega
        · exact fun _ _ _ => hF _
      · linarith
    · split
      · linarith
      · have := sum_nonneg fun i (_ : i ∈ range n) => hF i
        linarith
  linarith

end Verif
