import Verif.Model.Backend1D
import Mathlib.RingTheory.RootsOfUnity.Complex
import Mathlib.Algebra.BigOperators.Fin
import Mathlib.Algebra.BigOperators.Field

/-! Discrete Fourier identities on lists. -/

namespace Verif

open Finset Complex

@[simp] theorem length_tab {α : Type} (n : Nat) (f : Nat → α) : (tab n f).length = n := by
  simp [tab]

theorem getD_tab {α : Type} (n : Nat) (f : Nat → α) (i : Nat) (d : α) :
    (tab n f).getD i d = if i < n then f i else d := by
  unfold tab
  rw [List.getD_eq_getElem?_getD]
  by_cases h : i < n
  · simp [h]
  · simp [h]

theorem getD_tab_lt {α : Type} {n : Nat} {f : Nat → α} {i : Nat} {d : α} (h : i < n) :
    (tab n f).getD i d = f i := by rw [getD_tab, if_pos h]

theorem list_ext_getD {α : Type} {a b : List α} (d : α) (hl : a.length = b.length)
    (h : ∀ i, i < a.length → a.getD i d = b.getD i d) : a = b := by
  apply List.ext_getElem hl
  intro i h1 h2
  have := h i h1
  simpa [List.getD_eq_getElem?_getD, h1, h2] using this

theorem eq_tab_getD {α : Type} (a : List α) (d : α) : a = tab a.length (fun i => a.getD i d) := by
  apply list_ext_getD d (by simp)
  intro i hi
  rw [getD_tab_lt hi]

theorem tab_congr {α : Type} {n : Nat} {f g : Nat → α} (h : ∀ i, i < n → f i = g i) :
    tab n f = tab n g := by
  unfold tab
  exact List.map_congr_left (fun i hi => h i (List.mem_range.1 hi))

theorem map_tab {α β : Type} (n : Nat) (f : Nat → α) (g : α → β) :
    (tab n f).map g = tab n (fun i => g (f i)) := by
  simp [tab]

theorem getD_map' {α β : Type} (l : List α) (g : α → β) (i : Nat) (d : α) :
    (l.map g).getD i (g d) = g (l.getD i d) := by
  rw [List.getD_eq_getElem?_getD, List.getD_eq_getElem?_getD]
  simp only [List.getElem?_map]
  cases l[i]? <;> rfl

theorem getD_ofReal (l : List ℝ) (i : Nat) :
    (l.map (fun r : ℝ => (r : ℂ))).getD i 0 = ((l.getD i 0 : ℝ) : ℂ) := by
  have := getD_map' l (fun r : ℝ => (r : ℂ)) i 0
  simpa using this

/-! ### Twiddle factors -/

theorem tw_zero (N : Nat) : tw N 0 = 1 := by simp [tw]

theorem tw_add (N : Nat) (a b : Int) : tw N (a + b) = tw N a * tw N b := by
  unfold tw
  rw [← Complex.exp_add]
  congr 1
  push_cast
  ring

theorem tw_mul_self (N : Nat) (hN : N ≠ 0) (a : Int) : tw N (N * a) = 1 := by
  unfold tw
  rw [Complex.exp_eq_one_iff]
  refine ⟨a, ?_⟩
  have : (N : ℂ) ≠ 0 := by exact_mod_cast hN
  push_cast
  field_simp

/-- Reducing a fraction inside the exponential. -/
theorem tw_scale (k M : Nat) (hk : k ≠ 0) (a : Int) : tw (k * M) (k * a) = tw M a := by
  unfold tw
  congr 1
  have : (k : ℂ) ≠ 0 := by exact_mod_cast hk
  rcases Nat.eq_zero_or_pos M with rfl | hM
  · simp
  · have hM' : (M : ℂ) ≠ 0 := by exact_mod_cast hM.ne'
    push_cast
    field_simp

theorem tw_congr (N : Nat) {a b : Int} (h : a % N = b % N) : tw N a = tw N b := by
  rcases Nat.eq_zero_or_pos N with rfl | hN
  · simp [tw]
  · have h1 : (N : Int) ∣ a - b := Int.ModEq.dvd (n := N) (a := b) (b := a) h.symm
    obtain ⟨c, hc⟩ := h1
    have : a = b + N * c := by omega
    rw [this, tw_add, tw_mul_self N hN.ne', mul_one]

theorem tw_pow (N : Nat) (a : Int) (k : Nat) : tw N (k * a) = tw N a ^ k := by
  induction k with
  | zero => simp [tw_zero]
  | succ k ih =>
    rw [pow_succ, ← ih, ← tw_add]
    congr 1
    push_cast
    ring

theorem norm_tw (N : Nat) (a : Int) : ‖tw N a‖ = 1 := by
  unfold tw
  have : (2 * Real.pi * I * a / N : ℂ) = ((2 * Real.pi * a / N : ℝ) : ℂ) * I := by
    push_cast; ring
  rw [this, Complex.norm_exp_ofReal_mul_I]

theorem tw_eq_one_iff (N : Nat) (hN : N ≠ 0) (a : Int) : tw N a = 1 ↔ (N : Int) ∣ a := by
  have hN' : (N : ℂ) ≠ 0 := by exact_mod_cast hN
  constructor
  · intro h
    unfold tw at h
    rw [Complex.exp_eq_one_iff] at h
    obtain ⟨n, hn⟩ := h
    refine ⟨n, ?_⟩
    have hpi : (2 * Real.pi * I : ℂ) ≠ 0 := by
      simp [Real.pi_ne_zero]
    have h2 : (a : ℂ) = N * n := by
      have : (2 * Real.pi * I : ℂ) * a = (2 * Real.pi * I) * (N * n) := by
        field_simp at hn
        linear_combination (2 * Real.pi * I : ℂ) * hn
      exact mul_left_cancel₀ hpi this
    exact_mod_cast h2
  · rintro ⟨c, rfl⟩
    exact tw_mul_self N hN c

/-- Orthogonality of characters. -/
theorem sum_tw (N : Nat) (hN : N ≠ 0) (a : Int) :
    ∑ k ∈ range N, tw N (k * a) = if (N : Int) ∣ a then (N : ℂ) else 0 := by
  simp_rw [tw_pow]
  split
  · rename_i h
    rw [(tw_eq_one_iff N hN a).2 h]
    simp
  · rename_i h
    have h1 : tw N a ≠ 1 := fun h' => h ((tw_eq_one_iff N hN a).1 h')
    have h2 : tw N a ^ N = 1 := by
      rw [← tw_pow]
      exact tw_mul_self N hN a
    rw [geom_sum_eq h1, h2]
    simp

/-! ### DFT -/

@[simp] theorem length_dft (x : List ℂ) : (dft x).length = x.length := by simp [dft]
@[simp] theorem length_idft (x : List ℂ) : (idft x).length = x.length := by simp [idft]
@[simp] theorem length_npRfft (x : List ℝ) : (npRfft x).length = x.length := by simp [npRfft]
@[simp] theorem length_npIrfft (x : List ℂ) : (npIrfft x).length = x.length := by simp [npIrfft]
@[simp] theorem length_npModulus (x : List ℂ) : (npModulus x).length = x.length := by
  simp [npModulus]

theorem getD_idft (x : List ℂ) {n : Nat} (hn : n < x.length) :
    (idft x).getD n 0 =
      (∑ k ∈ range x.length, x.getD k 0 * tw x.length ((k : Int) * n)) / x.length := by
  unfold idft
  rw [getD_tab_lt hn]

theorem getD_dft (x : List ℂ) {n : Nat} (hn : n < x.length) :
    (dft x).getD n 0 = ∑ k ∈ range x.length, x.getD k 0 * tw x.length (-((n : Int) * k)) := by
  unfold dft
  rw [getD_tab_lt hn]

/-- The inverse DFT as a function on all integers (periodic). -/
noncomputable def imp (h : List ℂ) (n : Int) : ℂ :=
  (∑ k ∈ range h.length, h.getD k 0 * tw h.length ((k : Int) * n)) / h.length

theorem getD_idft_imp (x : List ℂ) {n : Nat} (hn : n < x.length) :
    (idft x).getD n 0 = imp x n := getD_idft x hn

theorem imp_congr (h : List ℂ) {a b : Int} (hab : a % h.length = b % h.length) :
    imp h a = imp h b := by
  unfold imp
  congr 1
  apply Finset.sum_congr rfl
  intro k _
  congr 1
  apply tw_congr
  rw [Int.mul_emod, hab, ← Int.mul_emod]

theorem idft_dft (x : List ℂ) : idft (dft x) = x := by
  rcases Nat.eq_zero_or_pos x.length with h0 | hN
  · have : x = [] := List.length_eq_zero_iff.1 h0
    subst this
    simp [idft, dft, tab]
  · have hN' : (x.length : ℂ) ≠ 0 := by exact_mod_cast hN.ne'
    apply list_ext_getD 0 (by simp)
    intro n hn
    have hn' : n < x.length := by simpa using hn
    rw [getD_idft _ (by simpa using hn)]
    simp only [length_dft]
    rw [div_eq_iff hN']
    calc ∑ k ∈ range x.length, (dft x).getD k 0 * tw x.length ((k : Int) * n)
        = ∑ k ∈ range x.length, ∑ m ∈ range x.length,
            x.getD m 0 * tw x.length (k * ((n : Int) - m)) := by
          apply Finset.sum_congr rfl
          intro k hk
          rw [getD_dft _ (Finset.mem_range.1 hk), Finset.sum_mul]
          apply Finset.sum_congr rfl
          intro m _
          rw [mul_assoc, ← tw_add]
          congr 2
          ring
      _ = ∑ m ∈ range x.length, x.getD m 0 *
            ∑ k ∈ range x.length, tw x.length (k * ((n : Int) - m)) := by
          rw [Finset.sum_comm]
          apply Finset.sum_congr rfl
          intro m _
          rw [Finset.mul_sum]
      _ = ∑ m ∈ range x.length, if m = n then x.getD n 0 * x.length else 0 := by
          apply Finset.sum_congr rfl
          intro m hm
          rw [sum_tw _ hN.ne']
          have hm' := Finset.mem_range.1 hm
          by_cases hmn : m = n
          · subst hmn; simp
          · have : ¬ ((x.length : Int) ∣ (n : Int) - m) := by
              intro hd
              have h1 : |(n : Int) - m| < x.length := by
                rw [abs_lt]; omega
              have h2 := Int.eq_zero_of_abs_lt_dvd hd h1
              omega
            rw [if_neg this, if_neg hmn, mul_zero]
      _ = x.getD n 0 * x.length := by
          rw [Finset.sum_ite_eq' (range x.length) n, if_pos (Finset.mem_range.2 hn')]

theorem dft_idft (x : List ℂ) : dft (idft x) = x := by
  rcases Nat.eq_zero_or_pos x.length with h0 | hN
  · have : x = [] := List.length_eq_zero_iff.1 h0
    subst this
    simp [idft, dft, tab]
  · have hN' : (x.length : ℂ) ≠ 0 := by exact_mod_cast hN.ne'
    apply list_ext_getD 0 (by simp)
    intro n hn
    have hn' : n < x.length := by simpa using hn
    rw [getD_dft _ (by simpa using hn)]
    simp only [length_idft]
    have key : ∑ k ∈ range x.length, (idft x).getD k 0 * tw x.length (-((n : Int) * k))
        = (∑ k ∈ range x.length, ∑ m ∈ range x.length,
            x.getD m 0 * tw x.length (k * ((m : Int) - n))) / x.length := by
      rw [Finset.sum_div]
      apply Finset.sum_congr rfl
      intro k hk
      rw [getD_idft _ (Finset.mem_range.1 hk), div_mul_eq_mul_div, Finset.sum_mul]
      congr 1
      apply Finset.sum_congr rfl
      intro m _
      rw [mul_assoc, ← tw_add]
      congr 2
      ring
    rw [key, div_eq_iff hN']
    calc ∑ k ∈ range x.length, ∑ m ∈ range x.length,
            x.getD m 0 * tw x.length (k * ((m : Int) - n))
        = ∑ m ∈ range x.length, x.getD m 0 *
            ∑ k ∈ range x.length, tw x.length (k * ((m : Int) - n)) := by
          rw [Finset.sum_comm]
          apply Finset.sum_congr rfl
          intro m _
          rw [Finset.mul_sum]
      _ = ∑ m ∈ range x.length, if m = n then x.getD n 0 * x.length else 0 := by
          apply Finset.sum_congr rfl
          intro m hm
          rw [sum_tw _ hN.ne']
          have hm' := Finset.mem_range.1 hm
          by_cases hmn : m = n
          · subst hmn; simp
          · have : ¬ ((x.length : Int) ∣ (m : Int) - n) := by
              intro hd
              have h1 : |(m : Int) - n| < x.length := by
                rw [abs_lt]; omega
              have h2 := Int.eq_zero_of_abs_lt_dvd hd h1
              omega
            rw [if_neg this, if_neg hmn, mul_zero]
      _ = x.getD n 0 * x.length := by
          rw [Finset.sum_ite_eq' (range x.length) n, if_pos (Finset.mem_range.2 hn')]

/-- Convolution theorem: inverse DFT of a product with a DFT. -/
theorem imp_mul_dft (x h : List ℂ) (hl : x.length = h.length) (n : Int) :
    imp (List.zipWith (· * ·) (dft x) h) n =
      ∑ m ∈ range x.length, x.getD m 0 * imp h (n - m) := by
  have hlen : (List.zipWith (· * ·) (dft x) h).length = h.length := by simp [hl]
  unfold imp
  rw [hlen]
  have hget : ∀ k, k < h.length → (List.zipWith (· * ·) (dft x) h).getD k 0 =
      (dft x).getD k 0 * h.getD k 0 := by
    intro k hk
    rw [List.getD_eq_getElem?_getD, List.getD_eq_getElem?_getD, List.getD_eq_getElem?_getD]
    have h1 : k < (dft x).length := by simp [hl, hk]
    rw [List.getElem?_zipWith, List.getElem?_eq_getElem h1, List.getElem?_eq_getElem hk]
    rfl
  calc (∑ k ∈ range h.length, (List.zipWith (· * ·) (dft x) h).getD k 0 *
          tw h.length ((k : Int) * n)) / h.length
      = (∑ k ∈ range h.length, ∑ m ∈ range x.length,
          x.getD m 0 * (h.getD k 0 * tw h.length (k * (n - m)))) / h.length := by
        congr 1
        apply Finset.sum_congr rfl
        intro k hk
        have hk' := Finset.mem_range.1 hk
        rw [hget k hk', getD_dft _ (by omega), hl, Finset.sum_mul, Finset.sum_mul]
        apply Finset.sum_congr rfl
        intro m _
        have : tw h.length (k * (n - (m : Int))) =
            tw h.length (-((k : Int) * m)) * tw h.length (k * n) := by
          rw [← tw_add]; congr 1; ring
        rw [this]; ring
    _ = _ := by
        rw [Finset.sum_comm, Finset.sum_div]
        apply Finset.sum_congr rfl
        intro m _
        rw [mul_div_assoc', Finset.mul_sum]

/-- Splitting a sum over `range (k * M)` into blocks. -/
theorem sum_range_mul_block (k M : Nat) (f : Nat → ℂ) :
    ∑ j ∈ range (k * M), f j = ∑ i ∈ range k, ∑ m ∈ range M, f (i * M + m) := by
  induction k with
  | zero => simp
  | succ k ih =>
    rw [Finset.sum_range_succ, ← ih, Nat.succ_mul, Finset.sum_range_add]

/-- Folding (alias sum) of a spectrum into `M = N / k` bins. -/
noncomputable def fold (x : List ℂ) (k : Nat) : List ℂ :=
  tab (x.length / k) fun m => ∑ i ∈ range k, x.getD (i * (x.length / k) + m) 0

/-- Inverse DFT of an alias sum: `k` times the decimated signal. -/
theorem imp_fold (x : List ℂ) (k : Nat) (hk : k ≠ 0) (hd : k ∣ x.length) (n : Int) :
    imp (fold x k) n = k * imp x (n * k) := by
  obtain ⟨M, hM⟩ := hd
  have hdiv : x.length / k = M := by rw [hM, Nat.mul_div_cancel_left _ (Nat.pos_of_ne_zero hk)]
  have hk' : (k : ℂ) ≠ 0 := by exact_mod_cast hk
  unfold imp fold
  rw [length_tab, hdiv, hM, sum_range_mul_block, Finset.sum_comm]
  rcases Nat.eq_zero_or_pos M with rfl | hMpos
  · simp
  · have hM' : (M : ℂ) ≠ 0 := by exact_mod_cast hMpos.ne'
    push_cast
    rw [mul_div_assoc', div_eq_div_iff hM' (mul_ne_zero hk' hM')]
    rw [show (k : ℂ) * (∑ m ∈ range M, ∑ i ∈ range k, x.getD (i * M + m) 0 *
        tw (k * M) (((i : Int) * M + m) * (n * k))) * M =
        (∑ m ∈ range M, ∑ i ∈ range k, x.getD (i * M + m) 0 *
        tw (k * M) (((i : Int) * M + m) * (n * k))) * (k * M) by ring]
    congr 1
    apply Finset.sum_congr rfl
    intro m hm
    rw [getD_tab_lt (Finset.mem_range.1 hm), Finset.sum_mul]
    apply Finset.sum_congr rfl
    intro i _
    congr 1
    rw [show (((i : Int) * M + m) * (n * k)) = (k : Int) * ((i * M + m) * n) by ring,
      tw_scale k M hk]
    apply tw_congr
    rw [show ((i : Int) * M + m) * n = m * n + M * (i * n) by ring, Int.add_mul_emod_self_left]

theorem getD_map_div (l : List ℂ) (c : ℂ) (i : Nat) :
    (l.map (fun z => z / c)).getD i 0 = l.getD i 0 / c := by
  have := getD_map' l (fun z => z / c) i 0
  simpa using this

theorem imp_map_div (l : List ℂ) (c : ℂ) (n : Int) :
    imp (l.map (fun z => z / c)) n = imp l n / c := by
  unfold imp
  rw [List.length_map, div_right_comm]
  congr 1
  rw [Finset.sum_div]
  apply Finset.sum_congr rfl
  intro k _
  rw [getD_map_div]
  ring

theorem npSubsampleFourier_eq (x : List ℂ) (k : Nat) (y : List ℂ) :
    npSubsampleFourier x k = .ok y ↔
      k ≠ 0 ∧ k ∣ x.length ∧ y = (fold x k).map (fun z => z / (k : ℂ)) := by
  unfold npSubsampleFourier
  by_cases hk : k = 0
  · simp [hk]
  · simp only [hk, if_false, ne_eq, not_false_eq_true, true_and]
    by_cases hd : k * (x.length / k) = x.length
    · have hdvd : k ∣ x.length := ⟨_, hd.symm⟩
      simp only [hd, not_true_eq_false, if_false, hdvd, true_and, fold, map_tab]
      constructor
      · intro h; injection h with h; exact h.symm
      · intro h; rw [h]
    · have hdvd : ¬ k ∣ x.length := fun h => hd (Nat.mul_div_cancel' h)
      simp [hd, hdvd]

theorem npSubsampleFourier_error (x : List ℂ) (k : Nat) (h : ¬ (k ≠ 0 ∧ k ∣ x.length)) :
    ∃ e, npSubsampleFourier x k = .error e := by
  rcases hx : npSubsampleFourier x k with e | y
  · exact ⟨e, rfl⟩
  · exact absurd ((npSubsampleFourier_eq x k y).1 hx) (fun h' => h ⟨h'.1, h'.2.1⟩)

/-- Inverse DFT of the subsampled spectrum is the decimated inverse DFT. -/
theorem imp_subsample (x y : List ℂ) (k : Nat) (h : npSubsampleFourier x k = .ok y) (n : Int) :
    imp y n = imp x (n * k) := by
  obtain ⟨hk, hd, rfl⟩ := (npSubsampleFourier_eq x k y).1 h
  have hk' : (k : ℂ) ≠ 0 := by exact_mod_cast hk
  rw [imp_map_div, imp_fold x k hk hd]
  field_simp

end Verif
