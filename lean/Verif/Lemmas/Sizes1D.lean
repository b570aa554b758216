import Verif.Model.Utils1D
import Mathlib.Tactic.Ring
import Mathlib.Tactic.Linarith

/-! Helper lemmas for the size bookkeeping of the 1-D frontend. -/

namespace Verif

/-- The dictionary built by the loop holds the ceiling of `i / 2^j` at key `j`. -/
theorem borderDict_get (K i : Nat) (j : Nat) :
    borderDict K i j = if j ≤ K then some ((i + (2 ^ j - 1)) / 2 ^ j) else none := by
  induction K generalizing j with
  | zero =>
    simp only [borderDict, List.range'_zero, List.foldl_nil]
    by_cases h : j = 0
    · subst h; simp
    · simp [h]
  | succ K ih =>
    have step : borderDict (K + 1) i =
        Dict.set (borderDict K i) (K + 1) ((borderDict K i K).map halfUp) := by
      simp only [borderDict, List.range'_concat, List.foldl_append, List.foldl_cons, List.foldl_nil]
      simp [Nat.add_comm]
    rw [step]
    unfold Dict.set
    by_cases hj : j = K + 1
    · subst hj
      simp only [if_true, ih, le_refl, Option.map_some, Option.some.injEq, halfUp]
      have hp : 0 < 2 ^ K := Nat.pow_pos (by norm_num)
      rw [pow_succ]
      generalize 2 ^ K = p at hp
      have e1 : (i + (p * 2 - 1)) / (p * 2) = ((i + (p - 1)) / p + 1) / 2 := by
        rw [← Nat.div_div_eq_div_mul]
        congr 1
        rw [show i + (p * 2 - 1) = (i + (p - 1)) + p by omega, Nat.add_div_right _ hp]
      rw [e1]; omega
    · simp only [hj, if_false, ih]
      by_cases hle : j ≤ K
      · simp [hle, Nat.le_succ_of_le hle]
      · have : ¬ j ≤ K + 1 := by omega
        simp [hle, this]

/-- Ceiling division characterises the first multiple at or after `i`. -/
theorem ceilDiv_le_iff (i p m : Nat) (hp : 0 < p) :
    (i + (p - 1)) / p ≤ m ↔ i ≤ m * p := by
  rw [← Nat.lt_succ_iff, Nat.div_lt_iff_lt_mul hp, Nat.succ_mul]
  omega

theorem lt_ceilDiv_iff (i p m : Nat) (hp : 0 < p) :
    m < (i + (p - 1)) / p ↔ m * p < i := by
  rw [← not_le, ceilDiv_le_iff i p m hp, not_le]

theorem log_lower (N : Nat) (hN : 1 ≤ N) : N ≤ 2 ^ Nat.log 2 (3 * N - 2) := by
  rcases Nat.lt_or_ge N 2 with h | h
  · have : N = 1 := by omega
    subst this; simp
  · have h1 := Nat.lt_pow_succ_log_self (b := 2) (by norm_num) (3 * N - 2)
    rw [pow_succ] at h1
    omega

theorem clog_lower (N m : Nat) : N ≤ 2 ^ Nat.clog 2 (N + 2 * m) := by
  have := Nat.le_pow_clog (b := 2) (by norm_num) (N + 2 * m)
  omega

theorem le_jPad (N m : Nat) (hN : 1 ≤ N) : N ≤ 2 ^ jPad N m := by
  unfold jPad
  rcases min_choice (Nat.clog 2 (N + 2 * m)) (Nat.log 2 (3 * N - 2)) with h | h <;> rw [h]
  · exact clog_lower N m
  · exact log_lower N hN

theorem jPad_le (N m : Nat) (hN : 1 ≤ N) : 2 ^ jPad N m ≤ 3 * N - 2 := by
  have h1 : 2 ^ jPad N m ≤ 2 ^ Nat.log 2 (3 * N - 2) :=
    Nat.pow_le_pow_right (by norm_num) (min_le_right _ _)
  exact h1.trans (Nat.pow_log_le_self 2 (by omega))

theorem computePadding_eq (N Ni l r : Nat) :
    computePadding N Ni = .ok (l, r) ↔
      l + Ni + r = N ∧ l ≤ r ∧ r ≤ l + 1 ∧ r < Ni := by
  unfold computePadding
  by_cases h : N < Ni
  · simp only [h, if_true]
    constructor
    · intro h'; cases h'
    · rintro ⟨h1, -⟩; omega
  · simp only [h, if_false]
    split
    · rename_i h2
      constructor
      · intro h'; cases h'
      · rintro ⟨h1, h3, h4, h5⟩
        exfalso
        rcases le_total ((N - Ni) / 2) (N - Ni - (N - Ni) / 2) with hm | hm
        · rw [max_eq_right hm] at h2; omega
        · rw [max_eq_left hm] at h2; omega
    · rename_i h2
      rw [ge_iff_le, le_max_iff, not_or] at h2
      simp only [Except.ok.injEq, Prod.mk.injEq]
      omega

theorem zpow_two_pos (e : Int) : (0 : Rat) < (2 : Rat) ^ e := zpow_pos (by norm_num) e

theorem pyTwoPow_val (e : Int) : (pyTwoPow e).val = (2 : Rat) ^ e := by
  unfold pyTwoPow
  split
  · rename_i h
    obtain ⟨n, rfl⟩ := Int.eq_ofNat_of_zero_le h
    simp [PyNum.val]
  · rfl

theorem floorLog2_twoPow (J : Nat) : floorLog2 ((2 : Rat) ^ J) = J := by
  unfold floorLog2
  have := Int.log_zpow (R := Rat) (b := 2) (by norm_num) (J : Int)
  simpa using this

theorem isPow2_iff (n : Nat) : isPow2 n = true ↔ ∃ k, n = 2 ^ k := by
  unfold isPow2
  simp only [beq_iff_eq]
  constructor
  · intro h; exact ⟨_, h.symm⟩
  · rintro ⟨k, rfl⟩
    rw [Nat.log_pow (by norm_num)]

end Verif
