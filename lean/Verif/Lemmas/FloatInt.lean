import Verif.Model.FloatInt
import Mathlib.Analysis.Convex.SpecificFunctions.Basic
import Mathlib.Data.Int.Log
import Mathlib.Data.Nat.Log
import Mathlib.Algebra.Order.Round
import Mathlib.Tactic.NormNum
import Mathlib.Tactic.Linarith
import Mathlib.Tactic.Positivity
import Mathlib.Tactic.LinearCombination
import Mathlib.Analysis.Complex.ExponentialBounds

/-!
# Floors and ceilings of approximate logarithms
-/

namespace Verif

/-- What is assumed of the floating-point operations of the platform: doubles are not changed by rounding, and the
logarithm of a double has a relative error of at most `2^-50` and is exact on powers of two.  (Correctly rounded
operations satisfy it: `FloatOps.Correct.sound`.) -/
structure FloatOps.Sound (F : FloatOps) : Prop where
  rnd : ∀ r, IsDouble r → F.rnd r = r
  near : ∀ r, IsDouble r → 0 < r → |F.log2 r - Real.logb 2 r| ≤ 2 ^ (-50 : ℤ) * |Real.logb 2 r|
  pow : ∀ k : ℤ, |k| < 2 ^ 53 → F.log2 ((2 : ℝ) ^ k) = k

/-- Correctly rounded operations: the result is a double, and no double is closer to the exact value. -/
structure FloatOps.Correct (F : FloatOps) : Prop where
  rnd_double : ∀ r, IsDouble (F.rnd r)
  rnd_near : ∀ r s, IsDouble s → |F.rnd r - r| ≤ |s - r|
  log2_double : ∀ r, IsDouble r → 0 < r → IsDouble (F.log2 r)
  log2_near : ∀ r s, IsDouble r → 0 < r → IsDouble s → |F.log2 r - Real.logb 2 r| ≤ |s - Real.logb 2 r|

/-! ## Doubles -/

theorem isDouble_intCast {m : ℤ} (h : |m| < 2 ^ 53) : IsDouble m := ⟨m, 0, h, by simp⟩

theorem isDouble_natCast {n : ℕ} (h : n < 2 ^ 53) : IsDouble n := by
  have := isDouble_intCast (m := (n : ℤ)) (by rw [abs_of_nonneg (by positivity)]; exact_mod_cast h)
  simpa using this

theorem isDouble_zpow (k : ℤ) : IsDouble ((2 : ℝ) ^ k) := ⟨1, k, by norm_num, by simp⟩

theorem isDouble_dyadic {n : ℕ} (h : n < 2 ^ 53) (k : ℕ) : IsDouble ((n : ℝ) / 2 ^ k) := by
  refine ⟨n, -(k : ℤ), by rw [abs_of_nonneg (by positivity)]; exact_mod_cast h, ?_⟩
  rw [zpow_neg, zpow_natCast, div_eq_mul_inv]
  simp

/-- A double at least `2^a` is a multiple of `2^(a-52)`. -/
theorem IsDouble.multiple {r : ℝ} (h : IsDouble r) {a : ℤ} (ha : (2 : ℝ) ^ a ≤ r) :
    ∃ m : ℤ, r = m * (2 : ℝ) ^ (a - 52) := by
  obtain ⟨m, e, hm, rfl⟩ := h
  have hp : (0 : ℝ) < 2 ^ e := by positivity
  have h1 : (m : ℝ) < 2 ^ (53 : ℤ) := by
    have h2 := lt_of_abs_lt hm
    have : (m : ℝ) < 2 ^ 53 := by exact_mod_cast h2
    exact_mod_cast this
  have h3 : (2 : ℝ) ^ a < 2 ^ (53 + e) := by
    rw [zpow_add₀ (by norm_num)]
    exact lt_of_le_of_lt ha (mul_lt_mul_of_pos_right h1 hp)
  have h4 : a < 53 + e := (zpow_lt_zpow_iff_right₀ (by norm_num : (1 : ℝ) < 2)).1 h3
  obtain ⟨d, hd⟩ : ∃ d : ℕ, e = (a - 52) + d := ⟨(e - (a - 52)).toNat, by omega⟩
  refine ⟨m * 2 ^ d, ?_⟩
  rw [hd, zpow_add₀ (by norm_num), zpow_natCast]
  push_cast
  ring

/-- Every number has a double at relative distance at most `2^-50`. -/
theorem exists_double_near (L : ℝ) : ∃ r, IsDouble r ∧ |r - L| ≤ 2 ^ (-50 : ℤ) * |L| := by
  rcases eq_or_ne L 0 with rfl | hL
  · exact ⟨0, by simpa using isDouble_intCast (m := 0) (by norm_num), by simp⟩
  have hpos : 0 < |L| := abs_pos.2 hL
  set e : ℤ := Int.log 2 |L| with he
  have h1 : (2 : ℝ) ^ e ≤ |L| := by exact_mod_cast Int.zpow_log_le_self (b := 2) (by norm_num) hpos
  have h2 : |L| < (2 : ℝ) ^ (e + 1) := by exact_mod_cast Int.lt_zpow_succ_log_self (b := 2) (by norm_num) |L|
  clear_value e
  have hp : (0 : ℝ) < 2 ^ (e - 51) := by positivity
  set m : ℤ := ⌊L / 2 ^ (e - 51)⌋ with hm
  have f1 : (m : ℝ) ≤ L / 2 ^ (e - 51) := Int.floor_le _
  have f2 : L / 2 ^ (e - 51) < m + 1 := Int.lt_floor_add_one _
  clear_value m
  rw [le_div_iff₀ hp] at f1
  rw [div_lt_iff₀ hp] at f2
  have e1 : (2 : ℝ) ^ (e + 1) = 2 ^ (52 : ℕ) * 2 ^ (e - 51) := by
    rw [show e + 1 = (52 : ℕ) + (e - 51) by push_cast; ring, zpow_add₀ (by norm_num), zpow_natCast]
  have hb : |m| < 2 ^ 53 := by
    rw [abs_lt]
    have hL1 := neg_abs_le L
    have hL2 := le_abs_self L
    constructor
    · have : ((-2 ^ 53 : ℤ) : ℝ) < m := by
        push_cast
        by_contra hc
        push Not at hc
        have := mul_le_mul_of_nonneg_right hc hp.le
        nlinarith
      exact_mod_cast this
    · have : (m : ℝ) < ((2 ^ 53 : ℤ) : ℝ) := by
        push_cast
        by_contra hc
        push Not at hc
        have := mul_le_mul_of_nonneg_right hc hp.le
        nlinarith
      exact_mod_cast this
  refine ⟨m * 2 ^ (e - 51), ⟨m, _, hb, rfl⟩, ?_⟩
  have e2 : (2 : ℝ) ^ (e - 51) = 2 ^ (-51 : ℤ) * 2 ^ e := by
    rw [← zpow_add₀ (by norm_num)]
    congr 1
    ring
  have e3 : (2 : ℝ) ^ (-50 : ℤ) = 2 * 2 ^ (-51 : ℤ) := by norm_num
  have h51 : (0 : ℝ) < 2 ^ (-51 : ℤ) := by positivity
  rw [abs_le, e3]
  constructor
  · nlinarith
  · nlinarith [mul_pos h51 hpos]

/-- A nearest double exists. -/
theorem exists_nearest_double (L : ℝ) : ∃ r, IsDouble r ∧ ∀ s, IsDouble s → |r - L| ≤ |s - L| := by
  have key : ∀ L : ℝ, 0 < L → ∃ r, IsDouble r ∧ ∀ s, IsDouble s → |r - L| ≤ |s - L| := by
    intro L hL
    set e : ℤ := Int.log 2 L with he
    have h1 : (2 : ℝ) ^ e ≤ L := by exact_mod_cast Int.zpow_log_le_self (b := 2) (by norm_num) hL
    have h2 : L < (2 : ℝ) ^ (e + 1) := by exact_mod_cast Int.lt_zpow_succ_log_self (b := 2) (by norm_num) L
    clear_value e
    have hp : (0 : ℝ) < 2 ^ (e - 52) := by positivity
    set m : ℤ := round (L / 2 ^ (e - 52)) with hm
    have hround : ∀ z : ℤ, |m * 2 ^ (e - 52) - L| ≤ |z * 2 ^ (e - 52) - L| := by
      intro z
      have := round_le (L / 2 ^ (e - 52)) z
      rw [← hm, abs_sub_comm, abs_sub_comm _ (z : ℝ)] at this
      have a : ∀ w : ℝ, |w * 2 ^ (e - 52) - L| = |w - L / 2 ^ (e - 52)| * 2 ^ (e - 52) := by
        intro w
        rw [← abs_of_pos hp, ← abs_mul, abs_of_pos hp, sub_mul, div_mul_cancel₀ _ hp.ne']
      rw [a, a]
      exact mul_le_mul_of_nonneg_right this hp.le
    have e1 : (2 : ℝ) ^ (e + 1) = ((2 ^ 53 : ℤ) : ℝ) * 2 ^ (e - 52) := by
      push_cast
      rw [show e + 1 = (53 : ℕ) + (e - 52) by push_cast; ring, zpow_add₀ (by norm_num), zpow_natCast]
      norm_num
    have e0 : (2 : ℝ) ^ e = ((2 ^ 52 : ℤ) : ℝ) * 2 ^ (e - 52) := by
      push_cast
      nth_rewrite 1 [show e = (52 : ℕ) + (e - 52) by push_cast; ring]
      rw [zpow_add₀ (by norm_num), zpow_natCast]
      norm_num
    have hm0 : 0 ≤ m := by
      rw [hm, round_eq]
      exact Int.floor_nonneg.2 (by positivity)
    have hm1 : m ≤ 2 ^ 53 := by
      have : L / 2 ^ (e - 52) < ((2 ^ 53 : ℤ) : ℝ) := by
        rw [div_lt_iff₀ hp, ← e1]
        exact h2
      rw [hm, round_eq]
      refine Int.lt_add_one_iff.1 (Int.floor_lt.2 ?_)
      push_cast at this ⊢
      linarith
    have hd : IsDouble (m * 2 ^ (e - 52)) := by
      rcases eq_or_lt_of_le hm1 with h | h
      · rw [h, ← e1]
        exact isDouble_zpow _
      · exact ⟨m, _, by rw [abs_of_nonneg hm0]; exact h, rfl⟩
    refine ⟨_, hd, fun s hs => ?_⟩
    rcases le_total ((2 : ℝ) ^ e) s with hse | hse
    · obtain ⟨z, rfl⟩ := hs.multiple hse
      exact hround z
    · have := hround (2 ^ 52)
      rw [← e0] at this
      refine this.trans ?_
      rw [abs_of_nonpos (by linarith), abs_of_nonpos (by linarith)]
      linarith
  rcases lt_trichotomy L 0 with hL | rfl | hL
  · obtain ⟨r, ⟨m, e, hm, hr⟩, h⟩ := key (-L) (by linarith)
    refine ⟨-r, ⟨-m, e, by rwa [abs_neg], by rw [hr]; push_cast; ring⟩, ?_⟩
    rintro s ⟨m', e', hm', hs⟩
    have := h (-s) ⟨-m', e', by rwa [abs_neg], by rw [hs]; push_cast; ring⟩
    rw [show r - -L = -(-r - L) by ring, show -s - -L = -(s - L) by ring, abs_neg, abs_neg] at this
    exact this
  · exact ⟨0, by simpa using isDouble_intCast (m := 0) (by norm_num), fun s _ => by simp⟩
  · exact key L hL

theorem logb_zpow (k : ℤ) : Real.logb 2 ((2 : ℝ) ^ k) = k := by
  rw [← Real.rpow_intCast, Real.logb_rpow (by norm_num) (by norm_num)]

/-- Correctly rounded operations satisfy the assumption. -/
theorem FloatOps.Correct.sound {F : FloatOps} (h : F.Correct) : F.Sound where
  rnd r hr := by
    have := h.rnd_near r r hr
    rw [sub_self, abs_zero] at this
    exact sub_eq_zero.1 (abs_eq_zero.1 (le_antisymm this (abs_nonneg _)))
  near r hr h0 := by
    obtain ⟨s, hs, hn⟩ := exists_double_near (Real.logb 2 r)
    exact (h.log2_near r s hr h0 hs).trans hn
  pow k hk := by
    have := h.log2_near _ (k : ℝ) (isDouble_zpow k) (by positivity) (isDouble_intCast hk)
    rw [logb_zpow, sub_self, abs_zero] at this
    exact sub_eq_zero.1 (abs_eq_zero.1 (le_antisymm this (abs_nonneg _)))

/-- Correctly rounded operations exist. -/
theorem exists_correct : ∃ F : FloatOps, F.Correct :=
  ⟨⟨fun r => (exists_nearest_double r).choose, fun r => (exists_nearest_double (Real.logb 2 r)).choose⟩,
    fun r => (exists_nearest_double r).choose_spec.1, fun r s hs => (exists_nearest_double r).choose_spec.2 s hs,
    fun r _ _ => (exists_nearest_double (Real.logb 2 r)).choose_spec.1,
    fun r s _ _ hs => (exists_nearest_double (Real.logb 2 r)).choose_spec.2 s hs⟩

/-! ## Logarithms away from powers of two -/

/-- `log2` is at least `k + d` at `2^k (1 + d)`. -/
theorem le_logb_of_ge {k : ℤ} {d x : ℝ} (hd0 : 0 ≤ d) (hd1 : d ≤ 1) (hx : (2 : ℝ) ^ k * (1 + d) ≤ x) :
    k + d ≤ Real.logb 2 x := by
  have hp : (0 : ℝ) < 2 ^ k := by positivity
  have hx0 : 0 < x := lt_of_lt_of_le (by positivity) hx
  rw [Real.le_logb_iff_rpow_le (by norm_num) hx0, Real.rpow_add (by norm_num), Real.rpow_intCast]
  have := rpow_one_add_le_one_add_mul_self (s := 1) (by norm_num) hd0 hd1
  rw [one_add_one_eq_two, mul_one] at this
  exact (mul_le_mul_of_nonneg_left this hp.le).trans hx

/-- `log2` is at most `k - d` at `2^k (1 - d)`. -/
theorem logb_le_of_le {k : ℤ} {d x : ℝ} (hd0 : 0 ≤ d) (hx0 : 0 < x) (hx : x ≤ (2 : ℝ) ^ k * (1 - d)) :
    Real.logb 2 x ≤ k - d := by
  have hp : (0 : ℝ) < 2 ^ k := by positivity
  rw [Real.logb_le_iff_le_rpow (by norm_num) hx0, sub_eq_add_neg, Real.rpow_add (by norm_num), Real.rpow_intCast]
  refine hx.trans (mul_le_mul_of_nonneg_left ?_ hp.le)
  rw [Real.rpow_def_of_pos (by norm_num)]
  have h1 := Real.add_one_le_exp (Real.log 2 * -d)
  have h2 := Real.log_two_lt_d9
  nlinarith

/-- The window in which the integer part is certain. -/
theorem FloatOps.Sound.window {F : FloatOps} (h : F.Sound) {k : ℤ} (hk1 : -44 ≤ k) (hk2 : k ≤ 43) {x : ℝ}
    (hx : IsDouble x) (h1 : (2 : ℝ) ^ k * (1 + 2 ^ (-44 : ℤ)) ≤ x) (h2 : x ≤ (2 : ℝ) ^ (k + 1) * (1 - 2 ^ (-44 : ℤ))) :
    (k : ℝ) < F.log2 x ∧ F.log2 x < k + 1 := by
  have hx0 : 0 < x := lt_of_lt_of_le (by positivity) h1
  have l1 := le_logb_of_ge (by positivity) (by norm_num) h1
  have l2 := logb_le_of_le (by positivity) hx0 h2
  have hn := h.near x hx hx0
  have hk1' : (-44 : ℝ) ≤ k := by exact_mod_cast hk1
  have hk2' : (k : ℝ) ≤ 43 := by exact_mod_cast hk2
  push_cast at l2
  have ha : |Real.logb 2 x| ≤ 44 := by
    rw [abs_le]
    constructor
    · have : (0 : ℝ) < 2 ^ (-44 : ℤ) := by positivity
      linarith
    · have : (0 : ℝ) < 2 ^ (-44 : ℤ) := by positivity
      linarith
  have hb : |F.log2 x - Real.logb 2 x| ≤ 2 ^ (-50 : ℤ) * 44 :=
    hn.trans (mul_le_mul_of_nonneg_left ha (by positivity))
  have e : (2 : ℝ) ^ (-50 : ℤ) * 44 < 2 ^ (-44 : ℤ) := by norm_num
  rw [abs_le] at hb
  constructor
  · linarith [hb.1]
  · linarith [hb.2]

/-- The integer part is never off by more than one. -/
theorem FloatOps.Sound.off_by_one {F : FloatOps} (h : F.Sound) {k : ℤ} (hk1 : -44 ≤ k) (hk2 : k ≤ 43) {x : ℝ}
    (hx : IsDouble x) (h1 : (2 : ℝ) ^ k ≤ x) (h2 : x ≤ (2 : ℝ) ^ (k + 1)) :
    (k : ℝ) - 2 ^ (-44 : ℤ) < F.log2 x ∧ F.log2 x < k + 1 + 2 ^ (-44 : ℤ) := by
  have hx0 : 0 < x := lt_of_lt_of_le (by positivity) h1
  have l1 : (k : ℝ) ≤ Real.logb 2 x := by
    have := le_logb_of_ge (d := 0) le_rfl (by norm_num) (by simpa using h1)
    simpa using this
  have l2 : Real.logb 2 x ≤ k + 1 := by
    have := logb_le_of_le (d := 0) le_rfl hx0 (by simpa using h2)
    push_cast at this
    simpa using this
  have hn := h.near x hx hx0
  have hk1' : (-44 : ℝ) ≤ k := by exact_mod_cast hk1
  have hk2' : (k : ℝ) ≤ 43 := by exact_mod_cast hk2
  have ha : |Real.logb 2 x| ≤ 44 := by
    rw [abs_le]
    constructor <;> linarith
  have hb : |F.log2 x - Real.logb 2 x| ≤ 2 ^ (-50 : ℤ) * 44 :=
    hn.trans (mul_le_mul_of_nonneg_left ha (by positivity))
  have e : (2 : ℝ) ^ (-50 : ℤ) * 44 < 2 ^ (-44 : ℤ) := by norm_num
  rw [abs_le] at hb
  constructor
  · linarith [hb.1]
  · linarith [hb.2]

theorem floor_eq_of {k : ℤ} {y : ℝ} (h1 : (k : ℝ) ≤ y) (h2 : y < k + 1) : ⌊y⌋ = k := Int.floor_eq_iff.2 ⟨h1, h2⟩

theorem ceil_eq_of {k : ℤ} {y : ℝ} (h1 : (k : ℝ) < y) (h2 : y ≤ k + 1) : ⌈y⌉ = k + 1 :=
  Int.ceil_eq_iff.2 ⟨by push_cast; linarith, by push_cast; exact h2⟩

end Verif
