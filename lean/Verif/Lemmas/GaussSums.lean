import Mathlib.Analysis.SpecialFunctions.Trigonometric.Bounds
import Mathlib.Analysis.SpecialFunctions.Exp
import Mathlib.Analysis.Complex.Exponential
import Mathlib.Analysis.Complex.Trigonometric
import Mathlib.Tactic.NormNum
import Mathlib.Tactic.Linarith
import Mathlib.Tactic.IntervalCases
import Mathlib.Tactic.FieldSimp
import Mathlib.Algebra.BigOperators.Intervals
import Mathlib.Algebra.BigOperators.Field

/-!
# Sampled Gaussians against multiples of `pi / 16`

Numerical bounds on `sum_u exp(- gamma u^2) cos (omega u)`, for the counterexample to the exchange of
the axes in 2-D scattering (C83).
-/

namespace Verif

open Finset

/-- `exp (- 25 / 512)`. -/
noncomputable def gq : ℝ := Real.exp (-(25 / 512))

/-- `10^7 gq^(u^2)`, rounded. -/
def gqTab : List ℤ := [10000000, 9523448, 8225776, 6443887, 4578334, 2950227, 1724216, 913938, 439369, 191572, 75757, 27171, 8838, 2607, 698, 169, 37]

/-- `10^7 cos (m pi / 16)`, rounded. -/
def cosTab : List ℤ := [10000000, 9807853, 9238795, 8314696, 7071068, 5555702, 3826834, 1950903, 0, -1950903, -3826834, -5555702, -7071068, -8314696, -9238795, -9807853, -10000000, -9807853, -9238795, -8314696, -7071068, -5555702, -3826834, -1950903, 0, 1950903, 3826834, 5555702, 7071068, 8314696, 9238795, 9807853]

theorem gq_pos : 0 < gq := Real.exp_pos _

theorem gq_near : |gq - 0.9523448| ≤ 1e-8 := by
  have h := Real.exp_bound (x := -(25 / 512)) (by norm_num [abs_le]) (n := 6) (by norm_num)
  rw [abs_le] at h ⊢
  unfold gq
  norm_num [Finset.sum_range_succ, Nat.factorial, abs_of_pos, abs_of_neg] at h ⊢
  constructor <;> linarith [h.1, h.2]

theorem gq_pow {u : ℕ} (hu : u ≤ 16) : |gq ^ (u ^ 2) - (gqTab.getD u 0 : ℤ) / 10 ^ 7| ≤ 1e-6 := by
  obtain ⟨h1, h2⟩ := abs_le.1 gq_near
  have l : (0.95234479 : ℝ) ≤ gq := by norm_num at h1 ⊢; linarith
  have r : gq ≤ (0.95234481 : ℝ) := by norm_num at h2 ⊢; linarith
  have L := pow_le_pow_left₀ (by norm_num) l (u ^ 2)
  have R := pow_le_pow_left₀ (by norm_num at l ⊢; linarith) r (u ^ 2)
  rw [abs_le]
  interval_cases u <;> simp only [gqTab, List.getD_cons_zero, List.getD_cons_succ] <;> norm_num at L R ⊢ <;>
    constructor <;> linarith


theorem sqrt_between {x lo hi l u : ℝ} (hx : lo ≤ x ∧ x ≤ hi) (hu : 0 ≤ u) (h1 : l ^ 2 ≤ lo)
    (h2 : hi ≤ u ^ 2) : l ≤ Real.sqrt x ∧ Real.sqrt x ≤ u :=
  ⟨Real.le_sqrt_of_sq_le (h1.trans hx.1), (Real.sqrt_le_left hu).2 (hx.2.trans h2)⟩

/-- `cos (m pi / 16)`. -/
noncomputable def gc (m : ℕ) : ℝ := Real.cos (m * (Real.pi / 16))

theorem gc_add (m : ℕ) : gc (m + 16) = -gc m := by
  unfold gc
  rw [← Real.cos_add_pi]
  congr 1
  push_cast
  ring

theorem gc_sub {m : ℕ} (hm : m ≤ 16) : gc (16 - m) = -gc m := by
  unfold gc
  rw [← Real.cos_pi_sub]
  congr 1
  push_cast [hm]
  ring

theorem gc_mod (m : ℕ) : gc m = gc (m % 32) := by
  conv_lhs => rw [← Nat.div_add_mod m 32]
  generalize m / 32 = k
  generalize m % 32 = r
  unfold gc
  rw [show ((32 * k + r : ℕ) : ℝ) * (Real.pi / 16) = r * (Real.pi / 16) + k * (2 * Real.pi) by push_cast; ring]
  exact Real.cos_add_nat_mul_two_pi _ _

theorem abs_gc_le (m : ℕ) : |gc m| ≤ 1 := Real.abs_cos_le_one _

theorem gc_table : ∀ m ≤ 8, |gc m - (cosTab.getD m 0 : ℤ) / 10 ^ 7| ≤ 1e-6 := by
  have hA : (1.4142135621 : ℝ) ≤ Real.sqrt 2 ∧ Real.sqrt 2 ≤ 1.4142135626 :=
    sqrt_between (lo := 2) (hi := 2) (by norm_num) (by norm_num) (by norm_num) (by norm_num)
  have hB : (1.847759063 : ℝ) ≤ Real.sqrt (2 + Real.sqrt 2) ∧ Real.sqrt (2 + Real.sqrt 2) ≤ 1.847759068 :=
    sqrt_between (lo := 2 + 1.4142135621) (hi := 2 + 1.4142135626) ⟨by linarith [hA.1], by linarith [hA.2]⟩ (by norm_num)
      (by norm_num) (by norm_num)
  have hD : (0.765366862 : ℝ) ≤ Real.sqrt (2 - Real.sqrt 2) ∧ Real.sqrt (2 - Real.sqrt 2) ≤ 0.765366867 :=
    sqrt_between (lo := 2 - 1.4142135626) (hi := 2 - 1.4142135621) ⟨by linarith [hA.2], by linarith [hA.1]⟩ (by norm_num)
      (by norm_num) (by norm_num)
  have hE : (1.96157054 : ℝ) ≤ Real.sqrt (2 + Real.sqrt (2 + Real.sqrt 2)) ∧
      Real.sqrt (2 + Real.sqrt (2 + Real.sqrt 2)) ≤ 1.96157059 :=
    sqrt_between (lo := 2 + 1.847759063) (hi := 2 + 1.847759068) ⟨by linarith [hB.1], by linarith [hB.2]⟩ (by norm_num)
      (by norm_num) (by norm_num)
  have hF : (0.39018062 : ℝ) ≤ Real.sqrt (2 - Real.sqrt (2 + Real.sqrt 2)) ∧
      Real.sqrt (2 - Real.sqrt (2 + Real.sqrt 2)) ≤ 0.39018067 :=
    sqrt_between (lo := 2 - 1.847759068) (hi := 2 - 1.847759063) ⟨by linarith [hB.2], by linarith [hB.1]⟩ (by norm_num)
      (by norm_num) (by norm_num)
  have g0 : gc 0 = 1 := by simp [gc]
  have g1 : gc 1 = Real.sqrt (2 + Real.sqrt (2 + Real.sqrt 2)) / 2 := by
    rw [← Real.cos_pi_div_sixteen]; simp [gc]
  have g2 : gc 2 = Real.sqrt (2 + Real.sqrt 2) / 2 := by
    rw [← Real.cos_pi_div_eight]; unfold gc; congr 1; push_cast; ring
  have g4 : gc 4 = Real.sqrt 2 / 2 := by
    rw [← Real.cos_pi_div_four]; unfold gc; congr 1; push_cast; ring
  have g6 : gc 6 = Real.sqrt (2 - Real.sqrt 2) / 2 := by
    rw [← Real.sin_pi_div_eight, ← Real.cos_pi_div_two_sub]; unfold gc; congr 1; push_cast; ring
  have g7 : gc 7 = Real.sqrt (2 - Real.sqrt (2 + Real.sqrt 2)) / 2 := by
    rw [← Real.sin_pi_div_sixteen, ← Real.cos_pi_div_two_sub]; unfold gc; congr 1; push_cast; ring
  have g8 : gc 8 = 0 := by
    rw [← Real.cos_pi_div_two]; unfold gc; congr 1; push_cast; ring
  have g3 : gc 3 = 4 * gc 1 ^ 3 - 3 * gc 1 := by
    unfold gc; rw [← Real.cos_three_mul]; congr 1; push_cast; ring
  have g5 : gc 5 = 3 * gc 7 - 4 * gc 7 ^ 3 := by
    have e7 : gc 7 = Real.sin (Real.pi / 16) := by
      rw [← Real.cos_pi_div_two_sub]; unfold gc; congr 1; push_cast; ring
    rw [e7, ← Real.sin_three_mul, ← Real.cos_pi_div_two_sub]; unfold gc; congr 1; push_cast; ring
  rw [g1] at g3
  rw [g7] at g5
  have pE1 := pow_le_pow_left₀ (by norm_num) hE.1 3
  have pE2 := pow_le_pow_left₀ (Real.sqrt_nonneg _) hE.2 3
  have pF1 := pow_le_pow_left₀ (by norm_num) hF.1 3
  have pF2 := pow_le_pow_left₀ (Real.sqrt_nonneg _) hF.2 3
  rw [div_pow] at g3 g5
  obtain ⟨hA1, hA2⟩ := hA
  obtain ⟨hB1, hB2⟩ := hB
  obtain ⟨hD1, hD2⟩ := hD
  obtain ⟨hE1, hE2⟩ := hE
  obtain ⟨hF1, hF2⟩ := hF
  generalize Real.sqrt (2 + Real.sqrt (2 + Real.sqrt 2)) = E at *
  generalize Real.sqrt (2 - Real.sqrt (2 + Real.sqrt 2)) = F at *
  generalize Real.sqrt (2 + Real.sqrt 2) = B at *
  generalize Real.sqrt (2 - Real.sqrt 2) = D at *
  generalize Real.sqrt 2 = A at *
  generalize E ^ 3 = E3 at *
  generalize F ^ 3 = F3 at *
  norm_num at pE1 pE2 pF1 pF2 hA1 hA2 hB1 hB2 hD1 hD2 hE1 hE2 hF1 hF2
  intro m hm
  rw [abs_le]
  interval_cases m <;> simp only [cosTab, List.getD_cons_zero, List.getD_cons_succ, g0, g1, g2, g3, g4, g5, g6, g7, g8] <;>
    norm_num <;> constructor <;> linarith

theorem gc_near (m : ℕ) : |gc m - (cosTab.getD (m % 32) 0 : ℤ) / 10 ^ 7| ≤ 1e-6 := by
  have h16 : ∀ m ≤ 16, |gc m - (cosTab.getD m 0 : ℤ) / 10 ^ 7| ≤ 1e-6 := by
    intro m hm
    by_cases h : m ≤ 8
    · exact gc_table m h
    · have h1 := gc_table (16 - m) (by omega)
      rw [gc_sub hm] at h1
      have h2 : (cosTab.getD (16 - m) 0 : ℤ) = -cosTab.getD m 0 := by
        have : ∀ m ≤ 16, 8 < m → cosTab.getD (16 - m) 0 = -cosTab.getD m 0 := by decide
        exact this m hm (by omega)
      rw [h2] at h1
      push_cast at h1
      rw [← abs_neg] at h1
      convert h1 using 2
      ring
  rw [gc_mod]
  have hm : m % 32 < 32 := Nat.mod_lt _ (by norm_num)
  generalize m % 32 = r at *
  by_cases h : r ≤ 16
  · exact h16 r h
  · have h1 := h16 (r - 16) (by omega)
    obtain ⟨s, rfl⟩ : ∃ s, r = s + 16 := ⟨r - 16, by omega⟩
    rw [gc_add]
    simp only [Nat.add_sub_cancel] at h1
    have h2 : (cosTab.getD (s + 16) 0 : ℤ) = -cosTab.getD s 0 := by
      have : ∀ s < 16, cosTab.getD (s + 16) 0 = -cosTab.getD s 0 := by decide
      exact this s (by omega)
    rw [h2, ← abs_neg]
    push_cast
    convert h1 using 2
    ring


/-- `sum_{u = -48}^{71} exp (- gamma u^2 + i omega u)`. -/
noncomputable def gs (gamma omega : ℝ) : ℂ :=
  ∑ n ∈ range 120, (Real.exp (-(gamma * ((n : ℝ) - 48) ^ 2)) : ℂ) * Complex.exp (Complex.I * (omega * ((n : ℝ) - 48) : ℝ))

theorem gs_near {gamma : ℝ} (omega : ℝ) (hg : 0 ≤ gamma) {N : ℕ} (hN : N ≤ 47) :
    ‖gs gamma omega - ((1 + 2 * ∑ u ∈ range N, Real.exp (-(gamma * ((u : ℝ) + 1) ^ 2)) * Real.cos (omega * ((u : ℝ) + 1)) : ℝ) : ℂ)‖
      ≤ 120 * Real.exp (-(gamma * ((N : ℝ) + 1) ^ 2)) := by
  set F : ℝ → ℂ := fun u => (Real.exp (-(gamma * u ^ 2)) : ℂ) * Complex.exp (Complex.I * (omega * u : ℝ)) with hF
  have hnorm : ∀ u : ℝ, ((N : ℝ) + 1) ^ 2 ≤ u ^ 2 → ‖F u‖ ≤ Real.exp (-(gamma * ((N : ℝ) + 1) ^ 2)) := by
    intro u hu
    rw [hF, norm_mul, mul_comm Complex.I, Complex.norm_exp_ofReal_mul_I, mul_one, Complex.norm_real,
      Real.norm_of_nonneg (Real.exp_pos _).le]
    exact Real.exp_le_exp.2 (neg_le_neg (mul_le_mul_of_nonneg_left hu hg))
  have e1 : gs gamma omega = ∑ n ∈ range ((48 - N) + (N + (1 + (N + (71 - N))))), F ((n : ℝ) - 48) := by
    rw [show (48 - N) + (N + (1 + (N + (71 - N)))) = 120 by omega]; rfl
  have hpair : ∀ u : ℝ, F u + F (-u) = ((2 * (Real.exp (-(gamma * u ^ 2)) * Real.cos (omega * u)) : ℝ) : ℂ) := by
    intro u
    simp only [hF, neg_sq, mul_neg, Complex.ofReal_neg]
    push_cast
    rw [Complex.cos]
    ring_nf
  have hmid : ∑ x ∈ range N, F (((48 - N + x : ℕ) : ℝ) - 48) = ∑ x ∈ range N, F (-((x : ℝ) + 1)) := by
    rw [← Finset.sum_range_reflect (fun x => F (-((x : ℝ) + 1)))]
    refine Finset.sum_congr rfl fun x hx => ?_
    have hx := mem_range.1 hx
    congr 1
    rw [Nat.cast_add, Nat.cast_sub (by omega), Nat.cast_sub (by omega), Nat.cast_sub (by omega)]
    push_cast
    ring
  have hpos : ∑ x ∈ range N, F (((48 - N + (N + (1 + x)) : ℕ) : ℝ) - 48) = ∑ x ∈ range N, F ((x : ℝ) + 1) := by
    refine Finset.sum_congr rfl fun x hx => ?_
    congr 1
    rw [show 48 - N + (N + (1 + x)) = 49 + x by omega]
    push_cast
    ring
  rw [e1, Finset.sum_range_add, Finset.sum_range_add, Finset.sum_range_add, Finset.sum_range_add, hmid, hpos]
  have hone : ∑ x ∈ range 1, F (((48 - N + (N + x) : ℕ) : ℝ) - 48) = 1 := by
    rw [Finset.sum_range_one, show 48 - N + (N + 0) = 48 by omega]
    simp [hF]
  rw [hone]
  have hsum : ((1 + 2 * ∑ u ∈ range N, Real.exp (-(gamma * ((u : ℝ) + 1) ^ 2)) * Real.cos (omega * ((u : ℝ) + 1)) : ℝ) : ℂ) =
      1 + (∑ x ∈ range N, F (-((x : ℝ) + 1)) + ∑ x ∈ range N, F ((x : ℝ) + 1)) := by
    rw [← Finset.sum_add_distrib, Finset.mul_sum]
    push_cast
    congr 1
    refine Finset.sum_congr rfl fun x _ => ?_
    rw [add_comm (F _), hpair]
    push_cast
    ring
  rw [hsum]
  set R := Real.exp (-(gamma * ((N : ℝ) + 1) ^ 2)) with hR
  have b1 : ‖∑ x ∈ range (48 - N), F ((x : ℝ) - 48)‖ ≤ (48 - N : ℕ) * R := by
    refine (norm_sum_le_of_le _ fun x hx => hnorm _ ?_).trans (by simp)
    have hx := mem_range.1 hx
    have : (x : ℝ) + N + 1 ≤ 48 := by exact_mod_cast (by omega : x + N + 1 ≤ 48)
    nlinarith [Nat.cast_nonneg (α := ℝ) N]
  have b2 : ‖∑ x ∈ range (71 - N), F (((48 - N + (N + (1 + (N + x))) : ℕ) : ℝ) - 48)‖ ≤ (71 - N : ℕ) * R := by
    refine (norm_sum_le_of_le _ fun x hx => hnorm _ ?_).trans (by simp)
    rw [show 48 - N + (N + (1 + (N + x))) = 49 + N + x by omega]
    push_cast
    nlinarith [Nat.cast_nonneg (α := ℝ) N, Nat.cast_nonneg (α := ℝ) x]
  have hcast : ((48 - N : ℕ) : ℝ) + ((71 - N : ℕ) : ℝ) ≤ 120 := by exact_mod_cast (by omega : 48 - N + (71 - N) ≤ 120)
  have hR0 : 0 ≤ R := (Real.exp_pos _).le
  calc _ = ‖∑ x ∈ range (48 - N), F ((x : ℝ) - 48) +
        ∑ x ∈ range (71 - N), F (((48 - N + (N + (1 + (N + x))) : ℕ) : ℝ) - 48)‖ := by congr 1; ring
    _ ≤ _ := (norm_add_le _ _).trans (add_le_add b1 b2)
    _ = (((48 - N : ℕ) : ℝ) + ((71 - N : ℕ) : ℝ)) * R := by ring
    _ ≤ 120 * R := mul_le_mul_of_nonneg_right hcast hR0

/-- The tabulated sum, times `10^14`: Gaussian of width parameter `25 s^2 / 512`, frequency `k pi / 16`. -/
def gsTab (s k : ℕ) : ℤ :=
  10 ^ 14 + 2 * ((List.range (16 / s)).map fun u => gqTab.getD (s * (u + 1)) 0 * cosTab.getD ((k * (u + 1)) % 32) 0).sum

theorem gs_table {s : ℕ} (hs : s = 1 ∨ s = 2) (k : ℕ) :
    ‖gs (s ^ 2 * (25 / 512)) (k * (Real.pi / 16)) - (((gsTab s k : ℤ) / 10 ^ 14 : ℝ) : ℂ)‖ ≤ 1e-3 := by
  have hN : 16 / s ≤ 47 := by rcases hs with rfl | rfl <;> norm_num
  have h1 := gs_near (gamma := s ^ 2 * (25 / 512)) (k * (Real.pi / 16)) (by positivity) hN
  have ev : ∀ u : ℕ, Real.exp (-((s : ℝ) ^ 2 * (25 / 512) * ((u : ℝ) + 1) ^ 2)) = gq ^ ((s * (u + 1)) ^ 2) := by
    intro u
    unfold gq
    rw [← Real.exp_nat_mul]
    congr 1
    push_cast
    ring
  have cv : ∀ u : ℕ, Real.cos ((k : ℝ) * (Real.pi / 16) * ((u : ℝ) + 1)) = gc (k * (u + 1)) := by
    intro u
    unfold gc
    congr 1
    push_cast
    ring
  simp only [ev, cv] at h1
  have htail : 120 * gq ^ ((s * (16 / s + 1)) ^ 2) ≤ 6e-4 := by
    have h0 : gq ≤ 1 := by unfold gq; rw [Real.exp_le_one_iff]; norm_num
    have p := pow_le_pow_of_le_one gq_pos.le h0 (show 16 ^ 2 ≤ (s * (16 / s + 1)) ^ 2 by rcases hs with rfl | rfl <;> norm_num)
    have h16 := (abs_le.1 (gq_pow (le_refl 16))).2
    simp only [gqTab, List.getD_cons_zero, List.getD_cons_succ] at h16
    norm_num at h16 p ⊢
    linarith
  have hterm : ∀ u ∈ range (16 / s), |gq ^ ((s * (u + 1)) ^ 2) * gc (k * (u + 1)) -
      (gqTab.getD (s * (u + 1)) 0 : ℤ) / 10 ^ 7 * ((cosTab.getD ((k * (u + 1)) % 32) 0 : ℤ) / 10 ^ 7)| ≤ 3e-6 := by
    intro u hu
    have hu := mem_range.1 hu
    have hle : s * (u + 1) ≤ 16 := by rcases hs with rfl | rfl <;> omega
    have a1 := gq_pow hle
    have a2 := gc_near (k * (u + 1))
    have a3 := abs_gc_le (k * (u + 1))
    have a4 : |gq ^ ((s * (u + 1)) ^ 2)| ≤ 1 := by
      rw [abs_of_nonneg (pow_nonneg gq_pos.le _)]
      exact pow_le_one₀ gq_pos.le (by unfold gq; rw [Real.exp_le_one_iff]; norm_num)
    generalize gq ^ ((s * (u + 1)) ^ 2) = e at *
    generalize gc (k * (u + 1)) = c at *
    generalize ((gqTab.getD (s * (u + 1)) 0 : ℤ) : ℝ) / 10 ^ 7 = e0 at *
    generalize ((cosTab.getD ((k * (u + 1)) % 32) 0 : ℤ) : ℝ) / 10 ^ 7 = c0 at *
    have : e * c - e0 * c0 = (e - e0) * (c - (c - c0)) + e * (c - c0) := by ring
    rw [this]
    refine (abs_add_le _ _).trans ?_
    rw [abs_mul, abs_mul]
    have hc : |c - (c - c0)| ≤ 1 + 1e-6 := (abs_sub _ _).trans (add_le_add a3 a2)
    have m1 := mul_le_mul a1 hc (abs_nonneg _) (by norm_num)
    have m2 := mul_le_mul a4 a2 (abs_nonneg _) (by norm_num)
    refine (add_le_add m1 m2).trans ?_
    norm_num
  have htab : ((gsTab s k : ℤ) / 10 ^ 14 : ℝ) = 1 + 2 * ∑ u ∈ range (16 / s),
      (gqTab.getD (s * (u + 1)) 0 : ℤ) / 10 ^ 7 * ((cosTab.getD ((k * (u + 1)) % 32) 0 : ℤ) / 10 ^ 7 : ℝ) := by
    unfold gsTab
    have : ((List.range (16 / s)).map fun u => gqTab.getD (s * (u + 1)) 0 * cosTab.getD ((k * (u + 1)) % 32) 0).sum =
        ∑ u ∈ range (16 / s), gqTab.getD (s * (u + 1)) 0 * cosTab.getD ((k * (u + 1)) % 32) 0 := rfl
    rw [this]
    push_cast
    rw [add_div, mul_div_assoc, Finset.sum_div, show (100000000000000 : ℝ) / 10 ^ 14 = 1 by norm_num]
    congr 2
    refine Finset.sum_congr rfl fun u _ => ?_
    rw [div_mul_div_comm]
    norm_num
  have h2 : |(1 + 2 * ∑ u ∈ range (16 / s), gq ^ ((s * (u + 1)) ^ 2) * gc (k * (u + 1))) - (gsTab s k : ℤ) / 10 ^ 14| ≤ 1e-4 := by
    rw [htab, add_sub_add_left_eq_sub, ← mul_sub, ← Finset.sum_sub_distrib, abs_mul]
    have := (Finset.abs_sum_le_sum_abs _ _).trans (Finset.sum_le_sum hterm)
    rw [Finset.sum_const, card_range, nsmul_eq_mul] at this
    have hc : ((16 / s : ℕ) : ℝ) ≤ 16 := by exact_mod_cast (by rcases hs with rfl | rfl <;> norm_num : 16 / s ≤ 16)
    rw [abs_two]
    norm_num at this ⊢
    linarith
  have h3 := norm_sub_le_norm_sub_add_norm_sub (gs (s ^ 2 * (25 / 512)) (k * (Real.pi / 16)))
    (((1 + 2 * ∑ u ∈ range (16 / s), gq ^ ((s * (u + 1)) ^ 2) * gc (k * (u + 1)) : ℝ) : ℂ)) (((gsTab s k : ℤ) / 10 ^ 14 : ℝ) : ℂ)
  have h4 : ‖(((1 + 2 * ∑ u ∈ range (16 / s), gq ^ ((s * (u + 1)) ^ 2) * gc (k * (u + 1)) : ℝ) : ℂ)) -
      (((gsTab s k : ℤ) / 10 ^ 14 : ℝ) : ℂ)‖ ≤ 1e-4 := by
    rw [← Complex.ofReal_sub, Complex.norm_real, Real.norm_eq_abs]
    exact h2
  have h5 := h1.trans htail
  refine h3.trans ((add_le_add h5 h4).trans ?_)
  norm_num

end Verif
