import Verif.Lemmas.Energy3D
import Verif.Lemmas.Norm3D
import Verif.Props.Filters3D
import Verif.Props.Scattering3D
import Mathlib.Analysis.MeanInequalities
import Mathlib.Analysis.MeanInequalitiesPow
import Mathlib.Analysis.Real.Pi.Bounds

/-!
# C99: stability of solid harmonic scattering in the Euclidean norm

`scipy.special.sph_harm` is a parameter `Y` of the model (`Model/FilterBank3D.lean`).  What is used of it
here is `Spec.SumSqLe`: at every direction the squared moduli over the `2l+1` orders add up to at most
`(2l+1)/(4 pi)`; for the spherical harmonics this is an equality (Unsold's theorem).
-/

namespace Verif

open Finset Complex

namespace Spec

/-- At every direction, the squared moduli over the orders of degree `l` add up to at most `(2l+1)/(4 pi)`. -/
def SumSqLe (Y : ℤ → ℕ → ℝ → ℝ → ℂ) (l : ℕ) : Prop :=
  ∀ az pol : ℝ, ∑ m ∈ range (2 * l + 1), ‖Y ((m : ℤ) - l) l az pol‖ ^ 2 ≤ (2 * l + 1) / (4 * Real.pi)

/-- Euclidean distance of two volumes. -/
noncomputable def dist3 (s : ℕ × ℕ × ℕ) (x y : ℕ × ℕ × ℕ → ℝ) : ℝ := Real.sqrt (∑ u ∈ cells s, (x u - y u) ^ 2)

end Spec

/-! ## The sup of the mother wavelet -/

theorem radial3_even (k : ℕ) : Spec.radial3 (2 * k) = Real.sqrt (Real.pi / 2) * (2 * k + 1).doubleFactorial := by
  have h := norm3_even k
  rw [double_factorial_eq] at h
  set c : ℝ := ((2 * k : ℕ) : ℝ) + 0.5 with hc
  have hc0 : 0 < c := by positivity
  have e1 : Real.sqrt (4 * Real.pi * (2 * ((2 * k : ℕ) : ℝ) + 1)) = Real.sqrt (8 * Real.pi) * Real.sqrt c := by
    rw [← Real.sqrt_mul (by positivity)]; congr 1; rw [hc]; ring
  have e2 : Real.sqrt (8 * Real.pi) * Real.sqrt (Real.pi / 2) = 2 * Real.pi := by
    rw [← Real.sqrt_mul (by positivity), show 8 * Real.pi * (Real.pi / 2) = (2 * Real.pi) ^ 2 by ring,
      Real.sqrt_sq (by positivity)]
  rw [e1] at h
  have hs : Real.sqrt c ≠ 0 := (Real.sqrt_pos.2 hc0).ne'
  have h8 : Real.sqrt (8 * Real.pi) ≠ 0 := (Real.sqrt_pos.2 (by positivity)).ne'
  apply mul_left_cancel₀ h8
  apply mul_left_cancel₀ hs
  rw [← mul_assoc (Real.sqrt (8 * Real.pi)), e2]
  linarith

theorem radial3_odd (k : ℕ) : Spec.radial3 (2 * k + 1) = 2 ^ (k + 1) * (k + 1).factorial := by
  have h := norm3_odd k
  rw [show (0.5 * (((2 * k + 1 : ℕ) : ℝ) + 3)) = ((k + 2 : ℕ) : ℝ) by push_cast; ring, Real.rpow_natCast,
    show (2 * k + 1 + 1) / 2 = k + 1 by omega,
    show 4 * Real.pi * (2 * ((2 * k + 1 : ℕ) : ℝ) + 1) = 2 ^ 2 * (Real.pi * (2 * ((2 * k + 1 : ℕ) : ℝ) + 1)) by ring,
    Real.sqrt_mul (show (0 : ℝ) ≤ 2 ^ 2 by norm_num), Real.sqrt_sq (show (0 : ℝ) ≤ 2 by norm_num)] at h
  have hs : Real.sqrt (Real.pi * (2 * ((2 * k + 1 : ℕ) : ℝ) + 1)) ≠ 0 := (Real.sqrt_pos.2 (by positivity)).ne'
  apply mul_left_cancel₀ hs
  rw [pow_succ] at h
  linarith

/-- `r^(2k) exp(-r^2/2) ≤ 2^k k!`. -/
theorem pow_exp_le (k : ℕ) (r : ℝ) : r ^ (2 * k) * Real.exp (-r ^ 2 / 2) ≤ 2 ^ k * k.factorial := by
  have h := Real.pow_div_factorial_le_exp (r ^ 2 / 2) (by positivity) k
  have hf : (0 : ℝ) < k.factorial := by exact_mod_cast k.factorial_pos
  rw [div_le_iff₀ hf, div_pow, ← pow_mul] at h
  have h2 : r ^ (2 * k) ≤ 2 ^ k * (Real.exp (r ^ 2 / 2) * k.factorial) := by
    rw [div_le_iff₀ (by positivity)] at h; linarith
  calc r ^ (2 * k) * Real.exp (-r ^ 2 / 2) ≤ 2 ^ k * (Real.exp (r ^ 2 / 2) * k.factorial) * Real.exp (-r ^ 2 / 2) :=
        mul_le_mul_of_nonneg_right h2 (Real.exp_pos _).le
    _ = 2 ^ k * k.factorial * (Real.exp (r ^ 2 / 2) * Real.exp (-r ^ 2 / 2)) := by ring
    _ = _ := by rw [← Real.exp_add, show r ^ 2 / 2 + -r ^ 2 / 2 = 0 by ring, Real.exp_zero, mul_one]

theorem two_pow_factorial_le (k : ℕ) : 2 ^ k * k.factorial ≤ (2 * k + 1).doubleFactorial := by
  induction k with
  | zero => simp
  | succ k ih =>
    rw [show 2 * (k + 1) + 1 = (2 * k + 1) + 2 by ring, Nat.doubleFactorial, Nat.factorial_succ, pow_succ]
    calc 2 ^ k * 2 * ((k + 1) * k.factorial) = (2 * k + 2) * (2 ^ k * k.factorial) := by ring
      _ ≤ (2 * k + 1 + 2) * (2 * k + 1).doubleFactorial := Nat.mul_le_mul (by omega) ih

/-- The radial profile is bounded by its integral against `r^2 dr` over `sqrt(pi/2)`. -/
theorem radial_profile_le (l : ℕ) {r : ℝ} (hr : 0 ≤ r) :
    Real.sqrt (Real.pi / 2) * (r ^ l * Real.exp (-r ^ 2 / 2)) ≤ Spec.radial3 l := by
  rcases Nat.even_or_odd' l with ⟨k, rfl | rfl⟩
  · rw [radial3_even]
    refine mul_le_mul_of_nonneg_left ((pow_exp_le k r).trans ?_) (Real.sqrt_nonneg _)
    exact_mod_cast two_pow_factorial_le k
  · rw [radial3_odd]
    have h1 := pow_exp_le k r
    have h2 := pow_exp_le (k + 1) r
    have he := Real.exp_pos (-r ^ 2 / 2)
    have h3 : r ^ (2 * k + 1) * Real.exp (-r ^ 2 / 2) ≤
        (r ^ (2 * k) * Real.exp (-r ^ 2 / 2) + r ^ (2 * (k + 1)) * Real.exp (-r ^ 2 / 2)) / 2 := by
      have : r ^ (2 * k + 1) ≤ (r ^ (2 * k) + r ^ (2 * (k + 1))) / 2 := by
        have e1 : r ^ (2 * k + 1) = r ^ (2 * k) * r := pow_succ _ _
        have e2 : r ^ (2 * (k + 1)) = r ^ (2 * k) * r ^ 2 := by rw [← pow_add]; rfl
        rw [e1, e2]
        nlinarith [pow_nonneg hr (2 * k), mul_nonneg (pow_nonneg hr (2 * k)) (sq_nonneg (r - 1))]
      calc _ ≤ (r ^ (2 * k) + r ^ (2 * (k + 1))) / 2 * Real.exp (-r ^ 2 / 2) := mul_le_mul_of_nonneg_right this he.le
        _ = _ := by ring
    have hf : (((k + 1).factorial : ℕ) : ℝ) = (k + 1) * k.factorial := by rw [Nat.factorial_succ]; push_cast; ring
    rw [hf] at h2 ⊢
    set A : ℝ := 2 ^ k * k.factorial with hA
    have hA0 : 0 < A := by have : (0 : ℝ) < k.factorial := by exact_mod_cast k.factorial_pos
                           positivity
    have h4 : r ^ (2 * k + 1) * Real.exp (-r ^ 2 / 2) ≤ A * (k + 3 / 2) := by
      have : (2 : ℝ) ^ (k + 1) * ((k + 1) * k.factorial) = A * (2 * (k + 1)) := by rw [hA, pow_succ]; ring
      rw [this] at h2
      linarith
    have hs : Real.sqrt (Real.pi / 2) ≤ 4 / 3 := by
      rw [Real.sqrt_le_left (by norm_num)]
      linarith [Real.pi_lt_d2]
    have e : (2 : ℝ) ^ (k + 1) * ((k + 1) * k.factorial) = A * (2 * (k + 1)) := by rw [hA, pow_succ]; ring
    rw [e]
    calc _ ≤ 4 / 3 * (A * (k + 3 / 2)) := mul_le_mul hs h4 (by positivity) (by norm_num)
      _ ≤ A * (2 * (k + 1)) := by
        have : (0 : ℝ) ≤ k := Nat.cast_nonneg k
        nlinarith [mul_nonneg hA0.le this]

theorem radial3_pos (l : ℕ) : 0 < Spec.radial3 l := by
  refine lt_of_lt_of_le ?_ (radial_profile_le l zero_le_one)
  have := Real.exp_pos (-(1 : ℝ) ^ 2 / 2)
  have := Real.sqrt_pos.2 (show 0 < Real.pi / 2 by positivity)
  positivity

/-- Squared moduli of the mother wavelets of degree `l ≥ 1` at a frequency. -/
theorem solid3_sum_le {Y : ℤ → ℕ → ℝ → ℝ → ℂ} {l : ℕ} (hY : Spec.SumSqLe Y l) (w : ℝ × ℝ × ℝ) :
    ∑ m ∈ range (2 * l + 1), ‖(((2 * Real.pi) ^ (1.5 : ℝ) : ℝ) : ℂ) * (-I) ^ l * Spec.solid3 Y l m w‖ ^ 2 ≤ 1 := by
  set r := Real.sqrt (Spec.sqLen w) with hr
  have hq : 0 ≤ Spec.sqLen w := by unfold Spec.sqLen; positivity
  have hr2 : r ^ 2 = Spec.sqLen w := Real.sq_sqrt hq
  set P := r ^ l * Real.exp (-(Spec.sqLen w) / 2) with hP
  have hP0 : 0 ≤ P := mul_nonneg (pow_nonneg (Real.sqrt_nonneg _) _) (Real.exp_pos _).le
  set N := Real.sqrt (4 * Real.pi * (2 * l + 1)) * Spec.radial3 l with hN
  have hR := radial3_pos l
  have e : ∀ m ∈ range (2 * l + 1),
      ‖(((2 * Real.pi) ^ (1.5 : ℝ) : ℝ) : ℂ) * (-I) ^ l * Spec.solid3 Y l m w‖ ^ 2 =
      ‖Y ((m : ℤ) - l) l (arg ⟨w.2.2, w.2.1⟩) (Real.pi - Real.arccos (w.1 / r))‖ ^ 2 *
        ((2 * Real.pi) ^ 3 * (P / N) ^ 2) := by
    intro m _
    unfold Spec.solid3
    rw [norm_mul, norm_mul, norm_mul, norm_pow, norm_neg, norm_I, one_pow, mul_one, Complex.norm_real,
      Complex.norm_real, Real.norm_eq_abs, Real.norm_eq_abs, mul_pow, mul_pow, sq_abs, sq_abs]
    rw [← Real.rpow_natCast ((2 * Real.pi) ^ (1.5 : ℝ)) 2, ← Real.rpow_mul (by positivity),
      show (1.5 : ℝ) * ((2 : ℕ) : ℝ) = ((3 : ℕ) : ℝ) by norm_num, Real.rpow_natCast]
    ring
  rw [sum_congr rfl e, ← sum_mul]
  have hpr := radial_profile_le l (Real.sqrt_nonneg (Spec.sqLen w))
  rw [← hr, show -r ^ 2 / 2 = -(Spec.sqLen w) / 2 by rw [hr2], ← hP] at hpr
  have hsq : Real.pi / 2 * P ^ 2 ≤ Spec.radial3 l ^ 2 := by
    have := pow_le_pow_left₀ (by positivity) hpr 2
    rwa [mul_pow, Real.sq_sqrt (by positivity)] at this
  have hN2 : N ^ 2 = 4 * Real.pi * (2 * l + 1) * Spec.radial3 l ^ 2 := by
    rw [hN, mul_pow, Real.sq_sqrt (by positivity)]
  have hl : (0 : ℝ) < 2 * l + 1 := by positivity
  calc _ ≤ (2 * l + 1) / (4 * Real.pi) * ((2 * Real.pi) ^ 3 * (P / N) ^ 2) :=
        mul_le_mul_of_nonneg_right (hY _ _) (by positivity)
    _ = (Real.pi / 2 * P ^ 2) / Spec.radial3 l ^ 2 := by
        rw [div_pow, hN2]
        have := Real.pi_pos
        field_simp
        ring
    _ ≤ 1 := by rw [div_le_one (by positivity)]; exact hsq

/-- The filters of one scale and degree: squared moduli add up to at most one at every frequency. -/
theorem family_sum_le {Y : ℤ → ℕ → ℝ → ℝ → ℂ} (s : Idx3) {sigma : ℝ} (hs : 0 < sigma) {l : ℕ}
    (hY : l ≠ 0 → Spec.SumSqLe Y l) (k : Idx3) (hk : k ∈ Spec.cells s) :
    ((solidHarmonic3d Y s sigma l true).map fun f => ‖f.vx k‖ ^ 2).sum ≤ 1 := by
  have hm := fun m f hf => C67_mother Y s hs l m f hf k hk
  set fs := solidHarmonic3d Y s sigma l true with hfs
  have hlen : fs.length = 2 * l + 1 := solidHarmonic3d_length ..
  have e : (fs.map fun f => ‖f.vx k‖ ^ 2) = (List.range (2 * l + 1)).map fun m => ‖if l = 0 then
      ((Real.exp (-(Spec.sqLen (scale3 sigma (gridF s k))) / 2) : ℝ) : ℂ) else
      (((2 * Real.pi) ^ (1.5 : ℝ) : ℝ) : ℂ) * (-I) ^ l * Spec.solid3 Y l m (scale3 sigma (gridF s k))‖ ^ 2 := by
    apply List.ext_getElem
    · simp [hlen]
    · intro i h1 h2
      rw [List.length_map] at h1
      rw [List.getElem_map, List.getElem_map, List.getElem_range, hm i fs[i] (List.getElem?_eq_getElem h1)]
  rw [e]
  by_cases hl : l = 0
  · subst hl
    simp only [if_true, mul_zero, zero_add, List.range_one, List.map_cons, List.map_nil, List.sum_cons, List.sum_nil,
      add_zero]
    rw [Complex.norm_real, Real.norm_eq_abs, sq_abs]
    have hq : 0 ≤ Spec.sqLen (scale3 sigma (gridF s k)) := by unfold Spec.sqLen; positivity
    exact pow_le_one₀ (Real.exp_pos _).le (Real.exp_le_one_iff.2 (by linarith))
  · simp only [if_neg hl]
    have := solid3_sum_le (hY hl) (scale3 sigma (gridF s k))
    rwa [← List.sum_toFinset _ List.nodup_range, List.toFinset_range]

/-! ## Powers of finite sums -/

theorem sum_rpow_le_small {ι : Type} (t : Finset ι) (d : ι → ℝ) {q : ℝ} (hq : 0 < q) (hq2 : q ≤ 2) :
    ∑ i ∈ t, |d i| ^ q ≤ (#t : ℝ) ^ (1 - q / 2) * Real.sqrt (∑ i ∈ t, d i ^ 2) ^ q := by
  have hp : 1 ≤ 2 / q := by rw [le_div_iff₀ hq]; linarith
  have h := Real.rpow_sum_le_const_mul_sum_rpow t (fun i => |d i| ^ q) hp
  have e1 : ∀ i, |(|d i| ^ q)| = |d i| ^ q := fun i => abs_of_nonneg (Real.rpow_nonneg (abs_nonneg _) _)
  have e2 : ∀ i, (|d i| ^ q) ^ (2 / q) = d i ^ 2 := by
    intro i
    rw [← Real.rpow_mul (abs_nonneg _), mul_div_cancel₀ _ hq.ne', Real.rpow_two, sq_abs]
  simp only [e1, e2] at h
  set S := ∑ i ∈ t, |d i| ^ q with hS
  set E := ∑ i ∈ t, d i ^ 2 with hE
  have hS0 : 0 ≤ S := sum_nonneg fun i _ => Real.rpow_nonneg (abs_nonneg _) _
  have hE0 : 0 ≤ E := sum_nonneg fun i _ => sq_nonneg _
  have h2 := Real.rpow_le_rpow (Real.rpow_nonneg hS0 _) h (by positivity : 0 ≤ q / 2)
  rw [← Real.rpow_mul hS0, show 2 / q * (q / 2) = 1 by field_simp, Real.rpow_one,
    Real.mul_rpow (Real.rpow_nonneg (Nat.cast_nonneg _) _) hE0, ← Real.rpow_mul (Nat.cast_nonneg _),
    show (2 / q - 1) * (q / 2) = 1 - q / 2 by field_simp] at h2
  rw [Real.sqrt_eq_rpow, ← Real.rpow_mul hE0, show 1 / 2 * q = q / 2 by ring]
  exact h2

theorem sum_rpow_le_large {ι : Type} (t : Finset ι) (d : ι → ℝ) {q : ℝ} (hq : 2 ≤ q) :
    ∑ i ∈ t, |d i| ^ q ≤ Real.sqrt (∑ i ∈ t, d i ^ 2) ^ q := by
  set E := ∑ i ∈ t, d i ^ 2 with hE
  have hE0 : 0 ≤ E := sum_nonneg fun i _ => sq_nonneg _
  have hd : ∀ i ∈ t, |d i| ≤ Real.sqrt E := fun i hi => by
    rw [← Real.sqrt_sq_eq_abs]
    exact Real.sqrt_le_sqrt (single_le_sum (f := fun i => d i ^ 2) (fun j _ => sq_nonneg _) hi)
  have split : ∀ a : ℝ, 0 ≤ a → a ^ q = a ^ (q - 2) * a ^ 2 := by
    intro a ha
    rw [← Real.rpow_two, ← Real.rpow_add_of_nonneg ha (by linarith) (by norm_num)]
    congr 1; ring
  calc ∑ i ∈ t, |d i| ^ q ≤ ∑ i ∈ t, Real.sqrt E ^ (q - 2) * d i ^ 2 := by
        refine sum_le_sum fun i hi => ?_
        rw [split _ (abs_nonneg _), sq_abs]
        exact mul_le_mul_of_nonneg_right (Real.rpow_le_rpow (abs_nonneg _) (hd i hi) (by linarith)) (sq_nonneg _)
    _ = Real.sqrt E ^ q := by rw [← mul_sum, split _ (Real.sqrt_nonneg _), Real.sq_sqrt hE0]

theorem sum_rpow_root_le {ι : Type} (t : Finset ι) (d : ι → ℝ) {q : ℝ} (hq : 1 ≤ q) :
    (∑ i ∈ t, |d i| ^ q) ^ (1 / q) ≤ (#t : ℝ) ^ max (1 / q - 1 / 2) 0 * Real.sqrt (∑ i ∈ t, d i ^ 2) := by
  have hq0 : 0 < q := by linarith
  have hS0 : 0 ≤ ∑ i ∈ t, |d i| ^ q := sum_nonneg fun i _ => Real.rpow_nonneg (abs_nonneg _) _
  have root : (Real.sqrt (∑ i ∈ t, d i ^ 2) ^ q) ^ (1 / q) = Real.sqrt (∑ i ∈ t, d i ^ 2) := by
    rw [← Real.rpow_mul (Real.sqrt_nonneg _), mul_one_div_cancel hq0.ne', Real.rpow_one]
  rcases le_total q 2 with h2 | h2
  · have h := Real.rpow_le_rpow hS0 (sum_rpow_le_small t d hq0 h2) (by positivity : 0 ≤ 1 / q)
    rw [Real.mul_rpow (Real.rpow_nonneg (Nat.cast_nonneg _) _) (Real.rpow_nonneg (Real.sqrt_nonneg _) _), root,
      ← Real.rpow_mul (Nat.cast_nonneg _), show (1 - q / 2) * (1 / q) = 1 / q - 1 / 2 by field_simp] at h
    rwa [max_eq_left (by
      have : 1 / 2 ≤ 1 / q := one_div_le_one_div_of_le hq0 h2
      linarith)]
  · have h := Real.rpow_le_rpow hS0 (sum_rpow_le_large t d h2) (by positivity : 0 ≤ 1 / q)
    rw [root] at h
    rwa [max_eq_right (by
      have : 1 / q ≤ 1 / 2 := one_div_le_one_div_of_le (by norm_num) h2
      linarith), Real.rpow_zero, one_mul]

theorem abs_rpow_sub_le {a b q : ℝ} (ha : 0 ≤ a) (hb : 0 ≤ b) (hq : 0 ≤ q) (hq1 : q ≤ 1) :
    |a ^ q - b ^ q| ≤ |a - b| ^ q := by
  have key : ∀ a b : ℝ, 0 ≤ b → b ≤ a → a ^ q - b ^ q ≤ (a - b) ^ q := by
    intro a b hb hab
    have h := NNReal.rpow_add_le_add_rpow (a - b).toNNReal b.toNNReal hq hq1
    have h' := NNReal.coe_le_coe.2 h
    rw [NNReal.coe_add, NNReal.coe_rpow, NNReal.coe_rpow, NNReal.coe_rpow, NNReal.coe_add,
      Real.coe_toNNReal _ (by linarith), Real.coe_toNNReal _ hb] at h'
    rw [sub_add_cancel] at h'
    linarith
  rcases le_total b a with h | h
  · rw [abs_of_nonneg (sub_nonneg.2 (Real.rpow_le_rpow hb h hq)), abs_of_nonneg (sub_nonneg.2 h)]
    exact key a b hb h
  · rw [abs_sub_comm, abs_sub_comm a b, abs_of_nonneg (sub_nonneg.2 (Real.rpow_le_rpow ha h hq)),
      abs_of_nonneg (sub_nonneg.2 h)]
    exact key b a ha h

theorem card_cells (s : Idx3) : #(Spec.cells s) = s.1 * s.2.1 * s.2.2 := by
  simp [Spec.cells, mul_assoc]

/-- Integrals of two nonnegative volumes, `0 < q ≤ 1`. -/
theorem integral3_holder (s : Idx3) (U W : Idx3 → ℝ) (hU : ∀ u, 0 ≤ U u) (hW : ∀ u, 0 ≤ W u) {q : ℝ} (hq : 0 < q)
    (hq1 : q ≤ 1) : |Spec.integral3 s U q - Spec.integral3 s W q| ≤
      ((s.1 * s.2.1 * s.2.2 : ℕ) : ℝ) ^ (1 - q / 2) * Spec.dist3 s U W ^ q := by
  unfold Spec.integral3 Spec.dist3
  rw [← sum_sub_distrib, ← card_cells]
  refine (abs_sum_le_sum_abs _ _).trans (le_trans ?_ (sum_rpow_le_small _ (fun u => U u - W u) hq (by linarith)))
  exact sum_le_sum fun u _ => abs_rpow_sub_le (hU u) (hW u) hq.le hq1

/-- Roots of integrals of two nonnegative volumes, `1 ≤ q`. -/
theorem integral3_root (s : Idx3) (U W : Idx3 → ℝ) (hU : ∀ u, 0 ≤ U u) (hW : ∀ u, 0 ≤ W u) {q : ℝ} (hq : 1 ≤ q) :
    |Spec.integral3 s U q ^ (1 / q) - Spec.integral3 s W q ^ (1 / q)| ≤
      ((s.1 * s.2.1 * s.2.2 : ℕ) : ℝ) ^ max (1 / q - 1 / 2) 0 * Spec.dist3 s U W := by
  have key : ∀ U W : Idx3 → ℝ, (∀ u, 0 ≤ U u) → (∀ u, 0 ≤ W u) →
      Spec.integral3 s U q ^ (1 / q) - Spec.integral3 s W q ^ (1 / q) ≤
        ((s.1 * s.2.1 * s.2.2 : ℕ) : ℝ) ^ max (1 / q - 1 / 2) 0 * Spec.dist3 s U W := by
    intro U W hU hW
    have h := Real.Lp_add_le (Spec.cells s) (fun u => U u - W u) W hq
    have h2 := sum_rpow_root_le (Spec.cells s) (fun u => U u - W u) hq
    simp only [sub_add_cancel, abs_of_nonneg (hU _), abs_of_nonneg (hW _)] at h
    rw [card_cells] at h2
    unfold Spec.integral3 Spec.dist3
    linarith
  rw [abs_le]
  refine ⟨?_, key U W hU hW⟩
  have := key W U hW hU
  have e : Spec.dist3 s W U = Spec.dist3 s U W := by
    unfold Spec.dist3
    congr 1
    exact sum_congr rfl fun u _ => by ring
  rw [e] at this
  linarith

/-! ## The object -/

theorem used_sum_le (a : Args3D) {Y : ℤ → ℕ → ℝ → ℝ → ℂ} (hs : 0 < a.sigma0) {l : ℕ} (hY : l ≠ 0 → Spec.SumSqLe Y l)
    (j : ℕ) (k : Idx3) (hk : k ∈ Spec.cells a.shape) :
    ((used a.rot (a.fam Y l j)).map fun f => ‖f k‖ ^ 2).sum ≤ 1 := by
  have h := family_sum_le a.shape (Y := Y) (show 0 < a.sigma0 * 2 ^ j by positivity) hY k hk
  unfold used Args3D.fam
  cases a.rot
  · simp only [Bool.false_eq_true, if_false, List.map_map]
    refine le_trans ?_ h
    refine List.Sublist.sum_le_sum ?_ ?_
    · exact (List.take_sublist 1 _).map _
    · intro v hv
      obtain ⟨f, _, rfl⟩ := List.mem_map.1 hv
      positivity
  · simpa [Function.comp_def] using h

/-- `v` is the coefficient of row `i`, angular order `l` and power index `k`. -/
def At3 (out : List (List (List ℝ))) (i l k : ℕ) (v : ℝ) : Prop :=
  ∃ row e, out[i]? = some row ∧ row[l]? = some e ∧ e[k]? = some v

theorem at3_of_run {a : Args3D} {Y : ℤ → ℕ → ℝ → ℝ → ℂ} (hq : a.powers ≠ []) {x : Vol ℝ} (hx : x.shape = a.shape)
    {out : List (List (List ℝ))} (h : a.run Y x = .ok out) {i l k : ℕ} {v : ℝ} (hv : At3 out i l k v) :
    ∃ p q, (Spec.paths3 a.J (a.maxOrder = 2))[i]? = some p ∧ l ≤ a.L ∧ a.powers[k]? = some q ∧
      v = Spec.integral3 a.shape (Spec.cascade3 a.shape (fun j => used a.rot (a.fam Y l j)) p x.vx) q := by
  rw [run3_eq a Y hq hx] at h
  obtain rfl := Except.ok.inj h
  obtain ⟨row, e, h1, h2, h3⟩ := hv
  rw [List.getElem?_map] at h1
  obtain ⟨p, hp, rfl⟩ := Option.map_eq_some_iff.1 h1
  rw [List.getElem?_map] at h2
  obtain ⟨l', hl, rfl⟩ := Option.map_eq_some_iff.1 h2
  rw [List.getElem?_map] at h3
  obtain ⟨q, hk, rfl⟩ := Option.map_eq_some_iff.1 h3
  have hll : l < a.L + 1 := by
    by_contra hc
    rw [List.getElem?_eq_none (by simp; omega)] at hl
    exact absurd hl (by simp)
  rw [List.getElem?_range hll] at hl
  obtain rfl := Option.some.inj hl
  exact ⟨p, q, hp, by omega, hk, rfl⟩

theorem dist_cascade_le (a : Args3D) {Y : ℤ → ℕ → ℝ → ℝ → ℂ} (hs : 0 < a.sigma0) {l : ℕ}
    (hY : l ≠ 0 → Spec.SumSqLe Y l) (p : List ℕ) (x y : Idx3 → ℝ) :
    Spec.dist3 a.shape (Spec.cascade3 a.shape (fun j => used a.rot (a.fam Y l j)) p x)
      (Spec.cascade3 a.shape (fun j => used a.rot (a.fam Y l j)) p y) ≤ Spec.dist3 a.shape x y :=
  Real.sqrt_le_sqrt (energy_cascade3 a.shape _ p (fun j _ => used_sum_le a hs hY j) x y)

/-- **C99 (powers at least one).** The `q`-th root of a coefficient to the power `q ≥ 1` moves by at most the
Euclidean distance of the volumes, times `(M N O)^(1/q - 1/2)` when `q < 2`. -/
theorem C99_root (a : Args3D) {Y : ℤ → ℕ → ℝ → ℝ → ℂ} (hs : 0 < a.sigma0) (hY : ∀ l, 1 ≤ l → l ≤ a.L → Spec.SumSqLe Y l)
    (hp : a.powers ≠ []) {x y : Vol ℝ} (hx : x.shape = a.shape) (hy : y.shape = a.shape) :
    ∃ out out', a.run Y x = .ok out ∧ a.run Y y = .ok out' ∧
      ∀ i l k v v' q, At3 out i l k v → At3 out' i l k v' → a.powers[k]? = some q → 1 ≤ q →
        |v ^ (1 / q) - v' ^ (1 / q)| ≤
          ((a.shape.1 * a.shape.2.1 * a.shape.2.2 : ℕ) : ℝ) ^ max (1 / q - 1 / 2) 0 * Spec.dist3 a.shape x.vx y.vx := by
  refine ⟨_, _, run3_eq a Y hp hx, run3_eq a Y hp hy, fun i l k v v' q hv hv' hk hq => ?_⟩
  obtain ⟨p, q1, h1, hl, h2, rfl⟩ := at3_of_run hp hx (run3_eq a Y hp hx) hv
  obtain ⟨p', q2, h3, -, h4, rfl⟩ := at3_of_run hp hy (run3_eq a Y hp hy) hv'
  obtain rfl := Option.some.inj (h1.symm.trans h3)
  obtain rfl := Option.some.inj (hk.symm.trans h2)
  obtain rfl := Option.some.inj (hk.symm.trans h4)
  have hne := paths3_ne_nil (List.mem_of_getElem? h1)
  refine (integral3_root a.shape _ _ (cascade3_nonneg _ _ p hne _) (cascade3_nonneg _ _ p hne _) hq).trans ?_
  exact mul_le_mul_of_nonneg_left (dist_cascade_le a hs (fun h0 => hY l (by omega) hl) p _ _)
    (Real.rpow_nonneg (Nat.cast_nonneg _) _)

/-- **C99 (powers at most one).** A coefficient to the power `0 < q ≤ 1` moves by at most
`(M N O)^(1 - q/2)` times the `q`-th power of the Euclidean distance. -/
theorem C99_holder (a : Args3D) {Y : ℤ → ℕ → ℝ → ℝ → ℂ} (hs : 0 < a.sigma0)
    (hY : ∀ l, 1 ≤ l → l ≤ a.L → Spec.SumSqLe Y l)
    (hp : a.powers ≠ []) {x y : Vol ℝ} (hx : x.shape = a.shape) (hy : y.shape = a.shape) :
    ∃ out out', a.run Y x = .ok out ∧ a.run Y y = .ok out' ∧
      ∀ i l k v v' q, At3 out i l k v → At3 out' i l k v' → a.powers[k]? = some q → 0 < q → q ≤ 1 →
        |v - v'| ≤
          ((a.shape.1 * a.shape.2.1 * a.shape.2.2 : ℕ) : ℝ) ^ (1 - q / 2) * Spec.dist3 a.shape x.vx y.vx ^ q := by
  refine ⟨_, _, run3_eq a Y hp hx, run3_eq a Y hp hy, fun i l k v v' q hv hv' hk hq hq1 => ?_⟩
  obtain ⟨p, q1, h1, hl, h2, rfl⟩ := at3_of_run hp hx (run3_eq a Y hp hx) hv
  obtain ⟨p', q2, h3, -, h4, rfl⟩ := at3_of_run hp hy (run3_eq a Y hp hy) hv'
  obtain rfl := Option.some.inj (h1.symm.trans h3)
  obtain rfl := Option.some.inj (hk.symm.trans h2)
  obtain rfl := Option.some.inj (hk.symm.trans h4)
  have hne := paths3_ne_nil (List.mem_of_getElem? h1)
  refine (integral3_holder a.shape _ _ (cascade3_nonneg _ _ p hne _) (cascade3_nonneg _ _ p hne _) hq hq1).trans ?_
  exact mul_le_mul_of_nonneg_left (Real.rpow_le_rpow (Real.sqrt_nonneg _)
    (dist_cascade_le a hs (fun h0 => hY l (by omega) hl) p _ _) hq.le) (Real.rpow_nonneg (Nat.cast_nonneg _) _)

theorem cascade3_zero (s : Idx3) (fam : ℕ → List (Idx3 → ℂ)) (p : List ℕ) (u : Idx3) :
    Spec.cascade3 s fam p (fun _ => 0) u = 0 := by
  induction p with
  | nil => rfl
  | cons j p ih =>
    have : Spec.rotMod3 s (fam j) (fun _ => 0) = fun _ => 0 := by
      funext v
      unfold Spec.rotMod3 Spec.conv3
      simp
    show Spec.cascade3 s fam p (Spec.rotMod3 s (fam j) fun _ => 0) u = 0
    rw [this, ih]

/-- **C99 (energy).** A coefficient to the power 2 is at most the energy of the volume. -/
theorem C99_energy (a : Args3D) {Y : ℤ → ℕ → ℝ → ℝ → ℂ} (hs : 0 < a.sigma0)
    (hY : ∀ l, 1 ≤ l → l ≤ a.L → Spec.SumSqLe Y l)
    (hp : a.powers ≠ []) {x : Vol ℝ} (hx : x.shape = a.shape) :
    ∃ out, a.run Y x = .ok out ∧ ∀ i l k v, At3 out i l k v → a.powers[k]? = some 2 →
      v ≤ ∑ u ∈ Spec.cells a.shape, x.vx u ^ 2 := by
  refine ⟨_, run3_eq a Y hp hx, fun i l k v hv hk => ?_⟩
  obtain ⟨p, q1, h1, hl, h2, rfl⟩ := at3_of_run hp hx (run3_eq a Y hp hx) hv
  obtain rfl := Option.some.inj (hk.symm.trans h2)
  have h := energy_cascade3 a.shape (fun j => used a.rot (a.fam Y l j)) p
    (fun j _ => used_sum_le a hs (fun h0 => hY l (by omega) hl) j) x.vx fun _ => 0
  simp only [cascade3_zero, sub_zero, energy3] at h
  unfold Spec.integral3
  simpa only [Real.rpow_two] using h

/-! ## A concrete case -/

/-- A function with constant squared modulus `1/(4 pi)`. -/
noncomputable def exY (m : ℤ) (_ : ℕ) (az _ : ℝ) : ℂ :=
  ((1 / Real.sqrt (4 * Real.pi) : ℝ) : ℂ) * Complex.exp ((m * az : ℝ) * I)

theorem exY_sumSq (l : ℕ) : Spec.SumSqLe exY l := by
  intro az pol
  have h : ∀ m : ℕ, ‖exY ((m : ℤ) - l) l az pol‖ ^ 2 = 1 / (4 * Real.pi) := by
    intro m
    unfold exY
    rw [norm_mul, Complex.norm_exp_ofReal_mul_I, mul_one, Complex.norm_real, Real.norm_eq_abs, sq_abs, div_pow,
      Real.sq_sqrt (by positivity), one_pow]
  simp only [h, sum_const, card_range, nsmul_eq_mul]
  push_cast
  rw [mul_one_div]

/-- The three spherical harmonics of degree 1 and the constant of degree 0. -/
noncomputable def exHarm (m : ℤ) (l : ℕ) (az pol : ℝ) : ℂ :=
  if l = 0 then ((Real.sqrt (1 / (4 * Real.pi)) : ℝ) : ℂ)
  else if m = 0 then ((Real.sqrt (3 / (4 * Real.pi)) * Real.cos pol : ℝ) : ℂ)
  else ((-(m : ℝ) * Real.sqrt (3 / (8 * Real.pi)) * Real.sin pol : ℝ) : ℂ) * Complex.exp ((m * az : ℝ) * I)

theorem exHarm_norm (m : ℤ) (az pol : ℝ) : ‖exHarm m 1 az pol‖ ^ 2 =
    if m = 0 then 3 / (4 * Real.pi) * Real.cos pol ^ 2 else m ^ 2 * (3 / (8 * Real.pi)) * Real.sin pol ^ 2 := by
  unfold exHarm
  rw [if_neg one_ne_zero]
  split_ifs
  · rw [Complex.norm_real, Real.norm_eq_abs, sq_abs, mul_pow, Real.sq_sqrt (by positivity)]
  · rw [norm_mul, Complex.norm_exp_ofReal_mul_I, mul_one, Complex.norm_real, Real.norm_eq_abs, sq_abs, mul_pow,
      mul_pow, Real.sq_sqrt (by positivity), neg_sq]

theorem exHarm_sumSq : Spec.SumSqLe exHarm 1 := by
  intro az pol
  have hpi := Real.pi_pos
  simp only [exHarm_norm, sum_range_succ, range_zero, sum_empty]
  norm_num
  have h := Real.sin_sq_add_cos_sq pol
  have : 3 / (8 * Real.pi) * Real.sin pol ^ 2 + 3 / (4 * Real.pi) * Real.cos pol ^ 2 +
      3 / (8 * Real.pi) * Real.sin pol ^ 2 = 3 / (4 * Real.pi) * (Real.sin pol ^ 2 + Real.cos pol ^ 2) := by
    field_simp; ring
  rw [this, h, mul_one]

example : ∃ out, ex3.run exHarm exVol = .ok out ∧ ∀ i l k v, At3 out i l k v → ex3.powers[k]? = some 2 →
    v ≤ ∑ u ∈ Spec.cells ex3.shape, exVol.vx u ^ 2 :=
  C99_energy ex3 (by norm_num [ex3]) (fun l h1 h2 => by
    have : l = 1 := by simp only [ex3] at h2; omega
    subst this; exact exHarm_sumSq) (by simp [ex3]) rfl

example : ∃ out out', ex3.run exHarm exVol = .ok out ∧ ex3.run exHarm exVol' = .ok out' ∧
    ∀ i l k v v' q, At3 out i l k v → At3 out' i l k v' → ex3.powers[k]? = some q → 0 < q → q ≤ 1 →
      |v - v'| ≤ ((ex3.shape.1 * ex3.shape.2.1 * ex3.shape.2.2 : ℕ) : ℝ) ^ (1 - q / 2) *
        Spec.dist3 ex3.shape exVol.vx exVol'.vx ^ q :=
  C99_holder ex3 (by norm_num [ex3]) (fun l h1 h2 => by
    have : l = 1 := by simp only [ex3] at h2; omega
    subst this; exact exHarm_sumSq) (by simp [ex3]) rfl rfl

/-- Angular orders up to 7, so degrees beyond those of `exHarm`. -/
example : ∃ out out', { ex3 with L := 7 }.run exY exVol = .ok out ∧ { ex3 with L := 7 }.run exY exVol' = .ok out' ∧
    ∀ i l k v v' q, At3 out i l k v → At3 out' i l k v' → ({ ex3 with L := 7 } : Args3D).powers[k]? = some q → 1 ≤ q →
      |v ^ (1 / q) - v' ^ (1 / q)| ≤ ((4 * 2 * 6 : ℕ) : ℝ) ^ max (1 / q - 1 / 2) 0 *
        Spec.dist3 (4, 2, 6) exVol.vx exVol'.vx :=
  C99_root { ex3 with L := 7 } (by norm_num [ex3]) (fun l _ _ => exY_sumSq l) (by simp [ex3]) rfl rfl

end Verif
