import Verif.Lemmas.PoissonGauss
import Verif.Props.Energy1D
import Verif.Props.Stability1D
import Verif.Props.Algebra
import Verif.Props.Filters1D
import Verif.Props.PathsObject1D

/-!
# C116: local averages of the 1-D network

The low-pass filter is a sampled, truncated sum of Gaussians in frequency.  By Poisson summation its impulse response is
non-negative up to the truncated terms, so the averaged coefficients inherit the sign and the order of what is averaged.
-/

namespace Verif

open Finset Complex

theorem exp_neg_fifty : Real.exp (-50) ≤ 2e-22 := by
  rw [Real.exp_neg]
  have h := Real.exp_one_gt_d9
  have e : Real.exp 50 = Real.exp 1 ^ 50 := by rw [← Real.exp_nat_mul]; norm_num
  have h2 : (2.7182818283 : ℝ) ^ 50 ≤ Real.exp 50 := by
    rw [e]; exact pow_le_pow_left₀ (by norm_num) h.le _
  rw [inv_le_comm₀ (Real.exp_pos _) (by norm_num)]
  refine le_trans ?_ h2
  norm_num

/-- **The impulse response of the low-pass filter is non-negative up to `1e-21`.** -/
theorem lowpass_near_nonneg {N : ℕ} (hN : 0 < N) {T : ℝ} (hT : 1 ≤ T) (m : ℤ) :
    -1e-21 ≤ (Spec.impulseR (gauss1d N (0.1 / T)) m).re := by
  have hs : 0 < 0.1 / T := by positivity
  obtain ⟨P, c, hP, hc, hlen, hv, hone⟩ := C87_gauss N (0.1 / T) hN hs
  have hN0 : (0 : ℝ) < N := by exact_mod_cast hN
  have hP2 := hP.1
  -- the constant is at most one
  have hc1 : c ≤ 1 := by
    have h0 := hv 0 hN
    have h1 : |(gauss1d N (0.1 / T)).getD 0 0| ≤ 1 := by
      refine (gain_le_l1norm _ _).trans (le_of_eq ?_)
      rw [l1norm_eq, hlen, hone]
    rw [h0, abs_le] at h1
    have h2 : 1 ≤ Spec.periods P (Spec.gaussian (0.1 / T)) ((0 : ℕ) / N) := by
      unfold Spec.periods
      refine le_trans ?_ (single_le_sum (f := fun p : ℤ => Spec.gaussian (0.1 / T) (((0 : ℕ) : ℝ) / N + p))
        (fun p _ => (Real.exp_pos _).le) (mem_Icc.2 ⟨by omega, by omega⟩ : (0 : ℤ) ∈ Icc (1 - P : ℤ) (P - 1)))
      simp [Spec.gaussian]
    nlinarith
  set b : ℝ := 50 * T ^ 2 / N ^ 2 with hb
  have hb0 : 0 < b := by positivity
  have hgau : ∀ n : ℝ, Spec.gaussian (0.1 / T) (n / N) = Real.exp (-b * n ^ 2) := by
    intro n
    unfold Spec.gaussian
    congr 1
    rw [hb]
    field_simp
    norm_num
    ring
  -- the sum over all the periods
  set A : Finset ℤ := (range N ×ˢ Icc (1 - P : ℤ) (P - 1)).image fun k => (k.1 : ℤ) + k.2 * N with hA
  have hinj : Set.InjOn (fun k : ℕ × ℤ => (k.1 : ℤ) + k.2 * N) (range N ×ˢ Icc (1 - P : ℤ) (P - 1) : Finset (ℕ × ℤ)) := by
    rintro ⟨k, p⟩ hk ⟨k', p'⟩ hk' h
    rw [mem_coe, mem_product, mem_range] at hk hk'
    simp only at h hk hk'
    have hkk : (k : ℤ) < N := by exact_mod_cast hk.1
    have hkk' : (k' : ℤ) < N := by exact_mod_cast hk'.1
    have h1 : (k : ℤ) = k' := by
      have e1 : ((k : ℤ) + p * N) % N = k := by
        rw [Int.add_mul_emod_self_right, Int.emod_eq_of_lt (by positivity) hkk]
      have e2 : ((k' : ℤ) + p' * N) % N = k' := by
        rw [Int.add_mul_emod_self_right, Int.emod_eq_of_lt (by positivity) hkk']
      rw [← e1, h, e2]
    have h2 : p * N = p' * (N : ℤ) := by omega
    have h3 : p = p' := mul_right_cancel₀ (by exact_mod_cast hN.ne') h2
    rw [Prod.mk.injEq]
    exact ⟨by exact_mod_cast h1, h3⟩
  have hre : (Spec.impulseR (gauss1d N (0.1 / T)) m).re =
      c / N * ∑ n ∈ A, Real.exp (-b * (n : ℝ) ^ 2) * Real.cos (2 * Real.pi * (n * (m / N))) := by
    rw [hA, sum_image hinj, sum_product]
    unfold Spec.impulseR Spec.impulse
    rw [List.length_map, hlen, ← Complex.ofReal_natCast, Complex.div_ofReal_re, Complex.re_sum, div_mul_eq_mul_div]
    congr 1
    rw [mul_sum]
    refine sum_congr rfl fun k hk => ?_
    have hkN := mem_range.1 hk
    have e1 : ((gauss1d N (0.1 / T)).map fun r : ℝ => (r : ℂ)).getD k 0 = ((gauss1d N (0.1 / T)).getD k 0 : ℂ) := by
      rw [List.getD_eq_getElem _ _ (by rw [List.length_map, hlen]; exact hkN),
        List.getD_eq_getElem _ _ (by rw [hlen]; exact hkN), List.getElem_map]
    have e2 : 2 * (Real.pi : ℂ) * I * ((k * m : ℤ) : ℂ) / ((N : ℝ) : ℂ) =
        ((2 * Real.pi * (k * (m / N)) : ℝ) : ℂ) * I := by
      push_cast; ring
    rw [e1, e2, Complex.re_ofReal_mul, Complex.exp_ofReal_mul_I_re, hv k hkN]
    unfold Spec.periods
    rw [mul_assoc, sum_mul]
    congr 1
    refine sum_congr rfl fun p _ => ?_
    have e3 : (k : ℝ) / N + p = ((k : ℤ) + p * N : ℤ) / N := by push_cast; field_simp
    rw [e3, hgau]
    congr 1
    have e4 : 2 * Real.pi * ((((k : ℤ) + p * N : ℤ) : ℝ) * (m / N)) = 2 * Real.pi * (k * (m / N)) + ((p * m : ℤ) : ℝ) * (2 * Real.pi) := by
      push_cast; field_simp
    rw [e4, Real.cos_add_int_mul_two_pi]
  have hAc : ∀ n : ℤ, n ∉ A → (N : ℤ) ≤ |n| := by
    intro n hn
    by_contra h
    rw [not_le, abs_lt] at h
    apply hn
    rw [hA, mem_image]
    refine ⟨((n % N).toNat, n / N), ?_, ?_⟩
    · rw [mem_product, mem_range, mem_Icc]
      have hNz : (0 : ℤ) < N := by exact_mod_cast hN
      have h1 := Int.emod_nonneg n hNz.ne'
      have h2 := Int.emod_lt_of_pos n hNz
      have h3 : -1 ≤ n / N := by
        rw [Int.le_ediv_iff_mul_le hNz]; linarith
      have h4 : n / N ≤ 0 := by
        have : n / N < 1 := by rw [Int.ediv_lt_iff_lt_mul hNz]; linarith
        omega
      refine ⟨by omega, ?_, ?_⟩ <;> simp only <;> omega
    · have hNz : (0 : ℤ) < N := by exact_mod_cast hN
      simp only
      rw [Int.toNat_of_nonneg (Int.emod_nonneg n hNz.ne')]
      have := Int.emod_add_mul_ediv n N
      linarith [mul_comm (N : ℤ) (n / N)]
  rw [hre]
  have key := gauss_cos_part hb0 (m / N) hN A hAc
  have hbN2 : -b * (N : ℝ) ^ 2 = -(50 * T ^ 2) := by rw [hb]; field_simp
  have hbN : b * (N : ℝ) = 50 * T ^ 2 / N := by rw [hb]; field_simp
  rw [hbN2] at key
  set u : ℝ := 50 * T ^ 2 / N with hu
  have hu0 : 0 < u := by positivity
  have hexp : Real.exp (-b * N) ≤ 1 / (1 + u) := by
    rw [neg_mul, hbN, Real.exp_neg, ← one_div]
    exact one_div_le_one_div_of_le (by positivity) (by linarith [Real.add_one_le_exp u])
  have h1 : u / (1 + u) ≤ 1 - Real.exp (-b * N) := by
    have : u / (1 + u) = 1 - 1 / (1 + u) := by field_simp; ring
    linarith
  have h2 : Real.exp (-(50 * T ^ 2)) ≤ 2e-22 := by
    refine le_trans (Real.exp_le_exp.2 ?_) exp_neg_fifty
    nlinarith
  have h3 : 2 * Real.exp (-(50 * T ^ 2)) / (1 - Real.exp (-b * N)) ≤ 2 * 2e-22 / (u / (1 + u)) :=
    div_le_div₀ (by norm_num) (by linarith) (by positivity) h1
  have h4 : 1 / (N : ℝ) * (2 * 2e-22 / (u / (1 + u))) ≤ 1e-21 := by
    have e : 1 / (N : ℝ) * (2 * 2e-22 / (u / (1 + u))) = 4e-22 * (1 / N + 1 / (50 * T ^ 2)) := by
      rw [hu]; field_simp; ring
    rw [e]
    have a1 : 1 / (N : ℝ) ≤ 1 := by rw [div_le_one hN0]; exact_mod_cast hN
    have a2 : 1 / (50 * T ^ 2) ≤ 1 := by rw [div_le_one (by positivity)]; nlinarith
    norm_num at a1 a2 ⊢
    linarith
  have h5 : 0 ≤ 2 * Real.exp (-(50 * T ^ 2)) / (1 - Real.exp (-b * N)) :=
    div_nonneg (by positivity) (le_trans (by positivity) h1)
  have h6 : c / N ≤ 1 / N := div_le_div_of_nonneg_right hc1 hN0.le
  have h7 : 0 ≤ c / N := by positivity
  calc (-1e-21 : ℝ) ≤ -(1 / N * (2 * Real.exp (-(50 * T ^ 2)) / (1 - Real.exp (-b * N)))) := by
        have := mul_le_mul_of_nonneg_left h3 (by positivity : 0 ≤ 1 / (N : ℝ))
        linarith
    _ ≤ -(c / N * (2 * Real.exp (-(50 * T ^ 2)) / (1 - Real.exp (-b * N)))) := by
        have := mul_le_mul_of_nonneg_right h6 h5
        linarith
    _ ≤ _ := by
        have := mul_le_mul_of_nonneg_left key h7
        linarith

/-- The weights with which a moving average enters a coefficient. -/
noncomputable def avgWeight (N : ℕ) (T : ℝ) (k : ℕ) (c : ℤ) (u : ℕ) : ℝ :=
  ((2 : ℂ) ^ k * Spec.impulseR (gauss1d N (0.1 / T)) (c - 2 ^ k * u)).re

theorem avgWeight_eq (N : ℕ) (T : ℝ) (k : ℕ) (c : ℤ) (u : ℕ) :
    avgWeight N T k c u = 2 ^ k * (Spec.impulseR (gauss1d N (0.1 / T)) (c - 2 ^ k * u)).re := by
  unfold avgWeight
  have : ((2 : ℂ) ^ k) = ((2 ^ k : ℝ) : ℂ) := by push_cast; rfl
  rw [this, Complex.re_ofReal_mul]

theorem avgWeight_ge {N : ℕ} (hN : 0 < N) {T : ℝ} (hT : 1 ≤ T) (k : ℕ) (c : ℤ) (u : ℕ) :
    -(1e-21 * 2 ^ k) ≤ avgWeight N T k c u := by
  rw [avgWeight_eq]
  have h := lowpass_near_nonneg hN hT (c - 2 ^ k * u)
  have h2 : (0 : ℝ) ≤ 2 ^ k := by positivity
  have := mul_le_mul_of_nonneg_left h h2
  linarith

theorem re_avg (n : ℕ) (a : ℕ → ℝ) (N : ℕ) (T : ℝ) (k : ℕ) (c : ℤ) :
    (∑ u ∈ range n, (a u : ℂ) * (2 ^ k * Spec.impulseR (gauss1d N (0.1 / T)) (c - 2 ^ k * u))).re =
      ∑ u ∈ range n, a u * avgWeight N T k c u := by
  rw [Complex.re_sum]
  exact sum_congr rfl fun u _ => Complex.re_ofReal_mul _ _

/-- An average of non-negative numbers. -/
theorem avg_ge {N : ℕ} (hN : 0 < N) {T : ℝ} (hT : 1 ≤ T) (k : ℕ) (c : ℤ) (a : ℕ → ℝ) {E : ℝ} (hE : 0 ≤ E)
    (ha : ∀ u < N / 2 ^ k, 0 ≤ a u ∧ a u ≤ E) :
    -(1e-21 * N * E) ≤ ∑ u ∈ range (N / 2 ^ k), a u * avgWeight N T k c u := by
  have h1 : ∀ u ∈ range (N / 2 ^ k), -(1e-21 * 2 ^ k * E) ≤ a u * avgWeight N T k c u := by
    intro u hu
    obtain ⟨h2, h3⟩ := ha u (mem_range.1 hu)
    have h4 := mul_le_mul_of_nonneg_left (avgWeight_ge hN hT k c u) h2
    have h5 := mul_le_mul_of_nonneg_right h3 (by positivity : (0 : ℝ) ≤ 1e-21 * 2 ^ k)
    linarith
  refine le_trans ?_ (sum_le_sum h1)
  rw [sum_const, card_range, nsmul_eq_mul]
  have h6 : ((N / 2 ^ k : ℕ) : ℝ) * 2 ^ k ≤ N := by exact_mod_cast Nat.div_mul_le_self N (2 ^ k)
  have h7 := mul_le_mul_of_nonneg_right h6 (by positivity : (0 : ℝ) ≤ 1e-21 * E)
  linarith

/-- The weights add up to at most 1.001. -/
theorem avgWeight_sum {e : ℕ} {T : ℝ} {k ls : ℕ} (hk : k ≤ ls) (hT : (2 : ℝ) ^ k ≤ T) (τ : ℤ) :
    ∑ u ∈ range (2 ^ e / 2 ^ k), avgWeight (2 ^ e) T k (2 ^ ls * τ) u ≤ 1.001 := by
  rcases Nat.lt_or_ge e k with hlt | hke
  · rw [Nat.div_eq_of_lt (Nat.pow_lt_pow_right (by norm_num) hlt)]
    norm_num
  have hT0 : 0 < T := lt_of_lt_of_le (by positivity) hT
  set g := gauss1d (2 ^ e) (0.1 / T) with hg
  have hgl : g.length = 2 ^ e := length_gauss (by positivity)
  have hd : 2 ^ k ∣ g.length := by rw [hgl]; exact pow_dvd_pow 2 hke
  have hM : 2 ^ (e - k) * 2 ^ k = 2 ^ e := by rw [← pow_add]; congr 1; omega
  obtain ⟨y, hy⟩ : ∃ y, reduceLevel false g k = .ok y := ⟨_, by unfold reduceLevel; rw [if_pos hd]⟩
  have hyl : y.length = 2 ^ (e - k) := by
    have := length_reduceLevel hy
    rw [hgl, ← hM] at this
    exact Nat.eq_of_mul_eq_mul_right (by positivity) this
  have hdiv : 2 ^ e / 2 ^ k = y.length := by rw [hyl, ← hM, Nat.mul_div_cancel _ (by positivity)]
  have hs := sum_impulseR y (by rw [hyl]; positivity) (2 ^ (ls - k) * τ)
  have e1 : ∀ u : ℕ, avgWeight (2 ^ e) T k (2 ^ ls * τ) u = (Spec.impulseR y (2 ^ (ls - k) * τ - u)).re := by
    intro u
    rw [impulse_reduceLevel hy]
    unfold avgWeight
    simp only [Bool.false_eq_true, if_false]
    congr 3
    have : (2 : ℤ) ^ ls = 2 ^ (ls - k) * 2 ^ k := by rw [← pow_add]; congr 1; omega
    rw [this]; ring
  rw [hdiv, sum_congr rfl fun u _ => e1 u, ← Complex.re_sum, hs, Complex.ofReal_re]
  have hy0 : y.getD 0 0 = ∑ i ∈ range (2 ^ k), g.getD (i * 2 ^ (e - k) + 0) 0 := by
    obtain ⟨-, hyC⟩ := (reduceLevel_eq false g k y).1 hy
    have h1 : (toC y).getD 0 0 = _ := congrArg (fun l => l.getD 0 (0 : ℂ)) hyC
    have hl : (toC g).length = 2 ^ e := by simp [toC, hgl]
    have hq : 2 ^ e / 2 ^ k = 2 ^ (e - k) := by rw [← hM, Nat.mul_div_cancel _ (by positivity)]
    have e2 : (toC y).getD 0 0 = ((y.getD 0 0 : ℝ) : ℂ) := getD_ofReal _ _
    have e3 : ∀ i, (toC g).getD i 0 = ((g.getD i 0 : ℝ) : ℂ) := fun i => getD_ofReal _ _
    rw [e2] at h1
    simp only [Bool.false_eq_true, if_false, div_one, List.map_id'] at h1
    unfold fold at h1
    rw [getD_tab_lt (by rw [hl, hq]; positivity), hl, hq] at h1
    simp only [e3] at h1
    exact_mod_cast h1
  rw [hy0]
  exact phi_alias_gain hM hT (by positivity)

/-- The displacement of an average. -/
theorem avg_le {e : ℕ} {T : ℝ} (hT : 1 ≤ T) {k ls : ℕ} (hk : k ≤ ls) (hkT : (2 : ℝ) ^ k ≤ T) (τ : ℤ) (a b : ℕ → ℝ)
    {E : ℝ} (hE : 0 ≤ E) (hab : ∀ u < 2 ^ e / 2 ^ k, |a u - b u| ≤ E) :
    |∑ u ∈ range (2 ^ e / 2 ^ k), a u * avgWeight (2 ^ e) T k (2 ^ ls * τ) u -
      ∑ u ∈ range (2 ^ e / 2 ^ k), b u * avgWeight (2 ^ e) T k (2 ^ ls * τ) u| ≤ (1.001 + 2e-21 * 2 ^ e) * E := by
  rw [← sum_sub_distrib]
  refine (abs_sum_le_sum_abs _ _).trans ?_
  have h1 : ∀ u ∈ range (2 ^ e / 2 ^ k), |a u * avgWeight (2 ^ e) T k (2 ^ ls * τ) u -
      b u * avgWeight (2 ^ e) T k (2 ^ ls * τ) u| ≤
      E * (avgWeight (2 ^ e) T k (2 ^ ls * τ) u + 2e-21 * 2 ^ k) := by
    intro u hu
    rw [← sub_mul, abs_mul]
    refine mul_le_mul (hab u (mem_range.1 hu)) ?_ (abs_nonneg _) hE
    have h2 := avgWeight_ge (N := 2 ^ e) (by positivity) hT k (2 ^ ls * τ) u
    have h3 : (0 : ℝ) < 1e-21 * 2 ^ k := by positivity
    rw [abs_le]
    rw [show (2e-21 : ℝ) = 2 * 1e-21 by norm_num]
    constructor <;> linarith
  refine (sum_le_sum h1).trans ?_
  rw [← mul_sum, sum_add_distrib, sum_const, card_range, nsmul_eq_mul, mul_comm]
  refine mul_le_mul_of_nonneg_right ?_ hE
  have h6 : ((2 ^ e / 2 ^ k : ℕ) : ℝ) * 2 ^ k ≤ 2 ^ e := by exact_mod_cast Nat.div_mul_le_self (2 ^ e) (2 ^ k)
  have h7 := mul_le_mul_of_nonneg_right h6 (by positivity : (0 : ℝ) ≤ 2e-21)
  have h8 := avgWeight_sum (e := e) hk hkT τ
  linarith

/-! ## Constructed objects -/

/-- The sequence that the last moving average of a path is applied to. -/
def AvgOf (a : Args1D) (s : Sc1D) (Q1 Q2 : Int) (ls : ℕ) (X : List ℝ) (p : Path (List ℝ)) (U : ℕ → ℝ) : Prop :=
  (p.n = [] ∧ p.j = [] ∧ ∀ u, U u = X.getD u 0) ∨
  (∃ n1 p1 j1, p.n = [n1] ∧ p.j = [j1] ∧ (anden a.J Q1.toNat)[n1]? = some p1 ∧
    (j1 : ℤ) = getMaxDyadicSubsampling p1.1 p1.2 5 ∧
    ∀ u, U u = Spec.U1 X (waveletResponse s.built.Npadded p1) (min j1 ls) u) ∨
  (∃ n1 n2 p1 p2 j1 j2, p.n = [n1, n2] ∧ p.j = [j1, j2] ∧
    (anden a.J Q1.toNat)[n1]? = some p1 ∧ (anden a.J Q2.toNat)[n2]? = some p2 ∧
    (j1 : ℤ) = getMaxDyadicSubsampling p1.1 p1.2 5 ∧ (j2 : ℤ) = getMaxDyadicSubsampling p2.1 p2.2 5 ∧
    ∀ u, U u = Spec.U2 X (waveletResponse s.built.Npadded p1) (waveletResponse s.built.Npadded p2)
      (min j1 ls) (min j2 ls) u)

section

variable {a : Args1D} {s : Sc1D} (hmake : a.make = .ok s) {T : Rat}
  (hT : parseT a.T a.J s.built.Ninput = .ok (T, .loc)) {Q1 Q2 : Int} (hQ : parseQ a.Q = .ok (Q1, Q2)) {ls : ℕ}
  (hls : log2Stride s.built.stride a.T a.J s.built.Ninput = .ok ls)
include hmake hT hQ hls

/-- Every coefficient is a weighted sum of the samples of a sequence. -/
theorem run_avg {x : List ℝ} (hx : x.length = s.built.Ninput) {l : List (Path (List ℝ))}
    (hl : a.run x = .ok (.list l)) :
    ∃ X, Spec.IsPadded x s.built.padLeft s.built.Npadded X ∧ ∀ p ∈ l, ∀ t < p.coef.length,
      ∃ U, AvgOf a s Q1 Q2 ls X p U ∧ p.coef.getD t 0 =
        ∑ u ∈ range (s.built.Npadded / 2 ^ min (p.j.getLastD 0) ls), U u *
          avgWeight s.built.Npadded T (min (p.j.getLastD 0) ls) (2 ^ ls * (t + ⌈(s.built.padLeft : ℚ) / 2 ^ ls⌉)) u := by
  obtain ⟨X, hX, hp⟩ := C13_object_averaged a s hmake T hT Q1 Q2 hQ ls hls x hx l hl
  refine ⟨X, hX, fun p hpl t ht => ?_⟩
  have hform := hp p hpl t ht
  dsimp only at hform
  set τ : ℤ := t + ⌈(s.built.padLeft : ℚ) / 2 ^ ls⌉
  rcases hform with ⟨n1, c1⟩ | ⟨n1, p1, j1, n2, d1, d2, d3, c1⟩ |
    ⟨n1, n2, p1, p2, j1, j2, n3, d1, d2, d3, d4, d5, d6, c1⟩
  · have hj := zeroth_j hmake hl hpl n1
    refine ⟨_, Or.inl ⟨n1, hj, fun _ => rfl⟩, ?_⟩
    rw [c1, hj]
    simp only [List.getLastD_nil, Nat.zero_min]
    rw [← re_avg]
    unfold Spec.S0 lowpassResponse
    simp only [pow_zero, Nat.div_one, one_mul, hX.1]
  · refine ⟨_, Or.inr (Or.inl ⟨n1, p1, j1, n2, d1, d2, d3, fun _ => rfl⟩), ?_⟩
    rw [c1, d1]
    simp only [List.getLastD_cons, List.getLastD_nil]
    rw [← re_avg]
    unfold Spec.S1 lowpassResponse
    simp only [hX.1]
  · refine ⟨_, Or.inr (Or.inr ⟨n1, n2, p1, p2, j1, j2, n3, d1, d3, d4, d5, d6, fun _ => rfl⟩), ?_⟩
    rw [c1, d1]
    simp only [List.getLastD_cons, List.getLastD_nil]
    rw [← re_avg]
    unfold Spec.S2 lowpassResponse
    simp only [hX.1]

omit hT hls in
/-- Sequences of two signals along the same path. -/
theorem avgOf_le {X Y : List ℝ} {D : ℝ} (h0 : 0 ≤ D) (hX : X.length = s.built.Npadded) (hl : Y.length = X.length)
    (hD : ∀ i < X.length, |X.getD i 0 - Y.getD i 0| ≤ D) {p q : Path (List ℝ)} (hpq : p.n = q.n) {U V : ℕ → ℝ}
    (hU : AvgOf a s Q1 Q2 ls X p U) (hV : AvgOf a s Q1 Q2 ls Y q V) :
    q.j = p.j ∧ ∀ u, |U u - V u| ≤ 2 ^ (p.j.dropLast.map fun j => min j ls).sum * D := by
  obtain ⟨_, R1, R2, -, -, -, hQ1, hQ2, -, -, hR, -⟩ := make_filters hmake
  rw [hQ] at hR
  injection hR with hR
  injection hR with e1 e2
  subst e1 e2
  have hD' : ∀ i, |X.getD i 0 - Y.getD i 0| ≤ D := by
    intro i
    rcases Nat.lt_or_ge i X.length with hi | hi
    · exact hD i hi
    · rw [List.getD_eq_getElem?_getD, List.getElem?_eq_none hi, List.getD_eq_getElem?_getD,
        List.getElem?_eq_none (by omega)]
      simpa using h0
  rcases hU with ⟨n1, d1, c1⟩ | ⟨n1, p1, j1, n2, d1, d2, d3, c1⟩ |
    ⟨n1, n2, p1, p2, j1, j2, n3, d1, d3, d4, d5, d6, c1⟩ <;>
  rcases hV with ⟨m1, g1, c2⟩ | ⟨m1, q1, i1, m2, g1, g2, g3, c2⟩ |
    ⟨m1, m2, q1, q2, i1, i2, m3, g1, g3, g4, g5, g6, c2⟩
  · refine ⟨by rw [d1, g1], fun u => ?_⟩
    rw [c1, c2, d1]
    simpa using hD' u
  · rw [n1, m2] at hpq; cases hpq
  · rw [n1, m3] at hpq; cases hpq
  · rw [n2, m1] at hpq; cases hpq
  · rw [n2, m2] at hpq
    injection hpq with e _
    subst e
    rw [d2] at g2
    injection g2 with g2
    subst g2
    have e : i1 = j1 := by omega
    subst e
    obtain ⟨w1, w2⟩ := wavelet_norm (N := s.built.Npadded) (by simpa using hQ1) d2
    refine ⟨by rw [d1, g1], fun u => ?_⟩
    rw [c1, c2, d1]
    simpa [waveletResponse] using U1_le hl hD h0 (w1.trans hX.symm) w2 (min i1 ls) u
  · rw [n2, m3] at hpq; cases hpq
  · rw [n3, m1] at hpq; cases hpq
  · rw [n3, m2] at hpq; cases hpq
  · rw [n3, m3] at hpq
    injection hpq with e e'
    injection e' with e' _
    subst e e'
    rw [d3] at g3
    injection g3 with g3
    rw [d4] at g4
    injection g4 with g4
    subst g3 g4
    have e : i1 = j1 := by omega
    have e' : i2 = j2 := by omega
    subst e e'
    obtain ⟨w1, w2⟩ := wavelet_norm (N := s.built.Npadded) (by simpa using hQ1) d3
    obtain ⟨v1, v2⟩ := wavelet_norm (N := s.built.Npadded) (by simpa using hQ2) d4
    refine ⟨by rw [d1, g1], fun u => ?_⟩
    rw [c1, c2, d1]
    simpa [waveletResponse] using
      U2_le hl hD h0 (w1.trans hX.symm) w2 (v1.trans hX.symm) v2 (min i1 ls) (min i2 ls) u

omit hT hls in
/-- The size of the sequence of a path. -/
theorem avgOf_abs {X : List ℝ} {B : ℝ} (h0 : 0 ≤ B) (hX : X.length = s.built.Npadded)
    (hB : ∀ i < X.length, |X.getD i 0| ≤ B) {p : Path (List ℝ)} {U : ℕ → ℝ} (hU : AvgOf a s Q1 Q2 ls X p U) (u : ℕ) :
    |U u| ≤ 2 ^ (p.j.dropLast.map fun j => min j ls).sum * B := by
  have hz : ∀ i, (List.replicate X.length (0 : ℝ)).getD i 0 = 0 := by
    intro i
    rw [List.getD_eq_getElem?_getD, List.getElem?_replicate]
    split <;> rfl
  have h1 : ∀ (ψ : ℤ → ℂ) (k : ℕ) (u : ℤ), Spec.U1 (List.replicate X.length 0) ψ k u = 0 := by
    intro ψ k u
    unfold Spec.U1
    simp
  have h2 : ∀ (ψ ψ' : ℤ → ℂ) (k k' : ℕ) (u : ℤ), Spec.U2 (List.replicate X.length 0) ψ ψ' k k' u = 0 := by
    intro ψ ψ' k k' u
    unfold Spec.U2
    simp [h1]
  have hV : AvgOf a s Q1 Q2 ls (List.replicate X.length 0) p (fun _ => 0) := by
    rcases hU with ⟨n1, d1, c1⟩ | ⟨n1, p1, j1, n2, d1, d2, d3, c1⟩ |
      ⟨n1, n2, p1, p2, j1, j2, n3, d1, d3, d4, d5, d6, c1⟩
    · exact Or.inl ⟨n1, d1, fun u => (hz u).symm⟩
    · exact Or.inr (Or.inl ⟨n1, p1, j1, n2, d1, d2, d3, fun u => (h1 _ _ _).symm⟩)
    · exact Or.inr (Or.inr ⟨n1, n2, p1, p2, j1, j2, n3, d1, d3, d4, d5, d6, fun u => (h2 _ _ _ _ _).symm⟩)
  have := (avgOf_le hmake hQ h0 hX (List.length_replicate ..) (fun i hi => by rw [hz, sub_zero]; exact hB i hi) rfl
    hU hV).2 u
  rwa [sub_zero] at this

end

/-- A bound on the samples is a bound on the padded samples. -/
theorem padded_mem {x X : List ℝ} {l N : ℕ} (h0 : 0 < x.length) (hX : Spec.IsPadded x l N X) (P : ℝ → Prop)
    (hP : ∀ v ∈ x, P v) (i : ℕ) (hi : i < X.length) : P (X.getD i 0) := by
  rw [hX.1] at hi
  have := mirror_lt h0 ((i : ℤ) - l)
  rw [hX.2 i hi, List.getD_eq_getElem _ _ this]
  exact hP _ (List.getElem_mem _)

/-- **C116, non-negativity.**  With local averaging every coefficient of order one or two, and every coefficient of
order zero of a non-negative signal, is non-negative up to `1e-21` per sample of the padded signal. -/
theorem C116_nonneg (a : Args1D) (s : Sc1D) (hmake : a.make = .ok s) (havg : s.average = .loc) (ls : ℕ)
    (hls : log2Stride s.built.stride a.T a.J s.built.Ninput = .ok ls) (x : List ℝ) (hx : x.length = s.built.Ninput)
    (B : ℝ) (hB : ∀ v ∈ x, |v| ≤ B) (l : List (Path (List ℝ))) (hl : a.run x = .ok (.list l))
    (p : Path (List ℝ)) (hp : p ∈ l) (hsign : p.n ≠ [] ∨ ∀ v ∈ x, 0 ≤ v) (t : ℕ) (ht : t < p.coef.length) :
    -(1e-21 * s.built.Npadded * (2 ^ (p.j.dropLast.map fun j => min j ls).sum * B)) ≤ p.coef.getD t 0 := by
  obtain ⟨T, -, -, hT, -, hsum, -, -, hpos, -⟩ := make_sizes hmake
  rw [havg] at hT
  have hT1 : (1 : ℝ) ≤ T := by exact_mod_cast parseT_ge_one hT
  obtain ⟨_, Q1, Q2, -, -, -, hQ1, hQ2, -, -, hQ, -⟩ := make_filters hmake
  obtain ⟨X, hX, hp'⟩ := run_avg hmake hT hQ hls hx hl
  obtain ⟨U, hU, hc⟩ := hp' p hp t ht
  have hx0 : 0 < x.length := by omega
  have h0 : 0 ≤ B := (abs_nonneg _).trans (hB _ (List.getElem_mem hx0))
  have hXB := padded_mem hx0 hX (fun v => |v| ≤ B) hB
  rw [hc]
  refine avg_ge (by omega) hT1 _ _ U (by positivity) fun u hu => ?_
  refine ⟨?_, (le_abs_self _).trans (avgOf_abs hmake hQ h0 hX.1 hXB hU u)⟩
  rcases hU with ⟨n1, d1, c1⟩ | ⟨n1, p1, j1, n2, d1, d2, d3, c1⟩ |
    ⟨n1, n2, p1, p2, j1, j2, n3, d1, d3, d4, d5, d6, c1⟩
  · rcases hsign with h | h
    · exact absurd n1 h
    · rw [c1]
      rcases Nat.lt_or_ge u X.length with hi | hi
      · exact padded_mem hx0 hX (fun v => 0 ≤ v) h u hi
      · rw [List.getD_eq_getElem?_getD, List.getElem?_eq_none hi]; simp
  · rw [c1]; exact norm_nonneg _
  · rw [c1]; exact norm_nonneg _

/-- **C116, subadditivity of order one.** -/
theorem C116_subadditive (a : Args1D) (s : Sc1D) (hmake : a.make = .ok s) (havg : s.average = .loc) (ls : ℕ)
    (hls : log2Stride s.built.stride a.T a.J s.built.Ninput = .ok ls) (x y z : List ℝ)
    (hz : z.length = s.built.Ninput) (hxyz : Spec.IsCombo 1 1 x y z)
    (B C : ℝ) (hB : ∀ v ∈ x, |v| ≤ B) (hC : ∀ v ∈ y, |v| ≤ C)
    (l m k : List (Path (List ℝ))) (hl : a.run x = .ok (.list l)) (hm : a.run y = .ok (.list m))
    (hk : a.run z = .ok (.list k)) (p q r : Path (List ℝ)) (hp : p ∈ l) (hq : q ∈ m) (hr : r ∈ k)
    (n1 : ℕ) (np : p.n = [n1]) (nq : q.n = [n1]) (nr : r.n = [n1]) (t : ℕ) (tp : t < p.coef.length)
    (tq : t < q.coef.length) (tr : t < r.coef.length) :
    r.coef.getD t 0 ≤ p.coef.getD t 0 + q.coef.getD t 0 + 1e-21 * s.built.Npadded * (B + C) := by
  have hx : x.length = s.built.Ninput := by rw [hxyz.1, hz]
  have hy : y.length = s.built.Ninput := by rw [hxyz.2.1, hz]
  obtain ⟨T, -, -, hT, -, hsum, -, -, hpos, -⟩ := make_sizes hmake
  rw [havg] at hT
  have hT1 : (1 : ℝ) ≤ T := by exact_mod_cast parseT_ge_one hT
  obtain ⟨_, Q1, Q2, -, -, -, hQ1, hQ2, -, -, hQ, -⟩ := make_filters hmake
  obtain ⟨X, hX, hpX⟩ := run_avg hmake hT hQ hls hx hl
  obtain ⟨Y, hY, hpY⟩ := run_avg hmake hT hQ hls hy hm
  obtain ⟨Z, hZ, hpZ⟩ := run_avg hmake hT hQ hls hz hk
  have hc := padded_combo hxyz hX hY hZ
  obtain ⟨U, hU, cp⟩ := hpX p hp t tp
  obtain ⟨V, hV, cq⟩ := hpY q hq t tq
  obtain ⟨W, hW, cr⟩ := hpZ r hr t tr
  have hx0 : 0 < x.length := by omega
  have hy0 : 0 < y.length := by omega
  have hB0 : 0 ≤ B := (abs_nonneg _).trans (hB _ (List.getElem_mem hx0))
  have hC0 : 0 ≤ C := (abs_nonneg _).trans (hC _ (List.getElem_mem hy0))
  have bU := avgOf_abs hmake hQ hB0 hX.1 (padded_mem hx0 hX (fun v => |v| ≤ B) hB) hU
  have bV := avgOf_abs hmake hQ hC0 hY.1 (padded_mem hy0 hY (fun v => |v| ≤ C) hC) hV
  rcases hU with ⟨n, -⟩ | ⟨n, p1, j1, n2, d1, d2, d3, c1⟩ | ⟨_, _, _, _, _, _, n, -⟩
  · rw [np] at n; cases n
  · rcases hV with ⟨n, -⟩ | ⟨m', q1, i1, m2, e1, e2, e3, c2⟩ | ⟨_, _, _, _, _, _, n, -⟩
    · rw [nq] at n; cases n
    · rcases hW with ⟨n, -⟩ | ⟨o, r1, l1, o2, f1, f2, f3, c3⟩ | ⟨_, _, _, _, _, _, n, -⟩
      · rw [nr] at n; cases n
      · rw [np] at n2; rw [nq] at m2; rw [nr] at o2
        cases n2; cases m2; cases o2
        obtain rfl := Option.some.inj (d2.symm.trans e2)
        obtain rfl := Option.some.inj (d2.symm.trans f2)
        obtain rfl : i1 = j1 := by omega
        obtain rfl : l1 = i1 := by omega
        rw [d1] at cp bU
        rw [e1] at cq bV
        rw [f1] at cr
        simp only [List.dropLast_singleton, List.map_nil, List.sum_nil, pow_zero, one_mul] at bU bV
        have key := avg_ge (N := s.built.Npadded) (by omega) hT1 (min ([l1].getLastD 0) ls)
          (2 ^ ls * (t + ⌈(s.built.padLeft : ℚ) / 2 ^ ls⌉)) (fun u => U u + V u - W u)
          (add_nonneg hB0 hC0) (fun u _ => by
            have h1 := U1_subadd hc (waveletResponse s.built.Npadded p1) (min l1 ls) u
            rw [← c1, ← c2, ← c3] at h1
            have h2 := (abs_le.1 (bU u)).2
            have h3 := (abs_le.1 (bV u)).2
            have h4 : 0 ≤ W u := by rw [c3]; exact norm_nonneg _
            constructor <;> linarith)
        simp only [sub_mul, add_mul, sum_sub_distrib, sum_add_distrib] at key
        rw [← cp, ← cq, ← cr] at key
        linarith
      · rw [nr] at n; cases n
    · rw [nq] at n; cases n
  · rw [np] at n; cases n

/-- **C116, monotonicity of order zero.** -/
theorem C116_monotone (a : Args1D) (s : Sc1D) (hmake : a.make = .ok s) (havg : s.average = .loc) (ls : ℕ)
    (hls : log2Stride s.built.stride a.T a.J s.built.Ninput = .ok ls) (x y : List ℝ)
    (hx : x.length = s.built.Ninput) (hy : y.length = s.built.Ninput) (D : ℝ)
    (hxy : ∀ i < x.length, x.getD i 0 ≤ y.getD i 0 ∧ y.getD i 0 ≤ x.getD i 0 + D)
    (l m : List (Path (List ℝ))) (hl : a.run x = .ok (.list l)) (hm : a.run y = .ok (.list m))
    (p q : Path (List ℝ)) (hp : p ∈ l) (hq : q ∈ m) (np : p.n = []) (nq : q.n = []) (t : ℕ)
    (tp : t < p.coef.length) (tq : t < q.coef.length) :
    p.coef.getD t 0 ≤ q.coef.getD t 0 + 1e-21 * s.built.Npadded * D := by
  obtain ⟨T, -, -, hT, -, hsum, -, -, hpos, -⟩ := make_sizes hmake
  rw [havg] at hT
  have hT1 : (1 : ℝ) ≤ T := by exact_mod_cast parseT_ge_one hT
  obtain ⟨_, Q1, Q2, -, -, -, hQ1, hQ2, -, -, hQ, -⟩ := make_filters hmake
  obtain ⟨X, hX, hpX⟩ := run_avg hmake hT hQ hls hx hl
  obtain ⟨Y, hY, hpY⟩ := run_avg hmake hT hQ hls hy hm
  obtain ⟨U, hU, cp⟩ := hpX p hp t tp
  obtain ⟨V, hV, cq⟩ := hpY q hq t tq
  have hx0 : 0 < x.length := by omega
  have hD0 : 0 ≤ D := by have := hxy 0 hx0; linarith
  rcases hU with ⟨-, d1, c1⟩ | ⟨_, _, _, n, -⟩ | ⟨_, _, _, _, _, _, n, -⟩
  · rcases hV with ⟨-, e1, c2⟩ | ⟨_, _, _, n, -⟩ | ⟨_, _, _, _, _, _, n, -⟩
    · rw [d1] at cp
      rw [e1] at cq
      simp only [List.getLastD_nil, Nat.zero_min] at cp cq
      have key := avg_ge (N := s.built.Npadded) (by omega) hT1 0
        (2 ^ ls * (t + ⌈(s.built.padLeft : ℚ) / 2 ^ ls⌉)) (fun u => V u - U u) hD0 (fun u hu => by
          simp only [pow_zero, Nat.div_one] at hu
          simp only [c1, c2]
          rw [hX.2 u hu, hY.2 u hu, hx, hy]
          have h1 := hxy _ (by rw [hx]; exact mirror_lt (by omega) ((u : ℤ) - s.built.padLeft))
          constructor <;> linarith)
      simp only [sub_mul, sum_sub_distrib] at key
      rw [← cp, ← cq] at key
      linarith
    · rw [nq] at n; cases n
    · rw [nq] at n; cases n
  · rw [np] at n; cases n
  · rw [np] at n; cases n

/-- **C93, sharpened.**  If the step of the last average is at most `T`, a path moves by at most 1.001 times `D`
(plus `2e-21` per sample of the padded signal) for each factor `2^min(j, log2_stride)` of the wavelets before the
last. -/
theorem C93_sharp (a : Args1D) (s : Sc1D) (hmake : a.make = .ok s) (T : Rat)
    (hT : parseT a.T a.J s.built.Ninput = .ok (T, .loc)) (ls : ℕ)
    (hls : log2Stride s.built.stride a.T a.J s.built.Ninput = .ok ls) (x y : List ℝ)
    (hx : x.length = s.built.Ninput) (hy : y.length = s.built.Ninput) (D : ℝ)
    (hD : ∀ i < x.length, |x.getD i 0 - y.getD i 0| ≤ D)
    (l m : List (Path (List ℝ))) (hl : a.run x = .ok (.list l)) (hm : a.run y = .ok (.list m))
    (p q : Path (List ℝ)) (hp : p ∈ l) (hq : q ∈ m) (hpq : p.n = q.n)
    (hstep : (2 : ℚ) ^ min (p.j.getLastD 0) ls ≤ T) (t : ℕ) (htp : t < p.coef.length) (htq : t < q.coef.length) :
    |p.coef.getD t 0 - q.coef.getD t 0| ≤
      (1.001 + 2e-21 * s.built.Npadded) * (2 ^ (p.j.dropLast.map fun j => min j ls).sum * D) := by
  obtain ⟨T', -, -, -, -, hsum, -, -, hpos, hN, -⟩ := make_sizes hmake
  have hT1 : (1 : ℝ) ≤ T := by exact_mod_cast parseT_ge_one hT
  have hstep' : (2 : ℝ) ^ min (p.j.getLastD 0) ls ≤ T := by exact_mod_cast hstep
  obtain ⟨_, Q1, Q2, -, -, -, hQ1, hQ2, -, -, hQ, -⟩ := make_filters hmake
  obtain ⟨X, hX, hpX⟩ := run_avg hmake hT hQ hls hx hl
  obtain ⟨Y, hY, hpY⟩ := run_avg hmake hT hQ hls hy hm
  obtain ⟨U, hU, cp⟩ := hpX p hp t htp
  obtain ⟨V, hV, cq⟩ := hpY q hq t htq
  have h0 : 0 ≤ D := (abs_nonneg _).trans (hD 0 (by omega))
  obtain ⟨hlen, hd⟩ := padded_le (by omega) hX hY h0 hD
  obtain ⟨hj, hUV⟩ := avgOf_le hmake hQ h0 hX.1 hlen hd hpq hU hV
  rw [hj] at cq
  rw [cp, cq]
  generalize jPad s.built.Ninput (minToPad s.built.Ninput T') = e at hN
  rw [hN]
  have := avg_le (e := e) hT1 (min_le_right _ _) hstep' (t + ⌈(s.built.padLeft : ℚ) / 2 ^ ls⌉) U V
    (E := 2 ^ (p.j.dropLast.map fun j => min j ls).sum * D) (by positivity) (fun u _ => hUV u)
  push_cast
  exact this

/-! ## Cases that meet the hypotheses -/

theorem exArgs_padded {s : Sc1D} (h1 : (exArgs .none .list).make = .ok s) (h2 : s.built.Ninput = 1000) :
    (s.built.Npadded : ℝ) ≤ 3000 := by
  obtain ⟨-, -, -, -, -, h3, h4, -, h5, -⟩ := make_sizes h1
  exact_mod_cast (by omega : s.built.Npadded ≤ 3000)

/-- `Scattering1D(J=3, shape=1000, Q=(8,1))` on a signal with values in `[0, 1]`: no coefficient of order zero or one is
below `-1e-17`. -/
example (x : List ℝ) (hx : x.length = 1000) (h01 : ∀ v ∈ x, 0 ≤ v ∧ v ≤ 1) :
    ∃ l, (exArgs .none .list).run x = .ok (.list l) ∧
      ∀ p ∈ l, p.j.length ≤ 1 → ∀ t < p.coef.length, -1e-17 ≤ p.coef.getD t 0 := by
  obtain ⟨s, l, h1, h2, h3, h4⟩ := exArgs_list (T := .none) (av := .loc) (Or.inl ⟨rfl, rfl⟩) x hx
  obtain ⟨-, hls⟩ := exArgs_stride h1 h2
  refine ⟨l, h4, fun p hp hj t ht => ?_⟩
  have h := C116_nonneg _ s h1 h3 3 hls x (by omega) 1 (fun v hv => abs_le.2 ⟨by linarith [(h01 v hv).1], (h01 v hv).2⟩)
    l h4 p hp (Or.inr fun v hv => (h01 v hv).1) t ht
  have hd : p.j.dropLast = [] := by
    match p.j, hj with
    | [], _ => rfl
    | [_], _ => rfl
  rw [hd] at h
  have hN := exArgs_padded h1 h2
  simp only [List.map_nil, List.sum_nil, pow_zero, mul_one] at h
  refine le_trans ?_ h
  norm_num
  linarith

/-- Order one of a sum of two such signals, and order zero of signals one above the other. -/
example (x y : List ℝ) (hx : x.length = 1000) (hy : y.length = 1000) (hx1 : ∀ v ∈ x, |v| ≤ 1) (hy1 : ∀ v ∈ y, |v| ≤ 1) :
    ∃ l m k, (exArgs .none .list).run x = .ok (.list l) ∧ (exArgs .none .list).run y = .ok (.list m) ∧
      (exArgs .none .list).run ((List.range 1000).map fun i => x.getD i 0 + y.getD i 0) = .ok (.list k) ∧
      (∃ p ∈ l, p.n = [0]) ∧ ∀ p ∈ l, ∀ q ∈ m, ∀ r ∈ k, p.n = [0] → q.n = [0] → r.n = [0] →
        ∀ t, t < p.coef.length → t < q.coef.length → t < r.coef.length →
        r.coef.getD t 0 ≤ p.coef.getD t 0 + q.coef.getD t 0 + 1e-17 := by
  obtain ⟨s, l, h1, h2, h3, h4⟩ := exArgs_list (T := .none) (av := .loc) (Or.inl ⟨rfl, rfl⟩) x hx
  obtain ⟨_, m, -, -, -, h5⟩ := exArgs_list (T := .none) (av := .loc) (Or.inl ⟨rfl, rfl⟩) y hy
  have hzl : ((List.range 1000).map fun i => x.getD i 0 + y.getD i 0).length = 1000 := by
    rw [List.length_map, List.length_range]
  obtain ⟨_, k, -, -, -, h6⟩ := exArgs_list (T := .none) (av := .loc) (Or.inl ⟨rfl, rfl⟩) _ hzl
  obtain ⟨-, hls⟩ := exArgs_stride h1 h2
  refine ⟨l, m, k, h4, h5, h6, exArgs_first h1 h4, fun p hp q hq r hr np nq nr t tp tq tr => ?_⟩
  have hc : Spec.IsCombo 1 1 x y ((List.range 1000).map fun i => x.getD i 0 + y.getD i 0) := by
    refine ⟨by rw [hx, hzl], by rw [hy, hzl], fun i hi => ?_⟩
    rw [hzl] at hi
    rw [List.getD_eq_getElem _ _ (by rw [hzl]; exact hi), List.getElem_map, List.getElem_range]
    ring
  have h := C116_subadditive _ s h1 h3 3 hls x y _ (by rw [hzl, h2]) hc 1 1 hx1 hy1 l m k h4 h5 h6 p q r hp hq hr 0
    np nq nr t tp tq tr
  have hN := exArgs_padded h1 h2
  refine h.trans ?_
  norm_num
  linarith

/-- Two signals at distance at most 1: every coefficient of order one moves by at most 1.002. -/
example (x y : List ℝ) (hx : x.length = 1000) (hy : y.length = 1000)
    (hd : ∀ i < 1000, |x.getD i 0 - y.getD i 0| ≤ 1) :
    ∃ l m, (exArgs .none .list).run x = .ok (.list l) ∧ (exArgs .none .list).run y = .ok (.list m) ∧
      (∃ p ∈ l, p.n = [0]) ∧ ∀ p ∈ l, ∀ q ∈ m, p.n = q.n → p.j.length = 1 → ∀ t < p.coef.length, t < q.coef.length →
        |p.coef.getD t 0 - q.coef.getD t 0| ≤ 1.002 := by
  obtain ⟨s, l, h1, h2, h3, h4⟩ := exArgs_list (T := .none) (av := .loc) (Or.inl ⟨rfl, rfl⟩) x hx
  obtain ⟨_, m, -, -, -, h5⟩ := exArgs_list (T := .none) (av := .loc) (Or.inl ⟨rfl, rfl⟩) y hy
  obtain ⟨hT, hls⟩ := exArgs_stride h1 h2
  refine ⟨l, m, h4, h5, exArgs_first h1 h4, fun p hp q hq hn hj t ht ht' => ?_⟩
  have h := C93_sharp _ s h1 8 hT 3 hls x y (by omega) (by omega) 1 (by rw [hx]; exact hd) l m h4 h5 p q hp hq hn
    ((pow_le_pow_right₀ (by norm_num) (min_le_right _ _)).trans (by norm_num)) t ht ht'
  have hN := exArgs_padded h1 h2
  match hpj : p.j, hj with
  | [j1], _ =>
    rw [hpj] at h
    simp only [List.dropLast_singleton, List.map_nil, List.sum_nil, pow_zero, mul_one] at h
    refine h.trans ?_
    norm_num
    linarith

/-- A signal and the same signal raised by one half everywhere. -/
example (x : List ℝ) (hx : x.length = 1000) :
    ∃ l m, (exArgs .none .list).run x = .ok (.list l) ∧
      (exArgs .none .list).run (x.map (· + 1 / 2)) = .ok (.list m) ∧
      ∀ p ∈ l, ∀ q ∈ m, p.n = [] → q.n = [] → ∀ t, t < p.coef.length → t < q.coef.length →
        p.coef.getD t 0 ≤ q.coef.getD t 0 + 1e-17 := by
  obtain ⟨s, l, h1, h2, h3, h4⟩ := exArgs_list (T := .none) (av := .loc) (Or.inl ⟨rfl, rfl⟩) x hx
  have hy : (x.map (· + 1 / 2)).length = 1000 := by rw [List.length_map, hx]
  obtain ⟨_, m, -, -, -, h5⟩ := exArgs_list (T := .none) (av := .loc) (Or.inl ⟨rfl, rfl⟩) _ hy
  obtain ⟨-, hls⟩ := exArgs_stride h1 h2
  refine ⟨l, m, h4, h5, fun p hp q hq np nq t tp tq => ?_⟩
  have h := C116_monotone _ s h1 h3 3 hls x _ (by omega) (by rw [hy, h2]) (1 / 2) (fun i hi => by
    rw [List.getD_eq_getElem _ _ hi, List.getD_eq_getElem _ _ (by rw [hy]; omega), List.getElem_map]
    constructor <;> linarith) l m h4 h5 p q hp hq np nq t tp tq
  have hN := exArgs_padded h1 h2
  refine h.trans ?_
  norm_num
  linarith

end Verif
