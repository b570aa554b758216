import Verif.Model.FilterBank1D
import Mathlib.Analysis.SpecialFunctions.Log.Basic
import Mathlib.Analysis.Complex.ExponentialBounds

/-!
# Closed form of `anden_generator`
-/

namespace Verif

open Finset

/-! ## While loops -/

section While

variable {σ : Type} (cond : σ → Prop) [DecidablePred cond] (step : σ → σ)

theorem whileYield_closed (s : σ) (K : Nat) (hK : ¬ cond (step^[K] s))
    (hlt : ∀ k < K, cond (step^[k] s)) (fuel : Nat) :
    whileYield cond step fuel s =
      if K < fuel then some ((List.range K).map (fun k => step^[k + 1] s), step^[K] s) else none := by
  induction K generalizing s fuel with
  | zero =>
    cases fuel with
    | zero => rfl
    | succ f =>
      have : ¬ cond s := hK
      simp [whileYield, this]
  | succ K ih =>
    cases fuel with
    | zero => rfl
    | succ f =>
      have h0 : cond s := hlt 0 (by omega)
      rw [whileYield, if_pos h0, ih (step s) (by rwa [Function.iterate_succ_apply] at hK)
        (fun k hk => by
          have := hlt (k + 1) (by omega)
          rwa [Function.iterate_succ_apply] at this)]
      by_cases hf : K < f
      · rw [if_pos hf, if_pos (by omega)]
        simp only [Option.map_some, List.range_succ_eq_map, List.map_cons, List.map_map,
          Function.iterate_succ_apply, Function.iterate_zero_apply, Option.some.injEq,
          Prod.mk.injEq, List.cons.injEq, true_and, and_true]
        rfl
      · rw [if_neg hf, if_neg (by omega)]
        rfl

theorem runWhile_closed (s : σ) (K : Nat) (hK : ¬ cond (step^[K] s))
    (hlt : ∀ k < K, cond (step^[k] s)) :
    runWhile cond step s =
      some ((List.range K).map (fun k => step^[k + 1] s), step^[K] s) := by
  have h : ∃ fuel, (whileYield cond step fuel s).isSome :=
    ⟨K + 1, by rw [whileYield_closed cond step s K hK hlt]; simp⟩
  unfold runWhile
  classical
  rw [dif_pos h]
  have hs := Nat.find_spec h
  rw [whileYield_closed cond step s K hK hlt] at hs ⊢
  split at hs
  · rename_i hlt'
    rw [if_pos hlt']
  · simp at hs

end While

/-! ## The ratio `2^{1/Q}` -/

/-- `math.pow(2, 1/Q)`. -/
noncomputable def qr (Q : Nat) : ℝ := (2 : ℝ) ^ ((1 : ℝ) / Q)

theorem qr_pos (Q : Nat) : 0 < qr Q := Real.rpow_pos_of_pos two_pos _

theorem qr_gt_one {Q : Nat} (hQ : 1 ≤ Q) : 1 < qr Q := by
  unfold qr
  exact Real.one_lt_rpow (by norm_num) (by positivity)

theorem qr_pow {Q : Nat} (hQ : 1 ≤ Q) : qr Q ^ Q = 2 := by
  unfold qr
  rw [← Real.rpow_natCast, ← Real.rpow_mul (by norm_num)]
  have : (Q : ℝ) ≠ 0 := by positivity
  rw [one_div, inv_mul_cancel₀ this, Real.rpow_one]

theorem qr_anti {P Q : Nat} (hP : 1 ≤ P) (hPQ : P ≤ Q) : qr Q ≤ qr P := by
  unfold qr
  apply Real.rpow_le_rpow_of_exponent_le (by norm_num)
  have : (0 : ℝ) < P := by positivity
  exact one_div_le_one_div_of_le this (by exact_mod_cast hPQ)

theorem qr_one : qr 1 = 2 := by
  have := qr_pow (Q := 1) le_rfl
  simpa using this

theorem qr_le_two {Q : Nat} (hQ : 1 ≤ Q) : qr Q ≤ 2 := by
  rw [← qr_one]
  exact qr_anti le_rfl hQ

/-- Bernoulli. -/
theorem qr_le {Q : Nat} (hQ : 1 ≤ Q) : qr Q ≤ 1 + 1 / Q := by
  by_contra h
  push Not at h
  have hq : (0 : ℝ) < Q := by positivity
  have h1 : (1 : ℝ) + Q * (1 / Q) ≤ (1 + 1 / Q) ^ Q :=
    one_add_mul_le_pow (by have : (0 : ℝ) < 1 / Q := by positivity
                           linarith) Q
  rw [mul_one_div_cancel hq.ne'] at h1
  have h2 : (1 + 1 / (Q : ℝ)) ^ Q < qr Q ^ Q := by
    apply pow_lt_pow_left₀ h (by positivity) (by omega)
  rw [qr_pow hQ] at h2
  linarith

theorem qr_ge (Q : Nat) : 1 + Real.log 2 / Q ≤ qr Q := by
  unfold qr
  rw [Real.rpow_def_of_pos two_pos]
  have := Real.add_one_le_exp (Real.log 2 * (1 / Q))
  rw [mul_one_div] at this
  rw [mul_one_div]
  linarith

/-- `1 - 1/Q` times `2^{1/Q}` is below one. -/
theorem qr_mul_lt_one {Q : Nat} (hQ : 1 ≤ Q) : qr Q * (1 - 1 / Q) < 1 := by
  have h := qr_le hQ
  have hq : (0 : ℝ) < Q := by positivity
  have h1 : (0 : ℝ) < 1 / Q := by positivity
  have h2 : (1 : ℝ) / Q ≤ 1 := by
    rw [div_le_one hq]; exact_mod_cast hQ
  nlinarith [qr_pos Q]

/-! ## Bandwidth of a wavelet -/

/-- Ratio `sigma / xi` of `compute_sigma_psi`. -/
noncomputable def sigmaRatio (Q : Nat) (r : ℝ) : ℝ :=
  (qr Q - 1) / (qr Q + 1) / Real.sqrt (2 * Real.log (1 / r))

theorem computeSigmaPsi_eq (xi : ℝ) (Q : Nat) (r : ℝ) :
    computeSigmaPsi xi Q r = sigmaRatio Q r * xi := by
  unfold computeSigmaPsi sigmaRatio
  have h : (2 : ℝ) ^ ((1 : ℝ) / Q) = qr Q := rfl
  have hp := qr_pos Q
  simp only [h]
  have : (1 - 1 / qr Q) / (1 + 1 / qr Q) = (qr Q - 1) / (qr Q + 1) := by
    field_simp
  rw [this]
  ring

theorem sigmaRatio_pos {Q : Nat} (hQ : 1 ≤ Q) {r : ℝ} (h0 : 0 < r) (h1 : r < 1) :
    0 < sigmaRatio Q r := by
  unfold sigmaRatio
  have := qr_gt_one hQ
  have hl : 0 < Real.log (1 / r) := Real.log_pos (by rw [lt_div_iff₀ h0]; linarith)
  have hs : 0 < Real.sqrt (2 * Real.log (1 / r)) := Real.sqrt_pos.2 (by linarith)
  have h3 : 0 < qr Q - 1 := by linarith
  have h4 : 0 < qr Q + 1 := by linarith
  positivity

theorem sigmaRatio_anti {P Q : Nat} (hP : 1 ≤ P) (hPQ : P ≤ Q) (r : ℝ) :
    sigmaRatio Q r ≤ sigmaRatio P r := by
  unfold sigmaRatio
  apply div_le_div_of_nonneg_right _ (Real.sqrt_nonneg _)
  have h1 := qr_anti hP hPQ
  have h2 := qr_gt_one hP
  have h3 := qr_gt_one (hP.trans hPQ)
  rw [div_le_div_iff₀ (by linarith) (by linarith)]
  nlinarith

theorem computeXiMax_ge (Q : Nat) : 0.35 ≤ computeXiMax Q := le_max_right _ _

theorem computeXiMax_lt {Q : Nat} (hQ : 1 ≤ Q) : computeXiMax Q < 1 / 2 := by
  unfold computeXiMax
  apply max_lt _ (by norm_num)
  have : 1 < (2 : ℝ) ^ ((3 : ℝ) / Q) := Real.one_lt_rpow (by norm_num) (by positivity)
  rw [div_lt_div_iff₀ (by linarith) (by norm_num)]
  linarith

/-! ## Closed form -/

theorem arithPart_eq (Q : Nat) (elbow smin : ℝ) (n : Nat) (xi : ℝ) :
    arithPart Q elbow smin n xi =
      (List.range n).map fun q : ℕ => (xi - ((q : ℝ) + 1) / Q * elbow, smin) := by
  induction n generalizing xi with
  | zero => rfl
  | succ n ih =>
    rw [arithPart, ih, List.range_succ_eq_map, List.map_cons, List.map_map]
    congr 1
    · simp
    · apply List.map_congr_left
      intro q _
      simp only [Function.comp, Nat.cast_succ, Prod.mk.injEq, and_true]
      ring

/-- The geometric loop. -/
theorem iterate_div (u : ℝ) (s : ℝ × ℝ) (k : Nat) :
    (fun s : ℝ × ℝ => (s.1 / u, s.2 / u))^[k] s = (s.1 / u ^ k, s.2 / u ^ k) := by
  induction k with
  | zero => simp
  | succ k ih =>
    rw [Function.iterate_succ_apply', ih, pow_succ]
    simp only [div_div]

/-- Closed form of everything yielded by `anden_generator`. -/
theorem andenGenerator_closed (J Q : Nat) (hQ : 1 ≤ Q) (sigma0 r : ℝ) (h0 : 0 < sigma0) :
    let u := qr Q
    let xi := computeXiMax Q
    let s := sigmaRatio Q r * xi
    let smin := sigma0 / 2 ^ J
    (s ≤ smin → andenGenerator J Q sigma0 r =
      some ((List.range (Q - 1)).map fun q : ℕ => (s - ((q : ℝ) + 1) / Q * s, smin))) ∧
    (smin < s → ∃ K : Nat, s / u ^ K ≤ smin * u ∧ (∀ k < K, smin * u < s / u ^ k) ∧
      andenGenerator J Q sigma0 r =
        some (((List.range (K + 1)).map fun k => (xi / u ^ k, s / u ^ k)) ++
          (List.range (Q - 1)).map fun q : ℕ =>
            (xi / u ^ K - ((q : ℝ) + 1) / Q * (xi / u ^ K), smin))) := by
  intro u xi s smin
  have hs : computeSigmaPsi xi Q r = s := computeSigmaPsi_eq _ _ _
  constructor
  · intro hle
    unfold andenGenerator
    simp only
    rw [show computeXiMax Q = xi from rfl, hs, if_pos hle, arithPart_eq]
  · intro hlt
    have hu : 1 < u := qr_gt_one hQ
    have hsm : 0 < smin := by positivity
    have hex : ∃ K : Nat, s / u ^ K ≤ smin * u := by
      obtain ⟨n, hn⟩ := pow_unbounded_of_one_lt (s / (smin * u)) hu
      refine ⟨n, ?_⟩
      have h1 : 0 < smin * u := by positivity
      rw [div_lt_iff₀ h1] at hn
      rw [div_le_iff₀ (by positivity)]
      linarith
    classical
    refine ⟨Nat.find hex, Nat.find_spec hex, fun k hk => ?_, ?_⟩
    · have := Nat.find_min hex hk
      push Not at this
      exact this
    · unfold andenGenerator
      simp only
      rw [show computeXiMax Q = xi from rfl, hs, if_neg (not_le.2 hlt)]
      have hrun := runWhile_closed (fun s : ℝ × ℝ => s.2 > smin * u)
        (fun s : ℝ × ℝ => (s.1 / u, s.2 / u)) (xi, s) (Nat.find hex)
        (by rw [iterate_div]; exact not_lt.2 (Nat.find_spec hex))
        (fun k hk => by
          rw [iterate_div]
          have := Nat.find_min hex hk
          push Not at this
          exact this)
      rw [show (2 : ℝ) ^ ((1 : ℝ) / Q) = u from rfl]
      have hrun' : runWhile (fun s : ℝ × ℝ => s.2 > sigma0 / 2 ^ J * u)
          (fun s : ℝ × ℝ => (s.1 / u, s.2 / u)) (xi, s) = _ := hrun
      convert congrArg (Option.map _) hrun' using 1
      simp only [iterate_div, Option.map_some, Option.some.injEq, arithPart_eq]
      rw [List.range_succ_eq_map, List.map_cons, List.map_map]
      simp
      rfl

/-! ## The library constants `r_psi = sqrt(0.5)`, `sigma0 = 0.1` -/

theorem sqrt_half : 2 * Real.log (1 / Real.sqrt 0.5) = Real.log 2 := by
  rw [Real.log_div one_ne_zero (by positivity), Real.log_one, Real.log_sqrt (by norm_num)]
  have : (0.5 : ℝ) = 2⁻¹ := by norm_num
  rw [this, Real.log_inv]
  ring

/-- `sigma / xi` for the library's `r_psi`. -/
noncomputable def rho (Q : Nat) : ℝ := (qr Q - 1) / (qr Q + 1) / Real.sqrt (Real.log 2)

theorem sigmaRatio_lib (Q : Nat) : sigmaRatio Q (Real.sqrt 0.5) = rho Q := by
  unfold sigmaRatio rho
  rw [sqrt_half]

theorem sqrt_log_two_gt : 0.83 < Real.sqrt (Real.log 2) := by
  rw [Real.lt_sqrt (by norm_num)]
  have := Real.log_two_gt_d9
  norm_num at *
  linarith

theorem sqrt_log_two_lt : Real.sqrt (Real.log 2) < 0.84 := by
  rw [Real.sqrt_lt' (by norm_num)]
  have := Real.log_two_lt_d9
  norm_num at *
  linarith

theorem half_lt_sqrt : (0.5 : ℝ) = 1 / 2 := by norm_num

theorem sqrt_half_pos : 0 < Real.sqrt 0.5 := Real.sqrt_pos.2 (by norm_num)

theorem sqrt_half_lt_one : Real.sqrt 0.5 < 1 := by
  rw [Real.sqrt_lt' (by norm_num)]; norm_num

theorem rho_pos {Q : Nat} (hQ : 1 ≤ Q) : 0 < rho Q := by
  rw [← sigmaRatio_lib]
  exact sigmaRatio_pos hQ sqrt_half_pos sqrt_half_lt_one

theorem rho_anti {P Q : Nat} (hP : 1 ≤ P) (hPQ : P ≤ Q) : rho Q ≤ rho P := by
  rw [← sigmaRatio_lib, ← sigmaRatio_lib]
  exact sigmaRatio_anti hP hPQ _

/-- Bound on the ratio from a bound on `2^{1/Q}`. -/
theorem rho_le_of {Q : Nat} (hQ : 1 ≤ Q) {c : ℝ} (hc : qr Q ≤ c) :
    rho Q ≤ (c - 1) / (c + 1) / 0.83 := by
  have h1 := qr_gt_one hQ
  have h2 := sqrt_log_two_gt
  have h3 : (qr Q - 1) / (qr Q + 1) ≤ (c - 1) / (c + 1) := by
    rw [div_le_div_iff₀ (by linarith) (by linarith)]
    nlinarith
  unfold rho
  have h4 : 0 ≤ (c - 1) / (c + 1) := div_nonneg (by linarith) (by linarith)
  exact div_le_div₀ h4 h3 (by norm_num) h2.le

theorem rho_one_le : rho 1 ≤ 0.402 := by
  have := rho_le_of le_rfl (c := 2) (by rw [qr_one])
  norm_num at *
  linarith

theorem rho_one_ge : 0.39 ≤ rho 1 := by
  unfold rho
  rw [qr_one]
  have := sqrt_log_two_lt
  have h0 := sqrt_log_two_gt
  have h1 : 0 < Real.sqrt (Real.log 2) := lt_trans (by norm_num) h0
  rw [le_div_iff₀ h1]
  norm_num at *
  linarith

theorem rho_two_le : rho 2 ≤ 0.21 := by
  have h : qr 2 ≤ 1.415 := by
    have h2 := qr_pow (Q := 2) (by norm_num)
    have h0 := qr_pos 2
    by_contra hc
    push Not at hc
    nlinarith
  have := rho_le_of (Q := 2) (by norm_num) h
  norm_num at *
  linarith

theorem rho_three_le {Q : Nat} (hQ : 3 ≤ Q) : rho Q ≤ 0.14 := by
  have h : qr 3 ≤ 1.26 := by
    have h2 := qr_pow (Q := 3) (by norm_num)
    by_contra hc
    push Not at hc
    have : (1.26 : ℝ) ^ 3 < qr 3 ^ 3 := pow_lt_pow_left₀ hc (by norm_num) (by norm_num)
    rw [h2] at this
    norm_num at this
  have h3 := rho_anti (by norm_num : 1 ≤ 3) hQ
  have := rho_le_of (Q := 3) (by norm_num) h
  norm_num at *
  linarith

theorem rho_lt_one {Q : Nat} (hQ : 1 ≤ Q) : rho Q < 1 := by
  have := rho_anti le_rfl hQ
  have := rho_one_le
  norm_num at *
  linarith

/-- The first bandwidth is at most `sigma0 * 2^{1/Q}`. -/
theorem first_sigma_le {Q : Nat} (hQ : 1 ≤ Q) : rho Q * computeXiMax Q ≤ 0.1 * qr Q := by
  have hx := computeXiMax_lt hQ
  have hx0 := computeXiMax_ge Q
  have hr := rho_pos hQ
  have hq := qr_gt_one hQ
  rcases Nat.lt_or_ge Q 3 with h | h
  · have hxi : computeXiMax Q = 0.35 := by
      unfold computeXiMax
      apply max_eq_right
      have : (2 : ℝ) ≤ (2 : ℝ) ^ ((3 : ℝ) / Q) := by
        conv_lhs => rw [← Real.rpow_one 2]
        apply Real.rpow_le_rpow_of_exponent_le (by norm_num)
        rw [le_div_iff₀ (by positivity)]
        have : (Q : ℝ) ≤ 2 := by exact_mod_cast (by omega : Q ≤ 2)
        linarith
      rw [div_le_iff₀ (by linarith)]
      norm_num
      linarith
    rw [hxi]
    have hc : Q = 1 ∨ Q = 2 := by omega
    rcases hc with rfl | rfl
    · have := rho_one_le
      rw [qr_one]
      norm_num at *
      linarith
    · have := rho_two_le
      norm_num at *
      linarith
  · have := rho_three_le h
    have : rho Q * computeXiMax Q ≤ 0.14 * (1 / 2) :=
      mul_le_mul this hx.le (by norm_num at hx0; linarith) (by norm_num)
    norm_num at *
    linarith

/-- `5 * Q * rho Q` is at least `2^{1/Q}` for `Q ≥ 2`: the last wavelet is low enough. -/
theorem rho_ge {Q : Nat} (hQ : 2 ≤ Q) : qr Q ≤ 5 * Q * rho Q := by
  have hq1 : 1 ≤ Q := by omega
  have h1 := qr_ge Q
  have h2 : qr Q ≤ 1.415 := by
    have h3 := qr_anti (by norm_num : 1 ≤ 2) hQ
    have h4 := qr_pow (Q := 2) (by norm_num)
    have h0 := qr_pos 2
    by_contra hc
    push Not at hc
    nlinarith
  have hQ0 : (0 : ℝ) < Q := by positivity
  have h5 : Real.log 2 ≤ Q * (qr Q - 1) := by
    have : Real.log 2 / Q ≤ qr Q - 1 := by linarith
    rw [div_le_iff₀ hQ0] at this
    linarith
  have hs := sqrt_log_two_gt
  have hs' := sqrt_log_two_lt
  have hsq : Real.sqrt (Real.log 2) * Real.sqrt (Real.log 2) = Real.log 2 :=
    Real.mul_self_sqrt (Real.log_nonneg (by norm_num))
  have hg := qr_gt_one hq1
  have h6 : Q * rho Q = Q * (qr Q - 1) / ((qr Q + 1) * Real.sqrt (Real.log 2)) := by
    unfold rho
    field_simp
  have h7 : Real.sqrt (Real.log 2) / (qr Q + 1) ≤ Q * rho Q := by
    rw [h6, div_le_div_iff₀ (by linarith) (by nlinarith)]
    nlinarith
  have h8 : (0.83 : ℝ) / 2.415 ≤ Real.sqrt (Real.log 2) / (qr Q + 1) := by
    rw [div_le_div_iff₀ (by norm_num) (by linarith)]
    norm_num at *
    nlinarith
  norm_num at *
  linarith

/-- The wavelets yielded by `anden_generator` with the library constants: either one of the geometric
part (constant ratio, bandwidth above the minimum), or one of the arithmetic part. -/
theorem mem_anden {J Q : Nat} (hQ : 1 ≤ Q) {p : ℝ × ℝ} (hp : p ∈ anden J Q) :
    (p.2 = rho Q * p.1 ∧ 0.1 / 2 ^ J < p.2 ∧ p.1 < 1 / 2) ∨
    (p.2 = 0.1 / 2 ^ J ∧ ∃ (q : ℕ) (e : ℝ), q + 1 < Q ∧ 0 < e ∧ e < 1 / 2 ∧
      e * rho Q ≤ 0.1 / 2 ^ J * qr Q ∧ p.1 = e * (1 - ((q : ℝ) + 1) / Q)) := by
  have hc := andenGenerator_closed J Q hQ 0.1 (Real.sqrt 0.5) (by norm_num)
  simp only [sigmaRatio_lib] at hc
  have hx := computeXiMax_lt hQ
  have hx0 := computeXiMax_ge Q
  have hxp : 0 < computeXiMax Q := by norm_num at hx0; linarith
  have hr := rho_pos hQ
  have hr1 := rho_lt_one hQ
  have hq := qr_gt_one hQ
  have hsm : (0 : ℝ) < 0.1 / 2 ^ J := by positivity
  unfold anden at hp
  rcases le_or_gt (rho Q * computeXiMax Q) (0.1 / 2 ^ J) with h | h
  · rw [hc.1 h, Option.getD_some] at hp
    obtain ⟨q, hq', rfl⟩ := List.mem_map.1 hp
    rw [List.mem_range] at hq'
    right
    refine ⟨rfl, q, rho Q * computeXiMax Q, by omega, by positivity, by nlinarith, ?_, by ring⟩
    calc rho Q * computeXiMax Q * rho Q ≤ 0.1 / 2 ^ J * rho Q := by gcongr
      _ ≤ 0.1 / 2 ^ J * qr Q := by gcongr; linarith
  · obtain ⟨K, hK, hlt, heq⟩ := hc.2 h
    rw [heq, Option.getD_some] at hp
    have hpow : ∀ k, 1 ≤ qr Q ^ k := fun k => one_le_pow₀ hq.le
    have hdiv : ∀ k, computeXiMax Q / qr Q ^ k ≤ computeXiMax Q := fun k =>
      div_le_self hxp.le (hpow k)
    rcases List.mem_append.1 hp with hp | hp
    · obtain ⟨k, hk, rfl⟩ := List.mem_map.1 hp
      rw [List.mem_range] at hk
      left
      refine ⟨by simp only; ring, ?_, lt_of_le_of_lt (hdiv k) hx⟩
      show 0.1 / 2 ^ J < rho Q * computeXiMax Q / qr Q ^ k
      cases k with
      | zero => simpa using h
      | succ k =>
        have := hlt k (by omega)
        rw [pow_succ, ← div_div, lt_div_iff₀ (by linarith)]
        exact this
    · obtain ⟨q, hq', rfl⟩ := List.mem_map.1 hp
      rw [List.mem_range] at hq'
      right
      refine ⟨rfl, q, computeXiMax Q / qr Q ^ K, by omega, ?_, lt_of_le_of_lt (hdiv K) hx, ?_,
        by ring⟩
      · have := hpow K
        positivity
      · calc computeXiMax Q / qr Q ^ K * rho Q = rho Q * computeXiMax Q / qr Q ^ K := by ring
          _ ≤ _ := hK

theorem anden_pos {J Q : Nat} (hQ : 1 ≤ Q) {p : ℝ × ℝ} (hp : p ∈ anden J Q) :
    0 < p.1 ∧ p.1 < 1 / 2 ∧ 0.1 / 2 ^ J ≤ p.2 := by
  have hsm : (0 : ℝ) < 0.1 / 2 ^ J := by positivity
  rcases mem_anden hQ hp with ⟨h1, h2, h3⟩ | ⟨h1, q, e, hq, he, he2, -, hpe⟩
  · refine ⟨?_, h3, h2.le⟩
    have hr := rho_pos hQ
    by_contra hc
    push Not at hc
    nlinarith
  · have hQ0 : (0 : ℝ) < Q := by positivity
    have h4 : ((q : ℝ) + 1) / Q < 1 := by
      rw [div_lt_one hQ0]
      exact_mod_cast hq
    have h5 : 0 < ((q : ℝ) + 1) / Q := by positivity
    refine ⟨?_, ?_, h1.ge⟩
    · rw [hpe]; nlinarith
    · rw [hpe]; nlinarith

end Verif
