import Verif.Lemmas.Anden

/-!
# Properties C24, C25, C26, C27, C29, C31 of `filter_bank.py`
-/

namespace Verif

open Finset

/-! ## C24 -/

/-- C24: for every `J` and `Q ≥ 1` (and any `sigma0` in `(0, 1/2)`, any `r_psi` in `(0, 1)`) the
generator stops.  What it yields is a geometric part `geo` of ratio `2^{-1/Q}` (in frequency and in
bandwidth) followed by `Q - 1` wavelets in arithmetic progression, at `e (1 - q/Q)` for
`q = 1, ..., Q-1` and of minimal bandwidth, where `e` is the last frequency of the geometric part
(or, when that part is empty, the initial bandwidth).  Frequencies are positive, below one half and
strictly decreasing; bandwidths are at least `sigma0 / 2^J` and non-increasing. -/
theorem C24_anden_generator (J Q : Nat) (hQ : 1 ≤ Q) (sigma0 r : ℝ) (h0 : 0 < sigma0)
    (h0' : sigma0 < 1 / 2) (hr0 : 0 < r) (hr1 : r < 1) :
    ∃ l, andenGenerator J Q sigma0 r = some l ∧
      (∀ p ∈ l, 0 < p.1 ∧ p.1 < 1 / 2 ∧ sigma0 / 2 ^ J ≤ p.2) ∧
      l.Pairwise (fun p q => q.1 < p.1) ∧ l.Pairwise (fun p q => q.2 ≤ p.2) ∧
      ∃ geo : List (ℝ × ℝ), ∃ e : ℝ,
        l = geo ++ (List.range (Q - 1)).map
          (fun q : ℕ => (e * (1 - ((q : ℝ) + 1) / Q), sigma0 / 2 ^ J)) ∧
        (∀ p ∈ geo.head?, p = (computeXiMax Q, computeSigmaPsi (computeXiMax Q) Q r)) ∧
        geo.IsChain (fun p q => q.1 = p.1 / (2 : ℝ) ^ ((1 : ℝ) / Q) ∧
          q.2 = p.2 / (2 : ℝ) ^ ((1 : ℝ) / Q)) ∧
        (geo ≠ [] → geo.getLast?.map Prod.fst = some e) ∧
        (geo = [] ↔ computeSigmaPsi (computeXiMax Q) Q r ≤ sigma0 / 2 ^ J) ∧
        (geo = [] → e = computeSigmaPsi (computeXiMax Q) Q r) := by
  have hc := andenGenerator_closed J Q hQ sigma0 r h0
  have hx := computeXiMax_lt hQ
  have hx0 := computeXiMax_ge Q
  have hxp : 0 < computeXiMax Q := by norm_num at hx0; linarith
  have hr := sigmaRatio_pos hQ hr0 hr1
  have hu := qr_gt_one hQ
  have hu0 := qr_pos Q
  have hsm : 0 < sigma0 / 2 ^ J := by positivity
  have hsm2 : sigma0 / 2 ^ J < 1 / 2 := lt_of_le_of_lt (div_le_self h0.le (one_le_pow₀ (by norm_num))) h0'
  have hQ0 : (0 : ℝ) < Q := by positivity
  simp only at hc
  have hs : computeSigmaPsi (computeXiMax Q) Q r = sigmaRatio Q r * computeXiMax Q :=
    computeSigmaPsi_eq _ _ _
  rw [hs]
  -- the arithmetic part
  have harith : ∀ e : ℝ, 0 < e → e < 1 / 2 →
      let A : List (ℝ × ℝ) := (List.range (Q - 1)).map
          (fun q : ℕ => (e * (1 - ((q : ℝ) + 1) / Q), sigma0 / 2 ^ J))
      (∀ p ∈ A, 0 < p.1 ∧ p.1 < e ∧ p.2 = sigma0 / 2 ^ J) ∧
      A.Pairwise (fun p q => q.1 < p.1) := by
    intro e he he2 A
    constructor
    · intro p hp
      obtain ⟨q, hq, rfl⟩ := List.mem_map.1 hp
      rw [List.mem_range] at hq
      have h4 : ((q : ℝ) + 1) / Q < 1 := by
        rw [div_lt_one hQ0]
        exact_mod_cast (by omega : q + 1 < Q)
      have h5 : 0 < ((q : ℝ) + 1) / Q := by positivity
      exact ⟨by simp only; nlinarith, by simp only; nlinarith, rfl⟩
    · rw [List.pairwise_map]
      refine List.pairwise_lt_range.imp ?_
      intro a b hab
      have : ((a : ℝ) + 1) / Q < ((b : ℝ) + 1) / Q := by
        gcongr
      simp only
      nlinarith
  rcases le_or_gt (sigmaRatio Q r * computeXiMax Q) (sigma0 / 2 ^ J) with h | h
  · have he : 0 < sigmaRatio Q r * computeXiMax Q := by positivity
    obtain ⟨hA1, hA2⟩ := harith _ he (by linarith)
    refine ⟨_, hc.1 h, ?_⟩
    have hl : ((List.range (Q - 1)).map fun q : ℕ => (sigmaRatio Q r * computeXiMax Q -
        ((q : ℝ) + 1) / Q * (sigmaRatio Q r * computeXiMax Q), sigma0 / 2 ^ J)) =
        (List.range (Q - 1)).map (fun q : ℕ =>
          (sigmaRatio Q r * computeXiMax Q * (1 - ((q : ℝ) + 1) / Q), sigma0 / 2 ^ J)) := by
      apply List.map_congr_left
      intro q _
      simp only [Prod.mk.injEq, and_true]
      ring
    rw [hl]
    refine ⟨fun p hp => ?_, hA2, ?_, [], _, rfl, by simp, List.IsChain.nil,
      fun hn => absurd rfl hn, by simp [h], fun _ => rfl⟩
    · obtain ⟨h1, h2, h3⟩ := hA1 p hp
      exact ⟨h1, by linarith, h3.ge⟩
    · rw [List.pairwise_map]
      exact List.pairwise_lt_range.imp (fun _ => le_refl _)
  · obtain ⟨K, hK, hlt, heq⟩ := hc.2 h
    refine ⟨_, heq, ?_⟩
    set xi := computeXiMax Q with hxi
    set s := sigmaRatio Q r * xi with hsdef
    have hsp : 0 < s := by positivity
    have hpow : ∀ k, 1 ≤ qr Q ^ k := fun k => one_le_pow₀ hu.le
    have hpow0 : ∀ k, 0 < qr Q ^ k := fun k => by positivity
    have hdec : ∀ (c : ℝ), 0 < c → ∀ a b : ℕ, a < b → c / qr Q ^ b < c / qr Q ^ a := by
      intro c hcp a b hab
      exact div_lt_div_of_pos_left hcp (hpow0 a) (pow_lt_pow_right₀ hu hab)
    have hge : ∀ k ≤ K, sigma0 / 2 ^ J < s / qr Q ^ k := by
      intro k hk
      cases k with
      | zero => simpa using h
      | succ k =>
        have := hlt k (by omega)
        rw [pow_succ, ← div_div, lt_div_iff₀ hu0]
        exact this
    have he0 : 0 < xi / qr Q ^ K := by have := hpow0 K; positivity
    have he1 : xi / qr Q ^ K < 1 / 2 := lt_of_le_of_lt (div_le_self hxp.le (hpow K)) hx
    obtain ⟨hA1, hA2⟩ := harith _ he0 he1
    have hl : ((List.range (Q - 1)).map fun q : ℕ => (xi / qr Q ^ K -
        ((q : ℝ) + 1) / Q * (xi / qr Q ^ K), sigma0 / 2 ^ J)) =
        (List.range (Q - 1)).map (fun q : ℕ =>
          (xi / qr Q ^ K * (1 - ((q : ℝ) + 1) / Q), sigma0 / 2 ^ J)) := by
      apply List.map_congr_left
      intro q _
      simp only [Prod.mk.injEq, and_true]
      ring
    rw [hl]
    have hgeo : ∀ p ∈ (List.range (K + 1)).map fun k => (xi / qr Q ^ k, s / qr Q ^ k),
        xi / qr Q ^ K ≤ p.1 ∧ p.1 < 1 / 2 ∧ sigma0 / 2 ^ J < p.2 := by
      intro p hp
      obtain ⟨k, hk, rfl⟩ := List.mem_map.1 hp
      rw [List.mem_range] at hk
      refine ⟨?_, lt_of_le_of_lt (div_le_self hxp.le (hpow k)) hx, hge k (by omega)⟩
      exact div_le_div_of_nonneg_left hxp.le (hpow0 k) (pow_le_pow_right₀ hu.le (by omega))
    refine ⟨fun p hp => ?_, ?_, ?_, (List.range (K + 1)).map fun k => (xi / qr Q ^ k, s / qr Q ^ k),
      xi / qr Q ^ K, rfl, ?_, ?_, ?_, ?_, ?_⟩
    · rcases List.mem_append.1 hp with hp | hp
      · obtain ⟨h1, h2, h3⟩ := hgeo p hp
        exact ⟨by linarith, h2, h3.le⟩
      · obtain ⟨h1, h2, h3⟩ := hA1 p hp
        exact ⟨h1, by linarith, h3.ge⟩
    · rw [List.pairwise_append]
      refine ⟨?_, hA2, ?_⟩
      · rw [List.pairwise_map]
        exact List.pairwise_lt_range.imp fun hab => hdec _ hxp _ _ hab
      · intro p hp q hq
        have h1 := (hgeo p hp).1
        have h2 := (hA1 q hq).2.1
        linarith
    · rw [List.pairwise_append]
      refine ⟨?_, ?_, ?_⟩
      · rw [List.pairwise_map]
        exact List.pairwise_lt_range.imp fun hab => (hdec _ hsp _ _ hab).le
      · rw [List.pairwise_map]
        exact List.pairwise_lt_range.imp (fun _ => le_refl _)
      · intro p hp q hq
        have h1 := (hgeo p hp).2.2
        have h2 := (hA1 q hq).2.2
        linarith
    · intro p hp
      rw [List.range_succ_eq_map, List.map_cons] at hp
      simpa using hp.symm
    · rw [List.isChain_map]
      have hch : (List.range (K + 1)).IsChain fun a b => b = a + 1 := by
        rw [List.range_eq_range']
        exact List.isChain_range' _ _ _
      refine hch.imp ?_
      rintro a b rfl
      rw [show (2 : ℝ) ^ ((1 : ℝ) / Q) = qr Q from rfl]
      constructor <;> rw [div_div, pow_succ]
    · intro _
      rw [List.range_succ, List.map_append]
      simp
    · constructor
      · intro h'
        simp at h'
      · intro h'
        linarith
    · intro h'
      simp at h'

/-- The generator with the library constants. -/
theorem anden_eq (J Q : Nat) (hQ : 1 ≤ Q) :
    andenGenerator J Q 0.1 (Real.sqrt 0.5) = some (anden J Q) := by
  obtain ⟨l, hl, -⟩ := C24_anden_generator J Q hQ 0.1 (Real.sqrt 0.5) (by norm_num) (by norm_num)
    sqrt_half_pos sqrt_half_lt_one
  unfold anden
  rw [hl]
  rfl

example : (1 : ℕ) ≤ 8 ∧ (0 : ℝ) < 0.1 ∧ (0.1 : ℝ) < 1 / 2 := by norm_num

/-! ## C25 -/

/-- C25 (partial): `anden_generator` with the library constants yields at least one and at most `(J + 1) Q`
wavelets.  Missing for the full C25: the room on the frequency axis, which is false in general (`C25_room_violated`,
`C74_room_partial`). -/
theorem C25_number_of_filters_partial (J Q : Nat) (hQ : 1 ≤ Q) :
    1 ≤ (anden J Q).length ∧ (anden J Q).length ≤ (J + 1) * Q := by
  have hc := andenGenerator_closed J Q hQ 0.1 (Real.sqrt 0.5) (by norm_num)
  simp only [sigmaRatio_lib] at hc
  have hu := qr_gt_one hQ
  have hf := first_sigma_le hQ
  unfold anden
  rcases le_or_gt (rho Q * computeXiMax Q) (0.1 / 2 ^ J) with h | h
  · rw [hc.1 h, Option.getD_some, List.length_map, List.length_range]
    have h2 : 2 ≤ Q := by
      by_contra hq
      have : Q = 1 := by omega
      subst this
      have h1 : (0.1 : ℝ) / 2 ^ J ≤ 0.1 := div_le_self (by norm_num) (one_le_pow₀ (by norm_num))
      have h3 := computeXiMax_ge 1
      have h4 := rho_one_ge
      have : (0.39 : ℝ) * 0.35 ≤ rho 1 * computeXiMax 1 :=
        mul_le_mul h4 h3 (by norm_num) (by norm_num at *; linarith)
      norm_num at *
      linarith
    refine ⟨by omega, ?_⟩
    calc Q - 1 ≤ 1 * Q := by omega
      _ ≤ (J + 1) * Q := Nat.mul_le_mul_right _ (by omega)
  · obtain ⟨K, hK, hlt, heq⟩ := hc.2 h
    rw [heq, Option.getD_some, List.length_append, List.length_map, List.length_map,
      List.length_range, List.length_range]
    refine ⟨by omega, ?_⟩
    have hKJ : K ≤ J * Q := by
      by_contra hcon
      push Not at hcon
      have h1 := hlt (J * Q) hcon
      rw [mul_comm J Q, pow_mul, qr_pow hQ, div_mul_eq_mul_div] at h1
      rw [div_lt_div_iff_of_pos_right (by positivity)] at h1
      linarith
    have : (J + 1) * Q = J * Q + Q := by ring
    omega

/-! ## C26 -/

theorem floor_neg_logb {u : ℝ} (hu : 0 < u) :
    u ≤ (2 : ℝ) ^ (-⌊-Real.logb 2 u⌋) ∧ (2 : ℝ) ^ (-(⌊-Real.logb 2 u⌋ + 1)) < u := by
  have h1 := Int.floor_le (-Real.logb 2 u)
  have h2 := Int.lt_floor_add_one (-Real.logb 2 u)
  constructor
  · have h3 : Real.logb 2 u ≤ ((-⌊-Real.logb 2 u⌋ : ℤ) : ℝ) := by push_cast; linarith
    rw [Real.logb_le_iff_le_rpow (by norm_num) hu, Real.rpow_intCast] at h3
    exact h3
  · have h3 : ((-(⌊-Real.logb 2 u⌋ + 1) : ℤ) : ℝ) < Real.logb 2 u := by push_cast; linarith
    rw [Real.lt_logb_iff_rpow_lt (by norm_num) hu, Real.rpow_intCast] at h3
    exact h3

/-- C26: with `b = |xi| + alpha * sigma` the frequency bound of the filter, the returned `j` is
nonnegative; if `b ≤ 1/2` then `b ≤ 2^{-(j+1)}`, and no integer above `j` satisfies this; if
`b > 1/2` then `j = 0`. -/
theorem C26_max_dyadic_subsampling (xi sigma alpha : ℝ) (hb : 0 < |xi| + alpha * sigma) :
    0 ≤ getMaxDyadicSubsampling xi sigma alpha ∧
    (|xi| + alpha * sigma ≤ 1 / 2 →
      |xi| + alpha * sigma ≤ (2 : ℝ) ^ (-(getMaxDyadicSubsampling xi sigma alpha + 1))) ∧
    (∀ j : ℤ, getMaxDyadicSubsampling xi sigma alpha < j →
      (2 : ℝ) ^ (-(j + 1)) < |xi| + alpha * sigma) ∧
    (1 / 2 < |xi| + alpha * sigma → getMaxDyadicSubsampling xi sigma alpha = 0) := by
  have hhalf : Real.logb 2 (1 / 2) = -1 := by
    rw [one_div, Real.logb_inv, Real.logb_self_eq_one (by norm_num)]
  unfold getMaxDyadicSubsampling
  simp only
  set b := |xi| + alpha * sigma with hbdef
  have hu : 0 < min b (1 / 2) := lt_min hb (by norm_num)
  obtain ⟨h1, h2⟩ := floor_neg_logb hu
  have h0 : (1 : ℤ) ≤ ⌊-Real.logb 2 (min b (1 / 2))⌋ := by
    rw [Int.le_floor]
    have : Real.logb 2 (min b (1 / 2)) ≤ Real.logb 2 (1 / 2) :=
      Real.logb_le_logb_of_le (by norm_num) hu (min_le_right _ _)
    rw [hhalf] at this
    push_cast
    linarith
  refine ⟨by omega, ?_, ?_, ?_⟩
  · intro hle
    rw [min_eq_left hle] at h1 ⊢
    simpa using h1
  · intro j hj
    refine lt_of_le_of_lt ?_ (lt_of_lt_of_le h2 (min_le_left _ _))
    apply zpow_le_zpow_right₀ (by norm_num)
    omega
  · intro hlt
    rw [min_eq_right hlt.le, hhalf]
    norm_num

example : getMaxDyadicSubsampling 0.1 0.02 5 = 1 := by
  have h := C26_max_dyadic_subsampling 0.1 0.02 5 (by norm_num)
  have ha : |(0.1 : ℝ)| = 0.1 := abs_of_pos (by norm_num)
  rw [ha] at h
  obtain ⟨h0, h1, h2, -⟩ := h
  have h1 := h1 (by norm_num)
  by_contra hne
  rcases lt_or_gt_of_ne hne with hlt | hgt
  · have := h2 1 hlt
    norm_num at this
  · have : (2 : ℝ) ^ (-(getMaxDyadicSubsampling 0.1 0.02 5 + 1)) ≤ (2 : ℝ) ^ (-3 : ℤ) :=
      zpow_le_zpow_right₀ (by norm_num) (by omega)
    norm_num at *
    linarith

/-- Facts on the scale of a wavelet of the library. -/
theorem anden_scale {J Q : Nat} (hQ : 1 ≤ Q) {p : ℝ × ℝ} (hp : p ∈ anden J Q) :
    0 ≤ getMaxDyadicSubsampling p.1 p.2 5 ∧
    getMaxDyadicSubsampling p.1 p.2 5 ≤ max ((J : ℤ) - 1) 0 ∧
    (1 ≤ getMaxDyadicSubsampling p.1 p.2 5 →
      p.1 + 5 * p.2 ≤ (2 : ℝ) ^ (-(getMaxDyadicSubsampling p.1 p.2 5 + 1))) ∧
    (2 : ℝ) ^ (-(getMaxDyadicSubsampling p.1 p.2 5 + 2)) < p.1 + 5 * p.2 := by
  obtain ⟨h1, h2, h3⟩ := anden_pos hQ hp
  have hsm : (0 : ℝ) < 0.1 / 2 ^ J := by positivity
  have hab : |p.1| = p.1 := abs_of_pos h1
  have hc := C26_max_dyadic_subsampling p.1 p.2 5 (by rw [hab]; linarith)
  rw [hab] at hc
  obtain ⟨c0, c1, c2, c3⟩ := hc
  have c2' := c2 (getMaxDyadicSubsampling p.1 p.2 5 + 1) (by omega)
  refine ⟨c0, ?_, ?_, by
    rw [show getMaxDyadicSubsampling p.1 p.2 5 + 2 = getMaxDyadicSubsampling p.1 p.2 5 + 1 + 1 by ring]
    exact c2'⟩
  · by_contra hcon
    push Not at hcon
    rw [max_lt_iff] at hcon
    have hle : p.1 + 5 * p.2 ≤ 1 / 2 := by
      by_contra hgt
      push Not at hgt
      have := c3 hgt
      omega
    have := c1 hle
    have h4 : (2 : ℝ) ^ (-(getMaxDyadicSubsampling p.1 p.2 5 + 1)) ≤ (2 : ℝ) ^ (-((J : ℤ) + 1)) :=
      zpow_le_zpow_right₀ (by norm_num) (by omega)
    have h5 : (2 : ℝ) ^ (-((J : ℤ) + 1)) = 5 * (0.1 / 2 ^ J) := by
      rw [zpow_neg, zpow_add₀ (by norm_num), zpow_natCast, zpow_one]
      field_simp
      norm_num
    rw [h5] at h4
    linarith
  · intro hj
    apply c1
    by_contra hgt
    push Not at hgt
    have := c3 hgt
    omega

/-- C26, last part: every wavelet of `anden_generator(J, Q)` has `0 ≤ j ≤ max(J - 1, 0)`. -/
theorem C26_scale_le (J Q : Nat) (hQ : 1 ≤ Q) (p : ℝ × ℝ) (hp : p ∈ anden J Q) :
    0 ≤ getMaxDyadicSubsampling p.1 p.2 5 ∧
      getMaxDyadicSubsampling p.1 p.2 5 ≤ max ((J : ℤ) - 1) 0 :=
  ⟨(anden_scale hQ hp).1, (anden_scale hQ hp).2.1⟩

/-! ## C27 -/

/-- C27, first assertion: the centre frequency is below the Nyquist frequency of the subsampled
rate. -/
theorem C27_below_nyquist (J Q : Nat) (hQ : 1 ≤ Q) (p : ℝ × ℝ) (hp : p ∈ anden J Q) :
    p.1 < 0.5 / (2 : ℝ) ^ getMaxDyadicSubsampling p.1 p.2 5 := by
  obtain ⟨h1, h2, h3⟩ := anden_pos hQ hp
  obtain ⟨s1, -, s3, -⟩ := anden_scale hQ hp
  have hsm : (0 : ℝ) < 0.1 / 2 ^ J := by positivity
  rcases Int.lt_or_le (getMaxDyadicSubsampling p.1 p.2 5) 1 with h | h
  · have : getMaxDyadicSubsampling p.1 p.2 5 = 0 := by omega
    rw [this]
    norm_num at *
    linarith
  · have h4 := s3 h
    have h5 : (0.5 : ℝ) / (2 : ℝ) ^ getMaxDyadicSubsampling p.1 p.2 5 =
        (2 : ℝ) ^ (-(getMaxDyadicSubsampling p.1 p.2 5 + 1)) := by
      rw [zpow_neg, zpow_add₀ (by norm_num), zpow_one]
      have : (2 : ℝ) ^ getMaxDyadicSubsampling p.1 p.2 5 ≠ 0 := by positivity
      field_simp
      norm_num
    rw [h5]
    linarith

/-- C27, second assertion: for `Q1 ≥ Q2`, if a first-order wavelet has a smaller scale than a
second-order wavelet then it has a larger centre frequency. -/
theorem C27_scale_order (J Q1 Q2 : Nat) (hQ2 : 1 ≤ Q2) (hQ : Q2 ≤ Q1) (p q : ℝ × ℝ)
    (hp : p ∈ anden J Q1) (hq : q ∈ anden J Q2)
    (hj : getMaxDyadicSubsampling p.1 p.2 5 < getMaxDyadicSubsampling q.1 q.2 5) :
    q.1 < p.1 := by
  have hQ1 : 1 ≤ Q1 := hQ2.trans hQ
  obtain ⟨p1, -, p3⟩ := anden_pos hQ1 hp
  obtain ⟨q1, -, q3⟩ := anden_pos hQ2 hq
  obtain ⟨s1, -, -, s4⟩ := anden_scale hQ1 hp
  obtain ⟨-, -, t3, -⟩ := anden_scale hQ2 hq
  have hsm : (0 : ℝ) < 0.1 / 2 ^ J := by positivity
  have hcmp : q.1 + 5 * q.2 < p.1 + 5 * p.2 := by
    have h1 := t3 (by omega)
    have h2 : (2 : ℝ) ^ (-(getMaxDyadicSubsampling q.1 q.2 5 + 1)) ≤
        (2 : ℝ) ^ (-(getMaxDyadicSubsampling p.1 p.2 5 + 2)) :=
      zpow_le_zpow_right₀ (by norm_num) (by omega)
    linarith
  have hr1 := rho_pos hQ1
  have hr2 := rho_pos hQ2
  have hr := rho_anti hQ2 hQ
  rcases mem_anden hQ1 hp with ⟨a1, a2, a3⟩ | ⟨a1, -⟩
  · rcases mem_anden hQ2 hq with ⟨b1, b2, b3⟩ | ⟨b1, k, e, hk, he, -, heq, hqe⟩
    · by_contra hcon
      push Not at hcon
      have : p.2 ≤ q.2 := by
        rw [a1, b1]
        exact mul_le_mul hr hcon p1.le hr2.le
      linarith
    · -- the second-order wavelet is in the arithmetic part
      have h1 : rho Q2 * q.1 < 0.1 / 2 ^ J := by
        rw [hqe]
        have hQ0 : (0 : ℝ) < Q2 := by positivity
        have h2 := qr_mul_lt_one hQ2
        have h3 : (1 - ((k : ℝ) + 1) / Q2) ≤ 1 - 1 / Q2 := by
          have : (1 : ℝ) / Q2 ≤ ((k : ℝ) + 1) / Q2 := by
            gcongr
            have : (0 : ℝ) ≤ k := by positivity
            linarith
          linarith
        have h4 : (0 : ℝ) ≤ 1 - 1 / Q2 := by
          have : (1 : ℝ) / Q2 ≤ 1 := by
            rw [div_le_one hQ0]; exact_mod_cast hQ2
          linarith
        calc rho Q2 * (e * (1 - ((k : ℝ) + 1) / Q2))
            = (e * rho Q2) * (1 - ((k : ℝ) + 1) / Q2) := by ring
          _ ≤ (e * rho Q2) * (1 - 1 / Q2) := by gcongr
          _ ≤ (0.1 / 2 ^ J * qr Q2) * (1 - 1 / Q2) := by gcongr
          _ = 0.1 / 2 ^ J * (qr Q2 * (1 - 1 / Q2)) := by ring
          _ < 0.1 / 2 ^ J * 1 := by gcongr
          _ = 0.1 / 2 ^ J := by ring
      by_contra hcon
      push Not at hcon
      have : p.2 ≤ rho Q2 * q.1 := by
        rw [a1]
        exact mul_le_mul hr hcon p1.le hr2.le
      linarith
  · linarith

theorem makePsi_fields {mean : Bool} {N : Nat} {alpha : ℝ} {pj lT : ℤ} {p : ℝ × ℝ} {f : FiltX}
    (h : makePsi mean N alpha pj lT p = .ok f) :
    f.xi = p.1 ∧ f.sigma = p.2 ∧ f.j = getMaxDyadicSubsampling p.1 p.2 alpha ∧
      makeLevels mean (morlet1d N (some p.1) p.2)
        (min (min pj (getMaxDyadicSubsampling p.1 p.2 alpha)) (1 + lT)) = .ok f.levels := by
  unfold makePsi at h
  cases hl : makeLevels mean (morlet1d N (some p.1) p.2)
        (min (min pj (getMaxDyadicSubsampling p.1 p.2 alpha)) (1 + lT)) with
  | error e => simp only [hl, bind, Except.bind] at h; cases h
  | ok lv =>
    simp only [hl, bind, Except.bind] at h
    injection h with h
    subst h
    exact ⟨rfl, rfl, rfl, rfl⟩

/-- A wavelet of the geometric part is yielded as long as its bandwidth exceeds the minimum. -/
theorem geo_mem_anden {J Q : Nat} (hQ : 1 ≤ Q) (k : Nat)
    (hk : 0.1 / 2 ^ J < rho Q * computeXiMax Q / qr Q ^ k) :
    (computeXiMax Q / qr Q ^ k, rho Q * computeXiMax Q / qr Q ^ k) ∈ anden J Q := by
  have hc := andenGenerator_closed J Q hQ 0.1 (Real.sqrt 0.5) (by norm_num)
  simp only [sigmaRatio_lib] at hc
  have hu := qr_gt_one hQ
  have hsm : (0 : ℝ) < 0.1 / 2 ^ J := by positivity
  have hx0 : 0 < computeXiMax Q := by have := computeXiMax_ge Q; norm_num at this; linarith
  have hs : 0 < rho Q * computeXiMax Q := mul_pos (rho_pos hQ) hx0
  have hlt0 : 0.1 / 2 ^ J < rho Q * computeXiMax Q :=
    lt_of_lt_of_le hk (div_le_self hs.le (one_le_pow₀ hu.le))
  obtain ⟨K, hK, hlt, heq⟩ := hc.2 hlt0
  unfold anden
  rw [heq, Option.getD_some, List.mem_append]
  left
  refine List.mem_map.2 ⟨k, List.mem_range.2 ?_, rfl⟩
  by_contra hcon
  push Not at hcon
  have h1 : rho Q * computeXiMax Q / qr Q ^ k ≤ rho Q * computeXiMax Q / qr Q ^ (K + 1) :=
    div_le_div_of_nonneg_left hs.le (by positivity) (pow_le_pow_right₀ hu.le hcon)
  rw [pow_succ, ← div_div] at h1
  have h2 : rho Q * computeXiMax Q / qr Q ^ K / qr Q ≤ 0.1 / 2 ^ J := by
    rw [div_le_iff₀ (by linarith)]
    exact hK
  linarith

/-- C27 is sharp: with `Q1 = 1` and any `Q2 ≥ 3` the second assertion fails as soon as
`2^J ≥ 6 Q2`. -/
theorem C27_fails_when_Q1_smaller (J Q2 : Nat) (hQ2 : 3 ≤ Q2) (hJ : 6 * Q2 ≤ 2 ^ J) :
    ∃ p ∈ anden J 1, ∃ q ∈ anden J Q2,
      getMaxDyadicSubsampling p.1 p.2 5 < getMaxDyadicSubsampling q.1 q.2 5 ∧ ¬ q.1 < p.1 := by
  have hQ : 1 ≤ Q2 := by omega
  have hxm : computeXiMax 1 = 0.35 := by
    unfold computeXiMax
    apply max_eq_right
    norm_num
  have hJ' : (6 : ℝ) * Q2 ≤ 2 ^ J := by exact_mod_cast hJ
  have hQr : (3 : ℝ) ≤ Q2 := by exact_mod_cast hQ2
  have h2J : (0 : ℝ) < 2 ^ J := by positivity
  have hr1 := rho_one_ge
  have hr1' := rho_one_le
  have hxi := computeXiMax_ge Q2
  have hxi' := computeXiMax_lt hQ
  have hr2 := rho_three_le hQ2
  have hr2' := rho_ge (by omega : 2 ≤ Q2)
  have hu2 := qr_gt_one hQ
  have hp := geo_mem_anden (J := J) (Q := 1) le_rfl 2 (by
    rw [hxm, qr_one, div_lt_iff₀ h2J]
    norm_num at *
    nlinarith)
  have hpow : qr Q2 ^ (2 * Q2) = 4 := by
    rw [mul_comm, pow_mul, qr_pow hQ]; norm_num
  have hq := geo_mem_anden (J := J) (Q := Q2) hQ (2 * Q2) (by
    rw [hpow, div_lt_iff₀ h2J]
    have h1 : 1 < 5 * Q2 * rho Q2 := by linarith
    have h2 : 0 < rho Q2 := rho_pos hQ
    have h3 : rho Q2 * 0.35 / 4 * (6 * Q2) ≤ rho Q2 * computeXiMax Q2 / 4 * 2 ^ J := by
      gcongr
    norm_num at *
    nlinarith)
  rw [hpow] at hq
  rw [hxm, qr_one] at hp
  refine ⟨_, hp, _, hq, ?_, ?_⟩
  · obtain ⟨s1, -, s3, -⟩ := anden_scale le_rfl hp
    obtain ⟨-, -, -, t4⟩ := anden_scale hQ hq
    have hj1 : getMaxDyadicSubsampling (0.35 / 2 ^ 2) (rho 1 * 0.35 / 2 ^ 2) 5 < 1 := by
      by_contra hc
      push Not at hc
      have h1 := s3 hc
      have h2 : (2 : ℝ) ^ (-(getMaxDyadicSubsampling (0.35 / 2 ^ 2) (rho 1 * 0.35 / 2 ^ 2) 5 + 1)) ≤
          (2 : ℝ) ^ (-2 : ℤ) := zpow_le_zpow_right₀ (by norm_num) (by omega)
      simp only at h1
      norm_num at *
      linarith
    have hj2 : 1 ≤ getMaxDyadicSubsampling (computeXiMax Q2 / 4) (rho Q2 * computeXiMax Q2 / 4) 5 := by
      by_contra hc
      push Not at hc
      have h2 : (2 : ℝ) ^ (-2 : ℤ) ≤ (2 : ℝ) ^ (-(getMaxDyadicSubsampling (computeXiMax Q2 / 4)
          (rho Q2 * computeXiMax Q2 / 4) 5 + 2)) := zpow_le_zpow_right₀ (by norm_num) (by omega)
      simp only at t4
      have h3 : rho Q2 * computeXiMax Q2 ≤ 0.14 * (1 / 2) :=
        mul_le_mul hr2 hxi'.le (by norm_num at hxi; linarith) (by norm_num)
      norm_num at *
      linarith
    simp only
    omega
  · simp only
    norm_num at *
    linarith

example : (3 : ℕ) ≤ 8 ∧ 6 * 8 ≤ 2 ^ 6 := by norm_num

/-! ## C29 -/

/-- C29: the number of periods is at least two, and a Gaussian of width `sigma` has decayed to at
most `eps` at distance `P - 1`; any smaller number of periods does not achieve that. -/
theorem C29_periodization (sigma eps : ℝ) (hs : 0 < sigma) (he : 0 < eps) (he1 : eps < 1) :
    2 ≤ adaptiveChoiceP sigma eps ∧
    Real.exp (-(((adaptiveChoiceP sigma eps : ℝ) - 1) ^ 2) / (2 * sigma ^ 2)) ≤ eps ∧
    ∀ P : ℤ, 1 ≤ P → P < adaptiveChoiceP sigma eps →
      eps < Real.exp (-(((P : ℝ) - 1) ^ 2) / (2 * sigma ^ 2)) := by
  have hl : Real.log eps < 0 := Real.log_neg he he1
  have hpos : 0 < -2 * sigma ^ 2 * Real.log eps := by
    have : 0 < sigma ^ 2 := by positivity
    nlinarith
  have hsq := Real.sqrt_pos.2 hpos
  have hself := Real.sq_sqrt hpos.le
  have h1 := Int.le_ceil (Real.sqrt (-2 * sigma ^ 2 * Real.log eps) + 1)
  have h2s : 0 < 2 * sigma ^ 2 := by positivity
  refine ⟨?_, ?_, ?_⟩
  · have : (1 : ℤ) < adaptiveChoiceP sigma eps := by
      unfold adaptiveChoiceP
      rw [Int.lt_ceil]
      push_cast
      linarith
    omega
  · rw [← Real.le_log_iff_exp_le he, div_le_iff₀ h2s]
    have h3 : Real.sqrt (-2 * sigma ^ 2 * Real.log eps) ≤ (adaptiveChoiceP sigma eps : ℝ) - 1 := by
      unfold adaptiveChoiceP
      linarith
    have h4 := pow_le_pow_left₀ hsq.le h3 2
    rw [hself] at h4
    linarith
  · intro P hP1 hP
    unfold adaptiveChoiceP at hP
    rw [Int.lt_ceil] at hP
    rw [← Real.log_lt_iff_lt_exp he, lt_div_iff₀ h2s]
    have h3 : (P : ℝ) - 1 < Real.sqrt (-2 * sigma ^ 2 * Real.log eps) := by linarith
    have h5 : (0 : ℝ) ≤ (P : ℝ) - 1 := by
      have : (1 : ℝ) ≤ P := by exact_mod_cast hP1
      linarith
    have h4 := pow_lt_pow_left₀ h3 h5 (by norm_num : (2 : ℕ) ≠ 0)
    rw [hself] at h4
    linarith

example : (0 : ℝ) < 0.1 ∧ (0 : ℝ) < 1e-7 ∧ (1e-7 : ℝ) < 1 := by norm_num

/-! ## C31 -/

/-- C31: let `sigma = compute_sigma_psi(xi, Q, r)` and let the next wavelet have centre and bandwidth
divided by `2^{1/Q}`.  The two Gaussian profiles meet at a point between the two centres, where both
equal `r`. -/
theorem C31_intersection (xi : ℝ) (Q : Nat) (r : ℝ) (hxi : 0 < xi) (hQ : 1 ≤ Q) (hr0 : 0 < r)
    (hr1 : r < 1) :
    ∃ w, xi / (2 : ℝ) ^ ((1 : ℝ) / Q) < w ∧ w < xi ∧
      Real.exp (-(w - xi) ^ 2 / (2 * computeSigmaPsi xi Q r ^ 2)) = r ∧
      Real.exp (-(w - xi / (2 : ℝ) ^ ((1 : ℝ) / Q)) ^ 2 /
        (2 * (computeSigmaPsi xi Q r / (2 : ℝ) ^ ((1 : ℝ) / Q)) ^ 2)) = r := by
  have hl : 0 < Real.log (1 / r) := Real.log_pos (by rw [lt_div_iff₀ hr0]; linarith)
  have hu := qr_gt_one hQ
  have hsig := sigmaRatio_pos hQ hr0 hr1
  have hL : 0 < 2 * Real.log (1 / r) := by linarith
  have hsqrt := Real.sqrt_pos.2 hL
  have hself := Real.sq_sqrt hL.le
  have hpos : 0 < qr Q - 1 := by linarith
  have hpos' : 0 < qr Q + 1 := by linarith
  rw [computeSigmaPsi_eq, show (2 : ℝ) ^ ((1 : ℝ) / Q) = qr Q from rfl]
  have hlog : -Real.log (1 / r) = Real.log r := by rw [one_div, Real.log_inv, neg_neg]
  have hexp : ∀ y : ℝ, y = -Real.log (1 / r) → Real.exp y = r := by
    intro y hy
    rw [hy, hlog, Real.exp_log hr0]
  refine ⟨2 * xi / (qr Q + 1), ?_, ?_, ?_, ?_⟩
  · rw [div_lt_div_iff₀ (by linarith) hpos']
    nlinarith
  · rw [div_lt_iff₀ hpos']
    nlinarith
  · apply hexp
    rw [div_eq_iff (by positivity)]
    unfold sigmaRatio
    have : (2 * xi / (qr Q + 1) - xi) = -((qr Q - 1) / (qr Q + 1) * xi) := by
      field_simp; ring
    rw [this, mul_pow, div_pow, hself]
    field_simp
  · apply hexp
    rw [div_eq_iff (by positivity)]
    unfold sigmaRatio
    have : (2 * xi / (qr Q + 1) - xi / qr Q) = (qr Q - 1) / (qr Q + 1) * xi / qr Q := by
      have := qr_pos Q
      field_simp; ring
    rw [this, div_pow, div_pow, mul_pow, mul_pow, div_pow _ (Real.sqrt _), hself]
    field_simp

/-- C31, largest centre frequency. -/
theorem C31_xi_max (Q : Nat) (hQ : 1 ≤ Q) : 0.35 ≤ computeXiMax Q ∧ computeXiMax Q < 1 / 2 :=
  ⟨computeXiMax_ge Q, computeXiMax_lt hQ⟩

end Verif
