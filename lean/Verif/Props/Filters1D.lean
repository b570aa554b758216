import Verif.Spec.Filters1D
import Verif.Props.Morlet1D

/-!
# C87: the filters of the 1-D transforms in closed form
-/

namespace Verif

open Finset Front1D

theorem gauSum_eq (sigma : ℝ) {P : ℕ} (hP : 1 ≤ P) (xi w : ℝ) :
    gauSum sigma P (w - xi) = Spec.periods P (fun u => Spec.gaussian sigma (u - xi)) w := by
  unfold gauSum Spec.periods
  symm
  refine Finset.sum_bij' (fun p _ => (p + P - 1).toNat) (fun p _ => (p : ℤ) + 1 - P) ?_ ?_ ?_ ?_ ?_
  · intro p hp
    rw [mem_Icc] at hp
    rw [mem_range]
    omega
  · intro p hp
    rw [mem_range] at hp
    rw [mem_Icc]
    omega
  · intro p hp
    rw [mem_Icc] at hp
    show ((p + P - 1).toNat : ℤ) + 1 - P = p
    omega
  · intro p hp
    show ((p : ℤ) + 1 - P + P - 1).toNat = p
    omega
  · intro p hp
    rw [mem_Icc] at hp
    unfold gau Spec.gaussian
    have : ((p + P - 1).toNat : ℝ) = (p : ℝ) + P - 1 := by
      have h : (((p + P - 1).toNat : ℤ) : ℝ) = ((p + P - 1 : ℤ) : ℝ) := by
        rw [Int.toNat_of_nonneg (by omega)]
      push_cast at h
      exact h
    rw [this]
    have e : (1 - P + ((p : ℝ) + P - 1) + (w - xi)) = w + p - xi := by ring
    rw [e]

theorem morletP_spec {sigma : ℝ} (hs : 0 < sigma) : Spec.IsPeriods sigma (morletP sigma) := by
  obtain ⟨h1, h2, h3⟩ := C29_periodization sigma 1e-7 hs (by norm_num) (by norm_num)
  refine ⟨morletP_ge hs, morletP_le sigma, ?_, fun R hR hlt => ?_⟩
  · rcases le_or_gt 5 (adaptiveChoiceP sigma 1e-7) with h | h
    · left
      unfold morletP
      omega
    · right
      have e : ((morletP sigma : ℤ)) = adaptiveChoiceP sigma 1e-7 := by
        unfold morletP
        omega
      have e' : (morletP sigma : ℝ) = (adaptiveChoiceP sigma 1e-7 : ℝ) := by exact_mod_cast e
      unfold Spec.gaussian
      rw [e']
      exact h2
  · have := h3 R (by omega) (by unfold morletP at hlt; omega)
    unfold Spec.gaussian
    exact_mod_cast this

theorem getD_normalised {l : List ℝ} (k : ℕ) :
    (l.map fun v => v / l1norm l).getD k 0 = l.getD k 0 / l1norm l := by
  rw [List.getD_eq_getElem?_getD, List.getD_eq_getElem?_getD, List.getElem?_map]
  cases l[k]? <;> simp

/-- **C87 (`gauss_1d`).** -/
theorem C87_gauss (N : ℕ) (sigma : ℝ) (hN : 0 < N) (hs : 0 < sigma) :
    ∃ P c, Spec.IsPeriods sigma P ∧ 0 < c ∧ (gauss1d N sigma).length = N ∧
      (∀ k < N, (gauss1d N sigma).getD k 0 = c * Spec.periods P (Spec.gaussian sigma) (k / N)) ∧
      ∑ m ∈ range N, ‖Spec.impulseR (gauss1d N sigma) m‖ = 1 := by
  have hP := morletP_ge hs
  have hr : (0 : ℝ) < ((2 * morletP sigma - 1 : ℕ) : ℝ) := by exact_mod_cast (by omega)
  have hpos := l1norm_gauss hN hs
  have hl : (gauss1d N sigma).length = N := length_morlet1d hs
  refine ⟨_, 1 / (((2 * morletP sigma - 1 : ℕ) : ℝ) * l1norm (morletRaw N none sigma)), morletP_spec hs,
    by positivity, hl, fun k hk => ?_, ?_⟩
  · unfold gauss1d morlet1d
    simp only
    rw [getD_normalised]
    conv_lhs => rw [morletRaw_low hs]
    rw [morletLow_eq hs hk, ← morletRaw_low hs]
    have := gauSum_eq sigma (P := morletP sigma) (by omega) 0 (k / N)
    simp only [sub_zero] at this
    rw [this, one_div, mul_inv, div_div, div_eq_mul_inv, mul_inv, mul_comm]
  · have h := l1norm_morlet1d N none sigma hpos.ne'
    rw [l1norm_eq] at h
    rw [← hl]
    conv_lhs => rw [hl]
    have e : (morlet1d N none sigma).length = N := hl
    rw [e] at h
    exact h

theorem morletRaw_profile {N : ℕ} {xi sigma : ℝ} (hxi : xi ≠ 0) (hs : 0 < sigma) {k : ℕ} (hk : k < N) :
    (morletRaw N (some xi) sigma).getD k 0 =
      Spec.morletProfile (morletP sigma) xi sigma (k / N) / ((2 * morletP sigma - 1 : ℕ) : ℝ) := by
  have hP := morletP_ge hs
  have hr : (0 : ℝ) < ((2 * morletP sigma - 1 : ℕ) : ℝ) := by exact_mod_cast (by omega)
  have hN : 0 < N := by omega
  have e1 : (morletGabor N xi sigma).getD k 0 = _ := getD_period hs xi hk
  have e2 : (morletGabor N xi sigma).getD 0 0 = _ := getD_period hs xi hN
  have e3 := morletLow_eq hs hk
  have e4 := morletLow_eq hs hN
  have hz : ((0 : ℕ) : ℝ) / N = 0 := by simp
  rw [hz] at e2 e4
  have hg1 : k < (morletGabor N xi sigma).length := by rw [length_morletGabor hs]; exact hk
  have hg2 : k < (morletLow N sigma).length := by rw [length_morletLow hs]; exact hk
  have e : (morletRaw N (some xi) sigma).getD k 0 = (morletGabor N xi sigma).getD k 0 -
      (morletGabor N xi sigma).getD 0 0 / (morletLow N sigma).getD 0 0 * (morletLow N sigma).getD k 0 := by
    rw [morletRaw_some hs hxi]
    simp only [List.getD_eq_getElem?_getD]
    rw [List.getElem?_zipWith, List.getElem?_eq_getElem hg1, List.getElem?_eq_getElem hg2]
    rfl
  rw [e, e1, e2, e3, e4, gauSum_eq sigma (by omega), gauSum_eq sigma (by omega)]
  have g0 : ∀ w, gauSum sigma (morletP sigma) w =
      Spec.periods (morletP sigma) (Spec.gaussian sigma) w := by
    intro w
    have := gauSum_eq sigma (P := morletP sigma) (by omega) 0 w
    simp only [sub_zero] at this
    exact this
  rw [g0, g0, div_div_div_cancel_right₀ hr.ne']
  unfold Spec.morletProfile
  rw [← mul_div_assoc, ← sub_div]

theorem morlet1d_profile (N : ℕ) (xi sigma : ℝ) (hxi : xi ≠ 0) (hs : 0 < sigma)
    (hn : 0 < l1norm (morletRaw N (some xi) sigma)) :
    ∃ P c, Spec.IsPeriods sigma P ∧ 0 < c ∧ (morlet1d N (some xi) sigma).length = N ∧
      (∀ k < N, (morlet1d N (some xi) sigma).getD k 0 = c * Spec.morletProfile P xi sigma (k / N)) ∧
      ∑ m ∈ range N, ‖Spec.impulseR (morlet1d N (some xi) sigma) m‖ = 1 := by
  have hP := morletP_ge hs
  have hr : (0 : ℝ) < ((2 * morletP sigma - 1 : ℕ) : ℝ) := by exact_mod_cast (by omega)
  have hl : (morlet1d N (some xi) sigma).length = N := length_morlet1d hs
  refine ⟨_, 1 / (((2 * morletP sigma - 1 : ℕ) : ℝ) * l1norm (morletRaw N (some xi) sigma)),
    morletP_spec hs, by positivity, hl, fun k hk => ?_, ?_⟩
  · unfold morlet1d
    simp only
    rw [getD_normalised]
    rw [morletRaw_profile hxi hs hk, div_div, one_div, div_eq_inv_mul]
  · have h := l1norm_morlet1d N (some xi) sigma hn.ne'
    rw [l1norm_eq, hl] at h
    exact h

/-- Only one number of periods is possible. -/
theorem C87_periods_unique (sigma : ℝ) (P R : ℕ) (hP : Spec.IsPeriods sigma P) (hR : Spec.IsPeriods sigma R) :
    P = R := by
  obtain ⟨p1, p2, p3, p4⟩ := hP
  obtain ⟨r1, r2, r3, r4⟩ := hR
  rcases Nat.lt_trichotomy P R with h | h | h
  · rcases p3 with p3 | p3
    · omega
    · exact absurd (r4 P (by omega) h) (not_lt.2 p3)
  · exact h
  · rcases r3 with r3 | r3
    · omega
    · exact absurd (p4 R (by omega) h) (not_lt.2 r3)

/-- **C87 (`morlet_1d`).**  As soon as the profile does not vanish on the whole grid, the filter is a
positive multiple of it, and its impulse response has norm one. -/
theorem C87_morlet (N : ℕ) (xi sigma : ℝ) (hxi : xi ≠ 0) (hs : 0 < sigma) (P : ℕ)
    (hP : Spec.IsPeriods sigma P) (hn : ∃ k < N, Spec.morletProfile P xi sigma (k / N) ≠ 0) :
    ∃ c, 0 < c ∧ (morlet1d N (some xi) sigma).length = N ∧
      (∀ k < N, (morlet1d N (some xi) sigma).getD k 0 = c * Spec.morletProfile P xi sigma (k / N)) ∧
      ∑ m ∈ range N, ‖Spec.impulseR (morlet1d N (some xi) sigma) m‖ = 1 := by
  have e := C87_periods_unique sigma P _ hP (morletP_spec hs)
  subst e
  obtain ⟨k, hk, hne⟩ := hn
  have hP := morletP_ge hs
  have hr : (0 : ℝ) < ((2 * morletP sigma - 1 : ℕ) : ℝ) := by exact_mod_cast (by omega)
  have hpos : 0 < l1norm (morletRaw N (some xi) sigma) := by
    refine lt_of_lt_of_le ?_ (gain_le_l1norm _ k)
    rw [morletRaw_profile hxi hs hk, abs_pos]
    exact div_ne_zero hne hr.ne'
  obtain ⟨P', c, g1, g2, g3, g4, g5⟩ := morlet1d_profile N xi sigma hxi hs hpos
  have e := C87_periods_unique sigma P' _ g1 (morletP_spec hs)
  subst e
  exact ⟨c, g2, g3, g4, g5⟩

/-- **C87 (`anden_generator` with the constants of the library).** -/
theorem C87_bank (J Q : ℕ) (hQ : 1 ≤ Q) : Spec.IsBank J Q (anden J Q) := by
  have hc := andenGenerator_closed J Q hQ 0.1 (Real.sqrt 0.5) (by norm_num)
  simp only [sigmaRatio_lib] at hc
  have eb : ∀ xi, rho Q * xi = Spec.bandwidth Q xi := by
    intro xi
    unfold rho Spec.bandwidth qr
    ring
  have ex : computeXiMax Q = Spec.xiMax Q := rfl
  have epow : ∀ k : ℕ, qr Q ^ k = (2 : ℝ) ^ ((k : ℝ) / Q) := by
    intro k
    unfold qr
    rw [← Real.rpow_natCast, ← Real.rpow_mul (by norm_num)]
    congr 1
    ring
  simp only [eb, ex, epow] at hc
  have hu := qr_gt_one hQ
  unfold anden
  rcases le_or_gt (Spec.bandwidth Q (Spec.xiMax Q)) (0.1 / 2 ^ J) with h | h
  · left
    refine ⟨h, ?_⟩
    rw [hc.1 h, Option.getD_some]
    refine List.map_congr_left fun q _ => ?_
    rw [Prod.mk.injEq]
    exact ⟨by ring, rfl⟩
  · right
    obtain ⟨K, h1, h2, h3⟩ := hc.2 h
    refine ⟨K, ?_, ?_, ?_⟩
    · cases K with
      | zero => simpa using h
      | succ K =>
        have := h2 K (by omega)
        rw [← epow] at this ⊢
        rw [pow_succ, ← div_div, lt_div_iff₀ (by linarith)]
        exact this
    · rw [mul_comm]
      exact h1
    · rw [h3, Option.getD_some]
      congr 1
      refine List.map_congr_left fun q _ => ?_
      rw [Prod.mk.injEq]
      exact ⟨by ring, rfl⟩

/-- The description determines the list. -/
theorem C87_bank_unique (J Q : ℕ) (hQ : 1 ≤ Q) (l m : List (ℝ × ℝ)) (hl : Spec.IsBank J Q l)
    (hm : Spec.IsBank J Q m) : l = m := by
  have hu := qr_gt_one hQ
  have hu0 : 0 < qr Q := by linarith
  have epow : ∀ k : ℕ, (2 : ℝ) ^ ((k : ℝ) / Q) = qr Q ^ k := by
    intro k
    unfold qr
    rw [← Real.rpow_natCast, ← Real.rpow_mul (by norm_num)]
    congr 1
    ring
  have hsm : (0 : ℝ) < 0.1 / 2 ^ J := by positivity
  have hlt : ∀ K : ℕ, 0.1 / 2 ^ J < Spec.bandwidth Q (Spec.xiMax Q) / (2 : ℝ) ^ ((K : ℝ) / Q) →
      0.1 / 2 ^ J < Spec.bandwidth Q (Spec.xiMax Q) := by
    intro K h
    rw [epow, lt_div_iff₀ (by positivity)] at h
    have : (1 : ℝ) ≤ qr Q ^ K := one_le_pow₀ hu.le
    nlinarith
  have key : ∀ K M : ℕ, 0.1 / 2 ^ J < Spec.bandwidth Q (Spec.xiMax Q) / (2 : ℝ) ^ ((K : ℝ) / Q) →
      Spec.bandwidth Q (Spec.xiMax Q) / (2 : ℝ) ^ ((M : ℝ) / Q) ≤ (2 : ℝ) ^ ((1 : ℝ) / Q) * (0.1 / 2 ^ J) →
      K ≤ M := by
    intro K M h1 h2
    by_contra hKM
    rw [epow] at h1 h2
    have h3 : (2 : ℝ) ^ ((1 : ℝ) / Q) = qr Q := rfl
    rw [h3, div_le_iff₀ (by positivity)] at h2
    rw [lt_div_iff₀ (by positivity)] at h1
    have h4 : qr Q ^ (M + 1) ≤ qr Q ^ K := pow_le_pow_right₀ hu.le (by omega)
    have h5 : 0.1 / 2 ^ J * qr Q ^ (M + 1) ≤ 0.1 / 2 ^ J * qr Q ^ K := by gcongr
    rw [pow_succ] at h5
    linarith
  rcases hl with ⟨h1, rfl⟩ | ⟨K, h1, h2, rfl⟩ <;> rcases hm with ⟨g1, rfl⟩ | ⟨M, g1, g2, rfl⟩
  · rfl
  · exact absurd (hlt M g1) (not_lt.2 h1)
  · exact absurd (hlt K h1) (not_lt.2 g1)
  · have : K = M := le_antisymm (key K M h1 g2) (key M K g1 h2)
    rw [this]

/-- What a filter of the object is, given its centre frequency and bandwidth. -/
def IsMorlet (N : ℕ) (p : ℝ × ℝ) (f : FiltX) : Prop :=
  f.xi = p.1 ∧ f.sigma = p.2 ∧ ∃ h P c, f.levels[0]? = some h ∧ h.length = N ∧
    Spec.IsPeriods p.2 P ∧ 0 < c ∧ (∀ k < N, h.getD k 0 = c * Spec.morletProfile P p.1 p.2 (k / N)) ∧
    ∑ m ∈ range N, ‖Spec.impulseR h m‖ = 1

/-- **C87 (objects).**  For every set of constructor arguments accepted by `Scattering1D` with at least
two samples, the wavelets of both orders are, in order, the Morlet filters of the filter bank for `Q1`
and `Q2`, and the low-pass is the Gaussian of bandwidth `0.1/T`. -/
theorem C87_object (a : Args1D) (s : Sc1D) (hmake : a.make = .ok s) (hN : 2 ≤ s.built.Ninput) :
    ∃ (T : Rat) (Q1 Q2 : ℕ) (l1 l2 : List (ℝ × ℝ)) (h : List ℝ) (P : ℕ) (c : ℝ),
      parseT a.T a.J s.built.Ninput = .ok (T, s.average) ∧ parseQ a.Q = .ok (Q1, Q2) ∧
      Spec.IsBank a.J Q1 l1 ∧ Spec.IsBank a.J Q2 l2 ∧
      List.Forall₂ (IsMorlet s.built.Npadded) l1 s.psi1 ∧
      List.Forall₂ (IsMorlet s.built.Npadded) l2 s.psi2 ∧
      s.phi.levels[0]? = some h ∧ h.length = s.built.Npadded ∧ Spec.IsPeriods (0.1 / T) P ∧ 0 < c ∧
      (∀ k < s.built.Npadded, h.getD k 0 =
        c * Spec.periods P (Spec.gaussian (0.1 / T)) (k / s.built.Npadded)) ∧
      ∑ m ∈ range s.built.Npadded, ‖Spec.impulseR h m‖ = 1 := by
  obtain ⟨T, Q1, Q2, lT, M1, M2, hQ1, hQ2, ht, hT, hQ, -, h1, h2, -, -, hlv, -⟩ := make_filters hmake
  obtain ⟨hNp, heven⟩ := make_even hmake hN
  have hs : (0 : ℝ) < 0.1 / T := by
    have : (0 : ℝ) < T := by exact_mod_cast (by linarith : (0 : ℚ) < T)
    positivity
  obtain ⟨P, c, g1, g2, g3, g4, g5⟩ := C87_gauss s.built.Npadded (0.1 / T) hNp hs
  have key : ∀ (Q : ℕ) (M : ℤ) (fs : List FiltX), 1 ≤ Q →
      List.Forall₂ (fun p f => makePsi false s.built.Npadded 5 M lT p = .ok f) (anden a.J Q) fs →
      List.Forall₂ (IsMorlet s.built.Npadded) (anden a.J Q) fs := by
    intro Q M fs hQ h
    have h' : List.Forall₂ (fun p f => p ∈ anden a.J Q ∧
        makePsi false s.built.Npadded 5 M lT p = .ok f) (anden a.J Q) fs := by
      rw [List.forall₂_iff_get] at h ⊢
      exact ⟨h.1, fun i hi hj => ⟨List.get_mem _ _, h.2 i hi hj⟩⟩
    refine h'.imp fun p f ⟨hp, hf⟩ => ?_
    obtain ⟨e1, e2, -, e4⟩ := makePsi_fields hf
    obtain ⟨hx, -, hsg⟩ := anden_pos hQ hp
    have hsp : 0 < p.2 := lt_of_lt_of_le (by positivity) hsg
    obtain ⟨P, c, k1, k2, k3, k4, k5⟩ := morlet1d_profile s.built.Npadded p.1 p.2 hx.ne' hsp
      (l1norm_anden hQ hNp heven hp)
    exact ⟨e1, e2, _, P, c, makeLevels_zero e4, k3, k1, k2, k4, k5⟩
  exact ⟨T, Q1, Q2, _, _, _, P, c, hT, hQ, C87_bank a.J Q1 hQ1, C87_bank a.J Q2 hQ2,
    key Q1 _ _ hQ1 h1, key Q2 _ _ hQ2 h2, makeLevels_zero hlv, g3, g1, g2, g4, g5⟩

/-- The highest centre frequency: `0.35` up to three wavelets per octave; from four on, the wavelet and
its mirror image around half the sampling frequency are three steps of `2^(1/Q)` apart. -/
theorem C87_xi_max (Q : ℕ) (hQ : 1 ≤ Q) :
    (Q ≤ 3 → Spec.xiMax Q = 0.35) ∧
    (4 ≤ Q → 1 - Spec.xiMax Q = (2 : ℝ) ^ ((3 : ℝ) / Q) * Spec.xiMax Q) := by
  have hQr : (0 : ℝ) < Q := by exact_mod_cast hQ
  have hp : (0 : ℝ) < (2 : ℝ) ^ ((3 : ℝ) / Q) := by positivity
  constructor
  · intro h
    unfold Spec.xiMax
    apply max_eq_right
    have : (2 : ℝ) ^ (1 : ℝ) ≤ (2 : ℝ) ^ ((3 : ℝ) / Q) := by
      apply Real.rpow_le_rpow_of_exponent_le (by norm_num)
      rw [le_div_iff₀ hQr]
      have : (Q : ℝ) ≤ 3 := by exact_mod_cast h
      linarith
    rw [Real.rpow_one] at this
    rw [div_le_iff₀ (by linarith)]
    nlinarith
  · intro h
    have h4 : (2 : ℝ) ^ ((3 : ℝ) / Q) ≤ (2 : ℝ) ^ ((3 : ℝ) / 4) := by
      apply Real.rpow_le_rpow_of_exponent_le (by norm_num)
      have : (4 : ℝ) ≤ Q := by exact_mod_cast h
      gcongr
    have h5 : (2 : ℝ) ^ ((3 : ℝ) / 4) ≤ 1.7 := by
      have : (2 : ℝ) ^ ((3 : ℝ) / 4) = (8 : ℝ) ^ ((1 : ℝ) / 4) := by
        rw [show (8 : ℝ) = 2 ^ (3 : ℝ) by norm_num, ← Real.rpow_mul (by norm_num)]
        norm_num
      rw [this]
      have h6 : (8 : ℝ) ^ ((1 : ℝ) / 4) ≤ ((1.7 : ℝ) ^ (4 : ℝ)) ^ ((1 : ℝ) / 4) := by
        apply Real.rpow_le_rpow (by norm_num) _ (by norm_num)
        norm_num
      rw [← Real.rpow_mul (by norm_num)] at h6
      norm_num at h6 ⊢
      exact h6
    have e : Spec.xiMax Q = 1 / (1 + (2 : ℝ) ^ ((3 : ℝ) / Q)) := by
      unfold Spec.xiMax
      apply max_eq_left
      rw [le_div_iff₀ (by linarith)]
      norm_num at h5 ⊢
      nlinarith
    rw [e]
    field_simp
    ring

/-- Objects as in `C87_object` exist, with a wavelet to speak of. -/
example : ∃ (a : Args1D) (s : Sc1D) (f : FiltX), a.make = .ok s ∧ 2 ≤ s.built.Ninput ∧ f ∈ s.psi1 := by
  obtain ⟨s, h1, h2, -⟩ := exArgs_run (av := .loc) .list (Or.inl ⟨rfl, rfl⟩) (Or.inl rfl)
  obtain ⟨f, hf⟩ := exArgs_psi1 h1
  exact ⟨_, s, f, h1, by omega, hf⟩

/-- A profile as in `C87_morlet`. -/
example : ∃ P, Spec.IsPeriods 0.1 P ∧ ∃ k < 4, Spec.morletProfile P (1 / 4) 0.1 (k / (4 : ℕ)) ≠ 0 := by
  have hs : (0 : ℝ) < 0.1 := by norm_num
  refine ⟨_, morletP_spec hs, 2, by norm_num, fun h => ?_⟩
  have hpos := morletRaw_half_pos (N := 4) (xi := 1 / 4) (sigma := 0.1) (by norm_num) (by norm_num)
    (by norm_num) (by norm_num) (by norm_num) (by norm_num) (Or.inl (by norm_num))
  rw [morletRaw_profile (by norm_num) hs (by norm_num)] at hpos
  norm_num at hpos h
  rw [h] at hpos
  simp at hpos

end Verif
