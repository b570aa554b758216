import Verif.Lemmas.Covariance1D
import Verif.Lemmas.NpOps
import Verif.Props.FilterBank1D

/-!
# Morlet filters, L1 norms and the response to constant and bounded signals
-/

namespace Verif

open Finset

/-! ## Periodic sums -/

/-- A sum over one period does not depend on where it starts or on its direction. -/
theorem sum_periodic_sub {N : Nat} (g : ℤ → ℝ) (hg : ∀ a b : ℤ, a % N = b % N → g a = g b)
    (n : ℤ) : ∑ m ∈ range N, g (n - m) = ∑ m ∈ range N, g m := by
  rcases Nat.eq_zero_or_pos N with h0 | hN
  · subst h0; simp
  · have hN' : (N : ℤ) ≠ 0 := by omega
    refine Finset.sum_bij (fun m _ => ((n - m) % N).toNat) ?_ ?_ ?_ ?_
    · intro m _
      exact mem_range.2 (emod_toNat_lt _ hN)
    · intro a ha b hb hab
      rw [mem_range] at ha hb
      have h1 := Int.emod_nonneg (n - a) hN'
      have h2 := Int.emod_nonneg (n - b) hN'
      have h3 : (n - a) % N = (n - b) % N := by omega
      have h4 : (N : ℤ) ∣ (n - b) - (n - a) := Int.ModEq.dvd (n := N) h3
      have h5 : (n - b) - (n - a) = (a : ℤ) - b := by ring
      rw [h5] at h4
      obtain ⟨c, hc⟩ := h4
      have : c = 0 := by
        by_contra hne
        rcases lt_or_gt_of_ne hne with h | h
        · nlinarith
        · nlinarith
      subst this
      omega
    · intro b hb
      rw [mem_range] at hb
      refine ⟨((n - b) % N).toNat, mem_range.2 (emod_toNat_lt _ hN), ?_⟩
      have h1 := Int.emod_nonneg (n - b) hN'
      rw [Int.toNat_of_nonneg h1, Int.sub_emod, Int.emod_emod_of_dvd _ (dvd_refl _),
        ← Int.sub_emod]
      have : n - (n - (b : ℤ)) = b := by ring
      rw [this, Int.emod_eq_of_lt (by omega) (by omega)]
      simp
    · intro m _
      apply hg
      have h1 := Int.emod_nonneg (n - m) hN'
      rw [Int.toNat_of_nonneg h1, Int.emod_emod_of_dvd _ (dvd_refl _)]

theorem impulseR_congr (h : List ℝ) {a b : ℤ} (hab : a % h.length = b % h.length) :
    Spec.impulseR h a = Spec.impulseR h b := by
  unfold Spec.impulseR
  rw [← imp_eq_impulse, ← imp_eq_impulse]
  exact imp_congr _ (by simpa using hab)

theorem sum_map_range (n : Nat) (f : Nat → ℝ) :
    ((List.range n).map f).sum = ∑ m ∈ range n, f m := by
  induction n with
  | zero => simp
  | succ n ih => rw [List.range_succ, List.map_append, List.sum_append, ih, Finset.sum_range_succ]; simp

/-- Sum of `|g|` over a period. -/
theorem l1norm_eq (h : List ℝ) : l1norm h = ∑ m ∈ range h.length, ‖Spec.impulseR h m‖ := by
  unfold l1norm
  have hl : (idft (h.map fun r : ℝ => (r : ℂ))).map (fun z => ‖z‖) =
      tab h.length fun m => ‖Spec.impulseR h m‖ := by
    apply list_ext_getD 0 (by simp)
    intro i hi
    have hi' : i < h.length := by simpa using hi
    rw [getD_tab_lt hi']
    have h1 := getD_map' (idft (h.map fun r : ℝ => (r : ℂ))) (fun z => ‖z‖) i 0
    simp only [norm_zero] at h1
    rw [h1, getD_idft_imp _ (by simpa using hi'), imp_eq_impulse]
    rfl
  rw [hl]
  unfold tab
  rw [sum_map_range]

theorem l1norm_nonneg (h : List ℝ) : 0 ≤ l1norm h := by
  rw [l1norm_eq]
  exact Finset.sum_nonneg fun _ _ => norm_nonneg _

theorem impulseR_map_div (h : List ℝ) (c : ℝ) (n : ℤ) :
    Spec.impulseR (h.map fun v => v / c) n = Spec.impulseR h n / c := by
  unfold Spec.impulseR
  rw [← imp_eq_impulse, ← imp_eq_impulse, ← imp_map_div, List.map_map, List.map_map]
  congr 2
  funext v
  simp

theorem l1norm_map_div (h : List ℝ) (c : ℝ) : l1norm (h.map fun v => v / c) = l1norm h / |c| := by
  rw [l1norm_eq, l1norm_eq, List.length_map, Finset.sum_div]
  apply Finset.sum_congr rfl
  intro m _
  rw [impulseR_map_div, norm_div, Complex.norm_real, Real.norm_eq_abs]

/-- The transfer function is bounded by the L1 norm of the impulse response. -/
theorem gain_le_l1norm (h : List ℝ) (k : Nat) : |h.getD k 0| ≤ l1norm h := by
  rcases Nat.lt_or_ge k h.length with hk | hk
  · have h1 : (h.map fun r : ℝ => (r : ℂ)) = dft (idft (h.map fun r : ℝ => (r : ℂ))) :=
      (dft_idft _).symm
    have h2 := congrArg (fun l => l.getD k (0 : ℂ)) h1
    rw [getD_ofReal, getD_dft _ (by simpa using hk)] at h2
    have h3 : |h.getD k 0| = ‖((h.getD k 0 : ℝ) : ℂ)‖ := by rw [Complex.norm_real, Real.norm_eq_abs]
    rw [h3, h2, l1norm_eq]
    refine (norm_sum_le _ _).trans ?_
    rw [length_idft, List.length_map]
    apply Finset.sum_le_sum
    intro m hm
    rw [mem_range] at hm
    rw [norm_mul, norm_tw, mul_one, getD_idft_imp _ (by simpa using hm), imp_eq_impulse]
    rfl
  · rw [List.getD_eq_getElem?_getD, List.getElem?_eq_none hk]
    simpa using l1norm_nonneg h

/-- The impulse response sums to the value at frequency zero. -/
theorem sum_impulseR (h : List ℝ) (hl : 0 < h.length) (n : ℤ) :
    ∑ m ∈ range h.length, Spec.impulseR h (n - m) = ((h.getD 0 0 : ℝ) : ℂ) := by
  unfold Spec.impulseR
  simp_rw [← imp_eq_impulse]
  set g := h.map fun r : ℝ => (r : ℂ) with hg
  have hgl : g.length = h.length := by simp [hg]
  have hx : ∀ m ∈ range h.length, imp g (n - m) =
      (List.replicate g.length (1 : ℂ)).getD m 0 * imp g (n - m) := by
    intro m hm
    rw [mem_range] at hm
    rw [List.getD_eq_getElem?_getD, List.getElem?_replicate, if_pos (by omega)]
    simp
  rw [Finset.sum_congr rfl hx]
  have h2 := imp_mul_dft (List.replicate g.length (1 : ℂ)) g (by simp) n
  rw [List.length_replicate, hgl] at h2
  rw [hgl, ← h2]
  unfold imp
  have hlen : (List.zipWith (· * ·) (dft (List.replicate h.length (1 : ℂ))) g).length = h.length := by
    simp [hgl]
  rw [hlen]
  have hN : (h.length : ℂ) ≠ 0 := by exact_mod_cast hl.ne'
  rw [div_eq_iff hN]
  have hdft : ∀ k < h.length, (dft (List.replicate h.length (1 : ℂ))).getD k 0 =
      if k = 0 then (h.length : ℂ) else 0 := by
    intro k hk
    rw [getD_dft _ (by simpa using hk), List.length_replicate]
    have h3 : ∀ m ∈ range h.length, (List.replicate h.length (1 : ℂ)).getD m 0 *
        tw h.length (-((k : ℤ) * m)) = tw h.length (m * (-(k : ℤ))) := by
      intro m hm
      rw [mem_range] at hm
      rw [List.getD_eq_getElem?_getD, List.getElem?_replicate, if_pos hm]
      simp only [Option.getD_some, one_mul]
      congr 1
      ring
    rw [Finset.sum_congr rfl h3, sum_tw _ hl.ne']
    by_cases hk0 : k = 0
    · subst hk0; simp
    · rw [if_neg hk0, if_neg]
      rw [dvd_neg]
      intro hd
      have := Int.le_of_dvd (by omega) hd
      omega
  have hterm : ∀ k ∈ range h.length,
      (List.zipWith (· * ·) (dft (List.replicate h.length (1 : ℂ))) g).getD k 0 *
        tw h.length ((k : ℤ) * n) = if k = 0 then (h.length : ℂ) * g.getD 0 0 else 0 := by
    intro k hk
    rw [mem_range] at hk
    have h4 : (List.zipWith (· * ·) (dft (List.replicate h.length (1 : ℂ))) g).getD k 0 =
        (dft (List.replicate h.length (1 : ℂ))).getD k 0 * g.getD k 0 := by
      have hk1 : k < (dft (List.replicate h.length (1 : ℂ))).length := by simpa using hk
      have hk2 : k < g.length := by omega
      simp only [List.getD_eq_getElem?_getD, List.getElem?_zipWith,
        List.getElem?_eq_getElem hk1, List.getElem?_eq_getElem hk2]
      rfl
    rw [h4, hdft k hk]
    by_cases hk0 : k = 0
    · subst hk0; simp [tw_zero]
    · rw [if_neg hk0, if_neg hk0]; simp
  rw [Finset.sum_congr rfl hterm, Finset.sum_ite_eq' (range h.length) 0, if_pos (mem_range.2 hl), hg,
    getD_ofReal]
  ring

/-- Filtering a constant signal. -/
theorem convR_const {x h : List ℝ} (c : ℝ) (hx : ∀ m < x.length, x.getD m 0 = c)
    (hl : h.length = x.length) (n : ℤ) :
    Spec.convR x (Spec.impulseR h) n = ((c * h.getD 0 0 : ℝ) : ℂ) := by
  unfold Spec.convR
  rcases Nat.eq_zero_or_pos x.length with h0 | hpos
  · have : h = [] := List.length_eq_zero_iff.1 (by omega)
    rw [h0, this]; simp
  · have : ∀ m ∈ range x.length, ((x.getD m 0 : ℝ) : ℂ) * Spec.impulseR h (n - m) =
        (c : ℂ) * Spec.impulseR h (n - m) := by
      intro m hm
      rw [hx m (mem_range.1 hm)]
    rw [Finset.sum_congr rfl this, ← Finset.mul_sum, ← hl, sum_impulseR h (by omega)]
    push_cast
    rfl

/-- Filtering a bounded signal. -/
theorem norm_convR_le {x h : List ℝ} (M : ℝ) (hx : ∀ m < x.length, |x.getD m 0| ≤ M)
    (hl : h.length = x.length) (n : ℤ) : ‖Spec.convR x (Spec.impulseR h) n‖ ≤ M * l1norm h := by
  unfold Spec.convR
  refine (norm_sum_le _ _).trans ?_
  rw [l1norm_eq, hl]
  have hsum := sum_periodic_sub (N := x.length) (fun n => ‖Spec.impulseR h n‖)
    (fun a b hab => by
      have := impulseR_congr h (a := a) (b := b) (by rw [hl]; exact hab)
      simp only [this]) n
  rw [← hsum, Finset.mul_sum]
  apply Finset.sum_le_sum
  intro m hm
  rw [norm_mul, Complex.norm_real, Real.norm_eq_abs]
  exact mul_le_mul_of_nonneg_right (hx m (mem_range.1 hm)) (norm_nonneg _)

/-! ## Morlet filters -/

@[simp] theorem length_reshapeMean (r : Nat) (v : List ℝ) :
    (reshapeMean r v).length = v.length / r := by simp [reshapeMean]

@[simp] theorem length_morletFreqs (N P : Nat) : (morletFreqs N P).length = (2 * P - 1) * N := by
  simp [morletFreqs]

/-- Number of periods actually used. -/
noncomputable def morletP (sigma : ℝ) : Nat := (min (adaptiveChoiceP sigma (1e-7)) 5).toNat

theorem morletP_ge {sigma : ℝ} (hs : 0 < sigma) : 2 ≤ morletP sigma := by
  have := (C29_periodization sigma 1e-7 hs (by norm_num) (by norm_num)).1
  unfold morletP
  omega

/-- Low-pass part of a Morlet filter. -/
noncomputable def morletLow (N : Nat) (sigma : ℝ) : List ℝ :=
  reshapeMean (2 * morletP sigma - 1)
    ((morletFreqs N (morletP sigma)).map fun w => Real.exp (-(w ^ 2) / (2 * sigma ^ 2)))

/-- Gabor part of a Morlet filter. -/
noncomputable def morletGabor (N : Nat) (xi sigma : ℝ) : List ℝ :=
  reshapeMean (2 * morletP sigma - 1)
    ((morletFreqs N (morletP sigma)).map fun w => Real.exp (-(w - xi) ^ 2 / (2 * sigma ^ 2)))

theorem length_morletLow {N : Nat} {sigma : ℝ} (hs : 0 < sigma) :
    (morletLow N sigma).length = N := by
  have := morletP_ge hs
  unfold morletLow
  rw [length_reshapeMean, List.length_map, length_morletFreqs, Nat.mul_div_cancel_left]
  omega

theorem length_morletGabor {N : Nat} {xi sigma : ℝ} (hs : 0 < sigma) :
    (morletGabor N xi sigma).length = N := by
  have := morletP_ge hs
  unfold morletGabor
  rw [length_reshapeMean, List.length_map, length_morletFreqs, Nat.mul_div_cancel_left]
  omega

theorem morletRaw_low {N : Nat} {sigma : ℝ} (hs : 0 < sigma) :
    morletRaw N none sigma = morletLow N sigma := by
  have := morletP_ge hs
  unfold morletRaw morletLow
  simp only
  rw [if_neg]
  · rfl
  · show ¬ morletP sigma = 1
    omega

theorem morletRaw_some {N : Nat} {xi sigma : ℝ} (hs : 0 < sigma) (hxi : xi ≠ 0) :
    morletRaw N (some xi) sigma = List.zipWith (fun g l => g -
      (morletGabor N xi sigma).getD 0 0 / (morletLow N sigma).getD 0 0 * l)
      (morletGabor N xi sigma) (morletLow N sigma) := by
  have := morletP_ge hs
  unfold morletRaw
  simp only
  rw [if_neg hxi]
  have hP : ¬ (min (adaptiveChoiceP sigma (1e-7)) 5).toNat = 1 := by
    show ¬ morletP sigma = 1
    omega
  simp only [if_neg hP]
  rfl

theorem morletLow_pos {N : Nat} {sigma : ℝ} (hs : 0 < sigma) {k : Nat} (hk : k < N) :
    0 < (morletLow N sigma).getD k 0 := by
  have hP := morletP_ge hs
  have hl := length_morletLow (N := N) hs
  unfold morletLow reshapeMean at *
  rw [length_tab] at hl
  rw [getD_tab_lt (by omega), hl]
  have hr : (0 : ℝ) < ((2 * morletP sigma - 1 : ℕ) : ℝ) := by
    have : 0 < 2 * morletP sigma - 1 := by omega
    exact_mod_cast this
  apply div_pos _ hr
  apply Finset.sum_pos
  · intro p hp
    rw [mem_range] at hp
    have hlt : p * N + k < ((morletFreqs N (morletP sigma)).map fun w =>
        Real.exp (-(w ^ 2) / (2 * sigma ^ 2))).length := by
      rw [List.length_map, length_morletFreqs]
      calc p * N + k < p * N + N := by omega
        _ = (p + 1) * N := by ring
        _ ≤ _ := Nat.mul_le_mul_right _ (by omega)
    rw [List.getD_eq_getElem?_getD, List.getElem?_eq_getElem hlt, Option.getD_some, List.getElem_map]
    exact Real.exp_pos _
  · exact ⟨0, mem_range.2 (by omega)⟩

theorem length_morletRaw {N : Nat} {xi : Option ℝ} {sigma : ℝ} (hs : 0 < sigma) :
    (morletRaw N xi sigma).length = N := by
  cases xi with
  | none => rw [morletRaw_low hs, length_morletLow hs]
  | some xi =>
    by_cases hxi : xi = 0
    · subst hxi
      have : morletRaw N (some 0) sigma = morletRaw N none sigma := by
        unfold morletRaw; simp
      rw [this, morletRaw_low hs, length_morletLow hs]
    · rw [morletRaw_some hs hxi, List.length_zipWith, length_morletLow hs, length_morletGabor hs,
        min_self]

theorem length_morlet1d {N : Nat} {xi : Option ℝ} {sigma : ℝ} (hs : 0 < sigma) :
    (morlet1d N xi sigma).length = N := by
  unfold morlet1d
  simp only [List.length_map]
  exact length_morletRaw hs

theorem morletRaw_zero {N : Nat} {xi sigma : ℝ} (hs : 0 < sigma) (hxi : xi ≠ 0) :
    (morletRaw N (some xi) sigma).getD 0 0 = 0 := by
  rcases Nat.eq_zero_or_pos N with h0 | hN
  · have : morletRaw N (some xi) sigma = [] := List.length_eq_zero_iff.1 (by
      rw [length_morletRaw hs, h0])
    rw [this]; rfl
  · have h1 : 0 < (morletGabor N xi sigma).length := by rw [length_morletGabor hs]; exact hN
    have h2 : 0 < (morletLow N sigma).length := by rw [length_morletLow hs]; exact hN
    have hp := morletLow_pos hs hN
    rw [morletRaw_some hs hxi]
    have hg : (morletGabor N xi sigma).getD 0 0 = (morletGabor N xi sigma)[0] := by
      rw [List.getD_eq_getElem?_getD, List.getElem?_eq_getElem h1, Option.getD_some]
    have hl : (morletLow N sigma).getD 0 0 = (morletLow N sigma)[0] := by
      rw [List.getD_eq_getElem?_getD, List.getElem?_eq_getElem h2, Option.getD_some]
    rw [hl] at hp
    rw [hg, hl]
    rw [List.getD_eq_getElem?_getD, List.getElem?_zipWith, List.getElem?_eq_getElem h1,
      List.getElem?_eq_getElem h2]
    simp only [Option.getD_some]
    rw [div_mul_cancel₀ _ hp.ne', sub_self]

theorem l1norm_morlet1d (N : Nat) (xi : Option ℝ) (sigma : ℝ)
    (h : l1norm (morletRaw N xi sigma) ≠ 0) : l1norm (morlet1d N xi sigma) = 1 := by
  unfold morlet1d
  simp only
  rw [l1norm_map_div, abs_of_nonneg (l1norm_nonneg _), div_self h]

/-- In any case the L1 norm is at most one. -/
theorem l1norm_morlet1d_le (N : Nat) (xi : Option ℝ) (sigma : ℝ) :
    l1norm (morlet1d N xi sigma) ≤ 1 := by
  by_cases h : l1norm (morletRaw N xi sigma) = 0
  · unfold morlet1d
    simp only
    rw [l1norm_map_div, h]
    simp
  · rw [l1norm_morlet1d N xi sigma h]

end Verif
