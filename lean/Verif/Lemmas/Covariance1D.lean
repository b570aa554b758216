import Verif.Lemmas.NpOps

/-!
# Simulation instances on the numpy backend: translation, scaling
-/

namespace Verif

open Finset

/-- Position in `[0, N)` of an integer. -/
theorem emod_toNat_lt (n : ℤ) {N : Nat} (hN : 0 < N) : (n % N).toNat < N := by
  have h1 := Int.emod_nonneg n (show (N : ℤ) ≠ 0 by omega)
  have h2 := Int.emod_lt_of_pos n (show (0 : ℤ) < N by omega)
  omega

theorem imp_eq_getD_idft (x : List ℂ) (hx : 0 < x.length) (n : ℤ) :
    imp x n = (idft x).getD (n % x.length).toNat 0 := by
  rw [getD_idft_imp x (emod_toNat_lt n hx)]
  apply imp_congr
  have h1 := Int.emod_nonneg n (show (x.length : ℤ) ≠ 0 by omega)
  rw [Int.toNat_of_nonneg h1, Int.emod_emod_of_dvd _ (dvd_refl _)]

/-- A spectrum multiplied by the phase of a delay `s`. -/
noncomputable def shiftF (x : List ℂ) (s : ℤ) : List ℂ :=
  tab x.length fun k => x.getD k 0 * tw x.length (-((k : ℤ) * s))

@[simp] theorem length_shiftF (x : List ℂ) (s : ℤ) : (shiftF x s).length = x.length := by
  simp [shiftF]

theorem imp_shiftF (x : List ℂ) (s n : ℤ) : imp (shiftF x s) n = imp x (n - s) := by
  unfold imp
  rw [length_shiftF]
  congr 1
  apply Finset.sum_congr rfl
  intro k hk
  unfold shiftF
  rw [getD_tab_lt (Finset.mem_range.1 hk), mul_assoc, ← tw_add]
  congr 2
  ring

theorem eq_shiftF_iff {x y : List ℂ} {s : ℤ} :
    y = shiftF x s ↔ y.length = x.length ∧ ∀ n : ℤ, imp y n = imp x (n - s) := by
  constructor
  · rintro rfl
    exact ⟨by simp, imp_shiftF x s⟩
  · rintro ⟨hl, h⟩
    apply eq_of_imp (by simp [hl])
    intro n _
    rw [h, imp_shiftF]

theorem toC_roll {x y : List ℝ} {s : ℤ} (h : Spec.IsRoll s x y) :
    Spec.IsRoll s (toC x) (toC y) := by
  refine ⟨by simp [h.1], fun n hn => ?_⟩
  have hn' : n < x.length := by simpa using hn
  rw [getD_toC, getD_toC, h.2 n hn']
  simp

theorem dft_roll {x y : List ℂ} {s : ℤ} (h : Spec.IsRoll s x y) : dft y = shiftF (dft x) s := by
  rw [eq_shiftF_iff]
  refine ⟨by simp [h.1], fun n => ?_⟩
  rcases Nat.eq_zero_or_pos x.length with h0 | hpos
  · have hy : y.length = 0 := by rw [h.1, h0]
    rw [List.length_eq_zero_iff] at h0 hy
    subst h0; subst hy
    simp [dft, imp]
  · have hy : 0 < y.length := by rw [h.1]; exact hpos
    rw [imp_eq_getD_idft _ (by simpa using hy), imp_eq_getD_idft _ (by simpa using hpos), idft_dft,
      idft_dft, length_dft, length_dft, h.1, h.2 _ (emod_toNat_lt n hpos)]
    congr 2
    have h1 := Int.emod_nonneg n (show (x.length : ℤ) ≠ 0 by omega)
    rw [Int.toNat_of_nonneg h1, Int.emod_sub_emod]

theorem idft_shiftF {x : List ℂ} {s : ℤ} : Spec.IsRoll s (idft x) (idft (shiftF x s)) := by
  refine ⟨by simp, fun n hn => ?_⟩
  have hn' : n < x.length := by simpa using hn
  rw [getD_idft_imp _ (by simpa using hn'), imp_shiftF, imp_eq_getD_idft x (by omega),
    length_idft]

theorem roll_map {α β : Type} [Zero α] [Zero β] (f : α → β) (hf : f 0 = 0) {x y : List α} {s : ℤ}
    (h : Spec.IsRoll s x y) : Spec.IsRoll s (x.map f) (y.map f) := by
  refine ⟨by simp [h.1], fun n hn => ?_⟩
  have hn' : n < x.length := by simpa using hn
  have h1 := getD_map' y f n 0
  have h2 := getD_map' x f (((n : ℤ) - s) % x.length).toNat 0
  rw [hf] at h1 h2
  rw [h1, List.length_map, h2, h.2 n hn']

/-- Translation by `s` samples of the padded signal. -/
noncomputable def rollRel (s : ℤ) : BackendRel npBackend npBackend where
  rR _ r x y := List.length y = List.length x ∧
    ((2 : ℤ) ^ r ∣ s → Spec.IsRoll (α := ℝ) (s / 2 ^ r) x y)
  rC _ r x y := List.length y = List.length x ∧ ((2 : ℤ) ^ r ∣ s → y = shiftF x (s / 2 ^ r))
  rZ _ r x y := List.length y = List.length x ∧
    ((2 : ℤ) ^ r ∣ s → Spec.IsRoll (α := ℂ) (s / 2 ^ r) x y)
  rF _ f g := f = g
  rfft i r x y h := Sim.ok ⟨by simp [h.1], fun hd => dft_roll (toC_roll (h.2 hd))⟩
  ifft i r x y h := Sim.ok ⟨by simp [h.1], fun hd => by rw [h.2 hd]; exact idft_shiftF⟩
  irfft i r x y h := Sim.ok ⟨by simp [h.1], fun hd => by
    rw [h.2 hd]; exact roll_map _ rfl idft_shiftF⟩
  modulus i r x y h := Sim.ok ⟨by simp [h.1], fun hd => roll_map _ norm_zero (h.2 hd)⟩
  cdgmm i r x y f g h hfg := by
    subst hfg
    intro a ha
    have ha : npCdgmm x f = .ok a := ha
    have hl := ((npCdgmm_eq _ _ _).1 ha).1
    have hb : npCdgmm y f = .ok _ := (npCdgmm_eq _ _ _).2 ⟨by rw [h.1, hl], rfl⟩
    refine ⟨_, hb, ?_, ?_⟩
    · rw [length_of_cdgmm hb, length_of_cdgmm ha, h.1]
    · intro hd
      apply list_ext_getD 0
      · rw [length_shiftF, length_of_cdgmm hb, length_of_cdgmm ha, h.1]
      · intro k hk
        rw [length_of_cdgmm hb, h.1] at hk
        rw [getD_cdgmm hb, h.2 hd]
        unfold shiftF
        rw [getD_tab_lt hk, getD_tab_lt (by rw [length_of_cdgmm ha]; exact hk), getD_cdgmm ha,
          length_of_cdgmm ha]
        ring
  subsample i r x y e h := by
    intro a ha
    have ha : npSubsampleFourier x (2 ^ e) = .ok a := ha
    obtain ⟨hk, hd, -⟩ := (npSubsampleFourier_eq _ _ _).1 ha
    have hb : npSubsampleFourier y (2 ^ e) = .ok _ :=
      (npSubsampleFourier_eq _ _ _).2 ⟨hk, by rw [h.1]; exact hd, rfl⟩
    have hla := length_of_subsample ha
    have hlb := length_of_subsample hb
    have hl : ∀ b : List ℂ, b.length * 2 ^ e = y.length → b.length = a.length := by
      intro b hb
      apply Nat.eq_of_mul_eq_mul_right (Nat.pos_of_ne_zero hk)
      rw [hb, hla, h.1]
    refine ⟨_, hb, hl _ hlb, ?_⟩
    intro hdv
    have hdv' : (2 : ℤ) ^ r ∣ s := (pow_dvd_pow 2 (Nat.le_add_right r e)).trans hdv
    rw [eq_shiftF_iff]
    refine ⟨hl _ hlb, fun n => ?_⟩
    rw [imp_subsample y _ _ hb, imp_subsample x a _ ha, h.2 hdv', imp_shiftF]
    congr 1
    obtain ⟨q, hq⟩ := hdv
    have h2 : ∀ m : Nat, (2 : ℤ) ^ m ≠ 0 := fun m => pow_ne_zero _ two_ne_zero
    rw [hq, Int.mul_ediv_cancel_left _ (h2 _), pow_add, mul_assoc,
      Int.mul_ediv_cancel_left _ (h2 _)]
    push_cast
    ring

/-! ## Scaling -/

/-- The factor multiplying tensors after `i` moduli. -/
noncomputable def ampl (a : ℝ) (i : Nat) : ℝ := if i = 0 then a else |a|

theorem abs_ampl (a : ℝ) (i : Nat) : |ampl a i| = ampl a (i + 1) := by
  unfold ampl
  by_cases h : i = 0 <;> simp [h]

theorem getD_mapmul (c : ℂ) (x : List ℂ) (i : Nat) : (x.map (c * ·)).getD i 0 = c * x.getD i 0 := by
  have := getD_map' x (c * ·) i 0
  simpa using this

theorem dft_smul (c : ℂ) (x : List ℂ) : dft (x.map (c * ·)) = (dft x).map (c * ·) := by
  apply list_ext_getD 0 (by simp)
  intro k hk
  have hk' : k < x.length := by simpa using hk
  rw [getD_dft _ (by simpa using hk'), getD_mapmul, getD_dft _ hk', Finset.mul_sum, List.length_map]
  apply Finset.sum_congr rfl
  intro m _
  rw [getD_mapmul, mul_assoc]

theorem idft_smul (c : ℂ) (x : List ℂ) : idft (x.map (c * ·)) = (idft x).map (c * ·) := by
  apply list_ext_getD 0 (by simp)
  intro k hk
  have hk' : k < x.length := by simpa using hk
  rw [getD_idft _ (by simpa using hk'), getD_mapmul, getD_idft _ hk', List.length_map,
    mul_div_assoc', Finset.mul_sum]
  congr 1
  apply Finset.sum_congr rfl
  intro m _
  rw [getD_mapmul, mul_assoc]

/-- Multiplication of the signal by `a`. -/
noncomputable def scaleRel (a : ℝ) : BackendRel npBackend npBackend where
  rR i _ x y := y = List.map (fun v : ℝ => ampl a i * v) x
  rC i _ x y := y = List.map (fun v : ℂ => (ampl a i : ℂ) * v) x
  rZ i _ x y := y = List.map (fun v : ℂ => (ampl a i : ℂ) * v) x
  rF _ f g := f = g
  rfft i r x y h := Sim.ok (by
    rw [h]
    unfold npRfft
    rw [← dft_smul]
    congr 1
    simp [List.map_map, Function.comp_def])
  ifft i r x y h := Sim.ok (by rw [h]; exact idft_smul _ _)
  irfft i r x y h := Sim.ok (by
    rw [h]
    unfold npIrfft
    rw [idft_smul]
    simp [List.map_map, Function.comp_def])
  modulus i r x y h := Sim.ok (by
    rw [h]
    unfold npModulus
    simp [List.map_map, Function.comp_def, ← abs_ampl])
  cdgmm i r x y f g h hfg := by
    subst hfg
    intro b hb
    have hb : npCdgmm x f = .ok b := hb
    have hl := ((npCdgmm_eq _ _ _).1 hb).1
    have hc : npCdgmm y f = .ok _ := (npCdgmm_eq _ _ _).2 ⟨by rw [h]; simpa using hl, rfl⟩
    refine ⟨_, hc, ?_⟩
    apply list_ext_getD 0
    · rw [length_of_cdgmm hc, List.length_map, length_of_cdgmm hb, h, List.length_map]
    · intro k _
      rw [getD_cdgmm hc, getD_mapmul, getD_cdgmm hb, h, getD_mapmul, mul_assoc]
  subsample i r x y e h := by
    intro b hb
    have hb : npSubsampleFourier x (2 ^ e) = .ok b := hb
    obtain ⟨hk, hd, rfl⟩ := (npSubsampleFourier_eq _ _ _).1 hb
    have hc : npSubsampleFourier y (2 ^ e) = .ok _ :=
      (npSubsampleFourier_eq _ _ _).2 ⟨hk, by rw [h]; simpa using hd, rfl⟩
    refine ⟨_, hc, ?_⟩
    rw [h]
    unfold fold
    simp only [List.length_map, map_tab]
    apply tab_congr
    intro m _
    rw [mul_div_assoc', Finset.mul_sum]
    congr 1
    apply Finset.sum_congr rfl
    intro j _
    rw [getD_mapmul]

/-- A filter is related to itself when the filter relation is equality. -/
theorem filt_refl {A : Backend1D} (S : BackendRel A A) (hS : ∀ r f, S.rF r f f) (f : Filt A.F) :
    S.filt f f :=
  ⟨rfl, rfl, fun k a b ha hb => by rw [ha] at hb; cases hb; exact hS k a⟩

theorem filts_refl {A : Backend1D} (S : BackendRel A A) (hS : ∀ r f, S.rF r f f)
    (l : List (List (Filt A.F))) : List.Forall₂ (List.Forall₂ S.filt) l l := by
  have h1 : ∀ l : List (Filt A.F), List.Forall₂ S.filt l l := fun l => by
    induction l with
    | nil => exact List.Forall₂.nil
    | cons a l ih => exact List.Forall₂.cons (filt_refl S hS a) ih
  induction l with
  | nil => exact List.Forall₂.nil
  | cons a l ih => exact List.Forall₂.cons (h1 a) ih

end Verif
