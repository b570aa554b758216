import Verif.Lemmas.Backend1D
import Verif.Lemmas.Py

/-!
# Structure of the filter tables built by `scattering_filter_factory`
-/

namespace Verif

open Finset

theorem makeLevels_eq {mean : Bool} {h : List ℝ} {b : ℤ} {lv : List (List ℝ)} :
    makeLevels mean h b = .ok lv ↔
      ∃ rest, (List.range' 1 (b - 1).toNat).mapM (reduceLevel mean h) = .ok rest ∧
        lv = h :: rest := by
  unfold makeLevels
  rw [bind_eq_ok]
  constructor
  · rintro ⟨r, hr, h⟩
    injection h with h
    exact ⟨r, hr, h.symm⟩
  · rintro ⟨r, hr, rfl⟩
    exact ⟨r, hr, rfl⟩

theorem reduceLevel_zero (h : List ℝ) (mean : Bool) : reduceLevel mean h 0 = .ok h := by
  rw [reduceLevel_eq]
  refine ⟨by simp, ?_⟩
  apply list_ext_getD 0
  · simp [fold]
  · intro i hi
    have hi' : i < h.length := by simpa using hi
    have h1 : (if mean = true then (2 : ℂ) ^ 0 else 1) = 1 := by split <;> simp
    rw [h1]
    simp only [div_one, List.map_id', fold, pow_zero, Nat.div_one]
    rw [getD_tab_lt (by simpa using hi')]
    simp

/-- Every stored level is the reduction of the full-rate filter. -/
theorem makeLevels_get {mean : Bool} {h : List ℝ} {b : ℤ} {lv : List (List ℝ)}
    (hlv : makeLevels mean h b = .ok lv) {l : Nat} {y : List ℝ} (hy : lv[l]? = some y) :
    reduceLevel mean h l = .ok y := by
  obtain ⟨rest, hr, rfl⟩ := makeLevels_eq.1 hlv
  cases l with
  | zero =>
    simp only [List.getElem?_cons_zero, Option.some.injEq] at hy
    subst hy
    exact reduceLevel_zero h mean
  | succ l =>
    rw [List.getElem?_cons_succ] at hy
    obtain ⟨a, ha, hab⟩ := forall₂_get (mapM_eq_ok.1 hr) hy
    have hlt : l < (b - 1).toNat := by
      by_contra hc
      rw [List.getElem?_eq_none (by simpa using hc)] at ha
      cases ha
    rw [List.getElem?_range' hlt] at ha
    injection ha with ha
    have : a = l + 1 := by omega
    rw [← this]; exact hab

theorem makeLevels_length {mean : Bool} {h : List ℝ} {b : ℤ} {lv : List (List ℝ)}
    (hlv : makeLevels mean h b = .ok lv) : lv.length = 1 + (b - 1).toNat := by
  obtain ⟨rest, hr, rfl⟩ := makeLevels_eq.1 hlv
  have := (mapM_eq_ok.1 hr).length_eq
  simp only [List.length_range', List.length_cons] at *
  omega

/-- Building the levels succeeds when the deepest reduction divides the length. -/
theorem makeLevels_ok {mean : Bool} {h : List ℝ} {b : ℤ} {d : Nat} (hd : 2 ^ d ∣ h.length)
    (hb : b - 1 ≤ d) : ∃ lv, makeLevels mean h b = .ok lv := by
  have : ∃ r, (List.range' 1 (b - 1).toNat).mapM (reduceLevel mean h) = .ok r := by
    apply mapM_ok_of_forall
    intro l hl
    rw [List.mem_range'_1] at hl
    have hdl : 2 ^ l ∣ h.length := (Nat.pow_dvd_pow 2 (by omega)).trans hd
    exact ⟨_, by unfold reduceLevel; rw [if_pos hdl]⟩
  obtain ⟨r, hr⟩ := this
  exact ⟨h :: r, makeLevels_eq.2 ⟨r, hr, rfl⟩⟩

/-- The impulse response of a stored level. -/
theorem impulse_reduceLevel {mean : Bool} {h y : List ℝ} {l : Nat}
    (hy : reduceLevel mean h l = .ok y) (n : ℤ) :
    Spec.impulseR y n = (if mean then 1 else 2 ^ l) * Spec.impulseR h (n * 2 ^ l) := by
  obtain ⟨hd, hyC⟩ := (reduceLevel_eq mean h l y).1 hy
  unfold Spec.impulseR
  rw [← imp_eq_impulse, ← imp_eq_impulse]
  change imp (toC y) n = _
  rw [hyC, imp_map_div, imp_fold _ _ (by positivity) (by simpa using hd)]
  push_cast
  split
  · have : (2 : ℂ) ^ l ≠ 0 := pow_ne_zero _ two_ne_zero
    field_simp
  · simp

theorem length_reduceLevel {mean : Bool} {h y : List ℝ} {l : Nat}
    (hy : reduceLevel mean h l = .ok y) : y.length * 2 ^ l = h.length := by
  obtain ⟨hd, hyC⟩ := (reduceLevel_eq mean h l y).1 hy
  have := congrArg List.length hyC
  simp only [List.length_map, fold, length_tab] at this
  rw [this]
  exact Nat.div_mul_cancel hd

end Verif
