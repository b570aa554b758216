import Verif.Lemmas.DFT
import Mathlib.Data.List.GetD
import Verif.Lemmas.Sim
import Verif.Spec.Signal
import Verif.Model.FilterBank1D

/-!
# Lemmas on the numpy backend operations
-/

namespace Verif

open Finset

/-- A real array viewed as a complex array. -/
noncomputable abbrev toC (x : List ℝ) : List ℂ := x.map fun r : ℝ => (r : ℂ)

theorem imp_eq_impulse (h : List ℂ) (n : ℤ) : imp h n = Spec.impulse h n := rfl

theorem getD_toC (x : List ℝ) (i : Nat) : (toC x).getD i 0 = ((x.getD i 0 : ℝ) : ℂ) :=
  getD_ofReal x i

theorem npCdgmm_eq (A : List ℂ) (f : List ℝ) (y : List ℂ) :
    npCdgmm A f = .ok y ↔ A.length = f.length ∧ y = List.zipWith (· * ·) A (toC f) := by
  unfold npCdgmm
  by_cases h : A.length = f.length
  · simp only [ne_eq, h, not_true_eq_false, if_false, true_and, List.zipWith_map_right]
    constructor
    · intro h; injection h with h; exact h.symm
    · intro h; rw [h]
  · simp [h]

theorem npCdgmm_error (A : List ℂ) (f : List ℝ) (h : A.length ≠ f.length) :
    npCdgmm A f = .error .runtime := by simp [npCdgmm, h]

theorem length_of_cdgmm {A : List ℂ} {f : List ℝ} {y : List ℂ} (h : npCdgmm A f = .ok y) :
    y.length = A.length := by
  obtain ⟨hl, rfl⟩ := (npCdgmm_eq A f y).1 h
  simp [hl]

theorem getD_cdgmm {A : List ℂ} {f : List ℝ} {y : List ℂ} (h : npCdgmm A f = .ok y) (k : Nat) :
    y.getD k 0 = A.getD k 0 * (f.getD k 0 : ℂ) := by
  obtain ⟨hl, rfl⟩ := (npCdgmm_eq A f y).1 h
  by_cases hk : k < A.length
  · have hk' : k < (toC f).length := by simp [← hl, hk]
    rw [← getD_toC, List.getD_eq_getElem _ _ (by simp [hk, ← hl]), List.getD_eq_getElem _ _ hk,
      List.getD_eq_getElem _ _ hk', List.getElem_zipWith]
  · rw [List.getD_eq_default _ _ (by simp; omega), List.getD_eq_default A _ (by omega), zero_mul]

/-- `ifft(cdgmm(rfft(x), h))` is a circular convolution. -/
theorem imp_cdgmm_rfft {x f : List ℝ} {y : List ℂ} (h : npCdgmm (npRfft x) f = .ok y) (n : ℤ) :
    imp y n = Spec.convR x (Spec.impulseR f) n := by
  obtain ⟨hl, rfl⟩ := (npCdgmm_eq _ _ _).1 h
  unfold npRfft at *
  rw [imp_mul_dft _ _ (by simpa using hl)]
  unfold Spec.convR Spec.impulseR
  rw [List.length_map]
  apply Finset.sum_congr rfl
  intro m _
  rw [getD_ofReal]
  rfl

theorem length_of_subsample {x y : List ℂ} {k : Nat} (h : npSubsampleFourier x k = .ok y) :
    y.length * k = x.length := by
  obtain ⟨hk, hd, rfl⟩ := (npSubsampleFourier_eq x k y).1 h
  simp only [List.length_map, fold, length_tab]
  exact Nat.div_mul_cancel hd

/-- A spectrum is determined by its impulse response. -/
theorem eq_of_imp {x y : List ℂ} (hl : x.length = y.length)
    (h : ∀ n : Nat, n < x.length → imp x n = imp y n) : x = y := by
  rw [← dft_idft x, ← dft_idft y]
  congr 1
  apply list_ext_getD 0 (by simpa using hl)
  intro i hi
  have hi' : i < x.length := by simpa using hi
  rw [getD_idft_imp x hi', getD_idft_imp y (hl ▸ hi')]
  exact h i hi'

/-- `reduceLevel` in terms of the alias sum. -/
theorem reduceLevel_eq (mean : Bool) (h : List ℝ) (l : Nat) (y : List ℝ) :
    reduceLevel mean h l = .ok y ↔ 2 ^ l ∣ h.length ∧
      toC y = (fold (toC h) (2 ^ l)).map fun z => z / (if mean then 2 ^ l else 1 : ℂ) := by
  unfold reduceLevel
  by_cases hd : 2 ^ l ∣ h.length
  · simp only [hd, if_true, true_and]
    have key : ∀ g : Nat → ℝ, (∀ m, ((g m : ℝ) : ℂ) =
        (∑ i ∈ range (2 ^ l), (toC h).getD (i * ((toC h).length / 2 ^ l) + m) 0) /
          (if mean then 2 ^ l else 1 : ℂ)) →
        toC (tab (h.length / 2 ^ l) g) =
          (fold (toC h) (2 ^ l)).map fun z => z / (if mean then 2 ^ l else 1 : ℂ) := by
      intro g hg
      simp only [toC, fold, map_tab, List.length_map]
      apply tab_congr
      intro m _
      have := hg m
      simpa [toC] using this
    have hk := key (fun m => (∑ i ∈ range (2 ^ l), h.getD (i * (h.length / 2 ^ l) + m) 0) /
        (if mean then 2 ^ l else 1)) (by
      intro m
      push_cast
      simp only [getD_toC, List.length_map]
      congr 1
      split <;> simp)
    rw [← hk]
    constructor
    · intro h'; injection h' with h'; rw [← h']
    · intro h'
      have : Function.Injective (fun r : ℝ => (r : ℂ)) := fun a b hab => by simpa using hab
      rw [List.map_injective_iff.2 this h']
  · simp [hd]

end Verif
