import Verif.Lemmas.Levels
import Verif.Lemmas.Core1D

/-!
# The composite operations of the core on the numpy backend
-/

namespace Verif

open Finset

namespace Core1D

theorem np_lowpass {phi : Filt (List ℝ)} {x : List ℝ} {k e : Nat} {c : List ℝ}
    (h : lowpass npBackend phi (npRfft x) k e = .ok c) :
    ∃ f, phi.levels[k]? = some f ∧ f.length = x.length ∧ c.length * 2 ^ e = x.length ∧
      ∀ t, t < c.length → c.getD t 0 = (Spec.convR x (Spec.impulseR f) (t * 2 ^ e)).re := by
  unfold lowpass at h
  obtain ⟨f, hf, h⟩ := bind_eq_ok.1 h
  obtain ⟨a, ha, h⟩ := bind_eq_ok.1 h
  obtain ⟨b, hb, h⟩ := bind_eq_ok.1 h
  have ha : npCdgmm (npRfft x) f = .ok a := ha
  have hb : npSubsampleFourier a (2 ^ e) = .ok b := hb
  have hc : c = npIrfft b := by injection h with h; exact h.symm
  have hla := length_of_cdgmm ha
  have hlb := length_of_subsample hb
  have hfl := ((npCdgmm_eq _ _ _).1 ha).1
  rw [length_npRfft] at hla hfl
  refine ⟨f, listGet_eq_ok.1 hf, hfl.symm, ?_, ?_⟩
  · rw [hc, length_npIrfft, hlb, hla]
  · intro t ht
    rw [hc, length_npIrfft] at ht
    rw [hc]
    unfold npIrfft
    have := getD_map' (idft b) Complex.re t 0
    rw [Complex.zero_re] at this
    rw [this, getD_idft_imp b ht, imp_subsample a b _ hb, imp_cdgmm_rfft ha]
    push_cast
    rfl

theorem np_bandpass {psi : Filt (List ℝ)} {x : List ℝ} {k e : Nat} {u : List ℝ}
    (h : bandpass npBackend psi (npRfft x) k e = .ok u) :
    ∃ f, psi.levels[k]? = some f ∧ f.length = x.length ∧ u.length * 2 ^ e = x.length ∧
      ∀ t, t < u.length → u.getD t 0 = ‖Spec.convR x (Spec.impulseR f) (t * 2 ^ e)‖ := by
  unfold bandpass at h
  obtain ⟨f, hf, h⟩ := bind_eq_ok.1 h
  obtain ⟨a, ha, h⟩ := bind_eq_ok.1 h
  obtain ⟨b, hb, h⟩ := bind_eq_ok.1 h
  obtain ⟨b', hb', h⟩ := bind_eq_ok.1 h
  have ha : npCdgmm (npRfft x) f = .ok a := ha
  have hb : npSubsampleFourier a (2 ^ e) = .ok b := hb
  have hb' : b' = idft b := by injection hb' with h; exact h.symm
  have hc : u = npModulus b' := by injection h with h; exact h.symm
  have hla := length_of_cdgmm ha
  have hlb := length_of_subsample hb
  have hfl := ((npCdgmm_eq _ _ _).1 ha).1
  rw [length_npRfft] at hla hfl
  subst hb'
  refine ⟨f, listGet_eq_ok.1 hf, hfl.symm, ?_, ?_⟩
  · rw [hc, length_npModulus, length_idft, hlb, hla]
  · intro t ht
    rw [hc, length_npModulus, length_idft] at ht
    rw [hc]
    unfold npModulus
    have := getD_map' (idft b) (fun z => ‖z‖) t 0
    simp only [norm_zero] at this
    rw [this, getD_idft_imp b ht, imp_subsample a b _ hb, imp_cdgmm_rfft ha]
    push_cast
    rfl

/-- Converse: the low-pass step succeeds when the level exists with the right length. -/
theorem np_lowpass_ok {phi : Filt (List ℝ)} {x f : List ℝ} {k e : Nat}
    (hf : phi.levels[k]? = some f) (hl : f.length = x.length) (hd : 2 ^ e ∣ x.length) :
    ∃ c, lowpass npBackend phi (npRfft x) k e = .ok c := by
  have h1 : npCdgmm (npRfft x) f = .ok _ := (npCdgmm_eq _ _ _).2 ⟨by simp [hl], rfl⟩
  have h1l := length_of_cdgmm h1
  rw [length_npRfft] at h1l
  have h2 : npSubsampleFourier (List.zipWith (· * ·) (npRfft x) (toC f)) (2 ^ e) = .ok _ :=
    (npSubsampleFourier_eq _ _ _).2 ⟨by positivity, by rw [h1l]; exact hd, rfl⟩
  exact ⟨_, bind_eq_ok.2 ⟨f, listGet_eq_ok.2 hf, bind_eq_ok.2 ⟨_, h1, bind_eq_ok.2 ⟨_, h2, rfl⟩⟩⟩⟩

theorem np_bandpass_ok {psi : Filt (List ℝ)} {x f : List ℝ} {k e : Nat}
    (hf : psi.levels[k]? = some f) (hl : f.length = x.length) (hd : 2 ^ e ∣ x.length) :
    ∃ c, bandpass npBackend psi (npRfft x) k e = .ok c := by
  have h1 : npCdgmm (npRfft x) f = .ok _ := (npCdgmm_eq _ _ _).2 ⟨by simp [hl], rfl⟩
  have h1l := length_of_cdgmm h1
  rw [length_npRfft] at h1l
  have h2 : npSubsampleFourier (List.zipWith (· * ·) (npRfft x) (toC f)) (2 ^ e) = .ok _ :=
    (npSubsampleFourier_eq _ _ _).2 ⟨by positivity, by rw [h1l]; exact hd, rfl⟩
  exact ⟨_, bind_eq_ok.2 ⟨f, listGet_eq_ok.2 hf, bind_eq_ok.2 ⟨_, h1, bind_eq_ok.2 ⟨_, h2,
    bind_eq_ok.2 ⟨_, rfl, rfl⟩⟩⟩⟩⟩

end Core1D

end Verif
