import Verif.Lemmas.Covariance1D
import Verif.Lemmas.Transpose2D

/-!
# Simulation instance on the numpy backend: circular time reversal
-/

namespace Verif

open Finset

namespace Spec

/-- `y[n] = x[-n mod N]`. -/
def IsReversal {α : Type} [Zero α] (x y : List α) : Prop :=
  y.length = x.length ∧ ∀ n, n < x.length → y.getD n 0 = x.getD (negIdx x.length n) 0

end Spec

/-- Entrywise conjugate. -/
noncomputable def conjL (x : List ℂ) : List ℂ := x.map (starRingEnd ℂ)

@[simp] theorem length_conjL (x : List ℂ) : (conjL x).length = x.length := by simp [conjL]

theorem getD_conjL (x : List ℂ) (k : Nat) : (conjL x).getD k 0 = (starRingEnd ℂ) (x.getD k 0) := by
  have := getD_map' x (starRingEnd ℂ) k 0
  rw [map_zero] at this
  exact this

theorem tw_negIdx' {h k : Nat} (hk : k < h) (m : Nat) :
    tw h ((m : Int) * Spec.negIdx h k) = (starRingEnd ℂ) (tw h ((m : Int) * k)) := by
  have e : ∀ a : Int, tw h ((m : Int) * a) = Complex.exp (2 * Real.pi * Complex.I * ((a * (m : ℤ) : ℤ) / h)) := by
    intro a
    unfold tw
    congr 1
    push_cast
    ring
  rw [e, e]
  exact Spec.exp_negIdx hk _

theorem dft_reversal {x y : List ℝ} (h : Spec.IsReversal x y) : dft (toC y) = conjL (dft (toC x)) := by
  apply list_ext_getD 0 (by simp [h.1])
  intro k hk
  have hk' : k < x.length := by simpa [h.1] using hk
  rw [getD_conjL, getD_dft _ (by simpa [h.1] using hk'), getD_dft _ (by simpa using hk')]
  have l1 : (toC y).length = x.length := by simp [h.1]
  have l2 : (toC x).length = x.length := by simp
  rw [l1, l2, map_sum, ← Spec.sum_negIdx x.length]
  refine Finset.sum_congr rfl fun n hn => ?_
  have hn := mem_range.1 hn
  rw [getD_toC, getD_toC, h.2 _ (Spec.negIdx_lt hn), Spec.negIdx_negIdx hn, map_mul, Complex.conj_ofReal,
    mul_comm (k : Int) (Spec.negIdx _ _ : Nat), tw_negIdx hn, mul_comm (k : Int)]

theorem idft_conj (x : List ℂ) {n : Nat} (hn : n < x.length) :
    (idft (conjL x)).getD n 0 = (starRingEnd ℂ) ((idft x).getD (Spec.negIdx x.length n) 0) := by
  rw [getD_idft _ (by simpa using hn), getD_idft _ (Spec.negIdx_lt hn), map_div₀, map_sum, length_conjL]
  congr 1
  · refine Finset.sum_congr rfl fun k _ => ?_
    rw [getD_conjL, map_mul, tw_negIdx' hn, Complex.conj_conj]
  · simp

/-- Circular reversal of the padded signal. -/
noncomputable def revRel : BackendRel npBackend npBackend where
  rR _ _ x y := Spec.IsReversal (α := ℝ) x y
  rC _ _ x y := y = conjL x
  rZ _ _ x y := List.length y = List.length x ∧ ∀ n, n < List.length x →
    List.getD y n (0 : ℂ) = (starRingEnd ℂ) (List.getD x (Spec.negIdx (List.length x) n) (0 : ℂ))
  rF _ f g := f = g
  rfft i r x y h := Sim.ok (dft_reversal h)
  ifft i r x y h := Sim.ok ⟨by rw [h]; simp, fun n hn => by
    rw [h, length_idft]
    exact idft_conj x (by simpa using hn)⟩
  irfft i r x y h := Sim.ok (by
    refine ⟨by rw [h]; simp [npIrfft], fun n hn => ?_⟩
    have hn : n < List.length x := by simpa [npIrfft] using hn
    rw [h]
    unfold npIrfft
    have e : ∀ (z : List ℂ) k, (z.map Complex.re).getD k 0 = (z.getD k 0).re := fun z k => getD_map' z Complex.re k 0
    rw [e, e, idft_conj x hn]
    simp)
  modulus i r x y h := Sim.ok (by
    refine ⟨by simp [npModulus, h.1], fun n hn => ?_⟩
    have hn : n < List.length x := by simpa [npModulus] using hn
    unfold npModulus
    have e : ∀ (z : List ℂ) k, (z.map fun v => ‖v‖).getD k 0 = ‖z.getD k 0‖ := fun z k => by
      have := getD_map' z (fun v : ℂ => ‖v‖) k 0
      rw [norm_zero] at this
      exact this
    rw [e, e, List.length_map, h.2 n hn, Complex.norm_conj])
  cdgmm i r x y f g h hfg := by
    subst hfg
    intro a ha
    have ha : npCdgmm x f = .ok a := ha
    have hl := ((npCdgmm_eq _ _ _).1 ha).1
    have hb : npCdgmm y f = .ok _ := (npCdgmm_eq _ _ _).2 ⟨by rw [h]; simpa using hl, rfl⟩
    refine ⟨_, hb, ?_⟩
    apply list_ext_getD 0
    · rw [length_of_cdgmm hb, length_conjL, length_of_cdgmm ha, h, length_conjL]
    · intro k hk
      rw [getD_cdgmm hb, getD_conjL, getD_cdgmm ha, h, getD_conjL]
      simp
  subsample i r x y e h := by
    intro b hb
    have hb : npSubsampleFourier x (2 ^ e) = .ok b := hb
    obtain ⟨hk, hd, rfl⟩ := (npSubsampleFourier_eq _ _ _).1 hb
    have hc : npSubsampleFourier y (2 ^ e) = .ok _ :=
      (npSubsampleFourier_eq _ _ _).2 ⟨hk, by rw [h]; simpa using hd, rfl⟩
    refine ⟨_, hc, ?_⟩
    rw [h]
    unfold fold conjL
    simp only [List.length_map, map_tab]
    apply tab_congr
    intro m _
    rw [map_div₀, map_sum]
    congr 1
    · apply Finset.sum_congr rfl
      intro j _
      exact getD_conjL x _
    · simp [map_ofNat]

end Verif
