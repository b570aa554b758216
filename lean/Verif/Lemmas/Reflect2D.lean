import Verif.Lemmas.Reversal1D

/-!
# Simulation instance on the 2-D numpy backend: point reflection
-/

namespace Verif

open Finset

namespace Spec

/-- `y[i, j] = x[-i mod h, -j mod w]`: the image turned by half a turn around its pixel `(0, 0)`. -/
def IsReflect2 {α : Type} (h w : ℕ) (x y : ℕ → ℕ → α) : Prop :=
  ∀ i j, i < h → j < w → y i j = x (negIdx h i) (negIdx w j)

end Spec

/-- `y` is the conjugate of `x`, pixel by pixel. -/
def Conj2 (x y : Img ℂ) : Prop :=
  ∀ i j, i < x.h → j < x.w → y.px i j = (starRingEnd ℂ) (x.px i j)

/-- `y` is the conjugate of `x` turned around the pixel `(0, 0)`. -/
def ConjReflect2 (x y : Img ℂ) : Prop :=
  ∀ i j, i < x.h → j < x.w →
    y.px i j = (starRingEnd ℂ) (x.px (Spec.negIdx x.h i) (Spec.negIdx x.w j))

theorem dft2_reflect {x y : Img ℂ} (hh : y.h = x.h) (hw : y.w = x.w) (h : ConjReflect2 x y) :
    Conj2 (dft2 x) (dft2 y) := by
  intro k l hk hl
  rw [h_dft2] at hk
  rw [w_dft2] at hl
  unfold dft2
  rw [Img.px_tab (by rw [hh]; exact hk) (by rw [hw]; exact hl), Img.px_tab hk hl, hh, hw, map_sum,
    ← Spec.sum_negIdx x.h]
  refine Finset.sum_congr rfl fun m hm => ?_
  have hm := mem_range.1 hm
  rw [map_sum, ← Spec.sum_negIdx x.w]
  refine Finset.sum_congr rfl fun n hn => ?_
  have hn := mem_range.1 hn
  rw [h _ _ (Spec.negIdx_lt hm) (Spec.negIdx_lt hn), Spec.negIdx_negIdx hm, Spec.negIdx_negIdx hn,
    map_mul, map_mul, mul_comm (k : Int) (Spec.negIdx _ _ : Nat), tw_negIdx hm, mul_comm (k : Int),
    mul_comm (l : Int) (Spec.negIdx _ _ : Nat), tw_negIdx hn, mul_comm (l : Int)]

theorem idft2_conj {x y : Img ℂ} (hh : y.h = x.h) (hw : y.w = x.w) (h : Conj2 x y) :
    ConjReflect2 (idft2 x) (idft2 y) := by
  intro m n hm hn
  rw [h_idft2] at hm
  rw [w_idft2] at hn
  unfold idft2
  simp only [Img.h_tab, Img.w_tab]
  rw [Img.px_tab (by rw [hh]; exact hm) (by rw [hw]; exact hn),
    Img.px_tab (Spec.negIdx_lt hm) (Spec.negIdx_lt hn), hh, hw, map_div₀, map_sum]
  congr 1
  · refine Finset.sum_congr rfl fun k hk => ?_
    rw [map_sum]
    refine Finset.sum_congr rfl fun l hl => ?_
    rw [h k l (mem_range.1 hk) (mem_range.1 hl), map_mul, map_mul, tw_negIdx' hm, tw_negIdx' hn,
      Complex.conj_conj, Complex.conj_conj]
  · simp

/-- Point reflection of the padded image. -/
noncomputable def reflRel2 : BackendRel np2Backend np2Backend where
  rR _ _ x y := Img.h y = Img.h x ∧ Img.w y = Img.w x ∧
    Spec.IsReflect2 (Img.h x) (Img.w x) (Img.px (α := ℝ) x) (Img.px (α := ℝ) y)
  rC _ _ x y := Img.h y = Img.h x ∧ Img.w y = Img.w x ∧ Conj2 x y
  rZ _ _ x y := Img.h y = Img.h x ∧ Img.w y = Img.w x ∧ ConjReflect2 x y
  rF _ f g := f = g
  rfft i r x y h := Sim.ok ⟨h.1, h.2.1, by
    refine dft2_reflect (x := Img.map (fun v : ℝ => (v : ℂ)) x)
      (y := Img.map (fun v : ℝ => (v : ℂ)) y) h.1 h.2.1 ?_
    intro m n hm hn
    have hm' : m < Img.h x := hm
    have hn' : n < Img.w x := hn
    rw [Img.px_map _ _ (by rw [h.1]; exact hm) (by rw [h.2.1]; exact hn), h.2.2 m n hm hn,
      ← Complex.conj_ofReal]
    exact congrArg _
      (Img.px_map (fun v : ℝ => (v : ℂ)) x (Spec.negIdx_lt hm') (Spec.negIdx_lt hn')).symm⟩
  ifft i r x y h := Sim.ok ⟨h.1, h.2.1, idft2_conj h.1 h.2.1 h.2.2⟩
  irfft i r x y h := Sim.ok ⟨h.1, h.2.1, fun m n hm hn => by
    have := idft2_conj h.1 h.2.1 h.2.2 m n hm hn
    have hm' : m < Img.h (idft2 x) := hm
    have hn' : n < Img.w (idft2 x) := hn
    unfold np2Irfft
    rw [Img.px_map _ _ (by rw [h_idft2, h.1]; exact hm) (by rw [w_idft2, h.2.1]; exact hn), this]
    exact (Complex.conj_re _).trans
      (Img.px_map Complex.re (idft2 x) (Spec.negIdx_lt hm') (Spec.negIdx_lt hn')).symm⟩
  modulus i r x y h := Sim.ok ⟨h.1, h.2.1, fun m n hm hn => by
    have hm' : m < Img.h x := hm
    have hn' : n < Img.w x := hn
    unfold np2Modulus
    rw [Img.px_map _ _ (by rw [h.1]; exact hm) (by rw [h.2.1]; exact hn), h.2.2 m n hm hn,
      Complex.norm_conj]
    exact (Img.px_map (fun z : ℂ => ‖z‖) x (Spec.negIdx_lt hm') (Spec.negIdx_lt hn')).symm⟩
  cdgmm i r x y f g h hfg := by
    subst hfg
    intro b hb
    obtain ⟨h1, h2, rfl⟩ := (np2Cdgmm_eq _ _ _).1 hb
    refine ⟨_, (np2Cdgmm_eq y f _).2 ⟨by rw [h.1, h1], by rw [h.2.1, h2], rfl⟩, h.1, h.2.1, ?_⟩
    intro k l hk hl
    rw [Img.h_tab] at hk
    rw [Img.w_tab] at hl
    rw [Img.px_tab (by rw [h.1]; exact hk) (by rw [h.2.1]; exact hl), Img.px_tab hk hl,
      h.2.2 k l hk hl, map_mul, Complex.conj_ofReal]
  subsample i r x y e h := by
    intro a ha
    have ha : np2Subsample x (2 ^ e) = .ok a := ha
    obtain ⟨hk, d1, d2, rfl⟩ := (np2Subsample_eq _ _ _).1 ha
    refine ⟨_, (np2Subsample_eq y _ _).2 ⟨hk, by rw [h.1]; exact d1, by rw [h.2.1]; exact d2, rfl⟩,
      ?_, ?_, ?_⟩
    · simp [h.1]
    · simp [h.2.1]
    · intro k l hk' hl'
      rw [Img.h_tab] at hk'
      rw [Img.w_tab] at hl'
      rw [Img.px_tab (by rw [h.1]; exact hk') (by rw [h.2.1]; exact hl'), Img.px_tab hk' hl',
        map_div₀, map_sum]
      congr 1
      · refine Finset.sum_congr rfl fun i hi => ?_
        rw [map_sum]
        refine Finset.sum_congr rfl fun j hj => ?_
        have bd : ∀ {i k X : Nat}, i < 2 ^ e → 2 ^ e ∣ X → k < X / 2 ^ e → i * (X / 2 ^ e) + k < X := by
          intro i k X hi hX hk
          obtain ⟨c, rfl⟩ := hX
          rw [Nat.mul_div_cancel_left _ (by positivity)] at hk ⊢
          calc i * c + k < i * c + c := by omega
            _ = (i + 1) * c := by ring
            _ ≤ 2 ^ e * c := Nat.mul_le_mul_right _ hi
        rw [h.1, h.2.1]
        exact h.2.2 _ _ (bd (mem_range.1 hi) d1 hk') (bd (mem_range.1 hj) d2 hl')
      · simp [map_ofNat]

end Verif
