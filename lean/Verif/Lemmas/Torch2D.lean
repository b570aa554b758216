import Verif.Model.Torch2D
import Verif.Lemmas.DFT2
import Verif.Lemmas.Covariance2D

/-!
# Torch 2-D operations are the numpy ones
-/

namespace Verif

open Finset

@[simp] theorem h_view2C (x : Img (ℝ × ℝ)) : (view2C x).h = x.h := rfl
@[simp] theorem w_view2C (x : Img (ℝ × ℝ)) : (view2C x).w = x.w := rfl

/-- An image whose out-of-range entries are zero. -/
def Img.Canon {α : Type} [Zero α] (x : Img α) : Prop := x = Img.tab x.h x.w x.px

theorem Img.canon_tab {α : Type} [Zero α] (h w : Nat) (f : Nat → Nat → α) :
    (Img.tab h w f).Canon := by
  unfold Img.Canon
  refine Img.ext' rfl rfl fun i j => ?_
  unfold Img.tab
  simp only
  split <;> rfl

theorem view2C_view2R {x : Img ℂ} (hx : x.Canon) : view2C (view2R x) = x := by
  conv_rhs => rw [hx]
  unfold view2C view2R Img.map
  refine Img.tab_congr fun i j hi hj => ?_
  rw [Img.h_tab] at hi
  rw [Img.w_tab] at hj
  rw [Img.px_tab hi hj]

theorem torch2Rfft_eq (x : Img ℝ) : view2C (torch2Rfft x) = np2Rfft x := by
  unfold torch2Rfft np2Rfft
  rw [view2C_view2R (x := dft2 _) (Img.canon_tab _ _ _)]
  congr 1
  unfold view2C Img.map
  refine Img.tab_congr fun i j hi hj => ?_
  rw [Img.h_tab] at hi
  rw [Img.w_tab] at hj
  rw [Img.px_tab hi hj]
  rfl

theorem torch2Ifft_eq (x : Img (ℝ × ℝ)) : view2C (torch2Ifft x) = idft2 (view2C x) := by
  unfold torch2Ifft
  exact view2C_view2R (Img.canon_tab _ _ _)

theorem torch2Modulus_eq (x : Img (ℝ × ℝ)) : torch2Modulus x = np2Modulus (view2C x) := by
  unfold torch2Modulus np2Modulus view2C Img.map
  refine Img.tab_congr fun i j hi hj => ?_
  rw [Img.px_tab hi hj]
  show _ = ‖(⟨(x.px i j).1, (x.px i j).2⟩ : ℂ)‖
  rw [Complex.norm_def, Complex.normSq_mk]

theorem px_view2C (x : Img (ℝ × ℝ)) {i j : Nat} (hi : i < x.h) (hj : j < x.w) :
    (view2C x).px i j = ⟨(x.px i j).1, (x.px i j).2⟩ := Img.px_map _ _ hi hj

theorem torch2Cdgmm_ok {A : Img (ℝ × ℝ)} {f : Img ℝ} {y : Img (ℝ × ℝ)}
    (h : torch2Cdgmm A f = .ok y) : np2Cdgmm (view2C A) f = .ok (view2C y) := by
  unfold torch2Cdgmm at h
  split at h
  · cases h
  · rename_i hc
    injection h with h
    subst h
    push Not at hc
    refine (np2Cdgmm_eq _ _ _).2 ⟨hc.1, hc.2, ?_⟩
    unfold view2C Img.map
    refine Img.tab_congr fun i j hi hj => ?_
    rw [Img.h_tab] at hi
    rw [Img.w_tab] at hj
    rw [Img.px_tab hi hj, Img.px_tab hi hj]
    apply Complex.ext <;> simp

theorem torch2Cdgmm_exists {A : Img (ℝ × ℝ)} {f : Img ℝ} {z : Img ℂ}
    (h : np2Cdgmm (view2C A) f = .ok z) : ∃ y, torch2Cdgmm A f = .ok y ∧ z = view2C y := by
  obtain ⟨h1, h2, -⟩ := (np2Cdgmm_eq _ _ _).1 h
  have : ∃ y, torch2Cdgmm A f = .ok y := by
    unfold torch2Cdgmm
    rw [if_neg (by push Not; exact ⟨h1, h2⟩)]
    exact ⟨_, rfl⟩
  obtain ⟨y, hy⟩ := this
  exact ⟨y, hy, Except.ok.inj (h.symm.trans (torch2Cdgmm_ok hy))⟩

theorem block_lt {k q i r : Nat} (hi : i < k) (hr : r < q) : i * q + r < k * q := by
  calc i * q + r < i * q + q := by omega
    _ = (i + 1) * q := by ring
    _ ≤ k * q := Nat.mul_le_mul_right _ hi

theorem torch2Subsample_ok {x y : Img (ℝ × ℝ)} {k : Nat} (h : torch2Subsample x k = .ok y) :
    np2Subsample (view2C x) k = .ok (view2C y) := by
  unfold torch2Subsample at h
  split at h
  · cases h
  · rename_i hk
    split at h
    · cases h
    · rename_i hc
      injection h with h
      subst h
      push Not at hc
      refine (np2Subsample_eq _ _ _).2 ⟨hk, ⟨_, hc.1.symm⟩, ⟨_, hc.2.symm⟩, ?_⟩
      conv_lhs => unfold view2C Img.map
      refine Img.tab_congr fun r c hr hcc => ?_
      rw [Img.h_tab] at hr
      rw [Img.w_tab] at hcc
      rw [Img.px_tab hr hcc]
      have e : ∀ i ∈ range k, ∀ j ∈ range k,
          (view2C x).px (i * ((view2C x).h / k) + r) (j * ((view2C x).w / k) + c) =
          ⟨(x.px (i * (x.h / k) + r) (j * (x.w / k) + c)).1,
            (x.px (i * (x.h / k) + r) (j * (x.w / k) + c)).2⟩ := by
        intro i hi j hj
        refine px_view2C x ?_ ?_
        · have := block_lt (mem_range.1 hi) hr
          rw [hc.1] at this
          exact this
        · have := block_lt (mem_range.1 hj) hcc
          rw [hc.2] at this
          exact this
      rw [Finset.sum_congr rfl fun i hi => Finset.sum_congr rfl fun j hj => e i hi j hj]
      have hk2 : ((k : ℂ) * k) = ((k * k : ℝ) : ℂ) := by push_cast; ring
      apply Complex.ext
      · rw [hk2, Complex.div_ofReal_re, Complex.re_sum]
        simp only [Complex.re_sum, ← Finset.sum_div]
        rw [div_div]
      · rw [hk2, Complex.div_ofReal_im, Complex.im_sum]
        simp only [Complex.im_sum, ← Finset.sum_div]
        rw [div_div]

theorem torch2Subsample_exists {x : Img (ℝ × ℝ)} {k : Nat} {z : Img ℂ}
    (h : np2Subsample (view2C x) k = .ok z) : ∃ y, torch2Subsample x k = .ok y ∧ z = view2C y := by
  obtain ⟨hk, h1, h2, -⟩ := (np2Subsample_eq _ _ _).1 h
  have : ∃ y, torch2Subsample x k = .ok y := by
    unfold torch2Subsample
    rw [if_neg hk, if_neg (by push Not; exact ⟨Nat.mul_div_cancel' h1, Nat.mul_div_cancel' h2⟩)]
    exact ⟨_, rfl⟩
  obtain ⟨y, hy⟩ := this
  exact ⟨y, hy, Except.ok.inj (h.symm.trans (torch2Subsample_ok hy))⟩

/-- torch to numpy. -/
noncomputable def torch2ToNp : BackendRel torch2Backend np2Backend where
  rR _ _ x y := y = x
  rC _ _ x y := y = view2C x
  rZ _ _ x y := y = view2C x
  rF _ f g := g = f
  rfft i r x y h := Sim.ok (by rw [h, torch2Rfft_eq])
  ifft i r x y h := Sim.ok (by rw [h, torch2Ifft_eq])
  irfft i r x y h := Sim.ok (by rw [h]; rfl)
  modulus i r x y h := Sim.ok (by rw [h, torch2Modulus_eq])
  cdgmm i r x y f g h hfg := by
    subst hfg; subst h
    intro a ha
    exact ⟨_, torch2Cdgmm_ok ha, rfl⟩
  subsample i r x y e h := by
    subst h
    intro a ha
    exact ⟨_, torch2Subsample_ok ha, rfl⟩

/-- numpy to torch. -/
noncomputable def np2ToTorch : BackendRel np2Backend torch2Backend where
  rR _ _ x y := y = x
  rC _ _ x y := x = view2C y
  rZ _ _ x y := x = view2C y
  rF _ f g := g = f
  rfft i r x y h := Sim.ok (by rw [h, torch2Rfft_eq])
  ifft i r x y h := Sim.ok (by rw [h, torch2Ifft_eq])
  irfft i r x y h := Sim.ok (by rw [h]; rfl)
  modulus i r x y h := Sim.ok (by rw [h, torch2Modulus_eq])
  cdgmm i r x y f g h hfg := by
    subst hfg; subst h
    intro a ha
    exact torch2Cdgmm_exists ha
  subsample i r x y e h := by
    subst h
    intro a ha
    exact torch2Subsample_exists ha

end Verif
