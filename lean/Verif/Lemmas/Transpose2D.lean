import Verif.Props.Laws2D

/-!
# Exchange of the two axes of an image
-/

namespace Verif

open Finset

/-- `y` is the transpose of `x`. -/
structure Tr {α : Type} (x y : Img α) : Prop where
  h : y.h = x.w
  w : y.w = x.h
  px : ∀ i j, i < x.h → j < x.w → y.px j i = x.px i j

namespace Spec

theorem impulse2_tr (h w : ℕ) (f : ℕ → ℕ → ℝ) (m n : ℤ) :
    impulse2 w h (fun l k => f k l) n m = impulse2 h w f m n := by
  unfold impulse2
  rw [Finset.sum_comm]
  congr 1
  · refine Finset.sum_congr rfl fun k _ => Finset.sum_congr rfl fun l _ => ?_
    rw [add_comm]
  · rw [mul_comm]

theorem conv2_tr (h w : ℕ) (x f : ℕ → ℕ → ℝ) (m n : ℤ) :
    conv2 w h (fun v u => x u v) (impulse2 w h fun l k => f k l) n m =
      conv2 h w x (impulse2 h w f) m n := by
  unfold conv2
  rw [Finset.sum_comm]
  refine Finset.sum_congr rfl fun u _ => Finset.sum_congr rfl fun v _ => ?_
  rw [impulse2_tr]

/-- The index of frequency `-k`. -/
def negIdx (h k : ℕ) : ℕ := if k = 0 then 0 else h - k

theorem negIdx_lt {h k : ℕ} (hk : k < h) : negIdx h k < h := by unfold negIdx; split <;> omega

theorem negIdx_negIdx {h k : ℕ} (hk : k < h) : negIdx h (negIdx h k) = k := by
  unfold negIdx; split_ifs <;> omega

theorem sum_negIdx {M : Type} [AddCommMonoid M] (h : ℕ) (g : ℕ → M) :
    ∑ k ∈ range h, g (negIdx h k) = ∑ k ∈ range h, g k :=
  Finset.sum_nbij' (negIdx h) (negIdx h) (fun _ hk => mem_range.2 (negIdx_lt (mem_range.1 hk)))
    (fun _ hk => mem_range.2 (negIdx_lt (mem_range.1 hk))) (fun _ hk => negIdx_negIdx (mem_range.1 hk))
    (fun _ hk => negIdx_negIdx (mem_range.1 hk)) (fun _ _ => rfl)

theorem exp_negIdx {h k : ℕ} (hk : k < h) (m : ℤ) :
    Complex.exp (2 * Real.pi * Complex.I * ((negIdx h k * m : ℤ) / h)) =
      (starRingEnd ℂ) (Complex.exp (2 * Real.pi * Complex.I * ((k * m : ℤ) / h))) := by
  have hh : (h : ℂ) ≠ 0 := by exact_mod_cast (by omega : h ≠ 0)
  rw [← Complex.exp_conj]
  have e : (starRingEnd ℂ) (2 * Real.pi * Complex.I * ((k * m : ℤ) / h)) =
      -(2 * Real.pi * Complex.I * ((k * m : ℤ) / h)) := by
    simp [Complex.conj_ofReal, map_ofNat]
  rw [e]
  unfold negIdx
  split
  · rename_i h0
    subst h0
    simp
  · have : (2 * Real.pi * Complex.I * ((((h - k : ℕ) : ℤ) * m : ℤ) / h) : ℂ) =
        -(2 * Real.pi * Complex.I * ((k * m : ℤ) / h)) + m * (2 * Real.pi * Complex.I) := by
      push_cast [Nat.cast_sub hk.le]
      field_simp
      ring
    rw [this, Complex.exp_add, Complex.exp_int_mul_two_pi_mul_I, mul_one]

/-- A real transfer function read at the opposite frequencies has the conjugate response. -/
theorem impulse2_neg (h w : ℕ) (f : ℕ → ℕ → ℝ) (m n : ℤ) :
    impulse2 h w (fun k l => f (negIdx h k) (negIdx w l)) m n = (starRingEnd ℂ) (impulse2 h w f m n) := by
  unfold impulse2
  rw [map_div₀, map_sum]
  congr 1
  · rw [← sum_negIdx h fun k => (starRingEnd ℂ) (∑ l ∈ range w, (f k l : ℂ) *
      Complex.exp (2 * Real.pi * Complex.I * ((k * m : ℤ) / h + (l * n : ℤ) / w)))]
    refine Finset.sum_congr rfl fun k hk => ?_
    rw [map_sum, ← sum_negIdx w fun l => (starRingEnd ℂ) ((f (negIdx h k) l : ℂ) *
      Complex.exp (2 * Real.pi * Complex.I * ((negIdx h k * m : ℤ) / h + (l * n : ℤ) / w)))]
    refine Finset.sum_congr rfl fun l hl => ?_
    rw [map_mul, Complex.conj_ofReal, mul_add, mul_add, Complex.exp_add, Complex.exp_add, map_mul,
      exp_negIdx (mem_range.1 hk), exp_negIdx (mem_range.1 hl), Complex.conj_conj, Complex.conj_conj]
  · simp

theorem conv2_conj (h w : ℕ) (x : ℕ → ℕ → ℝ) (g : ℤ → ℤ → ℂ) (m n : ℤ) :
    conv2 h w x (fun a b => (starRingEnd ℂ) (g a b)) m n = (starRingEnd ℂ) (conv2 h w x g m n) := by
  unfold conv2
  simp only [map_sum, map_mul, Complex.conj_ofReal]

end Spec

/-! ## Gabor and Morlet filters -/

theorem gabor2d_tr (M N : Nat) (sigma theta xi slant : ℝ) :
    Tr (gabor2d M N sigma theta xi slant) (gabor2d N M sigma (Real.pi / 2 - theta) xi slant) := by
  refine ⟨rfl, rfl, fun i j hi hj => ?_⟩
  have hi : i < M := hi
  have hj : j < N := hj
  unfold gabor2d
  simp only
  rw [Img.px_tab hi hj, Img.px_tab hj hi, Real.cos_pi_div_two_sub, Real.sin_pi_div_two_sub,
    Finset.sum_comm]
  congr 1
  refine Finset.sum_congr rfl fun ex _ => Finset.sum_congr rfl fun ey _ => ?_
  congr 1
  push_cast
  ring

theorem gabor2d_add_pi (M N : Nat) (sigma theta xi slant : ℝ) {i j : Nat} (hi : i < M) (hj : j < N) :
    (gabor2d M N sigma (theta + Real.pi) xi slant).px i j =
      (starRingEnd ℂ) ((gabor2d M N sigma theta xi slant).px i j) := by
  unfold gabor2d
  simp only
  rw [Img.px_tab hi hj, Img.px_tab hi hj, Real.cos_add_pi, Real.sin_add_pi, map_div₀, Complex.conj_ofReal,
    map_sum]
  congr 1
  refine Finset.sum_congr rfl fun ex _ => ?_
  rw [map_sum]
  refine Finset.sum_congr rfl fun ey _ => ?_
  rw [← Complex.exp_conj, map_add, map_mul, Complex.conj_I, Complex.conj_ofReal, Complex.conj_ofReal]
  congr 1
  push_cast
  ring

theorem Tr.imgSum {x y : Img ℂ} (h : Tr x y) : imgSum y = imgSum x := by
  unfold Verif.imgSum
  rw [h.h, h.w, Finset.sum_comm]
  exact Finset.sum_congr rfl fun i hi => Finset.sum_congr rfl fun j hj =>
    h.px i j (mem_range.1 hi) (mem_range.1 hj)

theorem morlet2d_tr (M N : Nat) (sigma theta xi slant : ℝ) :
    Tr (morlet2d M N sigma theta xi slant) (morlet2d N M sigma (Real.pi / 2 - theta) xi slant) := by
  refine ⟨rfl, rfl, fun i j hi hj => ?_⟩
  have hi : i < M := hi
  have hj : j < N := hj
  unfold morlet2d
  simp only
  rw [Img.px_tab hi hj, Img.px_tab hj hi, (gabor2d_tr M N sigma theta xi slant).imgSum,
    (gabor2d_tr M N sigma theta 0 slant).imgSum, (gabor2d_tr M N sigma theta xi slant).px i j hi hj,
    (gabor2d_tr M N sigma theta 0 slant).px i j hi hj]

theorem imgSum_conj {x y : Img ℂ} (hh : y.h = x.h) (hw : y.w = x.w)
    (h : ∀ i j, i < x.h → j < x.w → y.px i j = (starRingEnd ℂ) (x.px i j)) :
    imgSum y = (starRingEnd ℂ) (imgSum x) := by
  unfold Verif.imgSum
  rw [hh, hw, map_sum]
  refine Finset.sum_congr rfl fun i hi => ?_
  rw [map_sum]
  exact Finset.sum_congr rfl fun j hj => h i j (mem_range.1 hi) (mem_range.1 hj)

theorem morlet2d_add_pi (M N : Nat) (sigma theta xi slant : ℝ) {i j : Nat} (hi : i < M) (hj : j < N) :
    (morlet2d M N sigma (theta + Real.pi) xi slant).px i j =
      (starRingEnd ℂ) ((morlet2d M N sigma theta xi slant).px i j) := by
  have e : ∀ xi, imgSum (gabor2d M N sigma (theta + Real.pi) xi slant) =
      (starRingEnd ℂ) (imgSum (gabor2d M N sigma theta xi slant)) := fun xi =>
    imgSum_conj rfl rfl fun i j hi hj => gabor2d_add_pi M N sigma theta xi slant hi hj
  unfold morlet2d
  simp only
  rw [Img.px_tab hi hj, Img.px_tab hi hj, e, e, gabor2d_add_pi _ _ _ _ _ _ hi hj,
    gabor2d_add_pi _ _ _ _ _ _ hi hj]
  simp

/-! ## Transfer functions -/

theorem Tr.realFft2 {x y : Img ℂ} (h : Tr x y) : Tr (realFft2 x) (realFft2 y) := by
  refine ⟨h.h, h.w, fun k l hk hl => ?_⟩
  have hk : k < x.h := hk
  have hl : l < x.w := hl
  unfold Verif.realFft2
  rw [Img.px_map _ (dft2 x) (by simpa using hk) (by simpa using hl),
    Img.px_map _ (dft2 y) (by simpa [h.h] using hl) (by simpa [h.w] using hk)]
  unfold dft2
  rw [Img.px_tab (by simpa [h.h] using hl) (by simpa [h.w] using hk), Img.px_tab hk hl, h.h, h.w,
    Finset.sum_comm]
  congr 1
  refine Finset.sum_congr rfl fun m hm => Finset.sum_congr rfl fun n hn => ?_
  rw [h.px m n (mem_range.1 hm) (mem_range.1 hn)]
  ring

theorem tw_negIdx {h k : Nat} (hk : k < h) (m : Nat) :
    tw h (-((Spec.negIdx h k : Int) * m)) = (starRingEnd ℂ) (tw h (-((k : Int) * m))) := by
  have e : ∀ a : Int, tw h (-(a * m)) = Complex.exp (2 * Real.pi * Complex.I * ((a * (-m : ℤ) : ℤ) / h)) := by
    intro a
    unfold tw
    congr 1
    push_cast
    ring
  rw [e, e]
  exact Spec.exp_negIdx hk _

/-- The real part of the transform of the conjugate is read at the opposite frequencies. -/
theorem realFft2_conj {x y : Img ℂ} (hh : y.h = x.h) (hw : y.w = x.w)
    (h : ∀ i j, i < x.h → j < x.w → y.px i j = (starRingEnd ℂ) (x.px i j)) {k l : Nat} (hk : k < x.h)
    (hl : l < x.w) :
    (realFft2 y).px k l = (realFft2 x).px (Spec.negIdx x.h k) (Spec.negIdx x.w l) := by
  unfold Verif.realFft2
  have hk' := Spec.negIdx_lt hk
  have hl' := Spec.negIdx_lt hl
  rw [Img.px_map _ _ (by simpa [hh] using hk) (by simpa [hw] using hl),
    Img.px_map _ _ (by simpa using hk') (by simpa using hl')]
  unfold dft2
  rw [Img.px_tab (by simpa [hh] using hk) (by simpa [hw] using hl), Img.px_tab hk' hl', hh, hw]
  rw [← Complex.conj_re, map_sum]
  congr 1
  refine Finset.sum_congr rfl fun m hm => ?_
  rw [map_sum]
  refine Finset.sum_congr rfl fun n hn => ?_
  rw [h m n (mem_range.1 hm) (mem_range.1 hn), tw_negIdx hk, tw_negIdx hl]
  simp

theorem h_morlet2d (M N : Nat) (sigma theta xi slant : ℝ) : (morlet2d M N sigma theta xi slant).h = M := rfl
theorem w_morlet2d (M N : Nat) (sigma theta xi slant : ℝ) : (morlet2d M N sigma theta xi slant).w = N := rfl

theorem realFft2_conj' {M N : Nat} {x y : Img ℂ} (hh : x.h = M) (hw : x.w = N) (hh' : y.h = M)
    (hw' : y.w = N) (h : ∀ i j, i < M → j < N → y.px i j = (starRingEnd ℂ) (x.px i j)) {k l : Nat}
    (hk : k < M) (hl : l < N) :
    (realFft2 y).px k l = (realFft2 x).px (Spec.negIdx M k) (Spec.negIdx N l) := by
  subst hh hw
  exact realFft2_conj hh' hw' h hk hl

theorem Tr.periodize {x y : Img ℝ} (h : Tr x y) (res : Nat) :
    Tr (periodizeFilter x res) (periodizeFilter y res) := by
  refine ⟨by show y.h / _ = x.w / _; rw [h.h], by show y.w / _ = x.h / _; rw [h.w], fun k l hk hl => ?_⟩
  have hk : k < x.h / 2 ^ res := hk
  have hl : l < x.w / 2 ^ res := hl
  unfold periodizeFilter
  simp only
  rw [Img.px_tab hk hl, Img.px_tab (by rw [h.h]; exact hl) (by rw [h.w]; exact hk), Finset.sum_comm]
  refine Finset.sum_congr rfl fun i hi => Finset.sum_congr rfl fun j hj => ?_
  rw [h.h, h.w, Bool.or_comm]
  have e : ∀ {X a b : Nat}, a < X / 2 ^ res → b ∈ range (2 ^ res) → a + b * (X / 2 ^ res) < X := by
    intro X a b ha hb
    have := mem_range.1 hb
    calc a + b * (X / 2 ^ res) < (b + 1) * (X / 2 ^ res) := by rw [add_mul, one_mul]; omega
      _ ≤ 2 ^ res * (X / 2 ^ res) := Nat.mul_le_mul_right _ this
      _ ≤ X := Nat.mul_div_le _ _
  rw [h.px _ _ (e hk hi) (e hl hj)]

theorem phiHat2_tr (M N J : Nat) : Tr (phiHat2 M N J) (phiHat2 N M J) := by
  refine Tr.realFft2 ⟨rfl, rfl, fun i j hi hj => ?_⟩
  have hi : i < M := hi
  have hj : j < N := hj
  unfold gabor2d
  simp only
  rw [Img.px_tab hi hj, Img.px_tab hj hi, Finset.sum_comm]
  congr 1
  refine Finset.sum_congr rfl fun ex _ => Finset.sum_congr rfl fun ey _ => ?_
  congr 1
  simp only [Real.cos_zero, Real.sin_zero]
  push_cast
  ring

end Verif
