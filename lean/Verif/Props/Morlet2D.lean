import Verif.Props.Laws2D

/-!
# C86: the 2-D wavelets are rotations and dilations of one Gabor function
-/

namespace Verif

open Finset

theorem sum_Icc_five (f : ℤ → ℂ) : ∑ a ∈ Icc (-2 : ℤ) 2, f a = ∑ k ∈ range 5, f ((k : ℤ) - 2) := by
  have : Icc (-2 : ℤ) 2 = {-2, -1, 0, 1, 2} := by decide
  rw [this]
  simp [Finset.sum_range_succ]
  ring

/-- `gabor_2d` is the periodised rotated and dilated mother function, with the normalisation of the
code: `2 * 3.1415 * sigma**2 / slant`. -/
theorem C86_gabor (M N : Nat) (sigma theta xi slant : ℝ) (hs : sigma ≠ 0) {x y : Nat}
    (hx : x < M) (hy : y < N) :
    (gabor2d M N sigma theta xi slant).px x y = ((slant / (2 * 3.1415) : ℝ) : ℂ) *
      Spec.periodise2 M N (Spec.gaborAtom sigma theta slant (xi * sigma)) x y := by
  unfold gabor2d Spec.periodise2
  simp only
  rw [Img.px_tab hx hy, sum_Icc_five]
  rw [Finset.sum_div, Finset.mul_sum]
  refine Finset.sum_congr rfl fun a _ => ?_
  rw [sum_Icc_five, Finset.sum_div, Finset.mul_sum]
  refine Finset.sum_congr rfl fun b _ => ?_
  unfold Spec.gaborAtom Spec.gaborMother
  set X : ℝ := (x : ℝ) + ((a : ℝ) - 2) * M with hX
  set Y : ℝ := (y : ℝ) + ((b : ℝ) - 2) * N with hY
  have eX : ((x : ℝ) + (((a : ℤ) - 2 : ℤ) : ℝ) * M) = X := by rw [hX]; push_cast; ring
  have eY : ((y : ℝ) + (((b : ℤ) - 2 : ℤ) : ℝ) * N) = Y := by rw [hY]; push_cast; ring
  rw [eX, eY, ← Complex.exp_add]
  have e : ∀ (A B : ℂ) (r s : ℝ), A = B → s = r⁻¹ → Complex.exp A / (r : ℂ) = Complex.exp B * s := by
    intro A B r s h1 h2
    rw [h1, h2, div_eq_mul_inv, Complex.ofReal_inv]
  rw [show ∀ z : ℂ, ((slant / (2 * 3.1415) : ℝ) : ℂ) * (z / ((sigma ^ 2 : ℝ) : ℂ)) =
    z * ((slant / (2 * 3.1415) / sigma ^ 2 : ℝ) : ℂ) from fun z => by push_cast; ring]
  apply e
  · rw [← Complex.ofReal_neg]
    congr 1
    · congr 1
      field_simp
      ring
    · congr 2
      field_simp
  · rw [inv_div]
    field_simp

/-- `morlet_2d` removes the mean of the Gabor function with its own envelope. -/
theorem C86_morlet (M N : Nat) (sigma theta xi slant : ℝ) (hs : sigma ≠ 0) (hsl : slant ≠ 0) {x y : Nat}
    (hx : x < M) (hy : y < N) :
    (morlet2d M N sigma theta xi slant).px x y = ((slant / (2 * 3.1415) : ℝ) : ℂ) *
      Spec.zeroMean2 M N (Spec.periodise2 M N (Spec.gaborAtom sigma theta slant (xi * sigma)))
        (Spec.periodise2 M N (Spec.gaborAtom sigma theta slant 0)) x y := by
  have hc : ((slant / (2 * 3.1415) : ℝ) : ℂ) ≠ 0 := by
    rw [Complex.ofReal_ne_zero]
    positivity
  have hsum : ∀ w : ℝ, imgSum (gabor2d M N sigma theta w slant) = ((slant / (2 * 3.1415) : ℝ) : ℂ) *
      ∑ x ∈ range M, ∑ y ∈ range N, Spec.periodise2 M N (Spec.gaborAtom sigma theta slant (w * sigma)) x y := by
    intro w
    unfold imgSum
    rw [Finset.mul_sum]
    refine Finset.sum_congr rfl fun i hi => ?_
    rw [Finset.mul_sum]
    exact Finset.sum_congr rfl fun j hj => C86_gabor M N sigma theta w slant hs (mem_range.1 hi) (mem_range.1 hj)
  unfold morlet2d Spec.zeroMean2
  simp only
  rw [Img.px_tab hx hy, hsum, hsum, C86_gabor _ _ _ _ _ _ hs hx hy, C86_gabor _ _ _ _ _ _ hs hx hy, zero_mul,
    mul_div_mul_left _ _ hc]
  ring

theorem realFft2_eq {z : Img ℂ} {M N : Nat} (hh : z.h = M) (hw : z.w = N) {g : ℕ → ℕ → ℂ} (c : ℝ)
    (hz : ∀ x y, x < M → y < N → z.px x y = (c : ℂ) * g x y) {k l : Nat} (hk : k < M) (hl : l < N) :
    (realFft2 z).px k l = c * Spec.reDft2 M N g k l := by
  subst hh hw
  unfold realFft2 Spec.reDft2 dft2
  rw [Img.px_map _ _ (by exact hk) (by exact hl), Img.px_tab hk hl]
  have : ∀ w : ℂ, c * w.re = ((c : ℂ) * w).re := fun w => by simp
  rw [this]
  congr 1
  rw [Finset.mul_sum]
  refine Finset.sum_congr rfl fun x hx => ?_
  rw [Finset.mul_sum]
  refine Finset.sum_congr rfl fun y hy => ?_
  rw [hz x y (mem_range.1 hx) (mem_range.1 hy), mul_assoc]
  congr 2
  unfold tw
  rw [← Complex.exp_add]
  congr 1
  push_cast
  ring

/-- **C86 (wavelets).**  Wavelet number `j L + t` of the bank is labelled `(j, t)` and, at full
resolution, is the real part of the Fourier transform of the zero-mean periodised dilation by `0.8 * 2^j`
and rotation of one Gabor function at frequency `0.6 pi`. -/
theorem C86_wavelet (M N J L j t : Nat) (hj : j < J) (ht : t < L) :
    ∃ f table, (filterBank2 M N J L).2[j * L + t]? = some f ∧ f.j = j ∧ f.theta = t ∧
      f.levels[0]? = some table ∧ table.h = M ∧ table.w = N ∧
      ∀ k l, k < M → l < N → table.px k l = 4 / L / (2 * 3.1415) *
        Spec.reDft2 M N (Spec.zeroMean2 M N (Spec.wavelet2 M N L j t (0.6 * Real.pi))
          (Spec.wavelet2 M N L j t 0)) k l := by
  have hz : (filterBank2 M N J L).2.zipIdx 0 = (List.range J).flatMap fun j =>
      (List.range L).map fun t => (makePsi2 M N J L j t, j * L + t) := zipIdx_grid _ _ _
  have hmem : (makePsi2 M N J L j t, j * L + t) ∈ (filterBank2 M N J L).2.zipIdx 0 := by
    rw [hz]
    exact List.mem_flatMap.2 ⟨j, List.mem_range.2 hj, List.mem_map.2 ⟨t, List.mem_range.2 ht, rfl⟩⟩
  have hget := List.mem_zipIdx_iff_getElem?.1 hmem
  refine ⟨_, periodizeFilter (psiHat2 M N L j t) 0, hget, rfl, rfl, ?_, ?_, ?_, ?_⟩
  · unfold makePsi2
    simp only
    rw [List.getElem?_map, List.getElem?_range (by omega)]
    rfl
  · show M / 2 ^ 0 = M
    simp
  · show N / 2 ^ 0 = N
    simp
  · intro k l hk hl
    rw [C41_level_zero (psiHat2 M N L j t) k l hk hl]
    have hL : (L : ℝ) ≠ 0 := by
      have : L ≠ 0 := by omega
      exact_mod_cast this
    refine realFft2_eq (by rfl) (by rfl) (4 / L / (2 * 3.1415)) (fun x y hx hy => ?_) hk hl
    rw [C86_morlet M N (0.8 * 2 ^ j) _ _ (4 / L) (by positivity) (by positivity) hx hy]
    unfold Spec.wavelet2
    have e1 : 3 / 4 * Real.pi / 2 ^ j * (0.8 * 2 ^ j) = 0.6 * Real.pi := by
      field_simp
      norm_num
    have e2 : ((((L - 2) / 2 : Nat) : ℝ) - t) * Real.pi / L = Real.pi * (((L - 2) / 2 : ℕ) - t) / L := by ring
    rw [e1, e2]

/-- **C86 (low-pass).**  The low-pass filter is, at full resolution, the real part of the Fourier
transform of the periodised round Gaussian of width `0.8 * 2^(J-1)`. -/
theorem C86_lowpass (M N J L : Nat) (hJ : 1 ≤ J) :
    ∃ table, (filterBank2 M N J L).1[0]? = some table ∧ table.h = M ∧ table.w = N ∧
      ∀ k l, k < M → l < N → table.px k l = 1 / (2 * 3.1415) *
        Spec.reDft2 M N (Spec.periodise2 M N (Spec.gaborAtom (0.8 * 2 ^ (J - 1)) 0 1 0)) k l := by
  refine ⟨periodizeFilter (phiHat2 M N J) 0, ?_, ?_, ?_, ?_⟩
  · unfold filterBank2
    simp only
    rw [List.getElem?_map, List.getElem?_range (by omega)]
    rfl
  · show M / 2 ^ 0 = M
    simp
  · show N / 2 ^ 0 = N
    simp
  · intro k l hk hl
    rw [C41_level_zero (phiHat2 M N J) k l hk hl]
    refine realFft2_eq (by rfl) (by rfl) (1 / (2 * 3.1415)) (fun x y hx hy => ?_) hk hl
    rw [C86_gabor M N (0.8 * (2 ^ J / 2)) 0 0 1 (by positivity) hx hy]
    have e : (0.8 * (2 ^ J / 2) : ℝ) = 0.8 * 2 ^ (J - 1) := by
      obtain ⟨k, rfl⟩ : ∃ k, J = k + 1 := ⟨J - 1, by omega⟩
      rw [pow_succ]
      simp
    rw [zero_mul, e]

/-- Two wavelets of the same scale are rotations of each other and two wavelets of the same angle are
dilations of each other: the atom depends on `(j, theta)` only through the coordinates. -/
theorem C86_rotation (sigma theta alpha s w x y : ℝ) :
    Spec.gaborAtom sigma (theta + alpha) s w x y =
      Spec.gaborAtom sigma theta s w (Real.cos alpha * x + Real.sin alpha * y)
        (Real.cos alpha * y - Real.sin alpha * x) := by
  unfold Spec.gaborAtom
  rw [Real.cos_add, Real.sin_add]
  congr 2
  · congr 1; ring
  · congr 1; ring

theorem C86_dilation (sigma theta s w x y : ℝ) (j : ℕ) :
    Spec.gaborAtom (sigma * 2 ^ j) theta s w x y =
      Spec.gaborAtom sigma theta s w (x / 2 ^ j) (y / 2 ^ j) / ((4 : ℝ) ^ j : ℝ) := by
  unfold Spec.gaborAtom
  rw [div_div]
  congr 1
  · congr 1 <;> · rw [mul_div_assoc' , mul_div_assoc', mul_comm sigma, ← div_div]; congr 1; ring
  · rw [← Complex.ofReal_mul]
    congr 1
    rw [mul_pow, ← pow_mul, mul_comm j 2, pow_mul]
    norm_num

/-- A wavelet of the bank with `J = 3`, `L = 8`. -/
example : ∃ f, (filterBank2 16 32 3 8).2[2 * 8 + 5]? = some f ∧ f.j = 2 ∧ f.theta = 5 := by
  obtain ⟨f, _, h1, h2, h3, -⟩ := C86_wavelet 16 32 3 8 2 5 (by norm_num) (by norm_num)
  exact ⟨f, h1, h2, h3⟩

end Verif
