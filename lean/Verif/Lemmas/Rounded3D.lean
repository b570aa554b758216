import Verif.Model.Rounded3D
import Verif.Lemmas.Energy3D
import Verif.Lemmas.Filters3D

/-!
# Propagation of rounding errors for volumes
-/

namespace Verif

open Finset

/-! ## Square sums -/

section

variable {ι : Type}

/-- Square root of a sum of squares. -/
noncomputable def l2 (t : Finset ι) (f : ι → ℝ) : ℝ := Real.sqrt (∑ i ∈ t, f i ^ 2)

theorem l2_nonneg (t : Finset ι) (f : ι → ℝ) : 0 ≤ l2 t f := Real.sqrt_nonneg _

theorem l2_sq3 (t : Finset ι) (f : ι → ℝ) : l2 t f ^ 2 = ∑ i ∈ t, f i ^ 2 :=
  Real.sq_sqrt (sum_nonneg fun _ _ => sq_nonneg _)

theorem l2_add_le (t : Finset ι) (f g : ι → ℝ) : l2 t (fun i => f i + g i) ≤ l2 t f + l2 t g := by
  have e : ∀ z : ι → ℝ, l2 t z = ‖(WithLp.toLp 2 (fun i : t => z i) : EuclideanSpace ℝ t)‖ := by
    intro z
    rw [EuclideanSpace.norm_eq]
    unfold l2
    congr 1
    rw [← Finset.sum_coe_sort]
    exact sum_congr rfl fun i _ => by simp
  have h1 := norm_add_le (WithLp.toLp 2 (fun i : t => f i) : EuclideanSpace ℝ t) (WithLp.toLp 2 fun i : t => g i)
  rw [← WithLp.toLp_add, ← e, ← e] at h1
  rw [e]
  exact h1

theorem l2_mono {t : Finset ι} {f g : ι → ℝ} (h : ∀ i ∈ t, |f i| ≤ |g i|) : l2 t f ≤ l2 t g :=
  Real.sqrt_le_sqrt (sum_le_sum fun i hi => sq_le_sq.2 (h i hi))

theorem l2_congr {t : Finset ι} {f g : ι → ℝ} (h : ∀ i ∈ t, f i = g i) : l2 t f = l2 t g := by
  unfold l2
  congr 1
  exact sum_congr rfl fun i hi => by rw [h i hi]

theorem l2_le_add {t : Finset ι} {f g h : ι → ℝ} (hf : ∀ i ∈ t, |f i| ≤ |g i| + |h i|) :
    l2 t f ≤ l2 t g + l2 t h := by
  refine (l2_mono (g := fun i => |g i| + |h i|) fun i hi => (hf i hi).trans (le_abs_self _)).trans
    ((l2_add_le t (fun i => |g i|) fun i => |h i|).trans (le_of_eq ?_))
  unfold l2
  simp only [sq_abs]

theorem l2_const_mul (t : Finset ι) {c : ℝ} (hc : 0 ≤ c) (f : ι → ℝ) : l2 t (fun i => c * f i) = c * l2 t f := by
  unfold l2
  simp_rw [mul_pow, ← mul_sum]
  rw [Real.sqrt_mul (sq_nonneg c), Real.sqrt_sq hc]

/-- Two accumulations. -/
theorem l2_hypot (t : Finset ι) (f g : ι → ℝ) {c a b : ℝ} (hc : 0 ≤ c) (hf : l2 t f ≤ c * a) (hg : l2 t g ≤ c * b) :
    l2 t (fun i => Real.sqrt (f i ^ 2 + g i ^ 2)) ≤ c * Real.sqrt (a ^ 2 + b ^ 2) := by
  have h1 := pow_le_pow_left₀ (l2_nonneg t f) hf 2
  have h2 := pow_le_pow_left₀ (l2_nonneg t g) hg 2
  rw [l2_sq3] at h1 h2
  unfold l2
  rw [Real.sqrt_le_left (by positivity), mul_pow, Real.sq_sqrt (by positivity)]
  simp_rw [Real.sq_sqrt (add_nonneg (sq_nonneg _) (sq_nonneg _))]
  rw [sum_add_distrib]
  nlinarith

end

/-! ## Energies of the transforms -/

/-- One component of the wavelet transform, from the spectrum `X`. -/
noncomputable def comp3 (X f : Vol ℂ) : Vol ℂ := idft3 (Vol.tab X.shape fun i => X.vx i * f.vx i)

theorem idft3_vx (X : Vol ℂ) {u : Idx3} (hu : u ∈ Spec.cells X.shape) :
    (idft3 X).vx u = ∑ k ∈ Spec.cells X.shape, X.vx k / vol3 X.shape * char3 X.shape k u := by
  unfold idft3
  rw [Vol.vx_tab (by exact hu), box_eq_cells, sum_div]
  exact sum_congr rfl fun k _ => by unfold char3; ring

/-- Energy of an inverse transform. -/
theorem energy_idft3 (X : Vol ℂ) :
    ∑ u ∈ Spec.cells X.shape, ‖(idft3 X).vx u‖ ^ 2 = (∑ k ∈ Spec.cells X.shape, ‖X.vx k‖ ^ 2) / vol3 X.shape := by
  rw [sum_congr rfl fun u hu => by rw [idft3_vx X hu]]
  set s := X.shape with hs
  by_cases h1 : s.1 = 0
  · simp [Spec.cells, h1]
  by_cases h2 : s.2.1 = 0
  · simp [Spec.cells, h2]
  by_cases h3 : s.2.2 = 0
  · simp [Spec.cells, h3]
  have hV : (0 : ℝ) < vol3 s := by unfold vol3; positivity
  rw [sum_sq_of_orthogonal _ _ (char3 s) _ (char3_orthogonal h1 h2 h3), mul_sum, sum_div]
  refine sum_congr rfl fun k _ => ?_
  rw [norm_div, div_pow, Complex.norm_natCast]
  field_simp

theorem dft3_vx (x : Vol ℝ) {k : Idx3} (hk : k ∈ Spec.cells x.shape) :
    (dft3 (x.map fun r : ℝ => (r : ℂ))).vx k = hat3 x.shape x.vx k := by
  unfold dft3 hat3
  rw [Vol.shape_map, Vol.vx_tab (by exact hk), box_eq_cells]
  refine sum_congr rfl fun u hu => ?_
  rw [Vol.vx_map (by exact hu), conj_char3]

/-- Energy of a transform. -/
theorem energy_dft3 (x : Vol ℝ) : ∑ k ∈ Spec.cells x.shape, ‖(dft3 (x.map fun r : ℝ => (r : ℂ))).vx k‖ ^ 2 =
    vol3 x.shape * ∑ u ∈ Spec.cells x.shape, x.vx u ^ 2 := by
  rw [sum_congr rfl fun k hk => by rw [dft3_vx x hk]]
  by_cases h1 : x.shape.1 = 0
  · simp [Spec.cells, h1]
  by_cases h2 : x.shape.2.1 = 0
  · simp [Spec.cells, h2]
  by_cases h3 : x.shape.2.2 = 0
  · simp [Spec.cells, h3]
  exact energy_hat3 h1 h2 h3 x.vx

theorem sum_list_swap {s : Idx3} (l : List (Vol ℂ)) (g : Vol ℂ → Idx3 → ℝ) :
    ∑ u ∈ Spec.cells s, (l.map fun f => g f u).sum = (l.map fun f => ∑ u ∈ Spec.cells s, g f u).sum := by
  induction l with
  | nil => simp
  | cons a l ih => simp only [List.map_cons, List.sum_cons, sum_add_distrib, ih]

/-- A family of filters whose squared moduli add up to at most one: energy of all components. -/
theorem energy_comp3 (X : Vol ℂ) (fs : List (Vol ℂ))
    (hC : ∀ k ∈ Spec.cells X.shape, (fs.map fun f => ‖f.vx k‖ ^ 2).sum ≤ 1) :
    ∑ u ∈ Spec.cells X.shape, (fs.map fun f => ‖(comp3 X f).vx u‖ ^ 2).sum ≤
      (∑ k ∈ Spec.cells X.shape, ‖X.vx k‖ ^ 2) / vol3 X.shape := by
  rw [sum_list_swap fs fun f u => ‖(comp3 X f).vx u‖ ^ 2]
  have e : ∀ f : Vol ℂ, ∑ u ∈ Spec.cells X.shape, ‖(comp3 X f).vx u‖ ^ 2 =
      ∑ k ∈ Spec.cells X.shape, ‖f.vx k‖ ^ 2 * (‖X.vx k‖ ^ 2 / vol3 X.shape) := by
    intro f
    have := energy_idft3 (Vol.tab X.shape fun i => X.vx i * f.vx i)
    refine this.trans ?_
    rw [sum_div]
    refine sum_congr rfl fun k hk => ?_
    rw [Vol.vx_tab (by exact hk), norm_mul, Vol.shape_tab]
    ring
  simp_rw [e]
  rw [← sum_list_swap fs fun f k => ‖f.vx k‖ ^ 2 * (‖X.vx k‖ ^ 2 / vol3 X.shape), sum_div]
  refine sum_le_sum fun k hk => ?_
  rw [List.sum_map_mul_right]
  exact mul_le_of_le_one_left (by positivity) (hC k hk)

theorem comp3_sub {X Z : Vol ℂ} (h : Z.shape = X.shape) (f : Vol ℂ) {u : Idx3} (hu : u ∈ Spec.cells X.shape) :
    (comp3 X f).vx u - (comp3 Z f).vx u = (comp3 (Vol.tab X.shape fun i => X.vx i - Z.vx i) f).vx u := by
  unfold comp3
  rw [idft3_vx _ (by exact hu), idft3_vx _ (by rw [Vol.shape_tab, h]; exact hu), idft3_vx _ (by exact hu)]
  simp only [Vol.shape_tab, h]
  rw [← sum_sub_distrib]
  refine sum_congr rfl fun k hk => ?_
  rw [Vol.vx_tab (by exact hk), Vol.vx_tab (by exact hk), Vol.vx_tab (by exact hk), Vol.vx_tab (by exact hk)]
  ring

end Verif
