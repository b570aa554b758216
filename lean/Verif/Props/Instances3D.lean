import Verif.Props.Filters3D
import Verif.Props.OrderArg

/-!
# The three-dimensional theorems on concrete objects

The theorems with hypotheses applied to the small object `ex3` and to small grids; nothing new is claimed.
-/

namespace Verif

open Complex

/-- `C67_space`: a wavelet of order one in space on a cube of side 8. -/
example (Y : ℤ → ℕ → ℝ → ℝ → ℂ) : ∃ f, (solidHarmonic3d Y (8, 8, 8) 2 1 false)[2]? = some f ∧
    f.vx (1, 2, 3) = Spec.solid3 Y 1 2 (scale3 2⁻¹ (gridS (8, 8, 8) (1, 2, 3))) / ((2 ^ 3 : ℝ) : ℂ) := by
  have h : ∃ f, (solidHarmonic3d Y (8, 8, 8) 2 1 false)[2]? = some f :=
    ⟨_, List.getElem?_eq_getElem (by simp [solidHarmonic3d])⟩
  obtain ⟨f, hf⟩ := h
  refine ⟨f, hf, ?_⟩
  rw [C67_space Y (8, 8, 8) (by norm_num : (0 : ℝ) < 2) 1 2 f hf (1, 2, 3) (by simp [Spec.cells]), if_neg one_ne_zero]

/-- `C67_gaussian_bank`: the third Gaussian of a bank. -/
example : ∃ f, (gaussianBank (8, 8, 8) 3 1)[2]? = some f ∧
    f.vx (1, 2, 3) = ((Real.exp (-(Spec.sqLen (scale3 (1 * 2 ^ 2) (gridF (8, 8, 8) (1, 2, 3)))) / 2) : ℝ) : ℂ) := by
  obtain ⟨f, hf, h⟩ := (C67_gaussian_bank (8, 8, 8) 3 (one_pos : (0 : ℝ) < 1)).2 2 (by norm_num)
  exact ⟨f, hf, h _ (by simp [Spec.cells])⟩

/-- `C67_gaussian_space`, `C67_grid` and `C67_frequency` at the cell `(1, 2, 7)` of a cube of side 8. -/
example : (gaussian3d (8, 8, 8) 2 false).vx (1, 2, 7) = ((Real.exp (-(Spec.sqLen (scale3 2⁻¹ (gridS (8, 8, 8)
    (1, 2, 7)))) / 2) / ((2 * Real.pi) ^ (1.5 : ℝ) * 2 ^ 3) : ℝ) : ℂ) ∧
    gridS (8, 8, 8) (1, 2, 7) = (1, 2, -1) ∧
    gridF (8, 8, 8) (1, 2, 7) = (2 * Real.pi * 1 / 8, 2 * Real.pi * 2 / 8, 2 * Real.pi * (7 - 8) / 8) := by
  have hu : ((1, 2, 7) : Idx3) ∈ Spec.cells (8, 8, 8) := by simp [Spec.cells]
  refine ⟨C67_gaussian_space (8, 8, 8) (by norm_num) _ hu, ?_, ?_⟩
  · rw [(C67_grid (8, 8, 8) _ hu).1]
    norm_num [Spec.gridIndex]
  · rw [C67_frequency (8, 8, 8) _ hu rfl rfl rfl]
    norm_num

/-- `C48_homogeneous`: the negated and doubled volume. -/
example (Y : ℤ → ℕ → ℝ → ℝ → ℂ) : ∃ out, ex3.run Y exVol = .ok out ∧
    ex3.run Y (Vol.tab ex3.shape fun v => -2 * exVol.vx v) = .ok (out.map fun row => row.map fun e =>
      List.zipWith (fun q v => |(-2 : ℝ)| ^ q * v) ex3.powers e) :=
  C48_homogeneous ex3 Y (by simp [ex3]) rfl rfl (-2) fun _ hv => Vol.vx_tab hv

/-- `C65_torch_eq_numpy_partial` and `C65_method`. -/
example (Y : ℤ → ℕ → ℝ → ℝ → ℂ) : ex3.runTorch Y exVol = ex3.run Y exVol :=
  C65_torch_eq_numpy_partial ex3 Y (by simp [ex3]) rfl exVol

example (Y : ℤ → ℕ → ℝ → ℝ → ℂ) : { ex3 with methodOk := false }.runTorch Y exVol = .error .value :=
  (C65_method { ex3 with methodOk := false } Y (by simp [ex3]) rfl exVol rfl).1

/-- `C49_odd_gaussian`: a cube of side 5. -/
example : (gaussian3d (5, 5, 5) 1 true).vx (0, 0, 0) ≠ 1 :=
  C49_odd_gaussian rfl (by simp [Spec.cells]) one_pos

/-- `C47_permutation`: two components in either order. -/
example (c d : Vol ℂ) (h : d.shape = c.shape) : runningModulus [c, d] = runningModulus [d, c] :=
  C47_permutation (s := c.shape) (List.Perm.swap d c []) (by simp [h])

/-- `C100_violated_3d`: `max_order = 3` gives fewer coefficients than `max_order = 2`. -/
example (Y : ℤ → ℕ → ℝ → ℝ → ℂ) : ∃ out out2, { ex3 with maxOrder := 3 }.run Y exVol = .ok out ∧
    { ex3 with maxOrder := 2 }.run Y exVol = .ok out2 ∧ out.length < out2.length := by
  obtain ⟨out, out2, h, hl, h2, hl2⟩ := C100_violated_3d ex3 Y (by simp [ex3]) (by simp [ex3]) 3 (by norm_num) exVol rfl
  exact ⟨out, out2, h, h2, by omega⟩

end Verif
