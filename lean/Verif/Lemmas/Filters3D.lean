import Verif.Lemmas.Torch3D
import Mathlib.Data.Nat.Factorial.DoubleFactorial

/-! # 3-D filters and the evaluation of scattering objects -/

namespace Verif

open Finset Complex

theorem solidHarmonic3d_shape {Y : ℤ → ℕ → ℝ → ℝ → ℂ} {s : Idx3} {σ : ℝ} {l : ℕ} {fo : Bool} {f : Vol ℂ}
    (h : f ∈ solidHarmonic3d Y s σ l fo) : f.shape = s := by
  unfold solidHarmonic3d at h
  by_cases h0 : l = 0
  · simp only [h0, if_true] at h
    cases fo <;> simp at h <;> rw [h] <;> rfl
  · simp only [h0, if_false, List.mem_map] at h
    obtain ⟨_, _, rfl⟩ := h
    rfl

theorem solidHarmonic3d_length (Y : ℤ → ℕ → ℝ → ℝ → ℂ) (s : Idx3) (σ : ℝ) (l : ℕ) (fo : Bool) :
    (solidHarmonic3d Y s σ l fo).length = 2 * l + 1 := by
  unfold solidHarmonic3d
  by_cases h0 : l = 0
  · subst h0; cases fo <;> simp
  · simp [h0]

theorem solidHarmonic3d_ok (Y : ℤ → ℕ → ℝ → ℝ → ℂ) (s : Idx3) (σ : ℝ) (l : ℕ) (fo : Bool) :
    solidHarmonic3d Y s σ l fo ≠ [] ∧ ∀ f ∈ solidHarmonic3d Y s σ l fo, f.shape = s := by
  refine ⟨fun h => ?_, fun f hf => solidHarmonic3d_shape hf⟩
  have := solidHarmonic3d_length Y s σ l fo
  rw [h] at this
  simp at this

/-- The filters at angular order `l` and scale `j` of an object. -/
noncomputable def Args3D.fam (a : Args3D) (Y : ℤ → ℕ → ℝ → ℝ → ℂ) (l j : ℕ) : List (Vol ℂ) :=
  solidHarmonic3d Y a.shape (a.sigma0 * 2 ^ j) l true

theorem Args3D.filters_eq (a : Args3D) (Y : ℤ → ℕ → ℝ → ℝ → ℂ) :
    a.filters Y = (List.range (a.L + 1)).map fun l => (List.range (a.J + 1)).map (a.fam Y l) := rfl

/-- Evaluation of the core with numpy, for any filters of the right shape. -/
theorem core3_np {s : Idx3} {qs : List ℝ} (hq : qs ≠ []) (rot : Bool) {L J : ℕ} {mo : ℤ} {fam : ℕ → ℕ → List (Vol ℂ)}
    (hG : ∀ l ≤ L, ∀ j ≤ J, fam l j ≠ [] ∧ ∀ f ∈ fam l j, f.shape = s) {x : Vol ℝ} (hx : x.shape = s) :
    Core3D.scattering3d (np3Backend qs) x
      ((List.range (L + 1)).map fun l => (List.range (J + 1)).map (fam l)) rot L J mo =
      .ok ((Spec.paths3 J (mo = 2)).map fun p => (List.range (L + 1)).map fun l =>
        qs.map (Spec.integral3 s (Spec.cascade3 s (fun j => used rot (fam l j)) p x.vx))) := by
  rw [Core3D.scattering3d_eq (np_runs s qs hq rot) hG hx]
  congr 1
  apply List.map_congr_left
  intro p _
  apply List.map_congr_left
  intro l _
  exact integrals_along s rot qs (fam l) p x hx

theorem run3_eq (a : Args3D) (Y : ℤ → ℕ → ℝ → ℝ → ℂ) (hq : a.powers ≠ []) {x : Vol ℝ} (hx : x.shape = a.shape) :
    a.run Y x = .ok ((Spec.paths3 a.J (a.maxOrder = 2)).map fun p => (List.range (a.L + 1)).map fun l =>
      a.powers.map (Spec.integral3 a.shape
        (Spec.cascade3 a.shape (fun j => used a.rot (a.fam Y l j)) p x.vx))) := by
  unfold Args3D.run
  rw [if_neg (not_not.2 hx), Args3D.filters_eq]
  exact core3_np hq a.rot (fun l _ j _ => solidHarmonic3d_ok _ _ _ _ _) hx

theorem runBatch3_eq (a : Args3D) (Y : ℤ → ℕ → ℝ → ℝ → ℂ) (hq : a.powers ≠ []) {xs : List (Vol ℝ)}
    (h0 : xs ≠ []) (hx : ∀ x ∈ xs, x.shape = a.shape) :
    a.runBatch Y a.shape xs = .ok ((Spec.paths3 a.J (a.maxOrder = 2)).map fun p =>
      (List.range (a.L + 1)).map fun l => xs.map fun x => a.powers.map (Spec.integral3 a.shape
        (Spec.cascade3 a.shape (fun j => used a.rot (a.fam Y l j)) p x.vx))) := by
  unfold Args3D.runBatch
  rw [if_neg (not_not.2 rfl), Args3D.filters_eq,
    Core3D.scattering3d_eq (batch_runs a.shape a.powers hq a.rot) (fam := a.fam Y)
      (fun l _ j _ => solidHarmonic3d_ok _ _ _ _ _) ⟨h0, hx⟩]
  congr 1
  apply List.map_congr_left
  intro p _
  apply List.map_congr_left
  intro l _
  rw [along_batch, List.map_map]
  apply List.map_congr_left
  intro x hxm
  exact integrals_along a.shape a.rot a.powers (a.fam Y l) p x (hx x hxm)

theorem paths3_le {J : ℕ} {b : Bool} {p : List ℕ} (h : p ∈ Spec.paths3 J b) : ∀ j ∈ p, j ≤ J := by
  unfold Spec.paths3 at h
  rcases List.mem_append.1 h with h | h
  · obtain ⟨j, hj, rfl⟩ := List.mem_map.1 h
    have := List.mem_range.1 hj
    simp; omega
  · cases b with
    | false => simp at h
    | true =>
      simp only [if_true, List.mem_flatMap, List.mem_range, List.mem_map] at h
      obtain ⟨j, hj, d, hd, rfl⟩ := h
      simp; omega

theorem paths3_ne_nil {J : ℕ} {b : Bool} {p : List ℕ} (h : p ∈ Spec.paths3 J b) : p ≠ [] := by
  unfold Spec.paths3 at h
  rcases List.mem_append.1 h with h | h
  · obtain ⟨j, hj, rfl⟩ := List.mem_map.1 h
    simp
  · cases b with
    | false => simp at h
    | true =>
      simp only [if_true, List.mem_flatMap, List.mem_range, List.mem_map] at h
      obtain ⟨j, hj, d, hd, rfl⟩ := h
      simp

theorem runTorch3_eq (a : Args3D) (Y : ℤ → ℕ → ℝ → ℝ → ℂ) (hm : a.methodOk = true) {x : Vol ℝ}
    (hx : x.shape = a.shape) :
    a.runTorch Y x = .ok ((Spec.paths3 a.J (a.maxOrder = 2)).map fun p => (List.range (a.L + 1)).map fun l =>
      a.powers.map (Spec.integral3 a.shape
        (Spec.cascade3 a.shape (fun j => used a.rot (a.fam Y l j)) p x.vx))) := by
  unfold Args3D.runTorch
  rw [if_neg (not_not.2 hx), if_neg (by simp [hm]), Args3D.filters_eq, List.map_map]
  have e : ((fun fl : List (List (Vol ℂ)) => fl.map fun fs => fs.map view3R) ∘
      fun l => (List.range (a.J + 1)).map (a.fam Y l)) =
      fun l => (List.range (a.J + 1)).map fun j => (a.fam Y l j).map view3R := by
    funext l; simp [Function.comp_def]
  rw [e, Core3D.scattering3d_eq (torch_runs a.shape a.powers a.rot) (fam := fun l j => (a.fam Y l j).map view3R)
    (fun l _ j _ => ⟨fun h => (solidHarmonic3d_ok _ _ _ _ _).1 (List.map_eq_nil_iff.1 h), by
      intro f hf; obtain ⟨g, hg, rfl⟩ := List.mem_map.1 hf
      exact solidHarmonic3d_shape (f := g) hg⟩) hx]
  congr 1
  apply List.map_congr_left
  intro p _
  apply List.map_congr_left
  intro l _
  rw [← integrals_along a.shape a.rot a.powers (a.fam Y l) p x hx]
  congr 1
  exact along_congr (W := fun fs => npWave a.shape a.rot (fs.map view3C)) (fam := fun j => (a.fam Y l j).map view3R)
    p (fun j _ => npWave_views a.shape a.rot (a.fam Y l j)
    fun f hf => solidHarmonic3d_shape hf) x

/-! ## Grid -/

theorem gridCoord_even {M : ℕ} (h : M % 2 = 0) {i : ℕ} (hi : i < M) :
    gridCoord M i = if i < M / 2 then (i : ℤ) else i - M := by
  unfold gridCoord ifftshift mgrid
  split
  · rw [Nat.mod_eq_of_lt (by omega)]; omega
  · rw [Nat.mod_eq_sub_mod (by omega), Nat.mod_eq_of_lt (by omega)]; omega

theorem gridCoord_odd {M : ℕ} (h : M % 2 = 1) {i : ℕ} (hi : i < M) :
    gridCoord M i = if i < M / 2 + 1 then (i : ℤ) - 1 else i - 1 - M := by
  unfold gridCoord ifftshift mgrid
  split
  · rw [Nat.mod_eq_of_lt (by omega)]; omega
  · rw [Nat.mod_eq_sub_mod (by omega), Nat.mod_eq_of_lt (by omega)]; omega

theorem double_factorial_eq (n : ℕ) : pyDoubleFactorial n = n.doubleFactorial := by
  induction n using Nat.strong_induction_on with
  | _ n ih =>
    match n with
    | 0 => rfl
    | 1 => rfl
    | n + 2 => rw [pyDoubleFactorial, Nat.doubleFactorial, ih n (by omega)]

/-! ## Constant volumes -/

theorem sum_phase {s : Idx3} (k : Idx3) (hk : k ∈ box s) (u : ℤ × ℤ × ℤ) :
    ∑ v ∈ box s, phase s (z3 k) (u - z3 v) = if k = (0, 0, 0) then (vol3 s : ℂ) else 0 := by
  simp only [box, mem_product, mem_range] at hk
  have h1 : ∀ (N k : ℕ) (a : ℤ), k < N → ∑ v ∈ range N, tw N (k * (a - (v : ℤ))) = if k = 0 then (N : ℂ) else 0 := by
    intro N k a hkN
    by_cases h0 : k = 0
    · subst h0
      simp [tw_zero]
    · rw [if_neg h0]
      have e : ∀ v ∈ range N, tw N (k * (a - (v : ℤ))) = tw N (k * a) * tw N (v * (-(k : ℤ))) := by
        intro v _
        rw [← tw_add]; congr 1; ring
      rw [sum_congr rfl e, ← mul_sum, sum_tw N (by omega), if_neg, mul_zero]
      intro hd
      rw [dvd_neg] at hd
      have := Int.le_of_dvd (by omega) hd
      omega
  unfold phase box
  rw [sum_product]
  simp only [sum_product, Prod.fst_sub, Prod.snd_sub, z3]
  have e : ∀ (A B C : ℕ → ℂ), ∑ x ∈ range s.1, ∑ y ∈ range s.2.1, ∑ z ∈ range s.2.2, A x * (B y * C z) =
      (∑ x ∈ range s.1, A x) * ((∑ y ∈ range s.2.1, B y) * ∑ z ∈ range s.2.2, C z) := by
    intro A B C
    rw [sum_mul]
    refine sum_congr rfl fun x _ => ?_
    rw [sum_mul, mul_sum]
    refine sum_congr rfl fun y _ => ?_
    rw [mul_sum, mul_sum]
  rw [e, h1 _ _ _ hk.1, h1 _ _ _ hk.2.1, h1 _ _ _ hk.2.2]
  obtain ⟨a, b, c⟩ := k
  simp only [Prod.mk.injEq, vol3]
  by_cases ha : a = 0 <;> by_cases hb : b = 0 <;> by_cases hc : c = 0 <;> simp [ha, hb, hc]
  ring

theorem conv3_const {s : Idx3} (hs : 0 < vol3 s) (c : ℝ) (f : Idx3 → ℂ) (u : Idx3) :
    Spec.conv3 s (fun _ => c) f u = c * f (0, 0, 0) := by
  unfold Spec.conv3
  rw [← mul_sum]
  congr 1
  simp only [impulse3_eq]
  rw [← sum_div, ← box_eq_cells, sum_comm]
  have h : ∀ k ∈ box s, ∑ v ∈ box s, f k * phase s (z3 k) ((u.1 : ℤ) - v.1, (u.2.1 : ℤ) - v.2.1, (u.2.2 : ℤ) - v.2.2)
      = if k = (0, 0, 0) then f (0, 0, 0) * (vol3 s : ℂ) else 0 := by
    intro k hk
    rw [← mul_sum]
    have := sum_phase k hk (z3 u)
    rw [show (∑ v ∈ box s, phase s (z3 k) ((u.1 : ℤ) - v.1, (u.2.1 : ℤ) - v.2.1, (u.2.2 : ℤ) - v.2.2)) =
      ∑ v ∈ box s, phase s (z3 k) (z3 u - z3 v) from rfl, this]
    split
    · next h => rw [h]
    · simp
  have hv : (vol3 s : ℂ) ≠ 0 := by exact_mod_cast hs.ne'
  rw [sum_congr rfl h, sum_ite_eq' , if_pos, mul_div_assoc, div_self hv, mul_one]
  unfold vol3 at hs
  simp only [box, mem_product, mem_range]
  exact ⟨Nat.pos_of_ne_zero (by rintro h; simp [h] at hs), Nat.pos_of_ne_zero (by rintro h; simp [h] at hs),
    Nat.pos_of_ne_zero (by rintro h; simp [h] at hs)⟩

theorem rotMod3_const {s : Idx3} (hs : 0 < vol3 s) (fs : List (Idx3 → ℂ)) (c : ℝ) :
    Spec.rotMod3 s fs (fun _ => c) = fun _ => |c| * Real.sqrt ((fs.map fun f => ‖f (0, 0, 0)‖ ^ 2).sum) := by
  funext u
  unfold Spec.rotMod3
  simp only [conv3_const hs, norm_mul, mul_pow, norm_real, Real.norm_eq_abs]
  rw [List.sum_map_mul_left, Real.sqrt_mul (sq_nonneg _), Real.sqrt_sq (abs_nonneg _)]

end Verif
