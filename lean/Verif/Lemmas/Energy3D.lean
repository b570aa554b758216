import Verif.Lemmas.Vol3D
import Verif.Lemmas.Energy2D
import Mathlib.Analysis.InnerProductSpace.PiL2

/-!
# Energy of filtered volumes
-/

namespace Verif

open Finset

/-- Energy of a real volume of shape `s`. -/
noncomputable def energy3 (s : Idx3) (x : Idx3 → ℝ) : ℝ := ∑ u ∈ Spec.cells s, x u ^ 2

theorem energy3_nonneg (s : Idx3) (x : Idx3 → ℝ) : 0 ≤ energy3 s x := sum_nonneg fun _ _ => sq_nonneg _

theorem tw_orthogonal {N a b : ℕ} (hN : N ≠ 0) (ha : a < N) (hb : b < N) :
    ∑ m ∈ range N, tw N ((a : ℤ) * m) * (starRingEnd ℂ) (tw N ((b : ℤ) * m)) = if a = b then (N : ℂ) else 0 := by
  have : ∀ m ∈ range N, tw N ((a : ℤ) * m) * (starRingEnd ℂ) (tw N ((b : ℤ) * m)) = tw N ((m : ℤ) * (a - b)) := by
    intro m _
    rw [conj_tw, ← tw_add]; congr 1; ring
  rw [sum_congr rfl this, sum_tw N hN]
  congr 1
  apply propext
  constructor
  · intro hd
    have := Int.eq_zero_of_abs_lt_dvd hd (by rw [abs_lt]; constructor <;> omega)
    omega
  · rintro rfl; simp

/-- The three-dimensional characters. -/
noncomputable def char3 (s : Idx3) (k u : Idx3) : ℂ := phase s (z3 k) (z3 u)

theorem conj_char3 (s k u : Idx3) : (starRingEnd ℂ) (char3 s k u) = phase s (z3 k) (-z3 u) := by
  unfold char3 phase
  rw [map_mul, map_mul, conj_tw, conj_tw, conj_tw]
  simp [z3]

theorem char3_symm (s k u : Idx3) : char3 s k u = char3 s u k := by
  unfold char3 phase z3
  rw [mul_comm (k.1 : ℤ), mul_comm (k.2.1 : ℤ), mul_comm (k.2.2 : ℤ)]

theorem char3_orthogonal {s : Idx3} (h1 : s.1 ≠ 0) (h2 : s.2.1 ≠ 0) (h3 : s.2.2 ≠ 0) :
    ∀ k ∈ Spec.cells s, ∀ k' ∈ Spec.cells s, ∑ u ∈ Spec.cells s, char3 s k u * (starRingEnd ℂ) (char3 s k' u) =
      if k = k' then ((vol3 s : ℝ) : ℂ) else 0 := by
  rintro ⟨a, b, c⟩ hk ⟨a', b', c'⟩ hk'
  simp only [Spec.cells, mem_product, mem_range] at hk hk'
  unfold Spec.cells
  rw [sum_product]
  simp_rw [sum_product]
  have e : ∀ x y z : ℕ, char3 s (a, b, c) (x, y, z) * (starRingEnd ℂ) (char3 s (a', b', c') (x, y, z)) =
      (tw s.1 ((a : ℤ) * x) * (starRingEnd ℂ) (tw s.1 ((a' : ℤ) * x))) *
        ((tw s.2.1 ((b : ℤ) * y) * (starRingEnd ℂ) (tw s.2.1 ((b' : ℤ) * y))) *
          (tw s.2.2 ((c : ℤ) * z) * (starRingEnd ℂ) (tw s.2.2 ((c' : ℤ) * z)))) := by
    intro x y z
    unfold char3 phase z3
    rw [map_mul, map_mul]
    ring
  simp_rw [e, ← mul_sum]
  rw [tw_orthogonal h3 hk.2.2 hk'.2.2]
  simp_rw [← sum_mul]
  rw [tw_orthogonal h2 hk.2.1 hk'.2.1, tw_orthogonal h1 hk.1 hk'.1]
  unfold vol3
  by_cases e1 : a = a' <;> by_cases e2 : b = b' <;> by_cases e3 : c = c' <;> simp [e1, e2, e3, mul_assoc]

/-- The Fourier coefficients of a volume. -/
noncomputable def hat3 (s : Idx3) (x : Idx3 → ℝ) (k : Idx3) : ℂ :=
  ∑ u ∈ Spec.cells s, (x u : ℂ) * (starRingEnd ℂ) (char3 s k u)

theorem conv3_hat (s : Idx3) (x : Idx3 → ℝ) (f : Idx3 → ℂ) (u : Idx3) :
    Spec.conv3 s x f u = ∑ k ∈ Spec.cells s, (f k * hat3 s x k / vol3 s) * char3 s k u := by
  unfold Spec.conv3
  have e : ∀ v : Idx3, (x v : ℂ) * Spec.impulse3 s f ((u.1 : ℤ) - v.1) ((u.2.1 : ℤ) - v.2.1) ((u.2.2 : ℤ) - v.2.2) =
      ∑ k ∈ Spec.cells s, f k / vol3 s * ((x v : ℂ) * (starRingEnd ℂ) (char3 s k v)) * char3 s k u := by
    intro v
    rw [impulse3_eq, box_eq_cells, sum_div, mul_sum]
    refine sum_congr rfl fun k _ => ?_
    have := phase_sub s (z3 k) (z3 u) (z3 v)
    rw [show ((u.1 : ℤ) - v.1, (u.2.1 : ℤ) - v.2.1, (u.2.2 : ℤ) - v.2.2) = z3 u - z3 v from rfl, ← this, conj_char3]
    unfold char3
    ring
  rw [sum_congr rfl fun v _ => e v, sum_comm]
  refine sum_congr rfl fun k _ => ?_
  rw [← sum_mul, ← mul_sum]
  unfold hat3
  ring

theorem energy_hat3 {s : Idx3} (h1 : s.1 ≠ 0) (h2 : s.2.1 ≠ 0) (h3 : s.2.2 ≠ 0) (x : Idx3 → ℝ) :
    ∑ k ∈ Spec.cells s, ‖hat3 s x k‖ ^ 2 = vol3 s * energy3 s x := by
  have horth := char3_orthogonal h1 h2 h3
  have := sum_sq_of_orthogonal (Spec.cells s) (Spec.cells s) (fun k m => (starRingEnd ℂ) (char3 s k m)) (vol3 s) (by
    intro k hk k' hk'
    have := congrArg (starRingEnd ℂ) (horth k hk k' hk')
    rw [map_sum] at this
    simp only [map_mul] at this
    rw [this]
    split <;> simp) (fun k => (x k : ℂ))
  have e : ∀ k ∈ Spec.cells s, ‖hat3 s x k‖ ^ 2 =
      ‖∑ a ∈ Spec.cells s, (x a : ℂ) * (starRingEnd ℂ) (char3 s a k)‖ ^ 2 := by
    intro k _
    unfold hat3
    congr 2
    exact sum_congr rfl fun u _ => by rw [char3_symm]
  rw [sum_congr rfl e, this]
  congr 1
  exact sum_congr rfl fun k _ => by rw [Complex.norm_real, Real.norm_eq_abs, sq_abs]

/-- Energy of the outputs of a family of filters whose squared moduli add up to at most `C^2`. -/
theorem energy_conv3 (s : Idx3) (x : Idx3 → ℝ) (fs : List (Idx3 → ℂ)) {C : ℝ}
    (hC : ∀ k ∈ Spec.cells s, (fs.map fun f => ‖f k‖ ^ 2).sum ≤ C) :
    ∑ u ∈ Spec.cells s, (fs.map fun f => ‖Spec.conv3 s x f u‖ ^ 2).sum ≤ C * energy3 s x := by
  by_cases h1 : s.1 = 0
  · simp [energy3, Spec.cells, h1]
  by_cases h2 : s.2.1 = 0
  · simp [energy3, Spec.cells, h2]
  by_cases h3 : s.2.2 = 0
  · simp [energy3, Spec.cells, h3]
  have hV : (0 : ℝ) < vol3 s := by unfold vol3; positivity
  have horth := char3_orthogonal h1 h2 h3
  have one : ∀ f : Idx3 → ℂ, ∑ u ∈ Spec.cells s, ‖Spec.conv3 s x f u‖ ^ 2 =
      ∑ k ∈ Spec.cells s, ‖f k‖ ^ 2 * (‖hat3 s x k‖ ^ 2 / vol3 s) := by
    intro f
    simp_rw [conv3_hat]
    rw [sum_sq_of_orthogonal _ _ (char3 s) _ horth, mul_sum]
    refine sum_congr rfl fun k _ => ?_
    rw [norm_div, norm_mul, div_pow, mul_pow, Complex.norm_natCast]
    field_simp
  have swap : ∀ (l : List (Idx3 → ℂ)) (g : (Idx3 → ℂ) → Idx3 → ℝ), ∑ u ∈ Spec.cells s, (l.map fun f => g f u).sum =
      (l.map fun f => ∑ u ∈ Spec.cells s, g f u).sum := by
    intro l g
    induction l with
    | nil => simp
    | cons a l ih => simp only [List.map_cons, List.sum_cons, sum_add_distrib, ih]
  rw [swap fs fun f u => ‖Spec.conv3 s x f u‖ ^ 2]
  simp_rw [one]
  rw [← swap fs fun f k => ‖f k‖ ^ 2 * (‖hat3 s x k‖ ^ 2 / vol3 s)]
  calc ∑ k ∈ Spec.cells s, (fs.map fun f => ‖f k‖ ^ 2 * (‖hat3 s x k‖ ^ 2 / vol3 s)).sum
      ≤ ∑ k ∈ Spec.cells s, C * (‖hat3 s x k‖ ^ 2 / vol3 s) := by
        refine sum_le_sum fun k hk => ?_
        rw [List.sum_map_mul_right]
        exact mul_le_mul_of_nonneg_right (hC k hk) (by positivity)
    _ = C * energy3 s x := by
        rw [← mul_sum, ← sum_div, energy_hat3 h1 h2 h3]
        field_simp

theorem sqrt_sum_sub_le {ι : Type} (l : List ι) (a b : ι → ℂ) :
    |Real.sqrt ((l.map fun i => ‖a i‖ ^ 2).sum) - Real.sqrt ((l.map fun i => ‖b i‖ ^ 2).sum)| ≤
      Real.sqrt ((l.map fun i => ‖a i - b i‖ ^ 2).sum) := by
  have e : ∀ c : ι → ℂ, Real.sqrt ((l.map fun i => ‖c i‖ ^ 2).sum) =
      ‖(WithLp.toLp 2 fun i : Fin l.length => c l[i] : EuclideanSpace ℂ (Fin l.length))‖ := by
    intro c
    rw [EuclideanSpace.norm_eq]
    congr 1
    have : (l.map fun i => ‖c i‖ ^ 2) = List.ofFn fun i : Fin l.length => ‖c l[i]‖ ^ 2 := by
      apply List.ext_getElem <;> simp
    rw [this, List.sum_ofFn]
  rw [e a, e b, e fun i => a i - b i]
  exact abs_norm_sub_norm_le _ _

theorem conv3_sub (s : Idx3) (x y : Idx3 → ℝ) (f : Idx3 → ℂ) (u : Idx3) :
    Spec.conv3 s x f u - Spec.conv3 s y f u = Spec.conv3 s (fun v => x v - y v) f u := by
  unfold Spec.conv3
  rw [← sum_sub_distrib]
  refine sum_congr rfl fun v _ => ?_
  push_cast
  ring

/-- The modulus over a family of filters whose squared moduli add up to at most one is non-expansive. -/
theorem energy_rotMod3 (s : Idx3) (x y : Idx3 → ℝ) (fs : List (Idx3 → ℂ))
    (hC : ∀ k ∈ Spec.cells s, (fs.map fun f => ‖f k‖ ^ 2).sum ≤ 1) :
    energy3 s (fun u => Spec.rotMod3 s fs x u - Spec.rotMod3 s fs y u) ≤ energy3 s fun u => x u - y u := by
  have h := energy_conv3 s (fun u => x u - y u) fs hC
  rw [one_mul] at h
  refine le_trans (sum_le_sum fun u _ => ?_) h
  unfold Spec.rotMod3
  have := sqrt_sum_sub_le fs (fun f => Spec.conv3 s x f u) fun f => Spec.conv3 s y f u
  simp only [conv3_sub] at this
  calc _ = |Real.sqrt ((fs.map fun f => ‖Spec.conv3 s x f u‖ ^ 2).sum) -
        Real.sqrt ((fs.map fun f => ‖Spec.conv3 s y f u‖ ^ 2).sum)| ^ 2 := (sq_abs _).symm
    _ ≤ _ ^ 2 := pow_le_pow_left₀ (abs_nonneg _) this 2
    _ = _ := Real.sq_sqrt (List.sum_nonneg (by simp))

/-- Every path is non-expansive. -/
theorem energy_cascade3 (s : Idx3) (fam : ℕ → List (Idx3 → ℂ)) (p : List ℕ)
    (hC : ∀ j ∈ p, ∀ k ∈ Spec.cells s, ((fam j).map fun f => ‖f k‖ ^ 2).sum ≤ 1) (x y : Idx3 → ℝ) :
    energy3 s (fun u => Spec.cascade3 s fam p x u - Spec.cascade3 s fam p y u) ≤ energy3 s fun u => x u - y u := by
  induction p generalizing x y with
  | nil => exact le_rfl
  | cons j p ih =>
    exact (ih (fun k hk => hC k (List.mem_cons_of_mem _ hk)) _ _).trans
      (energy_rotMod3 s x y _ (hC j List.mem_cons_self))

end Verif
