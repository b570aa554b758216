import Verif.Props.Filters3D
import Verif.Lemmas.Transpose2D

/-!
# Central inversion of a volume
-/

namespace Verif

open Finset

namespace Spec

/-- The cell opposite to `u` with respect to the cell `(0, 0, 0)`: `-u` modulo the shape. -/
def opp3 (s u : ℕ × ℕ × ℕ) : ℕ × ℕ × ℕ := (negIdx s.1 u.1, negIdx s.2.1 u.2.1, negIdx s.2.2 u.2.2)

end Spec

theorem opp3_mem {s u : Idx3} (h : u ∈ Spec.cells s) : Spec.opp3 s u ∈ Spec.cells s := by
  simp only [Spec.cells, mem_product, mem_range, Spec.opp3] at h ⊢
  exact ⟨Spec.negIdx_lt h.1, Spec.negIdx_lt h.2.1, Spec.negIdx_lt h.2.2⟩

theorem opp3_opp3 {s u : Idx3} (h : u ∈ Spec.cells s) : Spec.opp3 s (Spec.opp3 s u) = u := by
  simp only [Spec.cells, mem_product, mem_range] at h
  simp only [Spec.opp3, Spec.negIdx_negIdx h.1, Spec.negIdx_negIdx h.2.1, Spec.negIdx_negIdx h.2.2]

theorem sum_opp3 {β : Type} [AddCommMonoid β] (s : Idx3) (g : Idx3 → β) :
    ∑ u ∈ Spec.cells s, g (Spec.opp3 s u) = ∑ u ∈ Spec.cells s, g u :=
  sum_nbij' (Spec.opp3 s) (Spec.opp3 s) (fun _ h => opp3_mem h) (fun _ h => opp3_mem h)
    (fun _ h => opp3_opp3 h) (fun _ h => opp3_opp3 h) (fun _ _ => rfl)

theorem tw_conj' (N : ℕ) (z : ℤ) : (starRingEnd ℂ) (tw N z) = tw N (-z) := by
  unfold tw
  rw [← Complex.exp_conj]
  congr 1
  simp [Complex.conj_ofReal, map_ofNat]

theorem tw_opp {N a b : ℕ} (ha : a < N) (hb : b < N) (k : ℤ) :
    tw N (k * ((Spec.negIdx N a : ℤ) - Spec.negIdx N b)) = (starRingEnd ℂ) (tw N (k * ((a : ℤ) - b))) := by
  rw [tw_conj']
  apply tw_congr
  have e : ∀ c : ℕ, c < N → ∃ d : ℤ, (Spec.negIdx N c : ℤ) = -c + N * d := by
    intro c hc
    unfold Spec.negIdx
    split
    · rename_i h; exact ⟨0, by simp [h]⟩
    · exact ⟨1, by omega⟩
  obtain ⟨d, hd⟩ := e a ha
  obtain ⟨d', hd'⟩ := e b hb
  rw [hd, hd', show k * (-(a : ℤ) + N * d - (-b + N * d')) = -(k * (a - b)) + N * (k * (d - d')) by ring,
    Int.add_mul_emod_self_left]

theorem phase_opp {s u v : Idx3} (hu : u ∈ Spec.cells s) (hv : v ∈ Spec.cells s) (k : ℤ × ℤ × ℤ) :
    phase s k (z3 (Spec.opp3 s u) - z3 (Spec.opp3 s v)) = (starRingEnd ℂ) (phase s k (z3 u - z3 v)) := by
  simp only [Spec.cells, mem_product, mem_range] at hu hv
  unfold phase
  rw [map_mul, map_mul]
  simp only [z3, Spec.opp3, Prod.fst_sub, Prod.snd_sub]
  rw [tw_opp hu.1 hv.1, tw_opp hu.2.1 hv.2.1, tw_opp hu.2.2 hv.2.2]

/-- Inverting the volume conjugates the transfer function, conjugates and inverts the convolution. -/
theorem conv3_opp {s : Idx3} (x : Idx3 → ℝ) (f : Idx3 → ℂ) {u : Idx3} (hu : u ∈ Spec.cells s) :
    Spec.conv3 s (fun v => x (Spec.opp3 s v)) f u =
      (starRingEnd ℂ) (Spec.conv3 s x (fun k => (starRingEnd ℂ) (f k)) (Spec.opp3 s u)) := by
  rw [conv3_phase, conv3_phase, ← sum_opp3 s fun v => (x v : ℂ) * _, map_sum]
  apply sum_congr rfl
  intro v hv
  rw [map_mul, Complex.conj_ofReal, map_div₀, map_sum]
  congr 2
  · apply sum_congr rfl
    intro k _
    rw [map_mul, Complex.conj_conj, phase_opp hu hv, Complex.conj_conj]
  · simp

/-- `conj Y(m, l) = (-1)^m Y(-m, l)`, as for spherical harmonics. -/
def ConjSym (Y : ℤ → ℕ → ℝ → ℝ → ℂ) (l : ℕ) : Prop :=
  ∀ (m : ℤ) (az pol : ℝ), |m| ≤ l → (starRingEnd ℂ) (Y m l az pol) = (-1) ^ m * Y (-m) l az pol

theorem rotMod3_opp {s : Idx3} {d : ℕ} (f : Fin d → Idx3 → ℂ) (c : Fin d → ℂ) (hc : ∀ a, ‖c a‖ = 1)
    (hf : ∀ a, ∀ k ∈ Spec.cells s, (starRingEnd ℂ) (f a k) = c a * f (Fin.rev a) k) (x : Idx3 → ℝ) {u : Idx3}
    (hu : u ∈ Spec.cells s) :
    Spec.rotMod3 s (List.ofFn f) (fun v => x (Spec.opp3 s v)) u =
      Spec.rotMod3 s (List.ofFn f) x (Spec.opp3 s u) := by
  unfold Spec.rotMod3
  congr 1
  rw [List.map_ofFn, List.map_ofFn, List.sum_ofFn, List.sum_ofFn]
  simp only [Function.comp]
  rw [← Equiv.sum_comp Fin.revPerm fun a => ‖Spec.conv3 s x (f a) (Spec.opp3 s u)‖ ^ 2]
  apply sum_congr rfl
  intro a _
  rw [conv3_opp x _ hu, Complex.norm_conj]
  have h1 : Spec.conv3 s x (fun k => (starRingEnd ℂ) (f a k)) (Spec.opp3 s u) =
      c a * Spec.conv3 s x (f (Fin.rev a)) (Spec.opp3 s u) := by
    have h2 := conv3_sum (n := 1) s x (fun _ => c a) (fun _ => f (Fin.rev a)) (Spec.opp3 s u)
    simp only [univ_unique, sum_singleton] at h2
    rw [← h2]
    unfold Spec.conv3
    rw [impulse3_congr (hf a)]
  rw [h1, norm_mul, hc, one_mul]
  rfl

theorem conj_normFactor3 (l : ℕ) (σ : ℝ) :
    (starRingEnd ℂ) (normFactor3 l σ true) = (-1) ^ l * normFactor3 l σ true := by
  unfold normFactor3
  simp only [if_true]
  rw [map_mul, map_mul, Complex.conj_ofReal, Complex.conj_ofReal, map_pow, map_neg, Complex.conj_I, neg_neg]
  have : Complex.I ^ l = (-1) ^ l * (-Complex.I) ^ l := by rw [← mul_pow]; simp
  rw [this]
  ring

theorem fam_opp (Y : ℤ → ℕ → ℝ → ℝ → ℂ) {s : Idx3} {l : ℕ} (hY : l ≠ 0 → ConjSym Y l) (σ : ℝ)
    (x : Idx3 → ℝ) {u : Idx3} (hu : u ∈ Spec.cells s) :
    Spec.rotMod3 s ((solidHarmonic3d Y s σ l true).map Vol.vx) (fun v => x (Spec.opp3 s v)) u =
      Spec.rotMod3 s ((solidHarmonic3d Y s σ l true).map Vol.vx) x (Spec.opp3 s u) := by
  by_cases hl : l = 0
  · subst hl
    unfold solidHarmonic3d
    simp only [if_true]
    have h := rotMod3_opp (s := s) (d := 1)
      (fun _ => (Vol.tab s fun i => (Real.exp (-0.5 * sq3 (gridF s i) / (1 / σ) ^ 2) : ℂ)).vx)
      (fun _ => 1) (by simp) (by
        intro a k hk
        rw [Vol.vx_tab (show k ∈ box s from hk), Complex.conj_ofReal, one_mul]) x hu
    simpa using h
  · have hY := hY hl
    have hlist : (solidHarmonic3d Y s σ l true).map Vol.vx = List.ofFn fun a : Fin (2 * l + 1) =>
        (Vol.tab s fun i =>
          Y ((a : ℤ) - l) l (angles3 (gridF s i)).2 (angles3 (gridF s i)).1 *
          ((Real.sqrt (sq3 (gridF s i) ^ l) *
            Real.exp (-0.5 * sq3 (gridF s i) / (1 / σ) ^ 2) / (1 / σ) ^ l : ℝ) : ℂ) *
          normFactor3 l (1 / σ) true).vx := by
      unfold solidHarmonic3d
      simp only [hl, if_false, if_true]
      apply List.ext_getElem
      · simp
      intro i h1 h2
      simp only [List.getElem_map, List.getElem_range, List.getElem_ofFn]
    rw [hlist]
    refine rotMod3_opp _ (fun a => (-1) ^ ((a : ℤ) - l) * (-1) ^ l) (by intro a; simp) ?_ x hu
    intro a k hk
    have ha := a.2
    rw [Vol.vx_tab (show k ∈ box s from hk), Vol.vx_tab (show k ∈ box s from hk), map_mul, map_mul,
      Complex.conj_ofReal, conj_normFactor3, hY _ _ _ (by rw [abs_le]; omega),
      show -((a : ℤ) - l) = ((Fin.rev a : Fin (2 * l + 1)) : ℤ) - l by rw [Fin.val_rev]; omega]
    ring

theorem cascade3_opp {s : Idx3} (fam : ℕ → List (Idx3 → ℂ)) (p : List ℕ)
    (hfam : ∀ j ∈ p, ∀ (x : Idx3 → ℝ), ∀ u ∈ Spec.cells s,
      Spec.rotMod3 s (fam j) (fun v => x (Spec.opp3 s v)) u = Spec.rotMod3 s (fam j) x (Spec.opp3 s u))
    (x : Idx3 → ℝ) : ∀ u ∈ Spec.cells s,
    Spec.cascade3 s fam p (fun v => x (Spec.opp3 s v)) u = Spec.cascade3 s fam p x (Spec.opp3 s u) := by
  induction p generalizing x with
  | nil => exact fun _ _ => rfl
  | cons j p ih =>
    intro u hu
    show Spec.cascade3 s fam p _ u = Spec.cascade3 s fam p _ _
    rw [cascade3_congr fam p (hfam j (by simp) x) u hu]
    exact ih (fun k hk => hfam k (by simp [hk])) _ u hu

/-- **C92.** With `rotation_covariant`, for every shape and every real volume, and for `Y` with the
conjugation symmetry of spherical harmonics, the coefficients do not change when the volume is inverted
through a cell: `y[u] = x[-u]`, indices modulo the shape. -/
theorem C92_inversion (a : Args3D) (Y : ℤ → ℕ → ℝ → ℝ → ℂ) (hq : a.powers ≠ []) (hrot : a.rot = true)
    (hY : ∀ l ≤ a.L, l ≠ 0 → ConjSym Y l) {x y : Vol ℝ} (hx : x.shape = a.shape) (hy : y.shape = a.shape)
    (h : ∀ u ∈ Spec.cells a.shape, y.vx u = x.vx (Spec.opp3 a.shape u)) :
    ∃ out, a.run Y x = .ok out ∧ a.run Y y = .ok out := by
  refine ⟨_, run3_eq a Y hq hx, ?_⟩
  rw [run3_eq a Y hq hy]
  congr 1
  apply List.map_congr_left
  intro p _
  apply List.map_congr_left
  intro l hl
  have hl' : l ≤ a.L := by have := List.mem_range.1 hl; omega
  apply List.map_congr_left
  intro q _
  unfold Spec.integral3
  rw [← sum_opp3 a.shape fun u => Spec.cascade3 a.shape (fun j => used a.rot (a.fam Y l j)) p x.vx u ^ q]
  apply sum_congr rfl
  intro u hu
  rw [cascade3_congr _ p h u hu]
  congr 1
  unfold used Args3D.fam
  rw [hrot]
  simp only [if_true]
  exact cascade3_opp _ p (fun j _ x u hu => fam_opp Y (hY l hl') _ x hu) x.vx u hu

/-! ## A case that meets the hypotheses -/

/-- Functions with the azimuthal dependence of spherical harmonics and the phase convention of scipy. -/
noncomputable def azY (m : ℤ) (l : ℕ) (az pol : ℝ) : ℂ :=
  (if m < 0 then (-1) ^ m else 1) * Complex.exp (Complex.I * (m * az : ℝ)) *
    ((Real.sin pol ^ m.natAbs * Real.cos pol ^ (l - m.natAbs) : ℝ) : ℂ)

theorem azY_conj (l : ℕ) : ConjSym azY l := by
  intro m az pol _
  have hc : (starRingEnd ℂ) (if m < 0 then (-1) ^ m else 1) = (if m < 0 then (-1) ^ m else 1) := by
    split <;> simp
  have hs : (if m < 0 then (-1 : ℂ) ^ m else 1) = (-1) ^ m * (if -m < 0 then (-1) ^ (-m) else 1) := by
    have h1 : (-1 : ℂ) ^ m * (-1) ^ (-m) = 1 := by rw [← zpow_add₀ (by simp)]; simp
    rcases lt_trichotomy m 0 with h | h | h
    · rw [if_pos h, if_neg (by omega), mul_one]
    · subst h; simp
    · rw [if_neg (by omega), if_pos (by omega), h1]
  unfold azY
  rw [map_mul, map_mul, Complex.conj_ofReal, ← Complex.exp_conj, map_mul, Complex.conj_I,
    Complex.conj_ofReal, hc, hs, Int.natAbs_neg]
  have e : -Complex.I * ((m * az : ℝ) : ℂ) = Complex.I * (((-m : ℤ) * az : ℝ) : ℂ) := by
    push_cast; ring
  rw [e]
  ring

/-- A volume with sides of both parities and its inverse. -/
example : ∃ out, { ex3 with shape := (4, 3, 6) }.run azY
      (Vol.tab (4, 3, 6) fun u => (u.1 + u.2.1 ^ 2 + u.2.2 ^ 3 : ℝ)) = .ok out ∧
    { ex3 with shape := (4, 3, 6) }.run azY (Vol.tab (4, 3, 6) fun u =>
      ((Spec.negIdx 4 u.1 : ℝ) + Spec.negIdx 3 u.2.1 ^ 2 + Spec.negIdx 6 u.2.2 ^ 3)) = .ok out :=
  C92_inversion { ex3 with shape := (4, 3, 6) } azY (by simp [ex3]) rfl (fun l _ _ => azY_conj l) rfl rfl
    (fun u hu => by
      rw [Vol.vx_tab (show u ∈ box (4, 3, 6) from hu)]
      exact (Vol.vx_tab (α := ℝ) (f := fun u => (u.1 + u.2.1 ^ 2 + u.2.2 ^ 3 : ℝ))
        (show Spec.opp3 (4, 3, 6) u ∈ box (4, 3, 6) from opp3_mem hu)).symm)

end Verif
