import Verif.Lemmas.Rounded3D
import Verif.Lemmas.FloatInt
import Verif.Props.Stability3D
import Verif.Props.Rounded1D

/-!
# C124: rounding errors of solid harmonic scattering
-/

namespace Verif

open Finset

namespace Spec

/-- Euclidean norm of a volume. -/
noncomputable def vnorm {E : Type} [NormedAddCommGroup E] (x : Vol E) : ℝ :=
  Real.sqrt (∑ u ∈ cells x.shape, ‖x.vx u‖ ^ 2)

/-- Euclidean distance of two volumes of the same shape. -/
noncomputable def vdist {E : Type} [NormedAddCommGroup E] (x y : Vol E) : ℝ :=
  Real.sqrt (∑ u ∈ cells x.shape, ‖x.vx u - y.vx u‖ ^ 2)

end Spec

/-- The operations return volumes of shape `s` for volumes of shape `s`. -/
structure Rounded3.Shapes (R : Rounded3) (s : Idx3) : Prop where
  rfft : ∀ x, x.shape = s → (R.rfft x).shape = s
  ifft : ∀ x, x.shape = s → (R.ifft x).shape = s
  mul : ∀ x f, x.shape = s → f.shape = s → (R.mul x f).shape = s
  modulus : ∀ x, x.shape = s → (R.modulus x).shape = s
  modRot : ∀ x m, x.shape = s → (R.modRot x m).shape = s

/-- What is assumed of the rounded operations on volumes of shape `s`: results have the right shape and a relative error of
at most `δ` in Euclidean norm, moduli are nonnegative, and an integral has a relative error of at most `η`. -/
structure Rounded3.Accurate (R : Rounded3) (s : Idx3) (δ η : ℝ) : Prop extends R.Shapes s where
  rfft_err : ∀ x : Vol ℝ, x.shape = s →
    Spec.vdist (Rounded3.exact.rfft x) (R.rfft x) ≤ δ * Spec.vnorm (Rounded3.exact.rfft x)
  ifft_err : ∀ x : Vol ℂ, x.shape = s → Spec.vdist (idft3 x) (R.ifft x) ≤ δ * Spec.vnorm (idft3 x)
  mul_err : ∀ x f : Vol ℂ, x.shape = s → f.shape = s →
    Spec.vdist (Rounded3.exact.mul x f) (R.mul x f) ≤ δ * Spec.vnorm (Rounded3.exact.mul x f)
  modulus_err : ∀ x : Vol ℂ, x.shape = s →
    Spec.vdist (Rounded3.exact.modulus x) (R.modulus x) ≤ δ * Spec.vnorm (Rounded3.exact.modulus x)
  modRot_err : ∀ (x : Vol ℂ) (m : Option (Vol ℝ)), x.shape = s → (∀ v ∈ m, v.shape = s) →
    Spec.vdist (np3ModRot x m) (R.modRot x m) ≤ δ * Spec.vnorm (np3ModRot x m)
  modulus_nonneg : ∀ x : Vol ℂ, x.shape = s → ∀ u ∈ Spec.cells s, 0 ≤ (R.modulus x).vx u
  modRot_nonneg : ∀ (x : Vol ℂ) (m : Option (Vol ℝ)), x.shape = s → ∀ u ∈ Spec.cells s, 0 ≤ (R.modRot x m).vx u
  integral_err : ∀ (q : ℝ) (x : Vol ℝ), x.shape = s → (∀ u ∈ Spec.cells s, 0 ≤ x.vx u) →
    |R.integral q x - ∑ u ∈ Spec.cells s, x.vx u ^ q| ≤ η * ∑ u ∈ Spec.cells s, x.vx u ^ q

theorem exact3_shapes (s : Idx3) : Rounded3.exact.Shapes s where
  rfft _ h := h
  ifft _ h := h
  mul _ _ h _ := h
  modulus _ h := h
  modRot x m h := by cases m <;> exact h

theorem runRounded3_exact (a : Args3D) (Y : ℤ → ℕ → ℝ → ℝ → ℂ) (x : Vol ℝ) :
    a.runRounded Rounded3.exact Y x = a.run Y x := rfl

/-! ## What the rounded core computes -/

/-- The accumulated modulus. -/
noncomputable def Rounded3.loop (R : Rounded3) (X : Vol ℂ) : List (Vol ℂ) → Option (Vol ℝ) → Option (Vol ℝ)
  | [], m => m
  | f :: fs, m => R.loop X fs (some (R.modRot (R.ifft (R.mul X f)) m))

/-- The wavelet modulus. -/
noncomputable def Rounded3.wave (R : Rounded3) (rot : Bool) (fs : List (Vol ℂ)) (x : Vol ℝ) : Vol ℝ :=
  if rot then (R.loop (R.rfft x) fs none).getD x
  else match fs with
    | [] => x
    | f :: _ => R.modulus (R.ifft (R.mul (R.rfft x) f))

section

variable {R : Rounded3} {s : Idx3} (hR : R.Shapes s)

include hR

theorem loop_isSome {X : Vol ℂ} (hX : X.shape = s) : ∀ (fs : List (Vol ℂ)), (∀ f ∈ fs, f.shape = s) →
    ∀ m : Option (Vol ℝ), (∀ v ∈ m, v.shape = s) → (fs ≠ [] ∨ m.isSome) → ∃ r, R.loop X fs m = some r ∧ r.shape = s
  | [], _, m, hm, h0 => by
    obtain ⟨r, rfl⟩ := Option.isSome_iff_exists.1 (h0.resolve_left (by simp))
    exact ⟨r, rfl, hm r rfl⟩
  | f :: fs, h, m, hm, _ => by
    unfold Rounded3.loop
    refine loop_isSome hX fs (fun g hg => h g (by simp [hg])) _ ?_ (Or.inr rfl)
    rintro _ ⟨⟩
    exact hR.modRot _ _ (hR.ifft _ (hR.mul _ _ hX (h f (by simp))))

omit hR in
theorem rotLoop_rounded (qs : List ℝ) {X : Vol ℂ} (hX : X.shape = s) : ∀ (fs : List (Vol ℂ)),
    (∀ f ∈ fs, f.shape = s) → ∀ m, Core3D.rotLoop (R.backend qs) X fs m = .ok (R.loop X fs m)
  | [], _, m => rfl
  | f :: fs, h, m => by
    have hf := h f (by simp)
    have e : (R.backend qs).cdgmm3d X f = .ok (R.mul X f) := if_neg (by rw [hX, hf]; simp)
    unfold Core3D.rotLoop Rounded3.loop
    rw [e]
    exact rotLoop_rounded qs hX fs (fun g hg => h g (by simp [hg])) _

theorem wave_rounded (qs : List ℝ) (rot : Bool) {x : Vol ℝ} (hx : x.shape = s) {fs : List (Vol ℂ)}
    (h : fs ≠ [] ∧ ∀ f ∈ fs, f.shape = s) :
    Core3D.wave (R.backend qs) rot (R.rfft x) fs = .ok (R.wave rot fs x) := by
  have hX := hR.rfft x hx
  unfold Core3D.wave Rounded3.wave
  cases rot with
  | true =>
    rw [if_pos rfl, if_pos rfl, rotLoop_rounded qs hX fs h.2, ok_bind]
    obtain ⟨r, hr, -⟩ := loop_isSome hR hX fs h.2 none (by simp) (Or.inl h.1)
    rw [hr]
    rfl
  | false =>
    obtain ⟨f, fs, rfl⟩ := List.exists_cons_of_ne_nil h.1
    have hf := h.2 f (by simp)
    have e : (R.backend qs).cdgmm3d (R.rfft x) f = .ok (R.mul (R.rfft x) f) := if_neg (by rw [hX, hf]; simp)
    rw [if_neg (by simp), if_neg (by simp), listGet_ok (a := f) (by simp), ok_bind, e]
    rfl

theorem rounded_runs (qs : List ℝ) (hq : qs ≠ []) (rot : Bool) :
    Core3D.Runs (R.backend qs) rot (fun x => x.shape = s) (fun fs => fs ≠ [] ∧ ∀ f ∈ fs, f.shape = s)
      R.rfft (R.wave rot) (fun x => qs.map fun q => R.integral q x) where
  rfft _ _ := rfl
  wave x fs hx h := wave_rounded hR qs rot hx h
  closed x fs hx h := by
    have hX := hR.rfft x hx
    unfold Rounded3.wave
    cases rot with
    | true =>
      rw [if_pos rfl]
      obtain ⟨r, hr, hs⟩ := loop_isSome hR hX fs h.2 none (by simp) (Or.inl h.1)
      rw [hr]
      exact hs
    | false =>
      obtain ⟨f, fs, rfl⟩ := List.exists_cons_of_ne_nil h.1
      rw [if_neg (by simp)]
      exact hR.modulus _ (hR.ifft _ (hR.mul _ _ hX (h.2 f (by simp))))
  avg x _ := if_neg hq

omit hR in
theorem runRounded3_eq (a : Args3D) (hR : R.Shapes a.shape) (Y : ℤ → ℕ → ℝ → ℝ → ℂ) (hq : a.powers ≠ []) {x : Vol ℝ}
    (hx : x.shape = a.shape) :
    a.runRounded R Y x = .ok ((Spec.paths3 a.J (a.maxOrder = 2)).map fun p => (List.range (a.L + 1)).map fun l =>
      a.powers.map fun q => R.integral q (Core3D.along (R.wave a.rot) (a.fam Y l) p x)) := by
  unfold Args3D.runRounded
  rw [if_neg (not_not.2 hx), Args3D.filters_eq]
  exact Core3D.scattering3d_eq (rounded_runs hR a.powers hq a.rot) (fun l _ j _ => solidHarmonic3d_ok _ _ _ _ _) hx

end

/-! ## Which runs return -/

/-- Without powers there is nothing to stack, whatever the operations return. -/
theorem runRounded3_no_powers (a : Args3D) (R : Rounded3) (hR : R.Shapes a.shape) (Y : ℤ → ℕ → ℝ → ℝ → ℂ)
    (hq : a.powers = []) {x : Vol ℝ} (hx : x.shape = a.shape) : a.runRounded R Y x = .error .value := by
  unfold Args3D.runRounded
  rw [if_neg (not_not.2 hx), Args3D.filters_eq]
  unfold Core3D.scattering3d
  have hw := wave_rounded hR a.powers a.rot hx (solidHarmonic3d_ok Y a.shape (a.sigma0 * 2 ^ 0) 0 true)
  change Core3D.wave (R.backend a.powers) a.rot (R.rfft x) (a.fam Y 0 0) = .ok (R.wave a.rot (a.fam Y 0 0) x) at hw
  have h1 : Core3D.order1 (R.backend a.powers) a.rot a.J a.maxOrder ((List.range (a.J + 1)).map (a.fam Y 0))
      (R.rfft x) 0 = .error .value := by
    unfold Core3D.order1
    rw [listGet_map_range _ (by omega), ok_bind, hw, ok_bind]
    have : (R.backend a.powers).averaging (R.wave a.rot (a.fam Y 0 0) x) = .error .value := if_pos hq
    rw [this]
    rfl
  have h2 : Core3D.perL (R.backend a.powers) a.rot a.J a.maxOrder
      ((List.range (a.L + 1)).map fun l => (List.range (a.J + 1)).map (a.fam Y l)) (R.rfft x) 0 = .error .value := by
    unfold Core3D.perL
    rw [listGet_map_range _ (by omega), ok_bind]
    rw [List.range_succ_eq_map, List.mapM_cons]
    rw [List.range_succ_eq_map] at h1
    rw [h1]
    rfl
  have h3 : (List.range (a.L + 1)).mapM (Core3D.perL (R.backend a.powers) a.rot a.J a.maxOrder
      ((List.range (a.L + 1)).map fun l => (List.range (a.J + 1)).map (a.fam Y l)) (R.rfft x)) = .error .value := by
    have e : List.range (a.L + 1) = 0 :: (List.range a.L).map Nat.succ := List.range_succ_eq_map
    generalize hg : Core3D.perL (R.backend a.powers) a.rot a.J a.maxOrder _ _ = g at h2 ⊢
    rw [e, List.mapM_cons, h2]
    rfl
  rw [show (R.backend a.powers).rfft x = .ok (R.rfft x) from rfl, ok_bind, h3]
  rfl

/-- **C124.**  The call with rounded operations raises exactly the errors of the exact call, and otherwise returns as many
coefficients, arranged in the same way. -/
theorem C124_returns (a : Args3D) (R : Rounded3) (hR : R.Shapes a.shape) (Y : ℤ → ℕ → ℝ → ℝ → ℂ) (x : Vol ℝ) :
    (∀ e, a.run Y x = .error e ↔ a.runRounded R Y x = .error e) ∧
    (∀ out out', a.run Y x = .ok out → a.runRounded R Y x = .ok out' →
      List.Forall₂ (List.Forall₂ fun u v => v.length = u.length) out out') := by
  by_cases hx : x.shape = a.shape
  · by_cases hq : a.powers = []
    · rw [C45_no_powers_violated a Y hq x hx, runRounded3_no_powers a R hR Y hq hx]
      exact ⟨fun _ => Iff.rfl, fun _ _ h => by cases h⟩
    · rw [run3_eq a Y hq hx, runRounded3_eq a hR Y hq hx]
      refine ⟨fun e => iff_of_false (by simp) (by simp), fun out out' h h' => ?_⟩
      rw [← Except.ok.inj h, ← Except.ok.inj h', List.forall₂_map_left_iff, List.forall₂_map_right_iff]
      refine List.forall₂_same.2 fun p _ => ?_
      rw [List.forall₂_map_left_iff, List.forall₂_map_right_iff]
      exact List.forall₂_same.2 fun l _ => by simp
  · unfold Args3D.run Args3D.runRounded
    rw [if_pos hx, if_pos hx]
    exact ⟨fun _ => Iff.rfl, fun _ _ h => by cases h⟩

/-! ## Errors of one wavelet modulus -/

/-- The accumulated modulus as a function. -/
noncomputable def accv : Option (Vol ℝ) → Idx3 → ℝ
  | none, _ => 0
  | some v, u => v.vx u

theorem modRot_vx (x : Vol ℂ) (m : Option (Vol ℝ)) {u : Idx3} (hu : u ∈ Spec.cells x.shape) :
    (np3ModRot x m).vx u = Real.sqrt (accv m u ^ 2 + ‖x.vx u‖ ^ 2) := by
  cases m with
  | none => exact (Vol.vx_tab hu).trans (by simp [accv])
  | some v => exact Vol.vx_tab hu

theorem modRot_shape (x : Vol ℂ) (m : Option (Vol ℝ)) : (np3ModRot x m).shape = x.shape := by cases m <;> rfl

theorem vnorm_eq {E : Type} [NormedAddCommGroup E] {x : Vol E} {s : Idx3} (h : x.shape = s) :
    Spec.vnorm x = l2 (Spec.cells s) fun u => ‖x.vx u‖ := by subst h; rfl

theorem vdist_eq {E : Type} [NormedAddCommGroup E] {x y : Vol E} {s : Idx3} (h : x.shape = s) :
    Spec.vdist x y = l2 (Spec.cells s) fun u => ‖x.vx u - y.vx u‖ := by subst h; rfl

/-- The plane version of the triangle inequality. -/
theorem abs_hypot_sub_le (a b : ℝ) (z w : ℂ) :
    |Real.sqrt (a ^ 2 + ‖z‖ ^ 2) - Real.sqrt (b ^ 2 + ‖w‖ ^ 2)| ≤ Real.sqrt ((a - b) ^ 2 + ‖z - w‖ ^ 2) := by
  have h := sqrt_sum_sub_le [true, false] (fun t => bif t then (a : ℂ) else z) fun t => bif t then (b : ℂ) else w
  simp only [List.map_cons, List.map_nil, List.sum_cons, List.sum_nil, cond_true, cond_false, add_zero, ← Complex.ofReal_sub,
    Complex.norm_real, Real.norm_eq_abs, sq_abs] at h
  exact h

theorem one_add_pow_sub {δ : ℝ} (hδ : 0 ≤ δ) (k : ℕ) : 0 ≤ (1 + δ) ^ k - 1 := sub_nonneg.2 (one_le_pow₀ (by linarith))

section

variable {R : Rounded3} {s : Idx3} {δ η : ℝ} (hδ : 0 ≤ δ) (hR : R.Accurate s δ η)

include hδ hR

/-- One component: product and inverse transform. -/
theorem comp_err {X f : Vol ℂ} (hX : X.shape = s) (hf : f.shape = s) :
    l2 (Spec.cells s) (fun u => ‖(R.ifft (R.mul X f)).vx u - (comp3 X f).vx u‖) ≤
      ((1 + δ) ^ 2 - 1) * l2 (Spec.cells s) fun u => ‖(comp3 X f).vx u‖ := by
  have hm := hR.mul X f hX hf
  have h1 := hR.ifft_err (R.mul X f) hm
  have h2 := hR.mul_err X f hX hf
  have sE : (Rounded3.exact.mul X f).shape = s := hX
  have sI : (idft3 (R.mul X f)).shape = s := hm
  rw [vdist_eq sI, vnorm_eq sI] at h1
  rw [vdist_eq sE, vnorm_eq sE] at h2
  set n := l2 (Spec.cells s) fun u => ‖(comp3 X f).vx u‖ with hn
  -- the inverse transform divides norms by the square root of the volume
  have key : ∀ Z : Vol ℂ, Z.shape = s → l2 (Spec.cells s) (fun u => ‖(idft3 Z).vx u‖) =
      l2 (Spec.cells s) (fun u => ‖Z.vx u‖) / Real.sqrt (vol3 s) := by
    intro Z hZ
    subst hZ
    unfold l2
    rw [energy_idft3, Real.sqrt_div (sum_nonneg fun _ _ => sq_nonneg _)]
  have hE : l2 (Spec.cells s) (fun u => ‖(Rounded3.exact.mul X f).vx u‖) / Real.sqrt (vol3 s) = n :=
    (key (Rounded3.exact.mul X f) sE).symm
  have h3 : l2 (Spec.cells s) (fun u => ‖(idft3 (R.mul X f)).vx u - (comp3 X f).vx u‖) ≤ δ * n := by
    have e : ∀ u ∈ Spec.cells s, ‖(idft3 (R.mul X f)).vx u - (comp3 X f).vx u‖ =
        ‖(idft3 (Vol.tab s fun i => (R.mul X f).vx i - (Rounded3.exact.mul X f).vx i)).vx u‖ := by
      intro u hu
      congr 1
      unfold comp3
      rw [idft3_vx _ (by rw [hm]; exact hu), idft3_vx _ (by rw [Vol.shape_tab, hX]; exact hu), idft3_vx _ (by exact hu)]
      simp only [Vol.shape_tab, hX, hm]
      rw [← sum_sub_distrib]
      refine sum_congr rfl fun k hk => ?_
      rw [Vol.vx_tab (f := fun i => (R.mul X f).vx i - (Rounded3.exact.mul X f).vx i) (by exact hk)]
      have : (Rounded3.exact.mul X f).vx k = (Vol.tab s fun i => X.vx i * f.vx i).vx k := by
        change (Vol.tab X.shape fun i => X.vx i * f.vx i).vx k = _
        rw [hX]
      rw [this]
      ring
    rw [l2_congr e, key _ rfl, ← hE, mul_div_assoc']
    refine div_le_div_of_nonneg_right (le_trans (le_of_eq ?_) h2) (Real.sqrt_nonneg _)
    refine l2_congr fun u hu => ?_
    rw [Vol.vx_tab (by exact hu), norm_sub_rev]
  have h4 : l2 (Spec.cells s) (fun u => ‖(idft3 (R.mul X f)).vx u‖) ≤ n + δ * n := by
    refine (l2_le_add fun u _ => ?_).trans (add_le_add le_rfl h3)
    rw [abs_norm, abs_norm, abs_norm]
    have := norm_add_le ((comp3 X f).vx u) ((idft3 (R.mul X f)).vx u - (comp3 X f).vx u)
    simpa using this
  have h5 : l2 (Spec.cells s) (fun u => ‖(R.ifft (R.mul X f)).vx u - (comp3 X f).vx u‖) ≤
      l2 (Spec.cells s) (fun u => ‖(idft3 (R.mul X f)).vx u - (R.ifft (R.mul X f)).vx u‖) +
      l2 (Spec.cells s) (fun u => ‖(idft3 (R.mul X f)).vx u - (comp3 X f).vx u‖) := by
    refine l2_le_add fun u _ => ?_
    rw [abs_norm, abs_norm, abs_norm, norm_sub_rev ((idft3 (R.mul X f)).vx u) ((R.ifft (R.mul X f)).vx u)]
    exact norm_sub_le_norm_sub_add_norm_sub _ _ _
  nlinarith [mul_le_mul_of_nonneg_left h4 hδ]

/-- One step of the accumulation. -/
theorem acc_err {X f : Vol ℂ} (hX : X.shape = s) (hf : f.shape = s) {m : Option (Vol ℝ)} (hm : ∀ v ∈ m, v.shape = s)
    {A : Idx3 → ℝ} {k : ℕ} (hk : 2 ≤ k)
    (hA : l2 (Spec.cells s) (fun u => accv m u - A u) ≤ ((1 + δ) ^ k - 1) * l2 (Spec.cells s) A) :
    l2 (Spec.cells s) (fun u => (R.modRot (R.ifft (R.mul X f)) m).vx u - Real.sqrt (A u ^ 2 + ‖(comp3 X f).vx u‖ ^ 2)) ≤
      ((1 + δ) ^ (k + 1) - 1) * l2 (Spec.cells s) fun u => Real.sqrt (A u ^ 2 + ‖(comp3 X f).vx u‖ ^ 2) := by
  set c := R.ifft (R.mul X f) with hc
  have sc : c.shape = s := hR.ifft _ (hR.mul _ _ hX hf)
  have h1 := hR.modRot_err c m sc hm
  have sM : (np3ModRot c m).shape = s := (modRot_shape _ _).trans sc
  rw [vdist_eq sM, vnorm_eq sM] at h1
  have h2 := comp_err hδ hR hX hf
  rw [← hc] at h2
  set E := fun u => Real.sqrt (A u ^ 2 + ‖(comp3 X f).vx u‖ ^ 2) with hE
  have e0 := one_add_pow_sub hδ k
  have hpow : (1 + δ) ^ 2 - 1 ≤ (1 + δ) ^ k - 1 := by
    have := pow_le_pow_right₀ (show 1 ≤ 1 + δ by linarith) hk
    linarith
  have hEn : l2 (Spec.cells s) E = Real.sqrt (l2 (Spec.cells s) A ^ 2 +
      (l2 (Spec.cells s) fun u => ‖(comp3 X f).vx u‖) ^ 2) := by
    rw [l2_sq3, l2_sq3, ← sum_add_distrib]
    unfold l2
    congr 1
    exact sum_congr rfl fun u _ => Real.sq_sqrt (by positivity)
  have h3 : l2 (Spec.cells s) (fun u => (np3ModRot c m).vx u - E u) ≤ ((1 + δ) ^ k - 1) * l2 (Spec.cells s) E := by
    rw [hEn]
    refine le_trans (l2_mono fun u hu => ?_) (l2_hypot (Spec.cells s) (fun u => accv m u - A u)
      (fun u => ‖c.vx u - (comp3 X f).vx u‖) e0 hA (h2.trans (mul_le_mul_of_nonneg_right hpow (l2_nonneg _ _))))
    rw [modRot_vx c m (by rw [sc]; exact hu), abs_of_nonneg (Real.sqrt_nonneg _)]
    exact abs_hypot_sub_le _ _ _ _
  have h4 : l2 (Spec.cells s) (fun u => ‖(np3ModRot c m).vx u‖) ≤
      l2 (Spec.cells s) E + ((1 + δ) ^ k - 1) * l2 (Spec.cells s) E := by
    refine (l2_le_add fun u _ => ?_).trans (add_le_add le_rfl h3)
    rw [abs_norm, Real.norm_eq_abs]
    have := abs_add_le (E u) ((np3ModRot c m).vx u - E u)
    simpa using this
  have h5 : l2 (Spec.cells s) (fun u => (R.modRot c m).vx u - E u) ≤
      l2 (Spec.cells s) (fun u => ‖(np3ModRot c m).vx u - (R.modRot c m).vx u‖) +
      l2 (Spec.cells s) (fun u => (np3ModRot c m).vx u - E u) := by
    refine l2_le_add fun u _ => ?_
    rw [abs_norm, Real.norm_eq_abs, abs_sub_comm ((np3ModRot c m).vx u) ((R.modRot c m).vx u)]
    exact abs_sub_le _ _ _
  have h6 := mul_le_mul_of_nonneg_left h4 hδ
  calc _ ≤ δ * (l2 (Spec.cells s) E + ((1 + δ) ^ k - 1) * l2 (Spec.cells s) E) +
        ((1 + δ) ^ k - 1) * l2 (Spec.cells s) E := by linarith
    _ = _ := by rw [pow_succ]; ring

/-- The whole accumulation. -/
theorem loop_err {X : Vol ℂ} (hX : X.shape = s) : ∀ (fs : List (Vol ℂ)), (∀ f ∈ fs, f.shape = s) →
    ∀ (m : Option (Vol ℝ)) (A : Idx3 → ℝ) (k : ℕ), (∀ v ∈ m, v.shape = s) → 2 ≤ k → (∀ u, 0 ≤ A u) →
    l2 (Spec.cells s) (fun u => accv m u - A u) ≤ ((1 + δ) ^ k - 1) * l2 (Spec.cells s) A →
    l2 (Spec.cells s) (fun u => accv (R.loop X fs m) u -
        Real.sqrt (A u ^ 2 + (fs.map fun f => ‖(comp3 X f).vx u‖ ^ 2).sum)) ≤
      ((1 + δ) ^ (k + fs.length) - 1) * l2 (Spec.cells s) fun u =>
        Real.sqrt (A u ^ 2 + (fs.map fun f => ‖(comp3 X f).vx u‖ ^ 2).sum)
  | [], _, m, A, k, _, _, hA0, hA => by
    have e : (fun u => Real.sqrt (A u ^ 2 + (List.map (fun f => ‖(comp3 X f).vx u‖ ^ 2) []).sum)) = A := by
      funext u
      simp [Real.sqrt_sq (hA0 u)]
    unfold Rounded3.loop
    simp only [congrFun e, List.length_nil, add_zero]
    exact hA
  | f :: fs, h, m, A, k, hm, hk, _, hA => by
    have hf := h f (by simp)
    have ih := loop_err hX fs (fun g hg => h g (by simp [hg])) (some (R.modRot (R.ifft (R.mul X f)) m))
      (fun u => Real.sqrt (A u ^ 2 + ‖(comp3 X f).vx u‖ ^ 2)) (k + 1)
      (by rintro _ ⟨⟩; exact hR.modRot _ _ (hR.ifft _ (hR.mul _ _ hX hf))) (by omega) (fun _ => Real.sqrt_nonneg _)
      (acc_err hδ hR hX hf hm hk hA)
    have e : ∀ u, Real.sqrt (A u ^ 2 + ‖(comp3 X f).vx u‖ ^ 2) ^ 2 = A u ^ 2 + ‖(comp3 X f).vx u‖ ^ 2 :=
      fun u => Real.sq_sqrt (by positivity)
    simp only [e] at ih
    unfold Rounded3.loop
    simp only [List.map_cons, List.sum_cons, List.length_cons, ← add_assoc]
    rw [show k + fs.length + 1 = k + 1 + fs.length by ring]
    exact ih

/-- From a computed spectrum to the modulus of the exact wavelet transform. -/
theorem spectrum_err {x : Vol ℝ} (hx : x.shape = s) {gs : List (Vol ℂ)}
    (hC : ∀ k ∈ Spec.cells s, (gs.map fun f => ‖f.vx k‖ ^ 2).sum ≤ 1) {V : Idx3 → ℝ} {k : ℕ}
    (hV : l2 (Spec.cells s) (fun u => V u - Real.sqrt ((gs.map fun f => ‖(comp3 (R.rfft x) f).vx u‖ ^ 2).sum)) ≤
      ((1 + δ) ^ k - 1) * l2 (Spec.cells s) fun u => Real.sqrt ((gs.map fun f => ‖(comp3 (R.rfft x) f).vx u‖ ^ 2).sum)) :
    l2 (Spec.cells s) (fun u => V u - Spec.rotMod3 s (gs.map Vol.vx) x.vx u) ≤
      ((1 + δ) ^ (k + 1) - 1) * l2 (Spec.cells s) x.vx := by
  set X := Rounded3.exact.rfft x with hXd
  have sX : X.shape = s := hx
  have sX' := hR.rfft x hx
  have h1 := hR.rfft_err x hx
  rw [← hXd, vdist_eq sX, vnorm_eq sX] at h1
  -- the components together
  have key : ∀ Z : Vol ℂ, Z.shape = s →
      l2 (Spec.cells s) (fun u => Real.sqrt ((gs.map fun f => ‖(comp3 Z f).vx u‖ ^ 2).sum)) ≤
        l2 (Spec.cells s) (fun u => ‖Z.vx u‖) / Real.sqrt (vol3 s) := by
    intro Z hZ
    subst hZ
    unfold l2
    rw [← Real.sqrt_div (sum_nonneg fun _ _ => sq_nonneg _)]
    refine Real.sqrt_le_sqrt (le_trans (le_of_eq ?_) (energy_comp3 Z gs hC))
    exact sum_congr rfl fun u _ => Real.sq_sqrt (List.sum_nonneg (by simp))
  have hn : l2 (Spec.cells s) (fun u => ‖X.vx u‖) / Real.sqrt (vol3 s) ≤ l2 (Spec.cells s) x.vx := by
    subst hx
    unfold l2
    have : ∑ k ∈ Spec.cells x.shape, ‖X.vx k‖ ^ 2 = _ := energy_dft3 x
    rw [this, Real.sqrt_mul (Nat.cast_nonneg _)]
    rcases eq_or_ne (Real.sqrt (vol3 x.shape)) 0 with h0 | h0
    · rw [h0]; simp
    · rw [mul_div_cancel_left₀ _ h0]
  set n := l2 (Spec.cells s) x.vx
  have hV0 := Real.sqrt_nonneg (vol3 s : ℝ)
  have h2 : l2 (Spec.cells s) (fun u => ‖X.vx u - (R.rfft x).vx u‖) / Real.sqrt (vol3 s) ≤ δ * n := by
    refine (div_le_div_of_nonneg_right h1 hV0).trans ?_
    rw [mul_div_assoc]
    exact mul_le_mul_of_nonneg_left hn hδ
  have h3 : l2 (Spec.cells s) (fun u => ‖(R.rfft x).vx u‖) / Real.sqrt (vol3 s) ≤ n + δ * n := by
    have : l2 (Spec.cells s) (fun u => ‖(R.rfft x).vx u‖) ≤
        l2 (Spec.cells s) (fun u => ‖X.vx u‖) + l2 (Spec.cells s) (fun u => ‖X.vx u - (R.rfft x).vx u‖) := by
      refine l2_le_add fun u _ => ?_
      rw [abs_norm, abs_norm, abs_norm]
      have := norm_sub_le (X.vx u) (X.vx u - (R.rfft x).vx u)
      simpa using this
    refine (div_le_div_of_nonneg_right this hV0).trans ?_
    rw [add_div]
    exact add_le_add hn h2
  have h4 := key (R.rfft x) sX'
  set E := fun u => Real.sqrt ((gs.map fun f => ‖(comp3 (R.rfft x) f).vx u‖ ^ 2).sum) with hE
  have h5 : l2 (Spec.cells s) (fun u => E u - Spec.rotMod3 s (gs.map Vol.vx) x.vx u) ≤ δ * n := by
    refine le_trans (l2_mono fun u hu => ?_)
      ((key (Vol.tab s fun i => (R.rfft x).vx i - X.vx i) rfl).trans (le_trans (le_of_eq ?_) h2))
    · have e : Spec.rotMod3 s (gs.map Vol.vx) x.vx u = Real.sqrt ((gs.map fun f => ‖(comp3 X f).vx u‖ ^ 2).sum) := by
        unfold Spec.rotMod3
        rw [List.map_map]
        congr 3
        funext f
        subst hx
        exact congrArg (fun z : ℂ => ‖z‖ ^ 2) (npComp_vx x f hu).symm
      rw [e, abs_of_nonneg (Real.sqrt_nonneg ((gs.map fun f =>
        ‖(comp3 (Vol.tab s fun i => (R.rfft x).vx i - X.vx i) f).vx u‖ ^ 2).sum))]
      have := sqrt_sum_sub_le gs (fun f => (comp3 (R.rfft x) f).vx u) fun f => (comp3 X f).vx u
      refine this.trans (le_of_eq ?_)
      congr 3
      funext f
      rw [comp3_sub (sX.trans sX'.symm) f (by rw [sX']; exact hu), sX']
    · congr 1
      refine l2_congr fun u hu => ?_
      rw [Vol.vx_tab (by exact hu), norm_sub_rev]
  have h6 : l2 (Spec.cells s) (fun u => V u - Spec.rotMod3 s (gs.map Vol.vx) x.vx u) ≤
      l2 (Spec.cells s) (fun u => V u - E u) +
      l2 (Spec.cells s) (fun u => E u - Spec.rotMod3 s (gs.map Vol.vx) x.vx u) :=
    l2_le_add fun u _ => abs_sub_le _ _ _
  have h7 := mul_le_mul_of_nonneg_left (h4.trans h3) (one_add_pow_sub hδ k)
  calc _ ≤ ((1 + δ) ^ k - 1) * (n + δ * n) + δ * n := by linarith
    _ = _ := by rw [pow_succ]; ring

end

/-- The operations with `modulus` as the first step of the accumulation. -/
def Rounded3.simple (R : Rounded3) : Rounded3 where
  rfft := R.rfft
  ifft := R.ifft
  mul := R.mul
  modulus := R.modulus
  modRot x
    | none => R.modulus x
    | some m => R.modRot x (some m)
  integral := R.integral

theorem simple_accurate {R : Rounded3} {s : Idx3} {δ η : ℝ} (hR : R.Accurate s δ η) : R.simple.Accurate s δ η where
  rfft := hR.rfft
  ifft := hR.ifft
  mul := hR.mul
  modulus := hR.modulus
  modRot x m h := by
    cases m with
    | none => exact hR.modulus x h
    | some m => exact hR.modRot x (some m) h
  rfft_err := hR.rfft_err
  ifft_err := hR.ifft_err
  mul_err := hR.mul_err
  modulus_err := hR.modulus_err
  modRot_err x m h hm := by
    cases m with
    | none =>
      have e : np3ModRot x none = Rounded3.exact.modulus x := by
        unfold np3ModRot
        exact Vol.tab_congr fun i _ => Real.sqrt_sq (norm_nonneg _)
      rw [e]
      exact hR.modulus_err x h
    | some m => exact hR.modRot_err x (some m) h hm
  modulus_nonneg := hR.modulus_nonneg
  modRot_nonneg x m h := by
    cases m with
    | none => exact hR.modulus_nonneg x h
    | some m => exact hR.modRot_nonneg x (some m) h
  integral_err := hR.integral_err

section

variable {R : Rounded3} {s : Idx3} {δ η : ℝ} (hδ : 0 ≤ δ) (hR : R.Accurate s δ η)

include hR in
theorem loop_nonneg {X : Vol ℂ} (hX : X.shape = s) : ∀ (fs : List (Vol ℂ)), (∀ f ∈ fs, f.shape = s) →
    ∀ m : Option (Vol ℝ), (∀ u ∈ Spec.cells s, 0 ≤ accv m u) → ∀ u ∈ Spec.cells s, 0 ≤ accv (R.loop X fs m) u
  | [], _, _, hm => hm
  | f :: fs, h, m, _ => by
    unfold Rounded3.loop
    refine loop_nonneg hX fs (fun g hg => h g (by simp [hg])) _ fun u hu => ?_
    exact hR.modRot_nonneg _ _ (hR.ifft _ (hR.mul _ _ hX (h f (by simp)))) u hu

include hδ hR

/-- **One wavelet modulus**: the computed one is nonnegative and close to the exact one of the same volume. -/
theorem wave_err {rot : Bool} {x : Vol ℝ} (hx : x.shape = s) {fs : List (Vol ℂ)} (h : fs ≠ [] ∧ ∀ f ∈ fs, f.shape = s)
    (hC : ∀ k ∈ Spec.cells s, ((used rot fs).map fun f => ‖f k‖ ^ 2).sum ≤ 1) :
    (∀ u ∈ Spec.cells s, 0 ≤ (R.wave rot fs x).vx u) ∧
    l2 (Spec.cells s) (fun u => (R.wave rot fs x).vx u - Spec.rotMod3 s (used rot fs) x.vx u) ≤
      ((1 + δ) ^ (3 + (if rot then fs.length else 1)) - 1) * l2 (Spec.cells s) x.vx := by
  have hX := hR.rfft x hx
  have hz : l2 (Spec.cells s) (fun u => accv none u - (fun _ => (0 : ℝ)) u) ≤
      ((1 + δ) ^ 2 - 1) * l2 (Spec.cells s) fun _ => (0 : ℝ) := by
    unfold l2 accv
    simp
  cases rot with
  | true =>
    obtain ⟨r, hr, -⟩ := loop_isSome hR.toShapes hX fs h.2 none (by simp) (Or.inl h.1)
    have e : R.wave true fs x = r := by unfold Rounded3.wave; rw [if_pos rfl, hr]; rfl
    have h1 := loop_err hδ hR hX fs h.2 none (fun _ => 0) 2 (by simp) le_rfl (fun _ => le_rfl) hz
    have h2 := loop_nonneg hR hX fs h.2 none (fun _ _ => le_rfl)
    rw [hr] at h1 h2
    rw [e]
    refine ⟨h2, ?_⟩
    have hC' : ∀ k ∈ Spec.cells s, (fs.map fun f => ‖f.vx k‖ ^ 2).sum ≤ 1 := by
      intro k hk
      have := hC k hk
      unfold used at this
      rwa [if_pos rfl, List.map_map] at this
    simp only [ne_eq, OfNat.ofNat_ne_zero, not_false_eq_true, zero_pow, zero_add] at h1
    have h3 := spectrum_err hδ hR hx hC' h1
    rw [show 2 + fs.length + 1 = 3 + fs.length by ring] at h3
    rw [if_pos rfl]
    exact h3
  | false =>
    obtain ⟨f, fs, rfl⟩ := List.exists_cons_of_ne_nil h.1
    have hf := h.2 f (by simp)
    have h1 := loop_err hδ (simple_accurate hR) hX [f] (by simpa using hf) none (fun _ => 0) 2 (by simp) le_rfl
      (fun _ => le_rfl) hz
    refine ⟨hR.modulus_nonneg _ (hR.ifft _ (hR.mul _ _ hX hf)), ?_⟩
    have hC' : ∀ k ∈ Spec.cells s, ([f].map fun f => ‖f.vx k‖ ^ 2).sum ≤ 1 := by
      intro k hk
      have := hC k hk
      unfold used at this
      rwa [if_neg (by simp), List.map_map, List.take_succ_cons, List.take_zero] at this
    simp only [ne_eq, OfNat.ofNat_ne_zero, not_false_eq_true, zero_pow, zero_add] at h1
    exact spectrum_err hδ hR hx hC' h1

/-! ## Paths -/

omit hδ hR in
theorem l2_rotMod3 (x y : Idx3 → ℝ) {fs : List (Idx3 → ℂ)} (hC : ∀ k ∈ Spec.cells s, (fs.map fun f => ‖f k‖ ^ 2).sum ≤ 1) :
    l2 (Spec.cells s) (fun u => Spec.rotMod3 s fs x u - Spec.rotMod3 s fs y u) ≤ l2 (Spec.cells s) fun u => x u - y u :=
  Real.sqrt_le_sqrt (energy_rotMod3 s x y fs hC)

omit hδ hR in
theorem rotMod3_zero (fs : List (Idx3 → ℂ)) (u : Idx3) : Spec.rotMod3 s fs (fun _ => 0) u = 0 := by
  unfold Spec.rotMod3 Spec.conv3
  simp

omit hδ hR in
theorem l2_rotMod3_le (x : Idx3 → ℝ) {fs : List (Idx3 → ℂ)} (hC : ∀ k ∈ Spec.cells s, (fs.map fun f => ‖f k‖ ^ 2).sum ≤ 1) :
    l2 (Spec.cells s) (Spec.rotMod3 s fs x) ≤ l2 (Spec.cells s) x := by
  have := l2_rotMod3 x (fun _ => 0) hC
  simpa only [rotMod3_zero, sub_zero] using this

/-- The volume at the end of a path. -/
theorem along_err {rot : Bool} {fam : ℕ → List (Vol ℂ)} {n : ℕ} (hf : ∀ j, fam j ≠ [] ∧ ∀ f ∈ fam j, f.shape = s)
    (hn : ∀ j, (fam j).length = n)
    (hC : ∀ j, ∀ k ∈ Spec.cells s, ((used rot (fam j)).map fun f => ‖f k‖ ^ 2).sum ≤ 1) : ∀ (p : List ℕ) (x' : Vol ℝ)
    (x : Idx3 → ℝ) (k : ℕ) (M : ℝ), x'.shape = s → l2 (Spec.cells s) x ≤ M →
    l2 (Spec.cells s) (fun u => x'.vx u - x u) ≤ ((1 + δ) ^ k - 1) * M →
    (p ≠ [] → ∀ u ∈ Spec.cells s, 0 ≤ (Core3D.along (R.wave rot) fam p x').vx u) ∧
    (Core3D.along (R.wave rot) fam p x').shape = s ∧
    l2 (Spec.cells s) (fun u => (Core3D.along (R.wave rot) fam p x').vx u -
        Spec.cascade3 s (fun j => used rot (fam j)) p x u) ≤
      ((1 + δ) ^ (k + p.length * (3 + if rot then n else 1)) - 1) * M
  | [], x', x, k, M, hx, _, h => by
    refine ⟨fun h => absurd rfl h, hx, ?_⟩
    simp only [List.length_nil, zero_mul, add_zero]
    exact h
  | j :: p, x', x, k, M, hx, hM, h => by
    obtain ⟨h0, h1⟩ := wave_err hδ hR (rot := rot) hx (hf j) (hC j)
    have hs : (R.wave rot (fam j) x').shape = s :=
      (rounded_runs hR.toShapes [(0 : ℝ)] (by simp) rot).closed x' (fam j) hx (hf j)
    rw [hn j] at h1
    set K := 3 + if rot then n else 1 with hK
    have h2 := l2_rotMod3 (s := s) x'.vx x (hC j)
    have h3 : l2 (Spec.cells s) x'.vx ≤ (1 + δ) ^ k * M := by
      have : l2 (Spec.cells s) x'.vx ≤ l2 (Spec.cells s) x + l2 (Spec.cells s) fun u => x'.vx u - x u := by
        refine l2_le_add fun u _ => ?_
        have := abs_add_le (x u) (x'.vx u - x u)
        simpa using this
      linarith
    have h4 : l2 (Spec.cells s) (fun u => (R.wave rot (fam j) x').vx u - Spec.rotMod3 s (used rot (fam j)) x u) ≤
        ((1 + δ) ^ (k + K) - 1) * M := by
      have h5 : l2 (Spec.cells s) (fun u => (R.wave rot (fam j) x').vx u - Spec.rotMod3 s (used rot (fam j)) x u) ≤
          l2 (Spec.cells s) (fun u => (R.wave rot (fam j) x').vx u - Spec.rotMod3 s (used rot (fam j)) x'.vx u) +
          l2 (Spec.cells s) (fun u => Spec.rotMod3 s (used rot (fam j)) x'.vx u - Spec.rotMod3 s (used rot (fam j)) x u) :=
        l2_le_add fun u _ => abs_sub_le _ _ _
      have h6 := mul_le_mul_of_nonneg_left h3 (one_add_pow_sub hδ K)
      calc _ ≤ ((1 + δ) ^ K - 1) * ((1 + δ) ^ k * M) + ((1 + δ) ^ k - 1) * M := by linarith
        _ = _ := by rw [pow_add]; ring
    obtain ⟨i0, i1, i2⟩ := along_err hf hn hC p (R.wave rot (fam j) x') (Spec.rotMod3 s (used rot (fam j)) x) (k + K) M hs
      ((l2_rotMod3_le x (hC j)).trans hM) h4
    refine ⟨fun _ => ?_, i1, ?_⟩
    · by_cases hp : p = []
      · subst hp; exact h0
      · exact i0 hp
    · have e : k + (j :: p).length * K = k + K + p.length * K := by rw [List.length_cons]; ring
      rw [e]
      exact i2

end

/-! ## Integrals -/

theorem rpow_rel {t v η r : ℝ} (ht : 0 ≤ t) (hη : 0 ≤ η) (hη1 : η ≤ 1) (hr : 0 ≤ r) (hr1 : r ≤ 1) (h : |v - t| ≤ η * t) :
    |v ^ r - t ^ r| ≤ η * t ^ r := by
  obtain ⟨h1, h2⟩ := abs_le.1 h
  have hv : 0 ≤ v := by nlinarith
  have htr := Real.rpow_nonneg ht r
  have up : v ^ r ≤ (1 + η) * t ^ r := by
    calc v ^ r ≤ ((1 + η) * t) ^ r := Real.rpow_le_rpow hv (by linarith) hr
      _ = (1 + η) ^ r * t ^ r := Real.mul_rpow (by linarith) ht
      _ ≤ (1 + η) * t ^ r := mul_le_mul_of_nonneg_right
          ((Real.rpow_le_rpow_of_exponent_le (by linarith) hr1).trans (le_of_eq (Real.rpow_one _))) htr
  have lo : (1 - η) * t ^ r ≤ v ^ r := by
    rcases eq_or_lt_of_le hη1 with rfl | hlt
    · rw [sub_self, zero_mul]; exact Real.rpow_nonneg hv r
    · calc (1 - η) * t ^ r ≤ (1 - η) ^ r * t ^ r := mul_le_mul_of_nonneg_right
            (le_trans (le_of_eq (Real.rpow_one _).symm) (Real.rpow_le_rpow_of_exponent_ge (by linarith) (by linarith) hr1)) htr
        _ = ((1 - η) * t) ^ r := (Real.mul_rpow (by linarith) ht).symm
        _ ≤ v ^ r := Real.rpow_le_rpow (mul_nonneg (by linarith) ht) (by linarith) hr
  rw [abs_le]
  constructor <;> linarith

theorem paths3_order {J : ℕ} {b : Bool} {i : ℕ} {p : List ℕ} (h : (Spec.paths3 J b)[i]? = some p) :
    p.length = if i ≤ J then 1 else 2 := by
  unfold Spec.paths3 at h
  by_cases hi : i ≤ J
  · rw [if_pos hi]
    rw [List.getElem?_append_left (by simp; omega), List.getElem?_map] at h
    obtain ⟨j, -, rfl⟩ := Option.map_eq_some_iff.1 h
    rfl
  · rw [if_neg hi]
    rw [List.getElem?_append_right (by simp; omega)] at h
    have hm := List.mem_of_getElem? h
    split at hm
    · obtain ⟨j, -, hm⟩ := List.mem_flatMap.1 hm
      obtain ⟨d, -, rfl⟩ := List.mem_map.1 hm
      rfl
    · cases hm

/-- Rows, angular orders and powers of the rounded output. -/
theorem at3_of_runRounded {a : Args3D} {R : Rounded3} (hR : R.Shapes a.shape) {Y : ℤ → ℕ → ℝ → ℝ → ℂ} (hq : a.powers ≠ [])
    {x : Vol ℝ} (hx : x.shape = a.shape) {out : List (List (List ℝ))} (h : a.runRounded R Y x = .ok out) {i l k : ℕ} {v : ℝ}
    (hv : At3 out i l k v) : ∃ p q, (Spec.paths3 a.J (a.maxOrder = 2))[i]? = some p ∧ l ≤ a.L ∧ a.powers[k]? = some q ∧
      v = R.integral q (Core3D.along (R.wave a.rot) (a.fam Y l) p x) := by
  rw [runRounded3_eq a hR Y hq hx] at h
  obtain rfl := Except.ok.inj h
  obtain ⟨row, e, h1, h2, h3⟩ := hv
  rw [List.getElem?_map] at h1
  obtain ⟨p, hp, rfl⟩ := Option.map_eq_some_iff.1 h1
  rw [List.getElem?_map] at h2
  obtain ⟨l', hl, rfl⟩ := Option.map_eq_some_iff.1 h2
  rw [List.getElem?_map] at h3
  obtain ⟨q, hk, rfl⟩ := Option.map_eq_some_iff.1 h3
  have hll : l < a.L + 1 := by
    by_contra hc
    rw [List.getElem?_eq_none (by simp; omega)] at hl
    exact absurd hl (by simp)
  rw [List.getElem?_range hll] at hl
  obtain rfl := Option.some.inj hl
  exact ⟨p, q, hp, by omega, hk, rfl⟩

/-- The number of rounded operations before the integral on the row `i` at angular order `l`: one Fourier transform per
modulus, one product, one inverse transform and one accumulation per component. -/
def opCount3 (a : Args3D) (i l : ℕ) : ℕ := (if i ≤ a.J then 1 else 2) * (if a.rot then 2 * l + 4 else 4)

/-- One coefficient before the rounding of the integral. -/
theorem coefficient_err (a : Args3D) {Y : ℤ → ℕ → ℝ → ℝ → ℂ} (hs : 0 < a.sigma0)
    (hY : ∀ l, 1 ≤ l → l ≤ a.L → Spec.SumSqLe Y l) (R : Rounded3) {δ η : ℝ} (hδ : 0 ≤ δ) (hR : R.Accurate a.shape δ η)
    {x : Vol ℝ} (hx : x.shape = a.shape) {i l : ℕ} {p : List ℕ} (hp : (Spec.paths3 a.J (a.maxOrder = 2))[i]? = some p)
    (hl : l ≤ a.L) (q : ℝ) :
    ∃ U : Idx3 → ℝ, (∀ u, 0 ≤ U u) ∧
      |R.integral q (Core3D.along (R.wave a.rot) (a.fam Y l) p x) - Spec.integral3 a.shape U q| ≤
        η * Spec.integral3 a.shape U q ∧
      Spec.dist3 a.shape U (Spec.cascade3 a.shape (fun j => used a.rot (a.fam Y l j)) p x.vx) ≤
        ((1 + δ) ^ opCount3 a i l - 1) * Spec.vnorm x := by
  have hlen := paths3_order hp
  have hne := paths3_ne_nil (List.mem_of_getElem? hp)
  obtain ⟨h0, h1, h2⟩ := along_err hδ hR (rot := a.rot) (fam := a.fam Y l) (n := 2 * l + 1)
    (fun j => solidHarmonic3d_ok _ _ _ _ _) (fun j => solidHarmonic3d_length _ _ _ _ _)
    (fun j => used_sum_le a hs (fun h0 => hY l (by omega) hl) j) p x x.vx 0 (l2 (Spec.cells a.shape) x.vx) hx le_rfl
    (by unfold l2; simp)
  set r := Core3D.along (R.wave a.rot) (a.fam Y l) p x with hr
  have h0 := h0 hne
  refine ⟨fun u => if u ∈ Spec.cells a.shape then r.vx u else 0, fun u => ?_, ?_, ?_⟩
  · beta_reduce
    split
    · rename_i hu; exact h0 u hu
    · exact le_rfl
  · have e : Spec.integral3 a.shape (fun u => if u ∈ Spec.cells a.shape then r.vx u else 0) q =
        ∑ u ∈ Spec.cells a.shape, r.vx u ^ q := sum_congr rfl fun u hu => congrArg (· ^ q) (if_pos hu)
    rw [e]
    exact hR.integral_err q r h1 h0
  · have e : Spec.dist3 a.shape (fun u => if u ∈ Spec.cells a.shape then r.vx u else 0)
        (Spec.cascade3 a.shape (fun j => used a.rot (a.fam Y l j)) p x.vx) = l2 (Spec.cells a.shape) fun u =>
          r.vx u - Spec.cascade3 a.shape (fun j => used a.rot (a.fam Y l j)) p x.vx u := by
      refine l2_congr (f := fun u => (if u ∈ Spec.cells a.shape then r.vx u else 0) - _) fun u hu => ?_
      rw [if_pos hu]
    rw [e]
    refine h2.trans (le_of_eq ?_)
    rw [vnorm_eq hx, hlen]
    have e2 : l2 (Spec.cells a.shape) x.vx = l2 (Spec.cells a.shape) fun u => ‖x.vx u‖ := by
      unfold l2
      simp
    have e3 : 0 + (if i ≤ a.J then 1 else 2) * (3 + if a.rot = true then 2 * l + 1 else 1) = opCount3 a i l := by
      unfold opCount3
      split <;> split <;> ring
    rw [e2, e3]

theorem dist_cascade_zero (a : Args3D) {Y : ℤ → ℕ → ℝ → ℝ → ℂ} (hs : 0 < a.sigma0) {l : ℕ}
    (hY : l ≠ 0 → Spec.SumSqLe Y l) (p : List ℕ) {x : Vol ℝ} (hx : x.shape = a.shape) :
    Spec.dist3 a.shape (Spec.cascade3 a.shape (fun j => used a.rot (a.fam Y l j)) p x.vx) (fun _ => 0) ≤ Spec.vnorm x := by
  have h := dist_cascade_le a hs hY p x.vx fun _ => 0
  rw [funext (cascade3_zero a.shape _ p)] at h
  refine h.trans (le_of_eq ?_)
  unfold Spec.dist3 Spec.vnorm
  rw [hx]
  simp

/-- **C124 (powers at least one).**  If every operation has a relative error of at most `δ` in Euclidean norm and every
integral one of at most `η`, the `q`-th root of a computed coefficient of power `q ≥ 1` differs from that of the exact one
by at most `(1 + η) (1 + δ)^n - 1` times the Euclidean norm of the volume, times `(M N O)^(1/q - 1/2)` when `q < 2`.  Here
`n` is the number of rounded operations on the path. -/
theorem C124_root (a : Args3D) {Y : ℤ → ℕ → ℝ → ℝ → ℂ} (hs : 0 < a.sigma0)
    (hY : ∀ l, 1 ≤ l → l ≤ a.L → Spec.SumSqLe Y l) (hp : a.powers ≠ []) (R : Rounded3) {δ η : ℝ} (hδ : 0 ≤ δ) (hη : 0 ≤ η)
    (hη1 : η ≤ 1) (hR : R.Accurate a.shape δ η) {x : Vol ℝ} (hx : x.shape = a.shape) :
    ∃ out out', a.run Y x = .ok out ∧ a.runRounded R Y x = .ok out' ∧
      ∀ i l k v v' q, At3 out i l k v → At3 out' i l k v' → a.powers[k]? = some q → 1 ≤ q →
        |v' ^ (1 / q) - v ^ (1 / q)| ≤ ((a.shape.1 * a.shape.2.1 * a.shape.2.2 : ℕ) : ℝ) ^ max (1 / q - 1 / 2) 0 *
          (((1 + η) * (1 + δ) ^ opCount3 a i l - 1) * Spec.vnorm x) := by
  refine ⟨_, _, run3_eq a Y hp hx, runRounded3_eq a hR.toShapes Y hp hx, fun i l k v v' q hv hv' hk hq => ?_⟩
  obtain ⟨p, q1, h1, hl, h2, rfl⟩ := at3_of_run hp hx (run3_eq a Y hp hx) hv
  obtain ⟨p', q2, h3, -, h4, rfl⟩ := at3_of_runRounded hR.toShapes hp hx (runRounded3_eq a hR.toShapes Y hp hx) hv'
  obtain rfl := Option.some.inj (h1.symm.trans h3)
  obtain rfl := Option.some.inj (hk.symm.trans h2)
  obtain rfl := Option.some.inj (hk.symm.trans h4)
  have hne := paths3_ne_nil (List.mem_of_getElem? h1)
  obtain ⟨U, hU, hi, hd⟩ := coefficient_err a hs hY R hδ hR hx h1 hl q
  set W := Spec.cascade3 a.shape (fun j => used a.rot (a.fam Y l j)) p x.vx with hW
  have hW0 : ∀ u, 0 ≤ W u := cascade3_nonneg _ _ p hne _
  set B : ℝ := ((a.shape.1 * a.shape.2.1 * a.shape.2.2 : ℕ) : ℝ) ^ max (1 / q - 1 / 2) 0 with hB
  have hB0 : 0 ≤ B := Real.rpow_nonneg (Nat.cast_nonneg _) _
  have hq0 : 0 < q := by linarith
  have r1 := rpow_rel (r := 1 / q) (t := Spec.integral3 a.shape U q) (sum_nonneg fun u _ => Real.rpow_nonneg (hU u) q) hη hη1 (by positivity)
    (by rw [div_le_one hq0]; exact hq) hi
  have r2 := (integral3_root a.shape U W hU hW0 hq).trans (mul_le_mul_of_nonneg_left hd hB0)
  have r3 := (integral3_root a.shape W (fun _ => 0) hW0 (fun _ => le_rfl) hq).trans
    (mul_le_mul_of_nonneg_left (dist_cascade_zero a hs (fun h0 => hY l (by omega) hl) p hx) hB0)
  have z : Spec.integral3 a.shape (fun _ => 0) q ^ (1 / q) = 0 := by
    unfold Spec.integral3
    simp [Real.zero_rpow hq0.ne', hq0.ne']
  rw [z, sub_zero] at r3
  set t := Spec.integral3 a.shape U q ^ (1 / q)
  set w := Spec.integral3 a.shape W q ^ (1 / q)
  set n := Spec.vnorm x
  set e := (1 + δ) ^ opCount3 a i l
  have ht : t ≤ B * n + B * ((e - 1) * n) := by
    have a1 := le_abs_self (t - w)
    have a2 := le_abs_self w
    linarith
  have h5 := mul_le_mul_of_nonneg_left ht hη
  have h6 := abs_sub_le (R.integral q (Core3D.along (R.wave a.rot) (a.fam Y l) p x) ^ (1 / q)) t w
  calc _ ≤ η * (B * n + B * ((e - 1) * n)) + B * ((e - 1) * n) := by linarith
    _ = _ := by ring

/-- **C124 (powers at most one).**  A computed coefficient of power `0 < q ≤ 1` differs from the exact one by at most
`η + (1 + η) ((1 + δ)^n - 1)^q` times the `q`-th power of the Euclidean norm of the volume, times `(M N O)^(1 - q/2)`. -/
theorem C124_holder (a : Args3D) {Y : ℤ → ℕ → ℝ → ℝ → ℂ} (hs : 0 < a.sigma0)
    (hY : ∀ l, 1 ≤ l → l ≤ a.L → Spec.SumSqLe Y l) (hp : a.powers ≠ []) (R : Rounded3) {δ η : ℝ} (hδ : 0 ≤ δ) (hη : 0 ≤ η)
    (hR : R.Accurate a.shape δ η) {x : Vol ℝ} (hx : x.shape = a.shape) :
    ∃ out out', a.run Y x = .ok out ∧ a.runRounded R Y x = .ok out' ∧
      ∀ i l k v v' q, At3 out i l k v → At3 out' i l k v' → a.powers[k]? = some q → 0 < q → q ≤ 1 →
        |v' - v| ≤ ((a.shape.1 * a.shape.2.1 * a.shape.2.2 : ℕ) : ℝ) ^ (1 - q / 2) *
          ((η + (1 + η) * ((1 + δ) ^ opCount3 a i l - 1) ^ q) * Spec.vnorm x ^ q) := by
  refine ⟨_, _, run3_eq a Y hp hx, runRounded3_eq a hR.toShapes Y hp hx, fun i l k v v' q hv hv' hk hq hq1 => ?_⟩
  obtain ⟨p, q1, h1, hl, h2, rfl⟩ := at3_of_run hp hx (run3_eq a Y hp hx) hv
  obtain ⟨p', q2, h3, -, h4, rfl⟩ := at3_of_runRounded hR.toShapes hp hx (runRounded3_eq a hR.toShapes Y hp hx) hv'
  obtain rfl := Option.some.inj (h1.symm.trans h3)
  obtain rfl := Option.some.inj (hk.symm.trans h2)
  obtain rfl := Option.some.inj (hk.symm.trans h4)
  have hne := paths3_ne_nil (List.mem_of_getElem? h1)
  obtain ⟨U, hU, hi, hd⟩ := coefficient_err a hs hY R hδ hR hx h1 hl q
  set W := Spec.cascade3 a.shape (fun j => used a.rot (a.fam Y l j)) p x.vx with hW
  have hW0 : ∀ u, 0 ≤ W u := cascade3_nonneg _ _ p hne _
  set B : ℝ := ((a.shape.1 * a.shape.2.1 * a.shape.2.2 : ℕ) : ℝ) ^ (1 - q / 2) with hB
  have hB0 : 0 ≤ B := Real.rpow_nonneg (Nat.cast_nonneg _) _
  have hn0 : 0 ≤ Spec.vnorm x := Real.sqrt_nonneg _
  have r2 := (integral3_holder a.shape U W hU hW0 hq hq1).trans
    (mul_le_mul_of_nonneg_left (Real.rpow_le_rpow (Real.sqrt_nonneg _) hd hq.le) hB0)
  rw [Real.mul_rpow (one_add_pow_sub hδ _) hn0] at r2
  have r3 := (integral3_holder a.shape W (fun _ => 0) hW0 (fun _ => le_rfl) hq hq1).trans
    (mul_le_mul_of_nonneg_left (Real.rpow_le_rpow (Real.sqrt_nonneg _)
      (dist_cascade_zero a hs (fun h0 => hY l (by omega) hl) p hx) hq.le) hB0)
  have z : Spec.integral3 a.shape (fun _ => 0) q = 0 := by
    unfold Spec.integral3
    simp [Real.zero_rpow hq.ne']
  rw [z, sub_zero] at r3
  set t := Spec.integral3 a.shape U q
  set w := Spec.integral3 a.shape W q
  set n := Spec.vnorm x ^ q
  set e := ((1 + δ) ^ opCount3 a i l - 1) ^ q
  have ht : t ≤ B * n + B * (e * n) := by
    have a1 := le_abs_self (t - w)
    have a2 := le_abs_self w
    linarith
  have h5 := mul_le_mul_of_nonneg_left ht hη
  have h6 := abs_sub_le (R.integral q (Core3D.along (R.wave a.rot) (a.fam Y l) p x)) t w
  calc _ ≤ η * (B * n + B * (e * n)) + B * (e * n) := by linarith
    _ = _ := by ring

/-! ## Operations that meet the assumption -/

/-- Every operation is computed exactly and its result rounded to double precision. -/
noncomputable def Rounded3.ofFloat (F : FloatOps) : Rounded3 where
  rfft x := (Rounded3.exact.rfft x).map (rndC F)
  ifft x := (idft3 x).map (rndC F)
  mul x f := (Rounded3.exact.mul x f).map (rndC F)
  modulus x := (Rounded3.exact.modulus x).map F.rnd
  modRot x m := (np3ModRot x m).map F.rnd
  integral q x := F.rnd (∑ i ∈ box x.shape, x.vx i ^ q)

theorem vdist_map {E : Type} [NormedAddCommGroup E] {g : E → E} {c : ℝ} (hc : 0 ≤ c)
    (hg : ∀ z, ‖z - g z‖ ≤ c * ‖z‖) (x : Vol E) : Spec.vdist x (x.map g) ≤ c * Spec.vnorm x := by
  rw [vdist_eq rfl, vnorm_eq rfl, ← l2_const_mul _ hc]
  refine l2_mono fun u hu => ?_
  rw [abs_norm, Vol.vx_map (by exact hu), abs_of_nonneg (mul_nonneg hc (norm_nonneg _))]
  exact hg _

theorem rnd_nonneg_of_rel {F : FloatOps} (hF : F.Correct) {r : ℝ} (hr : 0 ≤ r) : 0 ≤ F.rnd r := by
  have h := rnd_rel hF r
  rw [abs_of_nonneg hr] at h
  have h1 := (abs_le.1 h).2
  have h2 : (2 : ℝ) ^ (-50 : ℤ) ≤ 1 := zpow_le_one_of_nonpos₀ (by norm_num) (by norm_num)
  nlinarith

/-- Correctly rounded operations are accurate to `2^-50`, for volumes of every shape. -/
theorem ofFloat3_accurate {F : FloatOps} (hF : F.Correct) (s : Idx3) :
    (Rounded3.ofFloat F).Accurate s (2 ^ (-50 : ℤ)) (2 ^ (-50 : ℤ)) := by
  have hu : (0 : ℝ) ≤ 2 ^ (-50 : ℤ) := by positivity
  have hc := fun x => vdist_map hu (rndC_rel hF) x
  have hr := fun x => vdist_map hu (g := F.rnd) (rnd_rel hF) x
  have hrot : ∀ (x : Vol ℂ) m, (np3ModRot x m).shape = x.shape := modRot_shape
  refine { rfft := fun x h => h
           ifft := fun x h => h
           mul := fun x f h _ => h
           modulus := fun x h => h
           modRot := fun x m h => (hrot x m).trans h
           rfft_err := fun x _ => hc _
           ifft_err := fun x _ => hc _
           mul_err := fun x f _ _ => hc _
           modulus_err := fun x _ => hr _
           modRot_err := fun x m _ _ => hr _
           modulus_nonneg := fun x h u hu => ?_
           modRot_nonneg := fun x m h u hu => ?_
           integral_err := fun q x h h0 => ?_ }
  · subst h
    have e : ((Rounded3.ofFloat F).modulus x).vx u = F.rnd ‖x.vx u‖ :=
      (Vol.vx_map (x := Rounded3.exact.modulus x) (by exact hu)).trans (congrArg F.rnd (Vol.vx_map (by exact hu)))
    rw [e]
    exact rnd_nonneg_of_rel hF (norm_nonneg _)
  · subst h
    have e : ((Rounded3.ofFloat F).modRot x m).vx u = F.rnd ((np3ModRot x m).vx u) :=
      Vol.vx_map (x := np3ModRot x m) (by rw [hrot]; exact hu)
    rw [e, modRot_vx x m hu]
    exact rnd_nonneg_of_rel hF (Real.sqrt_nonneg _)
  · subst h
    have h1 := rnd_rel hF (∑ u ∈ Spec.cells x.shape, x.vx u ^ q)
    rw [abs_of_nonneg (sum_nonneg fun u hu => Real.rpow_nonneg (h0 u hu) q), abs_sub_comm] at h1
    exact h1

/-- The hypotheses are met by `HarmonicScattering3D(J=1, shape=(4, 2, 6), L=1)` with powers 1 and 2 and correctly rounded
double-precision operations; the coefficient of row 2 (second order), angular order 1 and power 2 exists and is computed
with 12 rounded operations before its integral. -/
example (x : Vol ℝ) (hx : x.shape = (4, 2, 6)) : ∃ F : FloatOps, F.Correct ∧ ∃ out out',
    ex3.run exHarm x = .ok out ∧ ex3.runRounded (Rounded3.ofFloat F) exHarm x = .ok out' ∧ ∃ v v',
      At3 out 2 1 1 v ∧ At3 out' 2 1 1 v' ∧ |v' ^ (1 / 2 : ℝ) - v ^ (1 / 2 : ℝ)| ≤
        ((1 + 2 ^ (-50 : ℤ)) ^ 13 - 1) * Spec.vnorm x := by
  obtain ⟨F, hF⟩ := exists_correct
  have hp : ex3.powers ≠ [] := by simp [ex3]
  have hx' : x.shape = ex3.shape := hx
  have hA := ofFloat3_accurate hF ex3.shape
  obtain ⟨out, out', h, h', hall⟩ := C124_root ex3 (by norm_num [ex3]) (fun l h1 h2 => by
    have : l = 1 := by simp only [ex3] at h2; omega
    subst this; exact exHarm_sumSq) hp (Rounded3.ofFloat F) (by positivity) (by positivity)
    (zpow_le_one_of_nonpos₀ (by norm_num) (by norm_num)) hA hx'
  refine ⟨F, hF, out, out', h, h', ?_⟩
  have e1 := run3_eq ex3 exHarm hp hx'
  have e2 := runRounded3_eq ex3 hA.toShapes exHarm hp hx'
  rw [h] at e1
  rw [h'] at e2
  have hpath : (Spec.paths3 ex3.J (ex3.maxOrder = 2))[2]? = some [0, 1] := by
    simp [ex3, Spec.paths3, List.range_succ]
  have hv : ∃ v, At3 out 2 1 1 v := by
    rw [Except.ok.inj e1]
    refine ⟨_, _, _, by rw [List.getElem?_map, hpath]; rfl, by rw [List.getElem?_map]; rfl, by rw [List.getElem?_map]; rfl⟩
  have hv' : ∃ v, At3 out' 2 1 1 v := by
    rw [Except.ok.inj e2]
    refine ⟨_, _, _, by rw [List.getElem?_map, hpath]; rfl, by rw [List.getElem?_map]; rfl, by rw [List.getElem?_map]; rfl⟩
  obtain ⟨v, hv⟩ := hv
  obtain ⟨v', hv'⟩ := hv'
  refine ⟨v, v', hv, hv', (hall 2 1 1 v v' 2 hv hv' (by simp [ex3]) (by norm_num)).trans (le_of_eq ?_)⟩
  have e3 : max ((1 : ℝ) / 2 - 1 / 2) 0 = 0 := by norm_num
  have e4 : opCount3 ex3 2 1 = 12 := by simp [opCount3, ex3]
  rw [e3, e4, Real.rpow_zero, one_mul]
  ring

example (F : FloatOps) : (Rounded3.ofFloat F).Shapes ex3.shape where
  rfft _ h := h
  ifft _ h := h
  mul _ _ h _ := h
  modulus _ h := h
  modRot x m h := (modRot_shape x m).trans h

end Verif
