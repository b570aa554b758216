import Verif.Props.RoundedJTFS

/-!
# Errors of one rounded operation of joint time-frequency scattering
-/

namespace Verif

open Finset

/-- What is assumed of the rounded operations: results have the right shape and, for arrays whose last axis has at most
`N` samples, a relative error of at most `δ` in Euclidean norm, as in `Rounded.Accurate`.  The sum of a row may be off by
`δ` times the sum of the absolute values of that row. -/
structure RoundedJ.Accurate (R : RoundedJ) (N : ℕ) (δ : ℝ) : Prop extends R.Shapes where
  sigs : R.sig.Accurate N δ
  rfft_err : ∀ x : Img ℝ, x.w ≤ N → Spec.idist (RoundedJ.exact.rfft x) (R.rfft x) ≤ δ * Spec.inorm (RoundedJ.exact.rfft x)
  cfft_err : ∀ x : Img ℂ, x.w ≤ N → Spec.idist (rowDft x) (R.cfft x) ≤ δ * Spec.inorm (rowDft x)
  ifft_err : ∀ x : Img ℂ, x.w ≤ N → Spec.idist (rowIdft x) (R.ifft x) ≤ δ * Spec.inorm (rowIdft x)
  irfft_err : ∀ x : Img ℂ, x.w ≤ N → Spec.idist (RoundedJ.exact.irfft x) (R.irfft x) ≤ δ * Spec.inorm (rowIdft x)
  modulus_err : ∀ x : Img ℂ, x.w ≤ N →
    Spec.idist (RoundedJ.exact.modulus x) (R.modulus x) ≤ δ * Spec.inorm (RoundedJ.exact.modulus x)
  mul_err : ∀ (x : Img ℂ) (f : List ℝ), x.w ≤ N → x.w = f.length →
    ∀ C : ℝ, 0 ≤ C → (∀ m < f.length, |f.getD m 0| ≤ C) →
      Spec.idist (RoundedJ.exact.mul x f) (R.mul x f) ≤ δ * (C * Spec.inorm x)
  mean_err : ∀ (x : Img ℂ) (k : ℕ), x.w ≤ N → 0 < k → k * (x.w / k) = x.w →
    Spec.idist (RoundedJ.exact.mean x k) (R.mean x k) ≤ δ * (Spec.inorm x / Real.sqrt k)
  sum_err : ∀ x : Img ℝ, x.w ≤ N → ∀ i < x.h,
    |(rowAverage x).px i 0 - (R.sum x).px i 0| ≤ δ * ∑ j ∈ range x.w, |x.px i j|

/-- A spectrum of at most `W` samples and the computed one. -/
def SpecL (δ : ℝ) (W k : ℕ) (M : ℝ) (X X' : List ℂ) : Prop :=
  0 ≤ M ∧ X.length ≤ W ∧ Near δ k (Real.sqrt X.length * M) X X'

/-- A signal of at most `W` samples and the computed one. -/
def SigL {E : Type} [NormedAddCommGroup E] (δ : ℝ) (W k : ℕ) (M : ℝ) (x x' : List E) : Prop :=
  x.length ≤ W ∧ Near δ k M x x'

/-- A stack of at most `H` spectra and the computed one. -/
def SpecS (δ : ℝ) (H W k : ℕ) (M : ℝ) (X X' : Img ℂ) : Prop :=
  0 ≤ M ∧ X.h ≤ H ∧ X.w ≤ W ∧ Near2 δ k (Real.sqrt X.w * M) X X'

/-- A stack of at most `H` signals and the computed one. -/
def SigS {E : Type} [NormedAddCommGroup E] (δ : ℝ) (H W k : ℕ) (M : ℝ) (x x' : Img E) : Prop :=
  x.h ≤ H ∧ x.w ≤ W ∧ Near2 δ k M x x'

/-- Level `l` of a filter is bounded by `2^l`. -/
def Dyadic (L : List (List ℝ)) : Prop :=
  ∀ (l : ℕ) (y : List ℝ), L[l]? = some y → ∀ m < y.length, |y.getD m 0| ≤ (2 : ℝ) ^ l

theorem sim_level {L : List (List ℝ)} (h : Dyadic L) (l : ℕ) :
    Sim (fun f g => f = g ∧ ∀ m < f.length, |f.getD m 0| ≤ (2 : ℝ) ^ l) (listGet L l) (listGet L l) :=
  fun f hf => ⟨f, hf, rfl, h l f (listGet_eq_ok.1 hf)⟩

section

variable {R : RoundedJ} {N : ℕ} {δ : ℝ} (hδ : 0 ≤ δ) (hR : R.Accurate N δ) {H W k : ℕ} (hW : W ≤ N) {M : ℝ}

theorem SpecL.le {X X' : List ℂ} (hδ : 0 ≤ δ) (h : SpecL δ W k M X X') {M' : ℝ} (hM : M ≤ M') : SpecL δ W k M' X X' :=
  ⟨h.1.trans hM, h.2.1, h.2.2.mono hδ (mul_le_mul_of_nonneg_left hM (Real.sqrt_nonneg _))⟩

theorem SpecS.le {X X' : Img ℂ} (hδ : 0 ≤ δ) (h : SpecS δ H W k M X X') {M' : ℝ} (hM : M ≤ M') : SpecS δ H W k M' X X' :=
  ⟨h.1.trans hM, h.2.1, h.2.2.1, h.2.2.2.mono hδ le_rfl (mul_le_mul_of_nonneg_left hM (Real.sqrt_nonneg _))⟩

include hδ hR hW

/-! ## Signals -/

theorem specL_rfft {x x' : List ℝ} (h : SigL δ W k M x x') : SpecL δ W (k + 1) M (npRfft x) (R.sig.rfft x') := by
  have := near_rfft hR.sigs hδ h.2 (h.1.trans hW)
  refine ⟨h.2.nonneg, by simpa using h.1, ?_⟩
  rw [length_npRfft]
  exact this

theorem specL_mul {X X' : List ℂ} {f : List ℝ} {C : ℝ} (hC0 : 0 ≤ C) (hf : X.length = f.length)
    (hC : ∀ m < f.length, |f.getD m 0| ≤ C) (h : SpecL δ W k M X X') :
    SpecL δ W (k + 1) (C * M) (Rounded.exact.mul X f) (R.sig.mul X' f) := by
  obtain ⟨hM, hl, h⟩ := h
  have hl' := h.len
  have g1 := hR.sigs.mul X' f (by omega)
  have g2 := hR.sigs.mul_err X' f (by omega) (by omega) C hC0 hC
  have a := h.additive hδ hC0 (fun z => Rounded.exact.mul z f) (w := R.sig.mul X' f)
    (by rw [length_exact_mul (by omega), length_exact_mul hf]; omega) (mul_subL h.len hf)
    (fun z hz => anorm_mul (by omega) hC0 hC) (by rw [g1, length_exact_mul (by omega)]) g2
  refine ⟨mul_nonneg hC0 hM, by rw [length_exact_mul hf]; exact hl, a.mono hδ (le_of_eq ?_)⟩
  rw [length_exact_mul hf]
  ring

theorem specL_mean {X X' : List ℂ} {q : ℕ} (hq : 0 < q) (hd : q * (X.length / q) = X.length) (h : SpecL δ W k M X X') :
    SpecL δ W (k + 1) M (Rounded.exact.mean X q) (R.sig.mean X' q) := by
  obtain ⟨hM, hl, h⟩ := h
  have hl' := h.len
  have hd' : q * (X'.length / q) = X'.length := by rw [hl']; exact hd
  have hq' : (0 : ℝ) < q := by exact_mod_cast hq
  have g1 := hR.sigs.mean X' q hq hd'
  have g2 := hR.sigs.mean_err X' q (by omega) hq hd'
  have a := h.additive hδ (g := 1 / Real.sqrt q) (by positivity) (fun z => Rounded.exact.mean z q)
    (w := R.sig.mean X' q) (by rw [length_exact_mean, length_exact_mean, hl']) (mean_subL h.len _)
    (fun z hz => anorm_mean hq (by rw [hz]; exact hd)) (by rw [g1, length_exact_mean]) (g2.trans (le_of_eq (by ring)))
  refine ⟨hM, by rw [length_exact_mean]; exact (Nat.div_le_self _ _).trans hl, a.mono hδ (le_of_eq ?_)⟩
  rw [length_exact_mean]
  have hx : (X.length : ℝ) = q * (X.length / q : ℕ) := by exact_mod_cast hd.symm
  rw [hx, Real.sqrt_mul hq'.le]
  have : Real.sqrt (q : ℝ) ≠ 0 := by positivity
  field_simp

theorem sigL_ifft {X X' : List ℂ} (h : SpecL δ W k M X X') : SigL δ W (k + 1) M (idft X) (R.sig.ifft X') := by
  obtain ⟨hM, hl, h⟩ := h
  have hl' := h.len
  have hil : ∀ z : List ℂ, (idft z).length = z.length := fun z => by simp [idft]
  have g1 := hR.sigs.ifft X'
  have g2 := hR.sigs.ifft_err X' (by omega)
  have b := h.additive hδ (g := 1 / Real.sqrt X.length) (by positivity) idft (w := R.sig.ifft X')
    (by rw [hil, hil, hl']) (idft_subL hl') (fun z hz => by rw [← hz]; exact anorm_idft z) (by rw [g1, hil])
    (g2.trans (mul_le_mul_of_nonneg_left (by rw [← hl']; exact anorm_idft X') hδ))
  exact ⟨by rw [hil]; exact hl, b.mono hδ (sqrt_cancel hM)⟩

theorem sigL_irfft {X X' : List ℂ} (h : SpecL δ W k M X X') : SigL δ W (k + 1) M (npIrfft X) (R.sig.irfft X') := by
  obtain ⟨hM, hl, h⟩ := h
  have hl' := h.len
  have hil : ∀ z : List ℂ, (npIrfft z).length = z.length := fun z => by simp [npIrfft, idft]
  have g1 := hR.sigs.irfft X'
  have g2 := hR.sigs.irfft_err X' (by omega)
  have b := h.additive hδ (g := 1 / Real.sqrt X.length) (by positivity) npIrfft (w := R.sig.irfft X')
    (by rw [hil, hil, hl']) (irfft_subL hl') (fun z hz => by rw [← hz]; exact anorm_irfft z) (by rw [g1, hil])
    (g2.trans (mul_le_mul_of_nonneg_left (by rw [← hl']; exact anorm_idft X') hδ))
  exact ⟨by rw [hil]; exact hl, b.mono hδ (sqrt_cancel hM)⟩

theorem sigL_modulus {x x' : List ℂ} (h : SigL δ W k M x x') : SigL δ W (k + 1) M (npModulus x) (R.sig.modulus x') := by
  obtain ⟨hl, h⟩ := h
  have hl' := h.len
  have hml : ∀ z : List ℂ, (npModulus z).length = z.length := fun z => by simp [npModulus]
  have g1 := hR.sigs.modulus x'
  have g2 := hR.sigs.modulus_err x' (by omega)
  have c := h.step hδ (g := 1) zero_le_one (y := npModulus x) (z := npModulus x') (w := R.sig.modulus x')
    (by rw [anorm_modulus, one_mul]) (by rw [hml, hml]; exact hl') (by rw [one_mul]; exact adist_modulus hl')
    (by rw [g1, hml]) (by rw [one_mul, ← anorm_modulus]; exact g2)
  rw [one_mul] at c
  exact ⟨by rw [hml]; exact hl, c⟩

theorem sim_mulL {X X' : List ℂ} {f : List ℝ} {C : ℝ} (hC0 : 0 ≤ C) (hC : ∀ m < f.length, |f.getD m 0| ≤ C)
    (h : SpecL δ W k M X X') :
    Sim (SpecL δ W (k + 1) (C * M)) (RoundedJ.exact.backend.cdgmm X f) (R.backend.cdgmm X' f) := by
  intro b hb
  change (if X.length ≠ f.length then Except.error PyErr.runtime else .ok (Rounded.exact.mul X f)) = Except.ok b at hb
  split at hb
  · cases hb
  · rename_i hl
    have hl := not_not.1 hl
    injection hb with hb
    subst hb
    exact ⟨R.sig.mul X' f, if_neg (not_not.2 (h.2.2.len.trans hl)), specL_mul hδ hR hW hC0 hl hC h⟩

theorem sim_meanL {X X' : List ℂ} (e : ℤ) (h : SpecL δ W k M X X') :
    Sim (fun Y Y' => SpecL δ W (k + 1) M Y Y' ∧ 0 ≤ e) (RoundedJ.exact.backend.subsample X e)
      (R.backend.subsample X' e) := by
  intro b hb
  change (if e < 0 then Except.error PyErr.type else if 2 ^ e.toNat = 0 then .error .zeroDiv
      else if 2 ^ e.toNat * (X.length / 2 ^ e.toNat) ≠ X.length then .error .value
      else .ok (Rounded.exact.mean X (2 ^ e.toNat))) = Except.ok b at hb
  split at hb
  · cases hb
  split at hb
  · cases hb
  split at hb
  · cases hb
  rename_i h0 h1 hd
  have hd := not_not.1 hd
  injection hb with hb
  subst hb
  refine ⟨R.sig.mean X' (2 ^ e.toNat), (if_neg h0).trans ((if_neg h1).trans (if_neg ?_)),
    specL_mean hδ hR hW (by positivity) hd h, by omega⟩
  rw [h.2.2.len]
  exact not_not.2 hd

/-- The sum of the samples. -/
theorem sigL_sum {x x' : List ℝ} (h : SigL δ W k M x x') :
    SigL δ 1 (k + 1) (Real.sqrt W * M) [x.sum] [R.sig.sum x'] := by
  obtain ⟨hl, h⟩ := h
  have hl' := h.len
  have h1 := hR.sigs.sum_err x' (by omega)
  have an : ∀ v : ℝ, Spec.anorm [v] = |v| := fun v => by
    unfold Spec.anorm Spec.l2
    simp [Real.sqrt_sq_eq_abs]
  have ad : ∀ v w : ℝ, Spec.adist [v] [w] = |v - w| := fun v w => by
    unfold Spec.adist Spec.l2
    simp [Real.sqrt_sq_eq_abs]
  have hxx : ∀ y : List ℝ, |y.sum| ≤ (y.map fun v => |v|).sum := fun y => by
    induction y with
    | nil => simp
    | cons a l ih =>
      simp only [List.sum_cons, List.map_cons]
      exact (abs_add_le _ _).trans (by linarith)
  have hs : Real.sqrt x.length * M ≤ Real.sqrt W * M :=
    mul_le_mul_of_nonneg_right (Real.sqrt_le_sqrt (by exact_mod_cast hl)) h.nonneg
  have key : Near δ (k + 1) (Real.sqrt x.length * M) [x.sum] [R.sig.sum x'] := by
    refine h.step hδ (Real.sqrt_nonneg _) (z := [x'.sum]) ?_ rfl ?_ rfl ?_
    · rw [an]; exact (hxx x).trans (abs_sum_le_anorm x)
    · rw [ad]; exact abs_sum_sub_le hl'
    · rw [ad]
      refine h1.trans (mul_le_mul_of_nonneg_left ?_ hδ)
      rw [← hl']
      exact abs_sum_le_anorm x'
  exact ⟨le_rfl, key.mono hδ hs⟩

/-! ## Stacks -/

theorem specS_rfft {x x' : Img ℝ} (h : SigS δ H W k M x x') :
    SpecS δ H W (k + 1) M (RoundedJ.exact.rfft x) (R.rfft x') := by
  obtain ⟨hH, hw, h⟩ := h
  refine ⟨h.err.nonneg, hH, hw, ?_⟩
  obtain ⟨s1, s2⟩ := hR.rfft x'
  refine Near2.additive hδ (Real.sqrt_nonneg _) RoundedJ.exact.rfft h h.h h.w rfl rfl
    (fun i hi l hl => rfftJ_sub h.h h.w hi hl) (fun z h1 h2 => ?_) s1 s2 ?_
  · change Spec.inorm (RoundedJ.exact.rfft z) ≤ Real.sqrt x.w * Spec.inorm z
    rw [← h2]; exact inorm_rfftJ z
  · refine (hR.rfft_err x' (by rw [h.w]; omega)).trans (mul_le_mul_of_nonneg_left ?_ hδ)
    change Spec.inorm (RoundedJ.exact.rfft x') ≤ Real.sqrt x.w * Spec.inorm x'
    rw [← h.w]
    exact inorm_rfftJ x'

theorem specS_cfft {x x' : Img ℂ} (h : SigS δ H W k M x x') :
    SpecS δ H W (k + 1) M (rowDft x) (R.cfft x') := by
  obtain ⟨hH, hw, h⟩ := h
  refine ⟨h.err.nonneg, hH, hw, ?_⟩
  obtain ⟨s1, s2⟩ := hR.cfft x'
  refine Near2.additive hδ (Real.sqrt_nonneg _) rowDft h h.h h.w rfl rfl
    (fun i hi l hl => rowDft_sub h.h h.w hi hl) (fun z h1 h2 => ?_) s1 s2 ?_
  · change Spec.inorm (rowDft z) ≤ Real.sqrt x.w * Spec.inorm z
    rw [← h2]; exact inorm_rowDft z
  · refine (hR.cfft_err x' (by rw [h.w]; omega)).trans (mul_le_mul_of_nonneg_left ?_ hδ)
    change Spec.inorm (rowDft x') ≤ Real.sqrt x.w * Spec.inorm x'
    rw [← h.w]
    exact inorm_rowDft x'

theorem specS_mul {X X' : Img ℂ} {f : List ℝ} {C : ℝ} (hC0 : 0 ≤ C) (hf : X.w = f.length)
    (hC : ∀ m < f.length, |f.getD m 0| ≤ C) (h : SpecS δ H W k M X X') :
    SpecS δ H W (k + 1) (C * M) (RoundedJ.exact.mul X f) (R.mul X' f) := by
  obtain ⟨hM, hH, hw, h⟩ := h
  refine ⟨mul_nonneg hC0 hM, hH, hw, ?_⟩
  have hf' : X'.w = f.length := by rw [h.w]; exact hf
  obtain ⟨s1, s2⟩ := hR.mul X' f hf'
  have := Near2.additive hδ hC0 (fun z => RoundedJ.exact.mul z f) h h.h h.w rfl rfl
    (fun i hi l hl => mulJ_sub h.h h.w hi hl f)
    (fun z h1 h2 => inorm_mulJ hC0 (by rw [h2, hf]; exact hC)) s1 s2
    (hR.mul_err X' f (by rw [h.w]; omega) hf' C hC0 hC)
  refine this.mono hδ le_rfl (le_of_eq ?_)
  change C * (Real.sqrt X.w * M) = Real.sqrt X.w * (C * M)
  ring

theorem specS_mean {X X' : Img ℂ} {q : ℕ} (hq : 0 < q) (dw : q * (X.w / q) = X.w) (h : SpecS δ H W k M X X') :
    SpecS δ H W (k + 1) M (RoundedJ.exact.mean X q) (R.mean X' q) := by
  obtain ⟨hM, hH, hw, h⟩ := h
  have hq' : (0 : ℝ) < q := by exact_mod_cast hq
  refine ⟨hM, hH, (Nat.div_le_self _ _).trans hw, ?_⟩
  have dw' : q * (X'.w / q) = X'.w := by rw [h.w]; exact dw
  obtain ⟨s1, s2⟩ := hR.mean X' q hq dw'
  have := Near2.additive hδ (g := 1 / Real.sqrt q) (by positivity) (fun z => RoundedJ.exact.mean z q) h
    h.h (congrArg (· / q) h.w) rfl rfl
    (fun i hi l hl => meanJ_sub h.h h.w dw hi hl)
    (fun z h1 h2 => inorm_meanJ hq (by rw [h2]; exact dw)) s1 s2
    ((hR.mean_err X' q (by rw [h.w]; omega) hq dw').trans
      (mul_le_mul_of_nonneg_left (le_of_eq (by ring)) hδ))
  refine this.mono hδ le_rfl (le_of_eq ?_)
  change 1 / Real.sqrt q * (Real.sqrt X.w * M) = Real.sqrt ((X.w / q : ℕ) : ℝ) * M
  have e : (X.w : ℝ) = q * ((X.w / q : ℕ) : ℝ) := by exact_mod_cast dw.symm
  rw [e, Real.sqrt_mul hq'.le]
  have : Real.sqrt (q : ℝ) ≠ 0 := by positivity
  field_simp

theorem sigS_ifft {X X' : Img ℂ} (h : SpecS δ H W k M X X') : SigS δ H W (k + 1) M (rowIdft X) (R.ifft X') := by
  obtain ⟨hM, hH, hw, h⟩ := h
  refine ⟨hH, hw, ?_⟩
  obtain ⟨s1, s2⟩ := hR.ifft X'
  have := Near2.additive hδ (g := 1 / Real.sqrt X.w) (by positivity) rowIdft h h.h h.w rfl rfl
    (fun i hi l hl => rowIdft_sub h.h h.w hi hl)
    (fun z h1 h2 => by rw [← h2]; exact inorm_rowIdft z) s1 s2
    ((hR.ifft_err X' (by rw [h.w]; omega)).trans (mul_le_mul_of_nonneg_left
      (by rw [← h.w]; exact inorm_rowIdft X') hδ))
  exact this.mono hδ le_rfl (sqrt_cancel hM)

theorem sigS_irfft {X X' : Img ℂ} (h : SpecS δ H W k M X X') :
    SigS δ H W (k + 1) M (RoundedJ.exact.irfft X) (R.irfft X') := by
  obtain ⟨hM, hH, hw, h⟩ := h
  refine ⟨hH, hw, ?_⟩
  obtain ⟨s1, s2⟩ := hR.irfft X'
  have := Near2.additive hδ (g := 1 / Real.sqrt X.w) (by positivity) RoundedJ.exact.irfft h h.h h.w rfl rfl
    (fun i hi l hl => irfftJ_sub h.h h.w hi hl)
    (fun z h1 h2 => by rw [← h2]; exact inorm_irfftJ z) s1 s2
    ((hR.irfft_err X' (by rw [h.w]; omega)).trans (mul_le_mul_of_nonneg_left
      (by rw [← h.w]; exact inorm_rowIdft X') hδ))
  exact this.mono hδ le_rfl (sqrt_cancel hM)

theorem sigS_modulus {x x' : Img ℂ} (h : SigS δ H W k M x x') :
    SigS δ H W (k + 1) M (RoundedJ.exact.modulus x) (R.modulus x') := by
  obtain ⟨hH, hw, h⟩ := h
  refine ⟨hH, hw, ?_⟩
  obtain ⟨s1, s2⟩ := hR.modulus x'
  have := h.step hδ zero_le_one (y := RoundedJ.exact.modulus x) (z := RoundedJ.exact.modulus x') (w := R.modulus x')
    (by rw [one_mul, inorm_modulusJ]) h.h h.w (by rw [one_mul]; exact idist_modulusJ h.h h.w) s1 s2
    (by rw [one_mul, ← inorm_modulusJ]; exact hR.modulus_err x' (by rw [h.w]; omega))
  rwa [one_mul] at this

/-- The sums of the rows. -/
theorem sigS_sum {x x' : Img ℝ} (h : SigS δ H W k M x x') :
    SigS δ H 1 (k + 1) (Real.sqrt W * M) (rowAverage x) (R.sum x') := by
  obtain ⟨hH, hw, h⟩ := h
  obtain ⟨s1, s2⟩ := hR.sum x'
  refine ⟨hH, le_rfl, ?_⟩
  have herr : Spec.idist (rowAverage x') (R.sum x') ≤ δ * (Real.sqrt x.w * Spec.inorm x') := by
    have e : Spec.idist (rowAverage x') (R.sum x') = Spec.inorm (subI (rowAverage x') (R.sum x')) := by
      refine (norm2_ext fun i hi j hj => ?_)
      congr 1
      exact (px_subI _ _ hi hj).symm
    rw [e, ← h.w]
    refine inorm_col_le hδ rfl rfl fun i hi => ?_
    refine le_trans (le_of_eq ?_) (hR.sum_err x' (by rw [h.w]; omega) i hi)
    exact congrArg abs (px_subI (rowAverage x') (R.sum x') hi one_pos)
  have := Near2.additive hδ (Real.sqrt_nonneg x.w) rowAverage h h.h rfl rfl rfl
    (fun i hi l hl => by
      obtain rfl : l = 0 := Nat.lt_one_iff.1 hl
      exact sumJ_sub h.h h.w hi)
    (fun z h1 h2 => by rw [← h2]; exact inorm_sumJ z) s1 s2 herr
  exact this.mono hδ le_rfl
    (mul_le_mul_of_nonneg_right (Real.sqrt_le_sqrt (by exact_mod_cast hw)) h.err.nonneg)

theorem sim_mulS {X X' : Img ℂ} {f : List ℝ} {C : ℝ} (hC0 : 0 ≤ C) (hC : ∀ m < f.length, |f.getD m 0| ≤ C)
    (h : SpecS δ H W k M X X') :
    Sim (SpecS δ H W (k + 1) (C * M)) (RoundedJ.exact.backend.cdgmmS X f) (R.backend.cdgmmS X' f) := by
  intro b hb
  change (if X.w ≠ f.length then Except.error PyErr.runtime else .ok (RoundedJ.exact.mul X f)) = Except.ok b at hb
  split at hb
  · cases hb
  · rename_i hl
    have hl := not_not.1 hl
    injection hb with hb
    subst hb
    exact ⟨R.mul X' f, if_neg (not_not.2 (h.2.2.2.w.trans hl)), specS_mul hδ hR hW hC0 hl hC h⟩

theorem sim_meanS {X X' : Img ℂ} (e : ℤ) (h : SpecS δ H W k M X X') :
    Sim (fun Y Y' => SpecS δ H W (k + 1) M Y Y' ∧ 0 ≤ e) (RoundedJ.exact.backend.subsampleS X e)
      (R.backend.subsampleS X' e) := by
  intro b hb
  change (if e < 0 then Except.error PyErr.type else if 2 ^ e.toNat * (X.w / 2 ^ e.toNat) ≠ X.w
      then .error .value else .ok (RoundedJ.exact.mean X (2 ^ e.toNat))) = Except.ok b at hb
  split at hb
  · cases hb
  split at hb
  · cases hb
  rename_i h0 hd
  have hd := not_not.1 hd
  injection hb with hb
  subst hb
  refine ⟨R.mean X' (2 ^ e.toNat), (if_neg h0).trans (if_neg ?_),
    specS_mean hδ hR hW (by positivity) hd h, by omega⟩
  rw [h.2.2.2.w]
  exact not_not.2 hd

end

end Verif
