import Verif.Lemmas.Rounded2D
import Verif.Lemmas.FloatInt
import Verif.Props.Stability2D
import Verif.Props.Rounded1D

/-!
# C123: rounding errors are not amplified in two dimensions
-/

namespace Verif

open Finset Core2D

/-- The operations return images of the right shape. -/
structure Rounded2.Shapes (R : Rounded2) : Prop where
  rfft : ∀ x, (R.rfft x).h = x.h ∧ (R.rfft x).w = x.w
  ifft : ∀ x, (R.ifft x).h = x.h ∧ (R.ifft x).w = x.w
  irfft : ∀ x, (R.irfft x).h = x.h ∧ (R.irfft x).w = x.w
  modulus : ∀ x, (R.modulus x).h = x.h ∧ (R.modulus x).w = x.w
  mul : ∀ x f, x.h = f.h → x.w = f.w → (R.mul x f).h = x.h ∧ (R.mul x f).w = x.w
  mean : ∀ x k, 0 < k → k * (x.h / k) = x.h → k * (x.w / k) = x.w →
    (R.mean x k).h = x.h / k ∧ (R.mean x k).w = x.w / k

/-- What is assumed of the rounded operations: results have the right shape and, for images of at most `N` pixels, a
relative error of at most `δ` in Euclidean norm.  The product may be off by `δ` times the largest value of the filter
times the norm of the image, the mean of `k × k` blocks by `δ` times the norm of the image over `k`. -/
structure Rounded2.Accurate (R : Rounded2) (N : ℕ) (δ : ℝ) : Prop extends R.Shapes where
  rfft_err : ∀ x : Img ℝ, x.h * x.w ≤ N → Spec.idist (np2Rfft x) (R.rfft x) ≤ δ * Spec.inorm (np2Rfft x)
  ifft_err : ∀ x : Img ℂ, x.h * x.w ≤ N → Spec.idist (idft2 x) (R.ifft x) ≤ δ * Spec.inorm (idft2 x)
  irfft_err : ∀ x : Img ℂ, x.h * x.w ≤ N → Spec.idist (np2Irfft x) (R.irfft x) ≤ δ * Spec.inorm (idft2 x)
  modulus_err : ∀ x : Img ℂ, x.h * x.w ≤ N →
    Spec.idist (np2Modulus x) (R.modulus x) ≤ δ * Spec.inorm (np2Modulus x)
  mul_err : ∀ (x : Img ℂ) (f : Img ℝ), x.h * x.w ≤ N → x.h = f.h → x.w = f.w →
    ∀ C : ℝ, 0 ≤ C → (∀ m < f.h, ∀ n < f.w, |f.px m n| ≤ C) →
      Spec.idist (Rounded2.exact.mul x f) (R.mul x f) ≤ δ * (C * Spec.inorm x)
  mean_err : ∀ (x : Img ℂ) (k : ℕ), x.h * x.w ≤ N → 0 < k → k * (x.h / k) = x.h → k * (x.w / k) = x.w →
    Spec.idist (Rounded2.exact.mean x k) (R.mean x k) ≤ δ * (Spec.inorm x / k)

theorem exact2_shapes : Rounded2.exact.Shapes where
  rfft _ := ⟨rfl, rfl⟩
  ifft _ := ⟨rfl, rfl⟩
  irfft _ := ⟨rfl, rfl⟩
  modulus _ := ⟨rfl, rfl⟩
  mul _ _ _ _ := ⟨rfl, rfl⟩
  mean _ _ _ _ _ := ⟨rfl, rfl⟩

theorem runRounded2_exact (a : Args2D) (x : Img ℝ) : a.runRounded Rounded2.exact x = a.run x := rfl

/-! ## Which runs return -/

/-- Images of the same shape. -/
def roundRel2 {A B : Rounded2} (hA : A.Shapes) (hB : B.Shapes) : BackendRel A.backend B.backend where
  rR _ _ x y := Img.h y = Img.h x ∧ Img.w y = Img.w x
  rC _ _ x y := Img.h y = Img.h x ∧ Img.w y = Img.w x
  rZ _ _ x y := Img.h y = Img.h x ∧ Img.w y = Img.w x
  rF _ f g := f = g
  rfft _ _ x y h := Sim.ok (by rw [(hA.rfft x).1, (hA.rfft x).2, (hB.rfft y).1, (hB.rfft y).2]; exact h)
  ifft _ _ x y h := Sim.ok (by rw [(hA.ifft x).1, (hA.ifft x).2, (hB.ifft y).1, (hB.ifft y).2]; exact h)
  irfft _ _ x y h := Sim.ok (by rw [(hA.irfft x).1, (hA.irfft x).2, (hB.irfft y).1, (hB.irfft y).2]; exact h)
  modulus _ _ x y h := Sim.ok (by
    rw [(hA.modulus x).1, (hA.modulus x).2, (hB.modulus y).1, (hB.modulus y).2]; exact h)
  cdgmm _ _ x y f g h hfg := by
    subst hfg
    intro b hb
    change (if Img.h x ≠ Img.h f ∨ Img.w x ≠ Img.w f then Except.error PyErr.runtime else .ok (A.mul x f)) =
      Except.ok b at hb
    split at hb
    · cases hb
    · rename_i hl
      push Not at hl
      injection hb with hb
      refine ⟨B.mul y f, if_neg (by rw [h.1, h.2]; push Not; exact hl), ?_⟩
      rw [← hb]
      change (B.mul y f).h = (A.mul x f).h ∧ (B.mul y f).w = (A.mul x f).w
      obtain ⟨a1, a2⟩ := hA.mul x f hl.1 hl.2
      obtain ⟨b1, b2⟩ := hB.mul y f (h.1.trans hl.1) (h.2.trans hl.2)
      rw [a1, a2, b1, b2]
      exact h
  subsample _ _ x y e h := by
    intro b hb
    change (if 2 ^ e = 0 then Except.error PyErr.zeroDiv else if 2 ^ e * (Img.h x / 2 ^ e) ≠ Img.h x ∨
      2 ^ e * (Img.w x / 2 ^ e) ≠ Img.w x then .error .value else .ok (A.mean x (2 ^ e))) = Except.ok b at hb
    split at hb
    · cases hb
    split at hb
    · cases hb
    rename_i h0 hd
    push Not at hd
    injection hb with hb
    have hd' : 2 ^ e * (Img.h y / 2 ^ e) = Img.h y ∧ 2 ^ e * (Img.w y / 2 ^ e) = Img.w y := by
      rw [h.1, h.2]; exact hd
    refine ⟨B.mean y (2 ^ e), (if_neg h0).trans (if_neg (by push Not; exact hd')), ?_⟩
    rw [← hb]
    change (B.mean y (2 ^ e)).h = (A.mean x (2 ^ e)).h ∧ (B.mean y (2 ^ e)).w = (A.mean x (2 ^ e)).w
    obtain ⟨a1, a2⟩ := hA.mean x (2 ^ e) (by positivity) hd.1 hd.2
    obtain ⟨b1, b2⟩ := hB.mean y (2 ^ e) (by positivity) hd'.1 hd'.2
    rw [a1, a2, b1, b2, h.1, h.2]
    exact ⟨rfl, rfl⟩

/-- Outputs of the same kind with the same labels and shapes. -/
def Spec.SameShape2 : Out2D (Img ℝ) → Out2D (Img ℝ) → Prop
  | .array l, .array m => List.Forall₂ (fun x y => y.h = x.h ∧ y.w = x.w) l m
  | .list l, .list m => List.Forall₂ (fun p q => p.n = q.n ∧ p.j = q.j ∧ p.theta = q.theta ∧
      q.coef.h = p.coef.h ∧ q.coef.w = p.coef.w) l m
  | _, _ => False

theorem stack_shape {B B' : Backend1D} {ops : Ops2D B.R} {ops' : Ops2D B'.R} {l rows : List B.R} {m : List B'.R}
    (hs : List.Forall₂ (fun x y => ops'.size y = ops.size x) l m) (h : stack B ops l = .ok rows) :
    rows = l ∧ stack B' ops' m = .ok m := by
  cases hs with
  | nil => cases h
  | cons hab hlm =>
    rename_i a b l m
    unfold stack at h ⊢
    simp only at h ⊢
    split at h
    · rename_i hc
      injection h with h
      refine ⟨h.symm, if_pos ?_⟩
      rw [List.all_eq_true] at hc ⊢
      intro z hz
      obtain ⟨y, hy, e⟩ := forall₂_mem_right
        (List.Forall₂.cons hab hlm : List.Forall₂ (fun x y => ops'.size y = ops.size x) (a :: l) (b :: m)) hz
      have := hc y hy
      rw [beq_iff_eq] at this ⊢
      rw [e, hab, this]
    · cases h

theorem sim_eq {α : Type} (r : Py α) : Sim (fun x y => x = y) r r := fun x h => ⟨x, h, rfl⟩

theorem sim_rounded2 {A B : Rounded2} (hA : A.Shapes) (hB : B.Shapes) (a : Args2D) (x : Img ℝ) :
    Sim Spec.SameShape2 (a.runRounded A x) (a.runRounded B x) := by
  refine Sim.bind (sim_eq _) ?_
  rintro s _ rfl
  refine Sim.bind (sim_eq _) ?_
  rintro ⟨⟩ _ rfl
  have hr : ∀ f : Filt2 (Img ℝ), filt2 (roundRel2 hA hB) f f := fun f =>
    ⟨rfl, rfl, rfl, fun k a b ha hb => by rw [ha] at hb; injection hb⟩
  have hl : ∀ l : List (Filt2 (Img ℝ)), List.Forall₂ (filt2 (roundRel2 hA hB)) l l := fun l => by
    induction l with
    | nil => exact List.Forall₂.nil
    | cons a l ih => exact List.Forall₂.cons (hr a) ih
  have key := sim_paths (roundRel2 hA hB) (opsA := a.ops s) (opsB := a.ops s)
    (P := fun _ (r r' : Img ℝ) => r'.h = r.h ∧ r'.w = r.w) (J := a.J)
    (fun i r r' h => by
      obtain ⟨h1, h2⟩ := h
      exact ⟨congrArg (· - 2) h1, congrArg (· - 2) h2⟩)
    (phi := s.phi) (phi' := s.phi) ⟨rfl, fun k a b ha hb => by rw [ha] at hb; injection hb⟩ (hl s.psi) a.maxOrder
    (x := x) (y := x) ((sim_eq _).mono (by rintro u _ rfl; exact ⟨rfl, rfl⟩))
  unfold scattering2d
  refine Sim.bind key ?_
  intro l m hlm
  by_cases ha : a.outType = .array
  · simp only [ha, decide_true, if_true]
    intro out hout
    obtain ⟨rows, hrows, hout⟩ := bind_eq_ok.1 hout
    injection hout with hout
    subst hout
    have hF : List.Forall₂ (fun x y : Img ℝ => y.h = x.h ∧ y.w = x.w) (l.map fun p => p.coef) (m.map fun p => p.coef) :=
      List.forall₂_map_left_iff.2 (List.forall₂_map_right_iff.2 (hlm.imp fun p q h => h.2.2.2))
    obtain ⟨e1, e2⟩ := stack_shape (B := A.backend) (B' := B.backend) (ops := a.ops s) (ops' := a.ops s)
      (hF.imp fun x y h => Prod.ext h.1 h.2) hrows
    refine ⟨.array (m.map fun p => p.coef), bind_eq_ok.2 ⟨_, e2, rfl⟩, ?_⟩
    rw [e1]
    exact hF
  · simp only [ha, decide_false, Bool.false_eq_true, if_false]
    exact Sim.ok (hlm.imp fun p q h => ⟨h.2.1, h.1, h.2.2.1, h.2.2.2⟩)

/-- **C123.**  The call with rounded operations returns exactly when the exact call returns, and then with the same
labels and shapes. -/
theorem C123_returns (a : Args2D) (R : Rounded2) (hR : R.Shapes) (x : Img ℝ) :
    (∀ out, a.run x = .ok out → ∃ out', a.runRounded R x = .ok out' ∧ Spec.SameShape2 out out') ∧
    (∀ out', a.runRounded R x = .ok out' → ∃ out, a.run x = .ok out ∧ Spec.SameShape2 out out') := by
  have h1 := sim_rounded2 exact2_shapes hR a x
  refine ⟨fun out h => h1 out h, fun out' h => ?_⟩
  obtain ⟨out, ho, -⟩ := sim_rounded2 hR exact2_shapes a x out' h
  obtain ⟨out'', ho'', hs⟩ := h1 out ho
  rw [h] at ho''
  injection ho'' with ho''
  subst ho''
  exact ⟨out, ho, hs⟩

/-! ## Errors of one operation -/

/-- A spectrum and the computed one: the bound is that of the signals times the square root of the number of pixels. -/
def SpecNear (δ : ℝ) (N k : ℕ) (M : ℝ) (X X' : Img ℂ) : Prop :=
  0 ≤ M ∧ X.h * X.w ≤ N ∧ Near2 δ k (Real.sqrt (X.h * X.w) * M) X X'

/-- A signal and the computed one. -/
def SigNear {E : Type} [NormedAddCommGroup E] (δ : ℝ) (N k : ℕ) (M : ℝ) (x x' : Img E) : Prop :=
  x.h * x.w ≤ N ∧ Near2 δ k M x x'

section

variable {R : Rounded2} {N : ℕ} {δ : ℝ} (hδ : 0 ≤ δ) (hR : R.Accurate N δ) {k : ℕ} {M : ℝ}

theorem SpecNear.mono {X X' : Img ℂ} (hδ : 0 ≤ δ) (h : SpecNear δ N k M X X') {k' : ℕ} (hk : k ≤ k') :
    SpecNear δ N k' M X X' := ⟨h.1, h.2.1, h.2.2.mono hδ hk le_rfl⟩

include hδ hR

theorem spec_rfft {x x' : Img ℝ} (h : SigNear δ N k M x x') : SpecNear δ N (k + 1) M (np2Rfft x) (R.rfft x') := by
  obtain ⟨hN, h⟩ := h
  refine ⟨h.err.nonneg, hN, ?_⟩
  obtain ⟨s1, s2⟩ := hR.rfft x'
  refine Near2.additive hδ (Real.sqrt_nonneg _) np2Rfft h h.h h.w rfl rfl (fun i hi l hl => rfft2_sub h.h h.w hi hl)
    (fun z h1 h2 => ?_) s1 s2 ?_
  · change Spec.inorm (np2Rfft z) ≤ Real.sqrt (x.h * x.w) * Spec.inorm z
    rw [← h1, ← h2]; exact inorm_rfft2 z
  · refine (hR.rfft_err x' (by rw [h.h, h.w]; exact hN)).trans (mul_le_mul_of_nonneg_left ?_ hδ)
    change Spec.inorm (np2Rfft x') ≤ Real.sqrt (x.h * x.w) * Spec.inorm x'
    rw [← h.h, ← h.w]
    exact inorm_rfft2 x'

theorem spec_mul {X X' : Img ℂ} {f : Img ℝ} {C : ℝ} (hC0 : 0 ≤ C) (hf : X.h = f.h ∧ X.w = f.w)
    (hC : ∀ m < f.h, ∀ n < f.w, |f.px m n| ≤ C) (h : SpecNear δ N k M X X') :
    SpecNear δ N (k + 1) (C * M) (Rounded2.exact.mul X f) (R.mul X' f) := by
  obtain ⟨hM, hN, h⟩ := h
  refine ⟨mul_nonneg hC0 hM, hN, ?_⟩
  have hf' : X'.h = f.h ∧ X'.w = f.w := by rw [h.h, h.w]; exact hf
  obtain ⟨s1, s2⟩ := hR.mul X' f hf'.1 hf'.2
  have := Near2.additive hδ hC0 (fun z => Rounded2.exact.mul z f) h h.h h.w rfl rfl
    (fun i hi l hl => mul2_sub f h.h h.w hi hl)
    (fun z h1 h2 => inorm_mul2 hC0 (by rw [h1, h2, hf.1, hf.2]; exact hC)) s1 s2
    (hR.mul_err X' f (by rw [h.h, h.w]; exact hN) hf'.1 hf'.2 C hC0 hC)
  refine this.mono hδ le_rfl (le_of_eq ?_)
  change C * (Real.sqrt (X.h * X.w) * M) = Real.sqrt (X.h * X.w) * (C * M)
  ring

theorem spec_mean {X X' : Img ℂ} {q : ℕ} (hq : 0 < q) (dh : q * (X.h / q) = X.h) (dw : q * (X.w / q) = X.w)
    (h : SpecNear δ N k M X X') : SpecNear δ N (k + 1) M (Rounded2.exact.mean X q) (R.mean X' q) := by
  obtain ⟨hM, hN, h⟩ := h
  have hq' : (0 : ℝ) < q := by exact_mod_cast hq
  refine ⟨hM, (Nat.mul_le_mul (Nat.div_le_self _ _) (Nat.div_le_self _ _)).trans hN, ?_⟩
  have dh' : q * (X'.h / q) = X'.h := by rw [h.h]; exact dh
  have dw' : q * (X'.w / q) = X'.w := by rw [h.w]; exact dw
  obtain ⟨s1, s2⟩ := hR.mean X' q hq dh' dw'
  have := Near2.additive hδ (g := 1 / q) (by positivity) (fun z => Rounded2.exact.mean z q) h
    (congrArg (· / q) h.h) (congrArg (· / q) h.w) rfl rfl
    (fun i hi l hl => mean2_sub h.h h.w dh dw hi hl)
    (fun z h1 h2 => inorm_mean2 hq (by rw [h1]; exact dh) (by rw [h2]; exact dw)) s1 s2
    ((hR.mean_err X' q (by rw [h.h, h.w]; exact hN) hq dh' dw').trans
      (mul_le_mul_of_nonneg_left (le_of_eq (by ring)) hδ))
  refine this.mono hδ le_rfl (le_of_eq ?_)
  change 1 / (q : ℝ) * (Real.sqrt (X.h * X.w) * M) = Real.sqrt (((X.h / q : ℕ) : ℝ) * ((X.w / q : ℕ) : ℝ)) * M
  have e1 : (X.h : ℝ) = q * ((X.h / q : ℕ) : ℝ) := by exact_mod_cast dh.symm
  have e2 : (X.w : ℝ) = q * ((X.w / q : ℕ) : ℝ) := by exact_mod_cast dw.symm
  have e3 : (X.h : ℝ) * X.w = (q : ℝ) ^ 2 * (((X.h / q : ℕ) : ℝ) * ((X.w / q : ℕ) : ℝ)) := by
    linear_combination (X.w : ℝ) * e1 + (q : ℝ) * ((X.h / q : ℕ) : ℝ) * e2
  rw [e3, Real.sqrt_mul (sq_nonneg _), Real.sqrt_sq hq'.le]
  field_simp

omit hδ hR in
theorem sqrt_cancel2 {h w : ℕ} {A : ℝ} (hA : 0 ≤ A) :
    1 / Real.sqrt (h * w) * (Real.sqrt (h * w) * A) ≤ A := by
  rcases eq_or_ne (Real.sqrt (h * w : ℝ)) 0 with h0 | h0
  · rw [h0]; simpa using hA
  · rw [← mul_assoc, one_div, inv_mul_cancel₀ h0, one_mul]

theorem sig_ifft {X X' : Img ℂ} (h : SpecNear δ N k M X X') : SigNear δ N (k + 1) M (idft2 X) (R.ifft X') := by
  obtain ⟨hM, hN, h⟩ := h
  refine ⟨hN, ?_⟩
  obtain ⟨s1, s2⟩ := hR.ifft X'
  have := Near2.additive hδ (g := 1 / Real.sqrt (X.h * X.w)) (by positivity) idft2 h h.h h.w rfl rfl
    (fun i hi l hl => idft2_sub h.h h.w hi hl)
    (fun z h1 h2 => by rw [← h1, ← h2]; exact inorm_idft2 z) s1 s2
    ((hR.ifft_err X' (by rw [h.h, h.w]; exact hN)).trans (mul_le_mul_of_nonneg_left
      (by rw [← h.h, ← h.w]; exact inorm_idft2 X') hδ))
  exact this.mono hδ le_rfl (sqrt_cancel2 hM)

theorem sig_irfft {X X' : Img ℂ} (h : SpecNear δ N k M X X') : SigNear δ N (k + 1) M (np2Irfft X) (R.irfft X') := by
  obtain ⟨hM, hN, h⟩ := h
  refine ⟨hN, ?_⟩
  obtain ⟨s1, s2⟩ := hR.irfft X'
  have := Near2.additive hδ (g := 1 / Real.sqrt (X.h * X.w)) (by positivity) np2Irfft h h.h h.w rfl rfl
    (fun i hi l hl => irfft2_sub h.h h.w hi hl)
    (fun z h1 h2 => by rw [← h1, ← h2]; exact inorm_irfft2 z) s1 s2
    ((hR.irfft_err X' (by rw [h.h, h.w]; exact hN)).trans (mul_le_mul_of_nonneg_left
      (by rw [← h.h, ← h.w]; exact inorm_idft2 X') hδ))
  exact this.mono hδ le_rfl (sqrt_cancel2 hM)

theorem sig_modulus {x x' : Img ℂ} (h : SigNear δ N k M x x') : SigNear δ N (k + 1) M (np2Modulus x) (R.modulus x') := by
  obtain ⟨hN, h⟩ := h
  refine ⟨hN, ?_⟩
  obtain ⟨s1, s2⟩ := hR.modulus x'
  have := h.step hδ zero_le_one (y := np2Modulus x) (z := np2Modulus x') (w := R.modulus x')
    (by rw [one_mul, inorm_modulus2]) h.h h.w (by rw [one_mul]; exact idist_modulus2 h.h h.w) s1 s2
    (by rw [one_mul, ← inorm_modulus2]; exact hR.modulus_err x' (by rw [h.h, h.w]; exact hN))
  rwa [one_mul] at this

omit hδ hR in
theorem norm2_crop (h w : ℕ) (u : ℕ → ℕ → ℝ) :
    Spec.norm2 (h - 2) (w - 2) (fun i k => u (i + 1) (k + 1)) ≤ Spec.norm2 h w u := by
  refine Real.sqrt_le_sqrt ?_
  have key : ∀ (n : ℕ) (F : ℕ → ℝ), (∀ i, 0 ≤ F i) → ∑ i ∈ range (n - 2), F (i + 1) ≤ ∑ i ∈ range n, F i := by
    intro n F hF
    have := sum_decimate_le n 1 1 (n - 2) one_pos (by omega) F hF
    simpa using this
  calc ∑ i ∈ range (h - 2), ∑ k ∈ range (w - 2), u (i + 1) (k + 1) ^ 2
      ≤ ∑ i ∈ range (h - 2), ∑ k ∈ range w, u (i + 1) k ^ 2 :=
        sum_le_sum fun i _ => key w (fun k => u (i + 1) k ^ 2) fun _ => sq_nonneg _
    _ ≤ _ := key h (fun i => ∑ k ∈ range w, u i k ^ 2) fun _ => sum_nonneg fun _ _ => sq_nonneg _

omit hR in
theorem near_unpad {x x' : Img ℝ} (h : Near2 δ k M x x') : Near2 δ k M (np2Unpad x) (np2Unpad x') := by
  refine ⟨congrArg (· - 2) h.h, congrArg (· - 2) h.w, h.err.mono hδ le_rfl le_rfl (inorm_nonneg _) ?_ ?_⟩
  · refine le_trans (le_of_eq ?_) (norm2_crop x.h x.w fun i k => ‖x.px i k‖)
    exact norm2_ext (h := x.h - 2) (w := x.w - 2) fun i hi k hk => congrArg norm (Img.px_tab hi hk)
  · refine le_trans (le_of_eq ?_) (norm2_crop x.h x.w fun i k => ‖x.px i k - x'.px i k‖)
    refine norm2_ext (h := x.h - 2) (w := x.w - 2) fun i hi k hk => ?_
    have e1 : (np2Unpad x).px i k = x.px (i + 1) (k + 1) := Img.px_tab hi hk
    have e2 : (np2Unpad x').px i k = x'.px (i + 1) (k + 1) := Img.px_tab (by rw [h.h]; exact hi) (by rw [h.w]; exact hk)
    rw [e1, e2]

/-! ## The cascade -/

/-- All values of the filter are at most `C`. -/
def Small (C : ℝ) (f : Img ℝ) : Prop := ∀ m < f.h, ∀ n < f.w, |f.px m n| ≤ C

theorem sim_mul2 {X X' : Img ℂ} {f : Img ℝ} {C : ℝ} (hC0 : 0 ≤ C) (hC : Small C f) (h : SpecNear δ N k M X X') :
    Sim (SpecNear δ N (k + 1) (C * M)) (Rounded2.exact.backend.cdgmm X f) (R.backend.cdgmm X' f) := by
  intro b hb
  change (if X.h ≠ f.h ∨ X.w ≠ f.w then Except.error PyErr.runtime else .ok (Rounded2.exact.mul X f)) = Except.ok b at hb
  split at hb
  · cases hb
  · rename_i hl
    push Not at hl
    injection hb with hb
    subst hb
    refine ⟨R.mul X' f, if_neg (by rw [h.2.2.h, h.2.2.w]; push Not; exact hl), spec_mul hδ hR hC0 hl hC h⟩

theorem sim_mean2 {X X' : Img ℂ} (e : ℕ) (h : SpecNear δ N k M X X') :
    Sim (SpecNear δ N (k + 1) M) (Rounded2.exact.backend.subsample X e) (R.backend.subsample X' e) := by
  intro b hb
  change (if 2 ^ e = 0 then Except.error PyErr.zeroDiv else if 2 ^ e * (X.h / 2 ^ e) ≠ X.h ∨
      2 ^ e * (X.w / 2 ^ e) ≠ X.w then .error .value else .ok (Rounded2.exact.mean X (2 ^ e))) = Except.ok b at hb
  split at hb
  · cases hb
  split at hb
  · cases hb
  rename_i h0 hd
  push Not at hd
  injection hb with hb
  subst hb
  refine ⟨R.mean X' (2 ^ e), (if_neg h0).trans (if_neg ?_), spec_mean hδ hR (by positivity) hd.1 hd.2 h⟩
  rw [h.2.2.h, h.2.2.w]; push Not; exact hd

theorem sim_tail {X X' : Img ℂ} (h : SpecNear δ N k M X X') :
    Sim (SpecNear δ N (k + 3) M) (do
        let U ← Rounded2.exact.backend.ifft X
        let V ← Rounded2.exact.backend.modulus U
        Rounded2.exact.backend.rfft V) (do
        let U ← R.backend.ifft X'
        let V ← R.backend.modulus U
        R.backend.rfft V) :=
  Sim.ok (spec_rfft hδ hR (sig_modulus hδ hR (sig_ifft hδ hR h)))

omit hδ hR in
theorem listGet_mem {α : Type} {l : List α} {n : ℕ} {x : α} (h : listGet l n = .ok x) : x ∈ l :=
  List.mem_of_getElem? (listGet_eq_ok.1 h)

theorem near_lowpass {ops : Ops2D (Img ℝ)} (hops : ops.unpad = np2Unpad) {J : ℕ} {phi : List (Img ℝ)} {C : ℝ}
    (hC0 : 0 ≤ C) (hphi : ∀ f ∈ phi, Small C f) {lev : ℕ} {X X' : Img ℂ} (h : SpecNear δ N k M X X') :
    Sim (Near2 δ (k + 3) (C * M)) (lowpass Rounded2.exact.backend ops J phi X lev) (lowpass R.backend ops J phi X' lev) := by
  unfold lowpass
  refine Sim.bind (R := fun f g => f = g ∧ f ∈ phi) (fun f hf => ⟨f, hf, rfl, listGet_mem hf⟩) ?_
  rintro f _ ⟨rfl, hf⟩
  refine Sim.bind (sim_mul2 hδ hR hC0 (hphi f hf) h) ?_
  intro c d hcd
  refine Sim.bind (sim_eq _) ?_
  rintro e _ rfl
  refine Sim.bind (sim_mean2 hδ hR e hcd) ?_
  intro c d hcd
  refine Sim.ok ?_
  rw [hops]
  exact near_unpad hδ (sig_irfft hδ hR hcd).2

theorem near_first {psi : Filt2 (Img ℝ)} {C : ℝ} (hC0 : 0 ≤ C) (hpsi : ∀ f ∈ psi.levels, Small C f) {X X' : Img ℂ}
    (h : SpecNear δ N k M X X') :
    Sim (SpecNear δ N (k + 5) (C * M)) (first Rounded2.exact.backend psi X) (first R.backend psi X') := by
  unfold first
  refine Sim.bind (R := fun f g => f = g ∧ f ∈ psi.levels) (fun f hf => ⟨f, hf, rfl, listGet_mem hf⟩) ?_
  rintro f _ ⟨rfl, hf⟩
  refine Sim.bind (sim_mul2 hδ hR hC0 (hpsi f hf) h) ?_
  intro c d hcd
  refine Sim.bind (R := SpecNear δ N (k + 2) (C * M)) ?_ ?_
  · unfold subIfPos
    split
    · exact sim_mean2 hδ hR _ hcd
    · exact Sim.ok (hcd.mono hδ (by omega))
  · intro c d hcd
    exact sim_tail hδ hR hcd

theorem near_second {psi : Filt2 (Img ℝ)} {C : ℝ} (hC0 : 0 ≤ C) (hpsi : ∀ f ∈ psi.levels, Small C f) {j1 : ℕ}
    {X X' : Img ℂ} (h : SpecNear δ N k M X X') :
    Sim (SpecNear δ N (k + 5) (C * M)) (second Rounded2.exact.backend psi j1 X) (second R.backend psi j1 X') := by
  unfold second
  refine Sim.bind (R := fun f g => f = g ∧ f ∈ psi.levels) (fun f hf => ⟨f, hf, rfl, listGet_mem hf⟩) ?_
  rintro f _ ⟨rfl, hf⟩
  refine Sim.bind (sim_mul2 hδ hR hC0 (hpsi f hf) h) ?_
  intro c d hcd
  refine Sim.bind (sim_eq _) ?_
  rintro e _ rfl
  refine Sim.bind (sim_mean2 hδ hR _ hcd) ?_
  intro c d hcd
  exact sim_tail hδ hR hcd

/-- Same labels and close coefficients. -/
def near2Path (δ C G M : ℝ) (p q : Path2 (Img ℝ)) : Prop :=
  p.j = q.j ∧ p.n = q.n ∧ p.theta = q.theta ∧ Near2 δ (5 * p.n.length + 4) (C * (G ^ p.n.length * M)) p.coef q.coef

theorem near_cascade {ops : Ops2D (Img ℝ)} (hops : ops.unpad = np2Unpad) {J : ℕ} {phi : List (Img ℝ)} {C G : ℝ}
    (hC0 : 0 ≤ C) (hphi : ∀ f ∈ phi, Small C f) (hG0 : 0 ≤ G) {psi : List (Filt2 (Img ℝ))}
    (hpsi : ∀ g ∈ psi, ∀ f ∈ g.levels, Small G f) (mo : ℤ) {x : Img ℝ}
    (hpad : ∀ u, ops.pad x = .ok u → u.h * u.w ≤ N ∧ Spec.inorm u ≤ M) :
    Sim (List.Forall₂ (near2Path δ C G M)) (paths Rounded2.exact.backend ops x J phi psi mo)
      (paths R.backend ops x J phi psi mo) := by
  unfold paths
  refine Sim.bind (R := fun u v => u = v ∧ SigNear δ N 0 M u v)
    (fun u hu => ⟨u, hu, rfl, (hpad u hu).1, (Near2.refl u).mono hδ le_rfl (hpad u hu).2⟩) ?_
  rintro u _ ⟨rfl, huv⟩
  refine Sim.bind (R := SpecNear δ N 1 M) (Sim.ok (spec_rfft hδ hR huv)) ?_
  intro c d hcd
  refine Sim.bind (near_lowpass hδ hR hops hC0 hphi hcd) ?_
  intro s t hst
  have hself : List.Forall₂ (fun f g : Filt2 (Img ℝ) => f = g ∧ f ∈ psi) psi psi :=
    List.forall₂_same.2 fun f hf => ⟨rfl, hf⟩
  refine Sim.bind (Core1D.sim_forEnum (R := fun f g : Filt2 (Img ℝ) => f = g ∧ f ∈ psi)
    (P := fun p q => near2Path δ C G M p.1 q.1 ∧ List.Forall₂ (near2Path δ C G M) p.2 q.2) ?_ hself 0) ?_
  · rintro f _ n1 ⟨rfl, hf⟩
    unfold firstOrder
    refine Sim.bind (near_first hδ hR hG0 (hpsi f hf) hcd) ?_
    intro c1 d1 hcd1
    refine Sim.bind (near_lowpass hδ hR hops hC0 hphi hcd1) ?_
    intro s t hst
    have hp : near2Path δ C G M (⟨s, [f.j], [n1], [f.theta]⟩ : Path2 (Img ℝ)) ⟨t, [f.j], [n1], [f.theta]⟩ :=
      ⟨rfl, rfl, rfl, hst.mono hδ le_rfl (le_of_eq (by simp))⟩
    by_cases hm : mo < 2
    · simp only [if_pos hm]
      exact Sim.ok (List.Forall₂.cons ⟨hp, List.Forall₂.nil⟩ List.Forall₂.nil)
    · simp only [if_neg hm]
      refine Sim.bind (Core1D.sim_forEnum (R := fun f g : Filt2 (Img ℝ) => f = g ∧ f ∈ psi)
        (P := near2Path δ C G M) ?_ hself 0) ?_
      · rintro f2 _ n2 ⟨rfl, hf2⟩
        unfold secondOrder
        by_cases hj : f2.j ≤ f.j
        · rw [if_pos hj, if_pos hj]
          exact Sim.ok List.Forall₂.nil
        · rw [if_neg hj, if_neg hj]
          refine Sim.bind (near_second hδ hR hG0 (hpsi f2 hf2) hcd1) ?_
          intro c2 d2 hcd2
          refine Sim.bind (near_lowpass hδ hR hops hC0 hphi hcd2) ?_
          intro s t hst
          refine Sim.ok (List.Forall₂.cons ⟨rfl, rfl, rfl, hst.mono hδ le_rfl (le_of_eq ?_)⟩ List.Forall₂.nil)
          simp only [List.length_cons, List.length_nil]
          ring
      · intro l m hlm
        exact Sim.ok (List.Forall₂.cons ⟨hp, hlm⟩ List.Forall₂.nil)
  · intro l m hlm
    refine Sim.ok (List.Forall₂.cons ⟨rfl, rfl, rfl, hst.mono hδ le_rfl (le_of_eq (by simp))⟩ (List.rel_append ?_ ?_))
    · exact List.forall₂_map_left_iff.2 (List.forall₂_map_right_iff.2 (hlm.imp fun _ _ h => h.1))
    · exact List.rel_flatten
        (List.forall₂_map_left_iff.2 (List.forall₂_map_right_iff.2 (hlm.imp fun _ _ h => h.2)))

end

/-! ## The object -/

theorem small_phi (M N J L : ℕ) (hJ : 1 ≤ J) :
    ∀ f ∈ (filterBank2 (padded2 M J) (padded2 N J) J L).1, Small 1.001 f := by
  intro f hf
  obtain ⟨res, hres, rfl⟩ := List.mem_map.1 hf
  rw [List.mem_range] at hres
  intro k hk l hl
  exact level_gain (f := phiHat2 (padded2 M J) (padded2 N J) J) (fun k l hk hl => phi_gain _ _ J hJ hk hl) res
    (C41_levels_of_the_bank M J res hres) (C41_levels_of_the_bank N J res hres) k l hk hl

theorem small_psi (M N J L : ℕ) :
    ∀ g ∈ (filterBank2 (padded2 M J) (padded2 N J) J L).2, ∀ f ∈ g.levels, Small (waveletGain L) f := by
  intro g hg f hf
  obtain ⟨j, hj, hg⟩ := List.mem_flatMap.1 hg
  obtain ⟨t, ht, rfl⟩ := List.mem_map.1 hg
  obtain ⟨res, hres, rfl⟩ := List.mem_map.1 hf
  rw [List.mem_range] at hj ht hres
  have hres : res < J := by omega
  intro k hk l hl
  exact level_gain (f := psiHat2 (padded2 M J) (padded2 N J) L j t)
    (fun k l hk hl => psi_gain _ _ L j t (by omega) hk hl) res
    (C41_levels_of_the_bank M J res hres) (C41_levels_of_the_bank N J res hres) k l hk hl

theorem padded_norm2 {a : Args2D} {s : Sc2D} (hs : a.make = .ok s) {x u : Img ℝ} (hJ : 1 ≤ a.J)
    (hc : a.check s x.h x.w = .ok ()) (hu : a.pad s x = .ok u) :
    u.h * u.w = padded2 a.M a.J * padded2 a.N a.J ∧
      Spec.inorm u ≤ (if a.prePad then 1 else 4) * Spec.norm2 x.h x.w x.px := by
  obtain ⟨hM, hN, hH, hW, -, -⟩ := make_eq_ok hs
  obtain ⟨u', hu', uh, uw⟩ := pad_ok hs hc
  obtain rfl : u = u' := Except.ok.inj (hu.symm.trans hu')
  obtain ⟨c1, c2, -⟩ := check_eq_ok.1 hc
  refine ⟨by rw [uh, uw, hH, hW], ?_⟩
  rw [inorm_real]
  unfold Args2D.pad at hu
  split
  · rename_i hp
    rw [if_pos hp] at hu
    injection hu with hu
    subst hu
    rw [one_mul]
  · rename_i hp
    rw [if_neg hp] at hu
    have hp : a.prePad = false := by simpa using hp
    obtain ⟨xh, xw⟩ := c1 hp
    let y : Img ℝ := Img.tab a.M a.N fun _ _ => 0
    have h2 : 2 ≤ 2 ^ a.J := by
      calc 2 = 2 ^ 1 := rfl
        _ ≤ 2 ^ a.J := Nat.pow_le_pow_right (by norm_num) hJ
    obtain ⟨v, hv, vh, vw, pv⟩ := C43_numpy_mirror y ((s.Mp - a.M) / 2) ((s.Mp - a.M + 1) / 2) ((s.Np - a.N) / 2)
      ((s.Np - a.N + 1) / 2) (h2.trans hM) (h2.trans hN)
    have hy : ∀ i k, y.px i k = 0 := fun i k => by
      change (if i < a.M ∧ k < a.N then (0 : ℝ) else 0) = 0
      simp
    obtain ⟨-, -, e1, -⟩ := C38_padding a.M a.J hM
    obtain ⟨-, -, e2, -⟩ := C38_padding a.N a.J hN
    have key := norm2_le (by norm_num) (energy_padded hJ hM hN hH hW ⟨xh, xw⟩ ⟨rfl, rfl⟩ hu hv)
    rw [uh, uw, xh, xw]
    refine le_trans (le_of_eq (norm2_ext fun i hi k hk => ?_)) (key.trans (le_of_eq ?_))
    · rw [pv i k (by rw [vh]; change i < _ + a.M + _; rw [hH] at hi ⊢; omega)
        (by rw [vw]; change k < _ + a.N + _; rw [hW] at hk ⊢; omega), hy, sub_zero]
    · congr 1
      exact norm2_ext fun i hi k hk => by rw [hy, sub_zero]

/-- The paths of the rounded run. -/
theorem rounded2_paths (a : Args2D) (R : Rounded2) (N : ℕ) (δ : ℝ) (hδ : 0 ≤ δ) (hR : R.Accurate N δ) (x : Img ℝ)
    (hN : padded2 a.M a.J * padded2 a.N a.J ≤ N) (hJ : 1 ≤ a.J) {s : Sc2D} (hs : a.make = .ok s)
    (hc : a.check s x.h x.w = .ok ()) :
    Sim (List.Forall₂ (near2Path δ 1.001 (waveletGain a.L) ((if a.prePad then 1 else 4) * Spec.norm2 x.h x.w x.px)))
      (paths np2Backend (a.ops s) x a.J s.phi s.psi a.maxOrder)
      (paths R.backend (a.ops s) x a.J s.phi s.psi a.maxOrder) := by
  obtain ⟨-, -, hH, hW, h5, h6⟩ := make_eq_ok hs
  refine near_cascade hδ hR (ops := a.ops s) rfl (by norm_num) ?_ (waveletGain_pos _).le ?_ a.maxOrder ?_
  · rw [h5, hH, hW]
    exact small_phi a.M a.N a.J a.L hJ
  · rw [h6, hH, hW]
    exact small_psi a.M a.N a.J a.L
  · intro u hu
    obtain ⟨h1, h2⟩ := padded_norm2 hs hJ hc hu
    exact ⟨by rw [h1]; exact hN, h2⟩

theorem near_le {δ M : ℝ} {k : ℕ} {x y : Img ℝ} (h : Near2 δ k M x y) :
    Spec.norm2 x.h x.w (fun i l => x.px i l - y.px i l) ≤ ((1 + δ) ^ k - 1) * M := by
  rw [← idist_real]
  exact h.err.dist

/-- **C123.**  If every operation has a relative error of at most `δ` on images of at most the padded size, the computed
coefficients of order `m` have the labels and shapes of the exact ones and an error, in the Euclidean norm, of at most
`(1 + δ)^(5 m + 4) - 1` times the bound of `C97_bounded` on the exact coefficient: one factor per operation on the path,
and no dependence on the size of the image, on `J` or on the path. -/
theorem C123_euclidean (a : Args2D) (ho : a.outType = .list) (R : Rounded2) (N : ℕ) (δ : ℝ) (hδ : 0 ≤ δ)
    (hR : R.Accurate N δ) (x : Img ℝ) (hN : padded2 a.M a.J * padded2 a.N a.J ≤ N)
    (l : List (Path2 (Img ℝ))) (hl : a.run x = .ok (.list l)) :
    ∃ m, a.runRounded R x = .ok (.list m) ∧ List.Forall₂ (fun p q => p.n = q.n ∧ p.j = q.j ∧ p.theta = q.theta ∧
      q.coef.h = p.coef.h ∧ q.coef.w = p.coef.w ∧
      Spec.norm2 p.coef.h p.coef.w (fun i k => p.coef.px i k - q.coef.px i k) ≤
        1.001 * (if 4 ≤ a.L then 2.001 else 15) ^ p.n.length * ((1 + δ) ^ (5 * p.n.length + 4) - 1) *
          ((if a.prePad then 1 else 4) * Spec.norm2 x.h x.w x.px)) l m := by
  obtain ⟨hJ, -⟩ := (C94_returns_iff_2d a x).1 ⟨_, hl⟩
  obtain ⟨s, l', hs, hc, hl', -, hli⟩ := run_eq_ok hl
  injection hli ho with hli
  subst hli
  obtain ⟨m, hm, hlm⟩ := rounded2_paths a R N δ hδ hR x hN hJ hs hc l hl'
  refine ⟨m, ?_, hlm.imp fun p q h => ⟨h.2.1, h.1, h.2.2.1, h.2.2.2.h, h.2.2.2.w, (near_le h.2.2.2).trans (le_of_eq ?_)⟩⟩
  · refine bind_eq_ok.2 ⟨s, hs, bind_eq_ok.2 ⟨(), hc, bind_eq_ok.2 ⟨m, hm, ?_⟩⟩⟩
    rw [if_neg (by simp [ho])]
  · change _ = 1.001 * waveletGain a.L ^ p.n.length * _ * _
    ring

/-- **C123, array output.**  Every row has an error of at most the bound of order two. -/
theorem C123_array (a : Args2D) (ho : a.outType = .array) (R : Rounded2) (N : ℕ) (δ : ℝ) (hδ : 0 ≤ δ)
    (hR : R.Accurate N δ) (x : Img ℝ) (hN : padded2 a.M a.J * padded2 a.N a.J ≤ N)
    (l : List (Img ℝ)) (hl : a.run x = .ok (.array l)) :
    ∃ m, a.runRounded R x = .ok (.array m) ∧ List.Forall₂ (fun p q => q.h = p.h ∧ q.w = p.w ∧
      Spec.norm2 p.h p.w (fun i k => p.px i k - q.px i k) ≤
        1.001 * (if 4 ≤ a.L then 2.001 else 15) ^ 2 * ((1 + δ) ^ 14 - 1) *
          ((if a.prePad then 1 else 4) * Spec.norm2 x.h x.w x.px)) l m := by
  obtain ⟨hJ, -⟩ := (C94_returns_iff_2d a x).1 ⟨_, hl⟩
  obtain ⟨s, l', hs, hc, hl', har, -⟩ := run_eq_ok hl
  injection har ho with har
  subst har
  obtain ⟨m, hm, hlm⟩ := rounded2_paths a R N δ hδ hR x hN hJ hs hc l' hl'
  obtain ⟨out, hout, hsh⟩ := (C123_returns a R hR.toShapes x).1 _ hl
  have hout' := hout
  obtain ⟨s', hs', hout⟩ := bind_eq_ok.1 hout
  obtain rfl : s = s' := Except.ok.inj (hs.symm.trans hs')
  obtain ⟨-, -, hout⟩ := bind_eq_ok.1 hout
  obtain ⟨m', hm', hout⟩ := bind_eq_ok.1 hout
  obtain rfl : m = m' := Except.ok.inj (hm.symm.trans hm')
  rw [if_pos (by simp [ho])] at hout
  obtain ⟨rows, hrows, hout⟩ := bind_eq_ok.1 hout
  injection hout with hout
  have hrw : rows = m.map fun p => p.coef := by
    unfold stack at hrows
    split at hrows
    · cases hrows
    · split at hrows
      · injection hrows with hrows; exact hrows.symm
      · cases hrows
  refine ⟨m.map fun p => p.coef, by rw [hout', ← hout, hrw], ?_⟩
  rw [List.forall₂_map_left_iff, List.forall₂_map_right_iff]
  have hmem : ∀ p ∈ l', p.n.length ≤ 2 := by
    intro p hp
    cases mem_paths np2Backend _ hl' hp <;> simp
  refine forall₂_imp_mem hlm fun p hp q hq h => ⟨h.2.2.2.h, h.2.2.2.w, (near_le h.2.2.2).trans ?_⟩
  have hx0 : 0 ≤ (if a.prePad then (1 : ℝ) else 4) * Spec.norm2 x.h x.w x.px :=
    mul_nonneg (by split <;> norm_num) (norm2_nonneg _ _ _)
  have hG1 : 1 ≤ waveletGain a.L := by unfold waveletGain; split <;> norm_num
  have h1 : waveletGain a.L ^ p.n.length ≤ waveletGain a.L ^ 2 := pow_le_pow_right₀ hG1 (hmem p hp)
  have h2 : (1 + δ) ^ (5 * p.n.length + 4) ≤ (1 + δ) ^ 14 := pow_le_pow_right₀ (by linarith) (by have := hmem p hp; omega)
  have h3 := err_factor hδ 14
  calc _ ≤ ((1 + δ) ^ 14 - 1) * (1.001 * (waveletGain a.L ^ 2 *
        ((if a.prePad then (1 : ℝ) else 4) * Spec.norm2 x.h x.w x.px))) := by
        refine mul_le_mul (by linarith) (mul_le_mul_of_nonneg_left (mul_le_mul_of_nonneg_right h1 hx0) (by norm_num)) ?_ h3
        exact mul_nonneg (by norm_num) (mul_nonneg (pow_nonneg (by linarith) _) hx0)
    _ = _ := by
        change _ = 1.001 * waveletGain a.L ^ 2 * _ * _
        ring

/-! ## Operations that meet the assumption -/

/-- Apply a function to every pixel. -/
def Img.mapPx {E : Type} [Zero E] (g : E → E) (x : Img E) : Img E := Img.tab x.h x.w fun i k => g (x.px i k)

/-- Every operation is computed exactly and its result rounded to double precision. -/
noncomputable def Rounded2.ofFloat (F : FloatOps) : Rounded2 where
  rfft x := (np2Rfft x).mapPx (rndC F)
  ifft x := (idft2 x).mapPx (rndC F)
  irfft x := (np2Irfft x).mapPx F.rnd
  modulus x := (np2Modulus x).mapPx F.rnd
  mul x f := (Rounded2.exact.mul x f).mapPx (rndC F)
  mean x k := (Rounded2.exact.mean x k).mapPx (rndC F)

theorem idist_mapPx {E : Type} [NormedAddCommGroup E] {g : E → E} {u : ℝ} (hu : 0 ≤ u)
    (hg : ∀ z, ‖z - g z‖ ≤ u * ‖z‖) (x : Img E) : Spec.idist x (x.mapPx g) ≤ u * Spec.inorm x := by
  have e : u * Spec.inorm x = Spec.norm2 x.h x.w fun i k => u * ‖x.px i k‖ := by
    unfold Spec.inorm Spec.norm2
    simp_rw [mul_pow, ← mul_sum]
    rw [Real.sqrt_mul (sq_nonneg u), Real.sqrt_sq hu]
  rw [e]
  refine norm2_mono (fun _ _ _ _ => norm_nonneg _) fun i hi k hk => ?_
  have : (x.mapPx g).px i k = g (x.px i k) := Img.px_tab hi hk
  rw [this]
  exact hg _

/-- Correctly rounded operations are accurate to `2^-50`, for images of every size. -/
theorem ofFloat2_accurate {F : FloatOps} (hF : F.Correct) (N : ℕ) :
    (Rounded2.ofFloat F).Accurate N (2 ^ (-50 : ℤ)) := by
  have hu : (0 : ℝ) ≤ 2 ^ (-50 : ℤ) := by positivity
  have hc := fun x => idist_mapPx hu (rndC_rel hF) x
  have hr := fun x => idist_mapPx hu (g := F.rnd) (rnd_rel hF) x
  refine { rfft := fun x => ⟨rfl, rfl⟩
           ifft := fun x => ⟨rfl, rfl⟩
           irfft := fun x => ⟨rfl, rfl⟩
           modulus := fun x => ⟨rfl, rfl⟩
           mul := fun x f _ _ => ⟨rfl, rfl⟩
           mean := fun x k _ _ _ => ⟨rfl, rfl⟩
           rfft_err := fun x _ => hc _
           ifft_err := fun x _ => hc _
           irfft_err := fun x _ => (hr _).trans (mul_le_mul_of_nonneg_left ?_ hu)
           modulus_err := fun x _ => hr _
           mul_err := fun x f _ h1 h2 C hC0 hC => (hc _).trans (mul_le_mul_of_nonneg_left
             (inorm_mul2 hC0 (by rw [h1, h2]; exact hC)) hu)
           mean_err := fun x k _ hk d1 d2 => (hc _).trans (mul_le_mul_of_nonneg_left ?_ hu) }
  · refine norm2_mono (h := x.h) (w := x.w) (fun _ _ _ _ => norm_nonneg _) fun i hi k hk => ?_
    rw [px_irfft2 x hi hk]
    exact Complex.abs_re_le_norm _
  · refine (inorm_mean2 hk d1 d2).trans (le_of_eq ?_)
    ring

/-- The hypotheses are met by `Scattering2D(J=2, shape=(5, 7), L=3)`, correctly rounded double-precision operations and
every image, for both types of output. -/
example (x : Img ℝ) (hx : x.h = 5 ∧ x.w = 7) : ∃ F : FloatOps, F.Correct ∧
    (∃ l m, (⟨2, 5, 7, 3, 2, false, .list⟩ : Args2D).run x = .ok (.list l) ∧ (∃ p ∈ l, p.n = [0, 3]) ∧
      (⟨2, 5, 7, 3, 2, false, .list⟩ : Args2D).runRounded (Rounded2.ofFloat F) x = .ok (.list m) ∧
      List.Forall₂ (fun p q => p.n = q.n ∧
        Spec.norm2 p.coef.h p.coef.w (fun i k => p.coef.px i k - q.coef.px i k) ≤
          1.001 * 15 ^ p.n.length * ((1 + 2 ^ (-50 : ℤ)) ^ (5 * p.n.length + 4) - 1) *
            (4 * Spec.norm2 x.h x.w x.px)) l m) ∧
    (∃ l m, (⟨2, 5, 7, 3, 2, false, .array⟩ : Args2D).run x = .ok (.array l) ∧
      (⟨2, 5, 7, 3, 2, false, .array⟩ : Args2D).runRounded (Rounded2.ofFloat F) x = .ok (.array m)) := by
  obtain ⟨F, hF⟩ := exists_correct
  refine ⟨F, hF, ?_, ?_⟩
  · obtain ⟨out, h⟩ := (C94_returns_iff_2d ⟨2, 5, 7, 3, 2, false, .list⟩ x).2 (by simp [hx])
    obtain ⟨s, l, hs, hc, hl, -, hli⟩ := run_eq_ok h
    obtain rfl := hli rfl
    obtain ⟨m, hm, hlm⟩ := C123_euclidean _ rfl (Rounded2.ofFloat F) _ _ (by positivity) (ofFloat2_accurate hF _) x
      le_rfl l h
    refine ⟨l, m, h, ?_, hm, hlm.imp fun p q h => ⟨h.1, ?_⟩⟩
    · have e := Core2D.labels_eq np2Backend _ hl
      rw [(make_eq_ok hs).2.2.2.2.2, labels_bank] at e
      have hmem : (([0, 1], [0, 3], [0, 0]) : List ℕ × List ℕ × List ℕ) ∈ Spec.channels2 2 3 2 := by decide
      rw [← e] at hmem
      obtain ⟨p, hp, hpe⟩ := List.mem_map.1 hmem
      exact ⟨p, hp, (Prod.mk.inj (Prod.mk.inj hpe).2).1⟩
    · have := h.2.2.2.2.2
      rw [if_neg (by norm_num), if_neg (by simp)] at this
      exact this
  · obtain ⟨out, h⟩ := (C94_returns_iff_2d ⟨2, 5, 7, 3, 2, false, .array⟩ x).2 (by simp [hx])
    obtain ⟨s, l, hs, hc, hl, har, -⟩ := run_eq_ok h
    obtain rfl := har rfl
    obtain ⟨m, hm, -⟩ := C123_array _ rfl (Rounded2.ofFloat F) _ _ (by positivity) (ofFloat2_accurate hF _) x
      le_rfl _ h
    exact ⟨_, m, h, hm⟩

/-- The rounded operations of the example are not the exact ones. -/
example (F : FloatOps) (hF : F.Correct) : (Rounded2.ofFloat F).modulus (Img.tab 1 1 fun _ _ => (Real.pi : ℂ)) ≠
    Rounded2.exact.modulus (Img.tab 1 1 fun _ _ => (Real.pi : ℂ)) := by
  intro h
  have hp : (Rounded2.exact.modulus (Img.tab 1 1 fun _ _ => (Real.pi : ℂ))).px 0 0 = Real.pi := by
    have e : (Img.tab 1 1 fun _ _ => (Real.pi : ℂ)).px 0 0 = (Real.pi : ℂ) := Img.px_tab one_pos one_pos
    have e2 := px_modulus2 (Img.tab 1 1 fun _ _ => (Real.pi : ℂ)) (m := 0) (n := 0) one_pos one_pos
    rw [e, Complex.norm_real, Real.norm_eq_abs, abs_of_pos Real.pi_pos] at e2
    exact e2
  have h2 : ((Rounded2.ofFloat F).modulus (Img.tab 1 1 fun _ _ => (Real.pi : ℂ))).px 0 0 = F.rnd Real.pi := by
    exact (Img.px_tab (h := 1) (w := 1) (f := fun i k => F.rnd
      ((Rounded2.exact.modulus (Img.tab 1 1 fun _ _ => (Real.pi : ℂ))).px i k)) one_pos one_pos).trans (congrArg F.rnd hp)
  rw [h, hp] at h2
  obtain ⟨m, e, -, hr⟩ := hF.rnd_double Real.pi
  rw [← h2] at hr
  apply irrational_pi
  exact ⟨(m : ℚ) * 2 ^ e, by rw [hr]; push_cast; rfl⟩

end Verif
