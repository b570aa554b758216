import Verif.Lemmas.Rounded1D
import Verif.Lemmas.FloatInt
import Verif.Props.PathsObject1D
import Mathlib.Analysis.Real.Pi.Irrational

/-!
# C122: rounding errors are not amplified
-/

namespace Verif

open Finset Core1D Front1D

/-- The operations return arrays of the right length. -/
structure Rounded.Shapes (R : Rounded) : Prop where
  rfft : ∀ x, (R.rfft x).length = x.length
  ifft : ∀ x, (R.ifft x).length = x.length
  irfft : ∀ x, (R.irfft x).length = x.length
  modulus : ∀ x, (R.modulus x).length = x.length
  mul : ∀ x f, x.length = f.length → (R.mul x f).length = x.length
  mean : ∀ x k, 0 < k → k * (x.length / k) = x.length → (R.mean x k).length = x.length / k

/-- What is assumed of the rounded operations: results have the right length and, for arrays of at most `N` samples, a
relative error of at most `δ` in Euclidean norm.  The product may be off by `δ` times the largest value of the filter
times the norm of the signal, the mean of `k` blocks by `δ` times the norm of the signal over `√k`, the sum by `δ` times
the sum of the absolute values. -/
structure Rounded.Accurate (R : Rounded) (N : ℕ) (δ : ℝ) : Prop extends R.Shapes where
  rfft_err : ∀ x : List ℝ, x.length ≤ N → Spec.adist (npRfft x) (R.rfft x) ≤ δ * Spec.anorm (npRfft x)
  ifft_err : ∀ x : List ℂ, x.length ≤ N → Spec.adist (idft x) (R.ifft x) ≤ δ * Spec.anorm (idft x)
  irfft_err : ∀ x : List ℂ, x.length ≤ N → Spec.adist (npIrfft x) (R.irfft x) ≤ δ * Spec.anorm (idft x)
  modulus_err : ∀ x : List ℂ, x.length ≤ N → Spec.adist (npModulus x) (R.modulus x) ≤ δ * Spec.anorm (npModulus x)
  mul_err : ∀ (x : List ℂ) (f : List ℝ), x.length ≤ N → x.length = f.length →
    ∀ C : ℝ, 0 ≤ C → (∀ m < f.length, |f.getD m 0| ≤ C) →
      Spec.adist (Rounded.exact.mul x f) (R.mul x f) ≤ δ * (C * Spec.anorm x)
  mean_err : ∀ (x : List ℂ) (k : ℕ), x.length ≤ N → 0 < k → k * (x.length / k) = x.length →
    Spec.adist (Rounded.exact.mean x k) (R.mean x k) ≤ δ * (Spec.anorm x / Real.sqrt k)
  sum_err : ∀ x : List ℝ, x.length ≤ N → |x.sum - R.sum x| ≤ δ * (x.map fun v => |v|).sum

/-! ## One filter -/

/-- The spectrum after filtering and subsampling. -/
theorem front_ok {R : Rounded} {X c h : List ℂ} {f : List ℝ} {e : ℕ}
    (hc : R.backend.cdgmm X f = .ok c) (hh : R.backend.subsample c e = .ok h) :
    X.length = f.length ∧ c = R.mul X f ∧ 2 ^ e * (c.length / 2 ^ e) = c.length ∧ h = R.mean c (2 ^ e) := by
  change (if X.length ≠ f.length then Except.error PyErr.runtime else .ok (R.mul X f)) = Except.ok c at hc
  change (if 2 ^ e = 0 then Except.error PyErr.zeroDiv else if 2 ^ e * (c.length / 2 ^ e) ≠ c.length then .error .value
    else .ok (R.mean c (2 ^ e))) = Except.ok h at hh
  split at hc
  · cases hc
  split at hh
  · cases hh
  split at hh
  · cases hh
  injection hc with hc
  injection hh with hh
  rename_i h1 _ h2
  exact ⟨not_not.1 h1, hc.symm, not_not.1 h2, hh.symm⟩

theorem band_ok {R : Rounded} {psi : Filt (List ℝ)} {X : List ℂ} {l e : ℕ} {u : List ℝ}
    (h : bandpass R.backend psi X l e = .ok u) : ∃ f, psi.levels[l]? = some f ∧ X.length = f.length ∧
      2 ^ e * ((R.mul X f).length / 2 ^ e) = (R.mul X f).length ∧
      u = R.modulus (R.ifft (R.mean (R.mul X f) (2 ^ e))) := by
  obtain ⟨f, hf, h⟩ := bind_eq_ok.1 h
  obtain ⟨c, hc, h⟩ := bind_eq_ok.1 h
  obtain ⟨s, hs, h⟩ := bind_eq_ok.1 h
  obtain ⟨y, hy, h⟩ := bind_eq_ok.1 h
  obtain ⟨h1, rfl, h3, rfl⟩ := front_ok hc hs
  injection hy with hy
  injection h with h
  exact ⟨f, listGet_eq_ok.1 hf, h1, h3, by rw [← h]⟩

theorem low_ok {R : Rounded} {psi : Filt (List ℝ)} {X : List ℂ} {l e : ℕ} {u : List ℝ}
    (h : lowpass R.backend psi X l e = .ok u) : ∃ f, psi.levels[l]? = some f ∧ X.length = f.length ∧
      2 ^ e * ((R.mul X f).length / 2 ^ e) = (R.mul X f).length ∧
      u = R.irfft (R.mean (R.mul X f) (2 ^ e)) := by
  obtain ⟨f, hf, h⟩ := bind_eq_ok.1 h
  obtain ⟨c, hc, h⟩ := bind_eq_ok.1 h
  obtain ⟨s, hs, h⟩ := bind_eq_ok.1 h
  obtain ⟨h1, rfl, h3, rfl⟩ := front_ok hc hs
  injection h with h
  exact ⟨f, listGet_eq_ok.1 hf, h1, h3, h.symm⟩

section

variable {R : Rounded} {N : ℕ} {δ : ℝ} (hR : R.Accurate N δ) (hδ : 0 ≤ δ) {x x' : List ℝ} {k : ℕ} {M : ℝ}
  (h : Near δ k M x x') (hN : x.length ≤ N) {f : List ℝ} {C : ℝ} (hC0 : 0 ≤ C)

include hR hδ h hN in
theorem near_rfft : Near δ (k + 1) (Real.sqrt x.length * M) (npRfft x) (R.rfft x') := by
  have hl := h.len
  have h1 := hR.rfft x'
  have h2 := hR.rfft_err x' (by omega)
  refine h.additive hδ (Real.sqrt_nonneg _) npRfft (by simp [hl]) (rfft_subL hl) (fun z hz => ?_) (by simp [h1]) ?_
  · rw [← hz]; exact anorm_rfft z
  · refine h2.trans (mul_le_mul_of_nonneg_left ?_ hδ)
    rw [← hl]; exact anorm_rfft x'

include hR hδ h hN hC0 in
/-- Transform, product and subsampling: three operations. -/
theorem near_front (hf : x.length = f.length) (hC : ∀ m < f.length, |f.getD m 0| ≤ C) {e : ℕ}
    (hd : 2 ^ e * (x.length / 2 ^ e) = x.length) :
    Near δ (k + 3) (Real.sqrt (x.length / 2 ^ e : ℕ) * (C * M))
      (Rounded.exact.mean (Rounded.exact.mul (npRfft x) f) (2 ^ e)) (R.mean (R.mul (R.rfft x') f) (2 ^ e)) := by
  have a1 := near_rfft hR hδ h hN
  have hl := h.len
  have hl1 := hR.rfft x'
  have hl1' : (npRfft x).length = x.length := by simp
  have g1 := hR.mul (R.rfft x') f (by omega)
  have g2 := hR.mul_err (R.rfft x') f (by omega) (by omega)
  have a2 : Near δ (k + 2) (C * (Real.sqrt x.length * M)) (Rounded.exact.mul (npRfft x) f) (R.mul (R.rfft x') f) := by
    refine a1.additive hδ hC0 (fun z => Rounded.exact.mul z f) ?_ (mul_subL a1.len (by omega)) ?_ ?_ (g2 C hC0 hC)
    · rw [length_exact_mul (by omega), length_exact_mul (by omega)]; omega
    · intro z hz
      exact anorm_mul (by omega) hC0 hC
    · rw [g1, length_exact_mul (by omega)]
  have hl2 : (Rounded.exact.mul (npRfft x) f).length = x.length := by rw [length_exact_mul (by omega)]; omega
  have hl2' : (R.mul (R.rfft x') f).length = x.length := by omega
  have g3 := hR.mean (R.mul (R.rfft x') f) (2 ^ e) (by positivity) (by rw [hl2']; exact hd)
  have g4 := hR.mean_err (R.mul (R.rfft x') f) (2 ^ e) (by omega) (by positivity) (by rw [hl2']; exact hd)
  have a3 := a2.additive hδ (g := 1 / Real.sqrt ((2 ^ e : ℕ) : ℝ)) (by positivity)
    (fun z => Rounded.exact.mean z (2 ^ e)) (w := R.mean (R.mul (R.rfft x') f) (2 ^ e))
    (by rw [length_exact_mean, length_exact_mean, hl2, hl2'])
    (mean_subL a2.len _) (fun z hz => anorm_mean (by positivity) (by rw [hz, hl2]; exact hd))
    (by rw [g3, length_exact_mean]) (by
      refine g4.trans (le_of_eq ?_)
      ring)
  refine a3.mono hδ (le_of_eq ?_)
  have hx : (x.length : ℝ) = (2 ^ e : ℕ) * (x.length / 2 ^ e : ℕ) := by exact_mod_cast hd.symm
  rw [hx, Real.sqrt_mul (by positivity)]
  have : Real.sqrt ((2 ^ e : ℕ) : ℝ) ≠ 0 := by positivity
  field_simp

theorem sqrt_cancel {n : ℕ} {A : ℝ} (hA : 0 ≤ A) : 1 / Real.sqrt n * (Real.sqrt n * A) ≤ A := by
  rcases eq_or_ne (Real.sqrt n) 0 with h0 | h0
  · rw [h0]; simpa using hA
  · rw [← mul_assoc, one_div_mul_cancel h0, one_mul]

include hR hδ h hN hC0 in
/-- A wavelet and the modulus: five operations. -/
theorem near_band {psi : Filt (List ℝ)} {l e : ℕ} {u u' : List ℝ}
    (hu : bandpass npBackend psi (npRfft x) l e = .ok u) (hu' : bandpass R.backend psi (R.rfft x') l e = .ok u')
    (hC : ∀ f, psi.levels[l]? = some f → ∀ m < f.length, |f.getD m 0| ≤ C) :
    Near δ (k + 5) (C * M) u u' ∧ u.length * 2 ^ e = x.length := by
  obtain ⟨f, hf, hfl, hd, rfl⟩ := band_ok (R := Rounded.exact) hu
  obtain ⟨f', hf', -, -, rfl⟩ := band_ok hu'
  rw [hf] at hf'
  injection hf' with hf'
  subst hf'
  have hl1' : (npRfft x).length = x.length := by simp
  have hxf : x.length = f.length := by rw [← hfl, hl1']
  rw [length_exact_mul hfl, hl1'] at hd
  have a := near_front hR hδ h hN hC0 hxf (hC f hf) hd
  set y := Rounded.exact.mean (Rounded.exact.mul (npRfft x) f) (2 ^ e) with hy
  set y' := R.mean (R.mul (R.rfft x') f) (2 ^ e)
  have hyl : y.length = x.length / 2 ^ e := by rw [hy, length_exact_mean, length_exact_mul hfl, hl1']
  have hyN : y.length ≤ N := by rw [hyl]; exact (Nat.div_le_self _ _).trans hN
  have hal := a.len
  have g1 := hR.ifft y'
  have g2 := hR.ifft_err y' (by omega)
  have hil : ∀ z : List ℂ, (idft z).length = z.length := fun z => by simp [idft]
  have hml : ∀ z : List ℂ, (npModulus z).length = z.length := fun z => by simp [npModulus]
  have b := a.additive hδ (g := 1 / Real.sqrt y.length) (by positivity) idft (w := R.ifft y')
    (by rw [hil, hil, hal]) (idft_subL hal) (fun z hz => by rw [← hz]; exact anorm_idft z) (by rw [g1, hil])
    (g2.trans (mul_le_mul_of_nonneg_left (by rw [← hal]; exact anorm_idft y') hδ))
  rw [← hyl] at b
  have b := b.mono hδ (sqrt_cancel (mul_nonneg hC0 h.nonneg))
  have g3 := hR.modulus (R.ifft y')
  have g4 := hR.modulus_err (R.ifft y') (by omega)
  have c := b.step hδ (g := 1) zero_le_one (y := npModulus (idft y)) (z := npModulus (R.ifft y'))
    (w := R.modulus (R.ifft y')) (by rw [anorm_modulus, one_mul]) (by rw [hml, hml]; exact b.len)
    (by rw [one_mul]; exact adist_modulus b.len) (by rw [g3, hml])
    (by rw [one_mul, ← anorm_modulus]; exact g4)
  rw [one_mul] at c
  refine ⟨c, ?_⟩
  show (npModulus (idft y)).length * 2 ^ e = _
  rw [hml, hil, hyl, mul_comm]
  exact hd

include hR hδ h hN hC0 in
/-- The low-pass filter: four operations. -/
theorem near_low {phi : Filt (List ℝ)} {l e : ℕ} {u u' : List ℝ}
    (hu : lowpass npBackend phi (npRfft x) l e = .ok u) (hu' : lowpass R.backend phi (R.rfft x') l e = .ok u')
    (hC : ∀ f, phi.levels[l]? = some f → ∀ m < f.length, |f.getD m 0| ≤ C) : Near δ (k + 4) (C * M) u u' := by
  obtain ⟨f, hf, hfl, hd, rfl⟩ := low_ok (R := Rounded.exact) hu
  obtain ⟨f', hf', -, -, rfl⟩ := low_ok hu'
  rw [hf] at hf'
  injection hf' with hf'
  subst hf'
  have hl1' : (npRfft x).length = x.length := by simp
  have hxf : x.length = f.length := by rw [← hfl, hl1']
  rw [length_exact_mul hfl, hl1'] at hd
  have a := near_front hR hδ h hN hC0 hxf (hC f hf) hd
  set y := Rounded.exact.mean (Rounded.exact.mul (npRfft x) f) (2 ^ e) with hy
  set y' := R.mean (R.mul (R.rfft x') f) (2 ^ e)
  have hyl : y.length = x.length / 2 ^ e := by rw [hy, length_exact_mean, length_exact_mul hfl, hl1']
  have hyN : y.length ≤ N := by rw [hyl]; exact (Nat.div_le_self _ _).trans hN
  have hal := a.len
  have g1 := hR.irfft y'
  have g2 := hR.irfft_err y' (by omega)
  have hil : ∀ z : List ℂ, (npIrfft z).length = z.length := fun z => by simp [npIrfft, idft]
  have b := a.additive hδ (g := 1 / Real.sqrt y.length) (by positivity) npIrfft (w := R.irfft y')
    (by rw [hil, hil, hal]) (irfft_subL hal) (fun z hz => by rw [← hz]; exact anorm_irfft z) (by rw [g1, hil])
    (g2.trans (mul_le_mul_of_nonneg_left (by rw [← hal]; exact anorm_idft y') hδ))
  rw [← hyl] at b
  exact b.mono hδ (sqrt_cancel (mul_nonneg hC0 h.nonneg))

end

/-! ## Which runs return -/

theorem exact_shapes : Rounded.exact.Shapes where
  rfft x := by simp [Rounded.exact]
  ifft x := by simp [Rounded.exact, idft]
  irfft x := by simp [Rounded.exact, npIrfft, idft]
  modulus x := by simp [Rounded.exact, npModulus]
  mul x f h := length_exact_mul h
  mean x k _ _ := length_exact_mean x k

/-- Arrays of the same length. -/
def roundRel {A B : Rounded} (hA : A.Shapes) (hB : B.Shapes) : BackendRel A.backend B.backend where
  rR _ _ x y := List.length y = List.length x
  rC _ _ x y := List.length y = List.length x
  rZ _ _ x y := List.length y = List.length x
  rF _ f g := f = g
  rfft _ _ x y h := Sim.ok (by rw [hA.rfft, hB.rfft]; exact h)
  ifft _ _ x y h := Sim.ok (by rw [hA.ifft, hB.ifft]; exact h)
  irfft _ _ x y h := Sim.ok (by rw [hA.irfft, hB.irfft]; exact h)
  modulus _ _ x y h := Sim.ok (by rw [hA.modulus, hB.modulus]; exact h)
  cdgmm _ _ x y f g h hfg := by
    subst hfg
    intro b hb
    change (if List.length x ≠ List.length f then Except.error PyErr.runtime else .ok (A.mul x f)) = Except.ok b at hb
    split at hb
    · cases hb
    · rename_i hl
      have hl := not_not.1 hl
      injection hb with hb
      refine ⟨B.mul y f, if_neg (not_not.2 (by rw [h, hl])), ?_⟩
      rw [← hb]
      change (B.mul y f).length = (A.mul x f).length
      rw [hA.mul _ _ hl, hB.mul _ _ (by rw [h, hl])]
      exact h
  subsample _ _ x y e h := by
    intro b hb
    change (if 2 ^ e = 0 then Except.error PyErr.zeroDiv else if 2 ^ e * (List.length x / 2 ^ e) ≠ List.length x
      then .error .value else .ok (A.mean x (2 ^ e))) = Except.ok b at hb
    split at hb
    · cases hb
    split at hb
    · cases hb
    rename_i h0 hd
    have hd := not_not.1 hd
    injection hb with hb
    have hd' : 2 ^ e * (List.length y / 2 ^ e) = List.length y := by rw [h]; exact hd
    refine ⟨B.mean y (2 ^ e), (if_neg h0).trans (if_neg (not_not.2 hd')), ?_⟩
    rw [← hb]
    change (B.mean y (2 ^ e)).length = (A.mean x (2 ^ e)).length
    rw [hA.mean _ _ (by positivity) hd, hB.mean _ _ (by positivity) hd', h]

def roundFront {A B : Rounded} (hA : A.Shapes) (hB : B.Shapes) : FrontRel (roundRel hA hB) A.front B.front where
  rIn x y := List.length y = List.length x
  rOut _ x y := List.length y = List.length x
  pad x y l r h := by
    intro u hu
    change npPad x l r = .ok u at hu
    change ∃ v, npPad y l r = .ok v ∧ v.length = List.length u
    unfold npPad at hu ⊢
    split at hu
    · cases hu
    · rename_i hc
      injection hu with hu
      refine ⟨_, if_neg (by rw [h]; exact hc), ?_⟩
      rw [← hu]
      simp [h]
  unpad _ _ x y i0 i1 h := by
    change (npUnpad y i0 i1).length = (npUnpad x i0 i1).length
    unfold npUnpad
    rw [List.length_drop, List.length_drop, List.length_take, List.length_take, h]
  averageGlobal _ _ x y _ := rfl

theorem roundObj {A B : Rounded} (hA : A.Shapes) (hB : B.Shapes) (o : Obj1D (List ℝ)) : ObjRel (roundRel hA hB) o o := by
  have hr : ∀ f : Filt (List ℝ), (roundRel hA hB).filt f f := fun f =>
    ⟨rfl, rfl, fun k a b ha hb => by rw [ha] at hb; injection hb⟩
  have hl : ∀ l : List (Filt (List ℝ)), List.Forall₂ (roundRel hA hB).filt l l := fun l => by
    induction l with
    | nil => exact List.Forall₂.nil
    | cons a l ih => exact List.Forall₂.cons (hr a) ih
  exact ⟨rfl, rfl, rfl, rfl, hr _, hl _, hl _, rfl, rfl, rfl, rfl, rfl⟩

/-- Outputs of the same kind with the same labels and lengths. -/
def Spec.SameShape : Out1D (List ℝ) → Out1D (List ℝ) → Prop
  | .array l, .array m => List.Forall₂ (fun x y => y.length = x.length) l m
  | .list l, .list m => List.Forall₂ (fun p q => p.n = q.n ∧ p.j = q.j ∧ q.coef.length = p.coef.length) l m
  | .dict l, .dict m => List.Forall₂ (fun a b => a.1 = b.1 ∧ b.2.length = a.2.length) l m
  | _, _ => False

theorem sim_rounded {A B : Rounded} (hA : A.Shapes) (hB : B.Shapes) (a : Args1D) (x : List ℝ) :
    Sim Spec.SameShape (a.runRounded A x) (a.runRounded B x) := by
  refine Sim.bind (sim_self _) ?_
  rintro s _ rfl
  refine (sim_out (roundFront hA hB) (fun i x y h => h.symm) (roundObj hA hB (a.obj s)) (x := x) (y := x) rfl).mono ?_
  intro r t h
  cases r <;> cases t <;> simp only [OutRel, Spec.SameShape] at h ⊢
  · exact h.imp fun p q hpq => by obtain ⟨_, hpq⟩ := hpq; exact hpq
  · exact h
  · exact h.imp fun p q hpq => ⟨hpq.1, by obtain ⟨_, _, hpq⟩ := hpq; exact hpq⟩

theorem runRounded_exact (a : Args1D) (x : List ℝ) : a.runRounded Rounded.exact x = a.run x := rfl

/-! ## The paths of a rounded run -/

/-- Every path of an averaged run, with its moduli. -/
theorem path_moduliR {R : Rounded} {x : List ℝ} {phi : Filt (List ℝ)} {psi1 psi2 : List (Filt (List ℝ))} {mo ls : ℕ}
    {out : List (Path (List ℝ))}
    (h : scattering1d R.backend x phi ([psi1, psi2].take mo) ls true = .ok out) {p : Path (List ℝ)} (hp : p ∈ out) :
    (p.n = [] ∧ p.j = [] ∧ lowpass R.backend phi (R.rfft x) 0 (ls - 0) = .ok p.coef) ∨
    (∃ n1 f1 U, psi1[n1]? = some f1 ∧ p.n = [n1] ∧ p.j = [f1.j] ∧
      bandpass R.backend f1 (R.rfft x) 0 (min f1.j ls) = .ok U ∧
      lowpass R.backend phi (R.rfft U) (min f1.j ls) (ls - min f1.j ls) = .ok p.coef) ∨
    (∃ n1 n2 f1 f2 U V, psi1[n1]? = some f1 ∧ psi2[n2]? = some f2 ∧ p.n = [n1, n2] ∧ p.j = [f1.j, f2.j] ∧
      f1.j < f2.j ∧ bandpass R.backend f1 (R.rfft x) 0 (min f1.j ls) = .ok U ∧
      bandpass R.backend f2 (R.rfft U) (min f1.j ls) (min f2.j ls - min f1.j ls) = .ok V ∧
      lowpass R.backend phi (R.rfft V) (min f2.j ls) (ls - min f2.j ls) = .ok p.coef) := by
  have key := mem_scattering1d R.backend h hp
  change Path R.backend.R at p
  cases key with
  | zero U0hat c h0 hc =>
    have hU : U0hat = R.rfft x := by injection h0 with h; exact h.symm
    subst hU
    exact Or.inl ⟨rfl, rfl, hc⟩
  | one U0hat U1m c q1 n1 psi h0 hp1 hn1 hU hc =>
    have hU0 : U0hat = R.rfft x := by injection h0 with h; exact h.symm
    subst hU0
    have : q1 = psi1 := take2_zero hp1
    subst this
    simp only [if_true] at hU hc
    obtain ⟨U1hat, hU1, hs⟩ := hc.1 rfl
    have : U1hat = R.rfft U1m := by injection hU1 with h; exact h.symm
    subst this
    exact Or.inr (Or.inl ⟨n1, psi, U1m, hn1, rfl, rfl, hU, hs⟩)
  | two U0hat U1m U1hat c q1 q2 n1 n2 psi psi' h0 hp1 hn1 hp2 hn2 hj hU hUh hc =>
    have hU0 : U0hat = R.rfft x := by injection h0 with h; exact h.symm
    subst hU0
    have : q1 = psi1 := take2_zero hp1
    subst this
    have : q2 = psi2 := take2_one hp2
    subst this
    have : U1hat = R.rfft U1m := by injection hUh with h; exact h.symm
    subst this
    simp only [if_true] at hU hc
    obtain ⟨U2m, hU2, hs, -⟩ := hc
    obtain ⟨U2hat, hU2h, hs⟩ := hs rfl
    have : U2hat = R.rfft U2m := by injection hU2h with h; exact h.symm
    subst this
    simp only [if_true] at hU2
    have e1 : min psi.j ls + (min psi'.j ls - min psi.j ls) = min psi'.j ls := by omega
    rw [e1] at hs
    exact Or.inr (Or.inr ⟨n1, n2, psi, psi', U1m, U2m, hn1, hn2, rfl, rfl, hj, hU, hU2, hs⟩)

/-- Every path of a run without local averaging, with its moduli. -/
theorem path_moduliR_un {R : Rounded} {x : List ℝ} {phi : Filt (List ℝ)} {psi1 psi2 : List (Filt (List ℝ))} {mo ls : ℕ}
    {out : List (Path (List ℝ))}
    (h : scattering1d R.backend x phi ([psi1, psi2].take mo) ls false = .ok out) {p : Path (List ℝ)} (hp : p ∈ out) :
    (p.n = [] ∧ p.j = [] ∧ p.coef = x) ∨
    (∃ n1 f1, psi1[n1]? = some f1 ∧ p.n = [n1] ∧ p.j = [f1.j] ∧
      bandpass R.backend f1 (R.rfft x) 0 f1.j = .ok p.coef) ∨
    (∃ n1 n2 f1 f2 U, psi1[n1]? = some f1 ∧ psi2[n2]? = some f2 ∧ p.n = [n1, n2] ∧ p.j = [f1.j, f2.j] ∧
      f1.j < f2.j ∧ bandpass R.backend f1 (R.rfft x) 0 f1.j = .ok U ∧
      bandpass R.backend f2 (R.rfft U) f1.j (f2.j - f1.j) = .ok p.coef) := by
  have key := mem_scattering1d R.backend h hp
  change Path R.backend.R at p
  cases key with
  | zero U0hat c h0 hc =>
    injection hc with hc
    exact Or.inl ⟨rfl, rfl, hc.symm⟩
  | one U0hat U1m c q1 n1 psi h0 hp1 hn1 hU hc =>
    have hU0 : U0hat = R.rfft x := by injection h0 with h; exact h.symm
    subst hU0
    have : q1 = psi1 := take2_zero hp1
    subst this
    simp only [Bool.false_eq_true, if_false] at hU hc
    have hcu := hc.2 rfl
    subst hcu
    exact Or.inr (Or.inl ⟨n1, psi, hn1, rfl, rfl, hU⟩)
  | two U0hat U1m U1hat c q1 q2 n1 n2 psi psi' h0 hp1 hn1 hp2 hn2 hj hU hUh hc =>
    have hU0 : U0hat = R.rfft x := by injection h0 with h; exact h.symm
    subst hU0
    have : q1 = psi1 := take2_zero hp1
    subst this
    have : q2 = psi2 := take2_one hp2
    subst this
    have : U1hat = R.rfft U1m := by injection hUh with h; exact h.symm
    subst this
    simp only [Bool.false_eq_true, if_false] at hU hc
    obtain ⟨U2m, hU2, -, hs⟩ := hc
    have hcu := hs rfl
    subst hcu
    simp only [Bool.false_eq_true, if_false] at hU2
    exact Or.inr (Or.inr ⟨n1, n2, psi, psi', U1m, hn1, hn2, rfl, rfl, hj, hU, hU2⟩)



theorem post_coefR {R : Rounded} {o : Obj1D (List ℝ)} {ls : Nat} {p q : Path (List ℝ)}
    (h : post R.front o ls p = .ok q) :
    (o.average = .glob ∧ q.coef = [R.sum p.coef]) ∨
    (o.average ≠ .glob ∧ ∃ res i0 i1, resolution o ls p = .ok res ∧ o.indStart res = some i0 ∧
      o.indEnd res = some i1 ∧ q.coef = npUnpad p.coef i0 i1) := by
  unfold post at h
  obtain ⟨res, hres, h⟩ := bind_eq_ok.1 h
  split at h
  · rename_i hg
    injection h with h
    subst h
    exact Or.inl ⟨hg, rfl⟩
  · rename_i hg
    obtain ⟨i0, h0, h⟩ := bind_eq_ok.1 h
    obtain ⟨i1, h1, h⟩ := bind_eq_ok.1 h
    injection h with h
    subst h
    exact Or.inr ⟨hg, res, i0, i1, hres, dictGet_eq_ok.1 h0, dictGet_eq_ok.1 h1, rfl⟩

theorem run_listR {R : Rounded} {a : Args1D} {s : Sc1D} {x : List ℝ} {l : List (Path (List ℝ))}
    (hmake : a.make = .ok s) (hl : a.runRounded R x = .ok (.list l)) :
    ∃ U0 ls out, npPad x s.built.padLeft s.built.padRight = .ok U0 ∧
      log2Stride s.built.stride a.T a.J s.built.Ninput = .ok ls ∧
      scattering1d R.backend U0 s.phi.toFilt (psis (a.obj s)) ls.toNat
        (decide (s.average = .loc)) = .ok out ∧
      ∀ p ∈ l, ∃ q ∈ out, post R.front (a.obj s) ls.toNat q = .ok p := by
  obtain ⟨s', hs', hrun⟩ := bind_eq_ok.1 hl
  rw [hmake] at hs'
  injection hs' with hs'
  subst hs'
  obtain ⟨-, m, hm, ha⟩ := Front1D.scattering_eq_ok.1 hrun
  obtain ⟨U0, ls, out, h1, h2, h3, h4⟩ := paths_eq_ok.1 hm
  refine ⟨U0, ls, out, h1, h2, h3, fun p hp => ?_⟩
  have hl' : l = sortPaths m := by
    unfold assemble at ha
    split at ha
    · cases ha
    · injection ha with ha
      injection ha with ha
      exact ha.symm
    · obtain ⟨r, -, ha⟩ := bind_eq_ok.1 ha
      cases ha
  rw [hl'] at hp
  have hp' : p ∈ m := (List.mergeSort_perm _ _).mem_iff.1 hp
  exact forall₂_mem_right h4 hp'

theorem padded_norm {x U : List ℝ} {l r : ℕ} (hU : npPad x l r = .ok U) :
    Spec.anorm U ≤ Real.sqrt 3 * Spec.anorm x := by
  refine anorm_le_of_sq (Real.sqrt_nonneg _) ?_
  rw [Real.sq_sqrt (by norm_num), anorm_real_sq, anorm_real_sq]
  obtain ⟨h1, h2⟩ := padded_of_npPad hU
  obtain ⟨hl, hr, -⟩ := npPad_length hU
  unfold energy1
  rw [h1]
  refine le_trans (le_of_eq (sum_congr rfl fun i hi => ?_))
    (sum_mirror_le_three x.length l r hl hr (fun i => x.getD i 0 ^ 2) fun i => sq_nonneg _)
  rw [h2 i (mem_range.1 hi)]

theorem adist_unpad {c d : List ℝ} (hl : d.length = c.length) (i0 i1 : ℕ) :
    Spec.adist (npUnpad c i0 i1) (npUnpad d i0 i1) ≤ Spec.adist c d := by
  rw [adist_real, adist_real]
  have := (unpad_energy hl i0 i1).2
  rw [energy1_diffL] at this
  exact Real.sqrt_le_sqrt this

/-! ## C122 -/

/-- The coefficients of a path before unpadding. -/
theorem near_paths {a : Args1D} {s : Sc1D} (hmake : a.make = .ok s) {T : Rat} {av : Average}
    (hT : parseT a.T a.J s.built.Ninput = .ok (T, av)) {ls : ℕ} {R : Rounded} {N : ℕ} {δ : ℝ} (hR : R.Accurate N δ)
    (hδ : 0 ≤ δ) {X : List ℝ} (hN : X.length ≤ N) {out out' : List (Path (List ℝ))} (avg : Bool)
    (hout : scattering1d npBackend X s.phi.toFilt (psis (a.obj s)) ls avg = .ok out)
    (hout' : scattering1d R.backend X s.phi.toFilt (psis (a.obj s)) ls avg = .ok out')
    {c d : Path (List ℝ)} (hc : c ∈ out) (hd : d ∈ out') (hcd : c.n = d.n)
    (hstep : avg = true → (2 : ℝ) ^ min (c.j.getLastD 0) ls ≤ T)
    {G : ℕ → ℝ} (hG0 : ∀ l, 0 ≤ G l)
    (hG : ∀ (n : ℕ) f, (s.psi2.map FiltX.toFilt)[n]? = some f → ∀ l < f.j, ∀ y, f.levels[l]? = some y →
      ∀ m < y.length, |y.getD m 0| ≤ G l) :
    Near δ (5 * c.n.length + if avg then 4 else 0)
      ((if avg then 1.001 * (c.j.dropLast.map fun j => G (min j ls)).prod else (c.j.dropLast.map G).prod) *
        Spec.anorm X)
      c.coef d.coef ∧
    (avg = false → c.coef.length * 2 ^ c.j.getLastD 0 = X.length) := by
  obtain ⟨_, Q1, Q2, -, -, -, -, -, -, -, hQ, -⟩ := make_filters hmake
  obtain ⟨mo, hps, HH1, -⟩ := make_banks hmake hQ
  obtain ⟨Hphi, -, -⟩ := make_fromFull hmake hT hQ
  rw [hps] at hout hout'
  have h0 : Near δ 0 (Spec.anorm X) X X := Near.refl X
  cases avg with
  | true =>
    have hphi : ∀ k, k = min (c.j.getLastD 0) ls → ∀ f, s.phi.toFilt.levels[k]? = some f → ∀ m < f.length,
        |f.getD m 0| ≤ 1.001 := by
      rintro k rfl f hf
      exact (phi_level_bounds Hphi (hstep rfl) hf).1
    refine ⟨?_, fun h => by cases h⟩
    simp only [if_true]
    rcases path_moduli hout hc with ⟨n1, j1, l1⟩ | ⟨n1, f1, U, hf1, en, ej, hU, l1⟩ |
        ⟨n1, n2, f1, f2, U, V, hf1, hf2, en, ej, hj, hU, hV, l1⟩ <;>
      rcases path_moduliR hout' hd with ⟨m1, k1, l2⟩ | ⟨m1, g1, U', hg1, em, ek, hU', l2⟩ |
        ⟨m1, m2, g1, g2, U', V', hg1, hg2, em, ek, hk, hU', hV', l2⟩
    · have := near_low hR hδ h0 hN (by norm_num) l1 l2 (hphi 0 (by rw [j1]; simp))
      rw [n1, j1]
      simpa using this
    · rw [n1, em] at hcd; cases hcd
    · rw [n1, em] at hcd; cases hcd
    · rw [en, m1] at hcd; cases hcd
    · rw [en, em] at hcd
      injection hcd with e
      subst e
      rw [hf1] at hg1
      injection hg1 with hg1
      subst hg1
      obtain ⟨pr, hpr, hfull, hnorm⟩ := HH1 n1 f1 hf1
      obtain ⟨b1, b2⟩ := near_band hR hδ h0 hN (C := 2 ^ 0) (by norm_num) hU hU' fun f hf => hfull.gain hnorm hf
      have hUN : U.length ≤ N := (show U.length ≤ X.length by rw [← b2]; exact Nat.le_mul_of_pos_right _ (by positivity)).trans hN
      have := near_low hR hδ b1 hUN (by norm_num) l1 l2 (hphi _ (by rw [ej]; rfl))
      rw [en, ej]
      simpa using this
    · rw [en, em] at hcd; cases hcd
    · rw [en, m1] at hcd; cases hcd
    · rw [en, em] at hcd; cases hcd
    · rw [en, em] at hcd
      injection hcd with e e'
      injection e' with e'
      subst e e'
      rw [hf1] at hg1
      injection hg1 with hg1
      subst hg1
      rw [hf2] at hg2
      injection hg2 with hg2
      subst hg2
      obtain ⟨pr, hpr, hfull, hnorm⟩ := HH1 n1 f1 hf1
      obtain ⟨b1, b2⟩ := near_band hR hδ h0 hN (C := 2 ^ 0) (by norm_num) hU hU' fun f hf => hfull.gain hnorm hf
      have hUN : U.length ≤ N := (show U.length ≤ X.length by rw [← b2]; exact Nat.le_mul_of_pos_right _ (by positivity)).trans hN
      obtain ⟨b3, b4⟩ := near_band hR hδ b1 hUN (C := G (min f1.j ls)) (hG0 _) hV hV'
        (hG n2 f2 hf2 _ (lt_of_le_of_lt (min_le_left _ _) hj))
      have hVN : V.length ≤ N := (show V.length ≤ U.length by rw [← b4]; exact Nat.le_mul_of_pos_right _ (by positivity)).trans hUN
      have := near_low hR hδ b3 hVN (by norm_num) l1 l2 (hphi _ (by rw [ej]; rfl))
      rw [en, ej]
      simpa [mul_assoc] using this
  | false =>
    simp only [Bool.false_eq_true, if_false, add_zero, true_imp_iff]
    rcases path_moduli_un hout hc with ⟨n1, j1, l1⟩ | ⟨n1, f1, hf1, en, ej, hU⟩ |
        ⟨n1, n2, f1, f2, U, hf1, hf2, en, ej, hj, hU, hV⟩ <;>
      rcases path_moduliR_un hout' hd with ⟨m1, k1, l2⟩ | ⟨m1, g1, hg1, em, ek, hU'⟩ |
        ⟨m1, m2, g1, g2, U', hg1, hg2, em, ek, hk, hU', hV'⟩
    · rw [l1, l2, j1, n1]
      exact ⟨by simpa using h0, by simp⟩
    · rw [n1, em] at hcd; cases hcd
    · rw [n1, em] at hcd; cases hcd
    · rw [en, m1] at hcd; cases hcd
    · rw [en, em] at hcd
      injection hcd with e
      subst e
      rw [hf1] at hg1
      injection hg1 with hg1
      subst hg1
      obtain ⟨pr, hpr, hfull, hnorm⟩ := HH1 n1 f1 hf1
      obtain ⟨b1, b2⟩ := near_band hR hδ h0 hN (C := 2 ^ 0) (by norm_num) hU hU' fun f hf => hfull.gain hnorm hf
      rw [en, ej]
      exact ⟨by simpa using b1, b2⟩
    · rw [en, em] at hcd; cases hcd
    · rw [en, m1] at hcd; cases hcd
    · rw [en, em] at hcd; cases hcd
    · rw [en, em] at hcd
      injection hcd with e e'
      injection e' with e'
      subst e e'
      rw [hf1] at hg1
      injection hg1 with hg1
      subst hg1
      rw [hf2] at hg2
      injection hg2 with hg2
      subst hg2
      obtain ⟨pr, hpr, hfull, hnorm⟩ := HH1 n1 f1 hf1
      obtain ⟨b1, b2⟩ := near_band hR hδ h0 hN (C := 2 ^ 0) (by norm_num) hU hU' fun f hf => hfull.gain hnorm hf
      have hUN : U.length ≤ N := (show U.length ≤ X.length by rw [← b2]; exact Nat.le_mul_of_pos_right _ (by positivity)).trans hN
      obtain ⟨b3, b4⟩ := near_band hR hδ b1 hUN (C := G f1.j) (hG0 _) hV hV' (hG n2 f2 hf2 _ hj)
      rw [en, ej]
      refine ⟨by simpa [mul_assoc] using b3, ?_⟩
      show _ * 2 ^ f2.j = _
      rw [← b2, ← b4, mul_assoc, ← pow_add, Nat.sub_add_cancel hj.le]

theorem forall₂_imp_mem {α β : Type} {P Q : α → β → Prop} {l : List α} {m : List β} (h : List.Forall₂ P l m)
    (hPQ : ∀ a ∈ l, ∀ b ∈ m, P a b → Q a b) : List.Forall₂ Q l m := by
  rw [List.forall₂_iff_zip] at h ⊢
  refine ⟨h.1, fun {a b} hab => ?_⟩
  obtain ⟨h1, h2⟩ := List.of_mem_zip hab
  exact hPQ a h1 b h2 (h.2 hab)

theorem rounded_list {a : Args1D} {R : Rounded} (hR : R.Shapes) {x : List ℝ} {l : List (Path (List ℝ))}
    (hl : a.run x = .ok (.list l)) : ∃ m, a.runRounded R x = .ok (.list m) ∧
      List.Forall₂ (fun p q => p.n = q.n ∧ p.j = q.j ∧ q.coef.length = p.coef.length) l m := by
  obtain ⟨r, hr, hs⟩ := sim_rounded exact_shapes hR a x (.list l) hl
  cases r with
  | list m => exact ⟨m, hr, hs⟩
  | array m => exact hs.elim
  | dict m => exact hs.elim

/-- **C122, which calls return.**  Rounding changes neither whether a call returns, nor the kind, the labels and the
lengths of what is returned. -/
theorem C122_returns (a : Args1D) (R : Rounded) (hR : R.Shapes) (x : List ℝ) :
    (∀ r, a.run x = .ok r → ∃ r', a.runRounded R x = .ok r' ∧ Spec.SameShape r r') ∧
    (∀ r', a.runRounded R x = .ok r' → ∃ r, a.run x = .ok r ∧ Spec.SameShape r' r) :=
  ⟨fun r h => sim_rounded exact_shapes hR a x r h, fun r' h => sim_rounded hR exact_shapes a x r' h⟩

/-- The error with a bound `G` on the levels of the second bank. -/
theorem rounded_averaged (a : Args1D) (s : Sc1D) (hmake : a.make = .ok s) (T : Rat)
    (hT : parseT a.T a.J s.built.Ninput = .ok (T, .loc)) (ls : ℕ)
    (hls : log2Stride s.built.stride a.T a.J s.built.Ninput = .ok ls)
    (R : Rounded) (N : ℕ) (δ : ℝ) (hδ : 0 ≤ δ) (hR : R.Accurate N δ) (x : List ℝ)
    (hN : s.built.padLeft + x.length + s.built.padRight ≤ N)
    (G : ℕ → ℝ) (hG0 : ∀ l, 0 ≤ G l)
    (hG : ∀ (n : ℕ) f, (s.psi2.map FiltX.toFilt)[n]? = some f → ∀ l < f.j, ∀ y, f.levels[l]? = some y →
      ∀ m < y.length, |y.getD m 0| ≤ G l)
    (l : List (Path (List ℝ))) (hl : a.run x = .ok (.list l)) :
    ∃ m, a.runRounded R x = .ok (.list m) ∧ List.Forall₂ (fun p q => p.n = q.n ∧ p.j = q.j ∧
      q.coef.length = p.coef.length ∧ ((2 : ℚ) ^ min (p.j.getLastD 0) ls ≤ T →
        (Spec.l2 p.coef.length fun t => p.coef.getD t 0 - q.coef.getD t 0) ≤
          Real.sqrt 3 * (1.001 * (p.j.dropLast.map fun j => G (min j ls)).prod) *
            ((1 + δ) ^ (5 * p.n.length + 4) - 1) * Spec.l2 x.length fun i => x.getD i 0)) l m := by
  obtain ⟨m, hm, hlm⟩ := rounded_list hR.toShapes hl
  refine ⟨m, hm, forall₂_imp_mem hlm fun p hp q hq hpq => ⟨hpq.1, hpq.2.1, hpq.2.2, fun hstep => ?_⟩⟩
  have hav : s.average = .loc := by
    obtain ⟨t, -, -, hT', -⟩ := make_sizes hmake
    rw [hT] at hT'
    injection hT' with hT'
    injection hT' with e1 e2
    exact e2.symm
  obtain ⟨X, ls1, out, hX, hls1, hout, hpost⟩ := run_list hmake hl
  obtain ⟨Y, ls2, out', hY, hls2, hout', hpost'⟩ := run_listR hmake hm
  rw [hX] at hY
  injection hY with hY
  subst hY
  rw [hls] at hls1 hls2
  injection hls1 with hls1
  injection hls2 with hls2
  subst hls1 hls2
  rw [hav] at hout hout'
  simp only [decide_true, Int.toNat_natCast] at hout hout' hpost hpost'
  obtain ⟨c, hc, hcp⟩ := hpost p hp
  obtain ⟨d, hd, hdq⟩ := hpost' q hq
  obtain ⟨pn, pj⟩ := post_labels hcp
  obtain ⟨qn, qj⟩ := post_labels hdq
  have hcd : c.n = d.n := by rw [← pn, ← qn, hpq.1]
  have hcj : c.j = d.j := by rw [← pj, ← qj, hpq.2.1]
  rw [pj] at hstep
  have hXN : X.length ≤ N := by have := (npPad_length hX).2.2; omega
  obtain ⟨near, -⟩ := near_paths hmake hT hR hδ hXN true hout hout' hc hd hcd (fun _ => by exact_mod_cast hstep) hG0 hG
  simp only [if_true] at near
  have key : Spec.adist p.coef q.coef ≤ Spec.adist c.coef d.coef := by
    rcases post_coef hcp with ⟨h, -⟩ | ⟨-, r, i0, i1, h1, h2, h3, h4⟩
    · change s.average = .glob at h
      rw [hav] at h; cases h
    rcases post_coefR hdq with ⟨h, -⟩ | ⟨-, r', k0, k1, g1, g2, g3, g4⟩
    · change s.average = .glob at h
      rw [hav] at h; cases h
    rw [resolution_congr hcd hcj, g1] at h1
    injection h1 with h1
    subst h1
    rw [h2] at g2
    injection g2 with g2
    subst g2
    rw [h3] at g3
    injection g3 with g3
    subst g3
    rw [h4, g4]
    exact adist_unpad near.len _ _
  rw [← adist_real, ← anorm_real, pj, pn]
  refine (key.trans near.dist).trans ?_
  have h1 := padded_norm hX
  have h2 := pow_sub_one_nonneg hδ (5 * c.n.length + 4)
  have h3 : (0 : ℝ) ≤ 1.001 * (c.j.dropLast.map fun j => G (min j ls)).prod :=
    mul_nonneg (by norm_num) (map_prod_nonneg hG0 _ _)
  calc _ ≤ ((1 + δ) ^ (5 * c.n.length + 4) - 1) *
        ((1.001 * (c.j.dropLast.map fun j => G (min j ls)).prod) * (Real.sqrt 3 * Spec.anorm x)) :=
        mul_le_mul_of_nonneg_left (mul_le_mul_of_nonneg_left h1 h3) h2
    _ = _ := by ring

/-- **C122, local averaging.**  When every array operation has a relative error of at most `δ`, the coefficients of order
`m` are computed with an error of at most `√3 · 1.001 · ((1 + δ)^(5 m + 4) - 1)` times the Euclidean norm of the signal,
and `2^min(j1, log2_stride)` times this at order two.  Five operations lead to each modulus and four more to the
averaged coefficient; no factor depends on the length of the signal. -/
theorem C122_averaged (a : Args1D) (s : Sc1D) (hmake : a.make = .ok s) (T : Rat)
    (hT : parseT a.T a.J s.built.Ninput = .ok (T, .loc)) (ls : ℕ)
    (hls : log2Stride s.built.stride a.T a.J s.built.Ninput = .ok ls)
    (R : Rounded) (N : ℕ) (δ : ℝ) (hδ : 0 ≤ δ) (hR : R.Accurate N δ) (x : List ℝ)
    (hN : s.built.padLeft + x.length + s.built.padRight ≤ N)
    (l : List (Path (List ℝ))) (hl : a.run x = .ok (.list l)) :
    ∃ m, a.runRounded R x = .ok (.list m) ∧ List.Forall₂ (fun p q => p.n = q.n ∧ p.j = q.j ∧
      q.coef.length = p.coef.length ∧ ((2 : ℚ) ^ min (p.j.getLastD 0) ls ≤ T →
        (Spec.l2 p.coef.length fun t => p.coef.getD t 0 - q.coef.getD t 0) ≤
          Real.sqrt 3 * (1.001 * 2 ^ (p.j.dropLast.map fun j => min j ls).sum) *
            ((1 + δ) ^ (5 * p.n.length + 4) - 1) * Spec.l2 x.length fun i => x.getD i 0)) l m := by
  obtain ⟨m, hm, hlm⟩ := rounded_averaged a s hmake T hT ls hls R N δ hδ hR x hN (fun l => 2 ^ l)
    (fun l => by positivity) (fun n f hf l _ y hy => second_gain hmake n f hf l y hy) l hl
  refine ⟨m, hm, hlm.imp fun p q h => ?_⟩
  rw [map_pow_prod] at h
  exact h

theorem abs_sum_le_anorm (x : List ℝ) : (x.map fun v => |v|).sum ≤ Real.sqrt x.length * Spec.anorm x := by
  rw [getD_eq_fn, List.length_map, anorm_real]
  unfold Spec.l2
  rw [← Real.sqrt_mul (Nat.cast_nonneg _)]
  apply Real.le_sqrt_of_sq_le
  have := sq_sum_le_card_mul_sum_sq (s := range x.length) (f := fun i => |x.getD i 0|)
  rw [card_range] at this
  refine le_trans (le_of_eq ?_) (this.trans (le_of_eq ?_))
  · congr 1
    refine sum_congr rfl fun i hi => ?_
    have hi := mem_range.1 hi
    rw [List.getD_eq_getElem _ _ (by simpa using hi), List.getD_eq_getElem _ _ hi, List.getElem_map]
  · congr 1
    exact sum_congr rfl fun i _ => sq_abs _

theorem abs_sum_sub_le {c d : List ℝ} (h : d.length = c.length) :
    |c.sum - d.sum| ≤ Real.sqrt c.length * Spec.adist c d := by
  rw [getD_eq_fn, getD_eq_fn, h, ← sum_sub_distrib, adist_real]
  unfold Spec.l2
  rw [← Real.sqrt_mul (Nat.cast_nonneg _)]
  apply Real.abs_le_sqrt
  have := sq_sum_le_card_mul_sum_sq (s := range c.length) (f := fun t => c.getD t 0 - d.getD t 0)
  simpa using this

/-- The same without local averaging. -/
theorem rounded_unaveraged (a : Args1D) (s : Sc1D) (hmake : a.make = .ok s)
    (R : Rounded) (N : ℕ) (δ : ℝ) (hδ : 0 ≤ δ) (hR : R.Accurate N δ) (x : List ℝ) (hx : x.length = s.built.Ninput)
    (hN : s.built.Npadded ≤ N)
    (G : ℕ → ℝ) (hG0 : ∀ l, 0 ≤ G l)
    (hG : ∀ (n : ℕ) f, (s.psi2.map FiltX.toFilt)[n]? = some f → ∀ l < f.j, ∀ y, f.levels[l]? = some y →
      ∀ m < y.length, |y.getD m 0| ≤ G l)
    (l : List (Path (List ℝ))) (hl : a.run x = .ok (.list l)) :
    ∃ m, a.runRounded R x = .ok (.list m) ∧ List.Forall₂ (fun p q => p.n = q.n ∧ p.j = q.j ∧
      q.coef.length = p.coef.length ∧
      (s.average = .no → (Spec.l2 p.coef.length fun t => p.coef.getD t 0 - q.coef.getD t 0) ≤
        Real.sqrt 3 * (p.j.dropLast.map G).prod * ((1 + δ) ^ (5 * p.n.length) - 1) *
          Spec.l2 x.length fun i => x.getD i 0) ∧
      (s.average = .glob → ∃ v w, p.coef = [v] ∧ q.coef = [w] ∧
        |v - w| ≤ Real.sqrt ((s.built.Npadded / 2 ^ p.j.getLastD 0 : ℕ) : ℝ) *
          (Real.sqrt 3 * (p.j.dropLast.map G).prod * ((1 + δ) ^ (5 * p.n.length + 1) - 1) *
            Spec.l2 x.length fun i => x.getD i 0))) l m := by
  obtain ⟨m, hm, hlm⟩ := rounded_list hR.toShapes hl
  refine ⟨m, hm, forall₂_imp_mem hlm fun p hp q hq hpq => ⟨hpq.1, hpq.2.1, hpq.2.2, ?_⟩⟩
  by_cases hav : s.average = .loc
  · constructor <;> intro h <;> rw [hav] at h <;> cases h
  obtain ⟨X, ls1, out, hX, hls1, hout, hpost⟩ := run_list hmake hl
  obtain ⟨Y, ls2, out', hY, hls2, hout', hpost'⟩ := run_listR hmake hm
  rw [hX] at hY
  injection hY with hY
  subst hY
  rw [hls1] at hls2
  injection hls2 with hls2
  subst hls2
  rw [decide_eq_false hav] at hout hout'
  obtain ⟨c, hc, hcp⟩ := hpost p hp
  obtain ⟨d, hd, hdq⟩ := hpost' q hq
  obtain ⟨pn, pj⟩ := post_labels hcp
  obtain ⟨qn, qj⟩ := post_labels hdq
  have hcd : c.n = d.n := by rw [← pn, ← qn, hpq.1]
  have hcj : c.j = d.j := by rw [← pj, ← qj, hpq.2.1]
  obtain ⟨t, lT, -, hT, -, hpad, -⟩ := make_sizes hmake
  have hXl : X.length = s.built.Npadded := by
    have := (npPad_length hX).2.2
    omega
  have hXN : X.length ≤ N := by omega
  obtain ⟨near, nlen⟩ := near_paths hmake hT hR hδ hXN false hout hout' hc hd hcd (fun h => by cases h) hG0 hG
  have nlen := nlen rfl
  simp only [Bool.false_eq_true, if_false, add_zero] at near
  have h1 := padded_norm hX
  have h3 : (0 : ℝ) ≤ (c.j.dropLast.map G).prod := map_prod_nonneg hG0 id _
  rw [← adist_real, ← anorm_real, pj, pn]
  refine ⟨fun hno => ?_, fun hgl => ?_⟩
  · have key : Spec.adist p.coef q.coef ≤ Spec.adist c.coef d.coef := by
      rcases post_coef hcp with ⟨h, -⟩ | ⟨-, r, i0, i1, h1, h2, h3, h4⟩
      · change s.average = .glob at h
        rw [hno] at h; cases h
      rcases post_coefR hdq with ⟨h, -⟩ | ⟨-, r', k0, k1, g1, g2, g3, g4⟩
      · change s.average = .glob at h
        rw [hno] at h; cases h
      rw [resolution_congr hcd hcj, g1] at h1
      injection h1 with h1
      subst h1
      rw [h2] at g2
      injection g2 with g2
      subst g2
      rw [h3] at g3
      injection g3 with g3
      subst g3
      rw [h4, g4]
      exact adist_unpad near.len _ _
    refine (key.trans near.dist).trans ?_
    calc _ ≤ ((1 + δ) ^ (5 * c.n.length) - 1) * ((c.j.dropLast.map G).prod * (Real.sqrt 3 * Spec.anorm x)) :=
          mul_le_mul_of_nonneg_left (mul_le_mul_of_nonneg_left h1 h3) (pow_sub_one_nonneg hδ _)
      _ = _ := by ring
  · have e1 : p.coef = [c.coef.sum] := by
      rcases post_coef hcp with ⟨-, h⟩ | ⟨h, -⟩
      · exact h
      · exact absurd hgl h
    have e2 : q.coef = [R.sum d.coef] := by
      rcases post_coefR hdq with ⟨-, h⟩ | ⟨h, -⟩
      · exact h
      · exact absurd hgl h
    refine ⟨_, _, e1, e2, ?_⟩
    have hn : s.built.Npadded / 2 ^ c.j.getLastD 0 = c.coef.length := by
      rw [← hXl, ← nlen, Nat.mul_div_cancel _ (by positivity)]
    have hcN : c.coef.length ≤ N := by
      rw [← hn]; exact (Nat.div_le_self _ _).trans hN
    rw [hn]
    have b1 := abs_sum_sub_le near.len
    have b2 := hR.sum_err d.coef (by rw [near.len]; exact hcN)
    have b3 := abs_sum_le_anorm d.coef
    rw [near.len] at b3
    have b4 := near.norm_right
    have b5 := near.dist
    have hs : 0 ≤ Real.sqrt (c.coef.length : ℝ) := Real.sqrt_nonneg _
    have b6 := abs_sub_le c.coef.sum d.coef.sum (R.sum d.coef)
    set M := (c.j.dropLast.map G).prod * Spec.anorm X with hM
    have hMx : M ≤ (c.j.dropLast.map G).prod * (Real.sqrt 3 * Spec.anorm x) := mul_le_mul_of_nonneg_left h1 h3
    calc |c.coef.sum - R.sum d.coef|
        ≤ Real.sqrt c.coef.length * (((1 + δ) ^ (5 * c.n.length) - 1) * M) +
          δ * (Real.sqrt c.coef.length * ((1 + δ) ^ (5 * c.n.length) * M)) := by
          have c1 := mul_le_mul_of_nonneg_left b5 hs
          have c2 := mul_le_mul_of_nonneg_left (b3.trans (mul_le_mul_of_nonneg_left b4 hs)) hδ
          linarith
      _ = Real.sqrt c.coef.length * (((1 + δ) ^ (5 * c.n.length + 1) - 1) * M) := by rw [pow_succ]; ring
      _ ≤ Real.sqrt c.coef.length * (((1 + δ) ^ (5 * c.n.length + 1) - 1) *
            ((c.j.dropLast.map G).prod * (Real.sqrt 3 * Spec.anorm x))) :=
          mul_le_mul_of_nonneg_left (mul_le_mul_of_nonneg_left hMx (pow_sub_one_nonneg hδ _)) hs
      _ = _ := by ring

/-- **C122, without local averaging.**  With `T = 0` the coefficients of order `m` have an error of at most
`√3 ((1 + δ)^(5 m) - 1)` times the norm of the signal, and `2^j1` times this at order two; with `T = 'global'` the sum has
one more operation and a factor of the square root of the number of samples summed. -/
theorem C122_unaveraged (a : Args1D) (s : Sc1D) (hmake : a.make = .ok s)
    (R : Rounded) (N : ℕ) (δ : ℝ) (hδ : 0 ≤ δ) (hR : R.Accurate N δ) (x : List ℝ) (hx : x.length = s.built.Ninput)
    (hN : s.built.Npadded ≤ N)
    (l : List (Path (List ℝ))) (hl : a.run x = .ok (.list l)) :
    ∃ m, a.runRounded R x = .ok (.list m) ∧ List.Forall₂ (fun p q => p.n = q.n ∧ p.j = q.j ∧
      q.coef.length = p.coef.length ∧
      (s.average = .no → (Spec.l2 p.coef.length fun t => p.coef.getD t 0 - q.coef.getD t 0) ≤
        Real.sqrt 3 * 2 ^ p.j.dropLast.sum * ((1 + δ) ^ (5 * p.n.length) - 1) *
          Spec.l2 x.length fun i => x.getD i 0) ∧
      (s.average = .glob → ∃ v w, p.coef = [v] ∧ q.coef = [w] ∧
        |v - w| ≤ Real.sqrt ((s.built.Npadded / 2 ^ p.j.getLastD 0 : ℕ) : ℝ) *
          (Real.sqrt 3 * 2 ^ p.j.dropLast.sum * ((1 + δ) ^ (5 * p.n.length + 1) - 1) *
            Spec.l2 x.length fun i => x.getD i 0))) l m := by
  obtain ⟨m, hm, hlm⟩ := rounded_unaveraged a s hmake R N δ hδ hR x hx hN (fun l => 2 ^ l)
    (fun l => by positivity) (fun n f hf l _ y hy => second_gain hmake n f hf l y hy) l hl
  refine ⟨m, hm, hlm.imp fun p q h => ?_⟩
  have e := map_pow_prod id p.j.dropLast
  simp only [id, List.map_id_fun] at e
  rw [e] at h
  exact h

/-! ## Operations that meet the assumption -/

/-- A complex number with rounded parts. -/
def rndC (F : FloatOps) (z : ℂ) : ℂ := ⟨F.rnd z.re, F.rnd z.im⟩

/-- Every operation is computed exactly and its result rounded to double precision. -/
noncomputable def Rounded.ofFloat (F : FloatOps) : Rounded where
  rfft x := (npRfft x).map (rndC F)
  ifft x := (idft x).map (rndC F)
  irfft x := (npIrfft x).map F.rnd
  modulus x := (npModulus x).map F.rnd
  mul x f := (Rounded.exact.mul x f).map (rndC F)
  mean x k := (Rounded.exact.mean x k).map (rndC F)
  sum x := F.rnd x.sum

theorem rnd_rel {F : FloatOps} (hF : F.Correct) (r : ℝ) : |r - F.rnd r| ≤ 2 ^ (-50 : ℤ) * |r| := by
  obtain ⟨t, ht, hn⟩ := exists_double_near r
  rw [abs_sub_comm]
  exact (hF.rnd_near r t ht).trans hn

theorem rndC_rel {F : FloatOps} (hF : F.Correct) (z : ℂ) : ‖z - rndC F z‖ ≤ 2 ^ (-50 : ℤ) * ‖z‖ := by
  have hu : (0 : ℝ) ≤ 2 ^ (-50 : ℤ) := by positivity
  have h1 := rnd_rel hF z.re
  have h2 := rnd_rel hF z.im
  generalize (2 : ℝ) ^ (-50 : ℤ) = u at hu h1 h2
  have e : ∀ w : ℂ, ‖w‖ ^ 2 = w.re ^ 2 + w.im ^ 2 := fun w => by
    rw [← Complex.normSq_eq_norm_sq, Complex.normSq_apply]; ring
  refine (le_abs_self _).trans (abs_le_of_sq_le_sq ?_ (mul_nonneg hu (norm_nonneg z)))
  rw [mul_pow, e, e]
  have h3 := pow_le_pow_left₀ (abs_nonneg _) h1 2
  have h4 := pow_le_pow_left₀ (abs_nonneg _) h2 2
  rw [mul_pow, sq_abs, sq_abs] at h3 h4
  simp only [rndC, Complex.sub_re, Complex.sub_im]
  linarith

theorem adist_map {E : Type} [NormedAddCommGroup E] {g : E → E} {u : ℝ} (hu : 0 ≤ u)
    (hg : ∀ z, ‖z - g z‖ ≤ u * ‖z‖) (x : List E) : Spec.adist x (x.map g) ≤ u * Spec.anorm x := by
  have e : u * Spec.anorm x = Spec.l2 x.length fun i => u * ‖x.getD i 0‖ := by
    unfold Spec.anorm Spec.l2
    simp_rw [mul_pow]
    rw [← mul_sum, Real.sqrt_mul (sq_nonneg u), Real.sqrt_sq hu]
  rw [e]
  refine Spec.l2_mono (fun _ _ => norm_nonneg _) fun i hi => ?_
  rw [List.getD_eq_getElem _ _ hi, List.getD_eq_getElem _ _ (by simpa using hi), List.getElem_map]
  exact hg _

/-- Correctly rounded operations are accurate to `2^-50`, for arrays of every length. -/
theorem ofFloat_accurate {F : FloatOps} (hF : F.Correct) (N : ℕ) : (Rounded.ofFloat F).Accurate N (2 ^ (-50 : ℤ)) := by
  have hu : (0 : ℝ) ≤ 2 ^ (-50 : ℤ) := by positivity
  have hc := fun x => adist_map hu (rndC_rel hF) x
  have hr := fun x => adist_map hu (g := F.rnd) (rnd_rel hF) x
  refine { rfft := fun x => by simp [Rounded.ofFloat]
           ifft := fun x => by simp [Rounded.ofFloat, idft]
           irfft := fun x => by simp [Rounded.ofFloat, npIrfft, idft]
           modulus := fun x => by simp [Rounded.ofFloat, npModulus]
           mul := fun x f h => ?_
           mean := fun x k _ _ => ?_
           rfft_err := fun x _ => hc _
           ifft_err := fun x _ => hc _
           irfft_err := fun x _ => (hr _).trans (mul_le_mul_of_nonneg_left ?_ hu)
           modulus_err := fun x _ => hr _
           mul_err := fun x f _ h C hC0 hC => (hc _).trans (mul_le_mul_of_nonneg_left (anorm_mul h hC0 hC) hu)
           mean_err := fun x k _ hk hd => (hc _).trans (mul_le_mul_of_nonneg_left ?_ hu)
           sum_err := fun x _ => (rnd_rel hF _).trans (mul_le_mul_of_nonneg_left ?_ hu) }
  · show (List.map _ _).length = _
    rw [List.length_map, length_exact_mul h]
  · show (List.map _ _).length = _
    rw [List.length_map, length_exact_mean]
  · unfold Spec.anorm
    rw [show (npIrfft x).length = (idft x).length by simp [npIrfft]]
    refine Spec.l2_mono (fun _ _ => norm_nonneg _) fun i _ => ?_
    rw [getD_irfft]
    exact Complex.abs_re_le_norm _
  · refine (anorm_mean hk hd).trans (le_of_eq ?_)
    ring
  · induction x with
    | nil => simp
    | cons a x ih =>
      rw [List.sum_cons, List.map_cons, List.sum_cons]
      have := ih (by simp only [List.length_cons] at *; omega)
      exact (abs_add_le _ _).trans (by linarith)

/-- The hypotheses of `C122_averaged` are met by `Scattering1D(J=3, shape=1000, Q=(8, 1))`, correctly rounded
double-precision operations and every signal, and the condition on the step holds for all paths. -/
example (x : List ℝ) (hx : x.length = 1000) : ∃ F : FloatOps, F.Correct ∧ ∃ s l m,
    (exArgs .none .list).make = .ok s ∧ (exArgs .none .list).run x = .ok (.list l) ∧ (∃ p ∈ l, p.n = [0]) ∧
    (exArgs .none .list).runRounded (Rounded.ofFloat F) x = .ok (.list m) ∧
    List.Forall₂ (fun p q => p.n = q.n ∧ q.coef.length = p.coef.length ∧
      (Spec.l2 p.coef.length fun t => p.coef.getD t 0 - q.coef.getD t 0) ≤
        Real.sqrt 3 * (1.001 * 2 ^ (p.j.dropLast.map fun j => min j 3).sum) *
          ((1 + 2 ^ (-50 : ℤ)) ^ (5 * p.n.length + 4) - 1) * Spec.l2 x.length fun i => x.getD i 0) l m := by
  obtain ⟨F, hF⟩ := exists_correct
  obtain ⟨s, l, hs, hN, hav, hl⟩ := exArgs_list (T := .none) (av := .loc) (.inl ⟨rfl, rfl⟩) x hx
  obtain ⟨hT, hls⟩ := exArgs_stride hs hN
  obtain ⟨m, hm, hlm⟩ := C122_averaged _ s hs 8 hT 3 hls (Rounded.ofFloat F) _ _ (by positivity)
    (ofFloat_accurate hF _) x le_rfl l hl
  exact ⟨F, hF, s, l, m, hs, hl, exArgs_first hs hl, hm, hlm.imp fun p q h => ⟨h.1, h.2.2.1, h.2.2.2 (pow_min_three _).2⟩⟩

/-- The same with `T = 'global'` and with `T = 0`. -/
example (x : List ℝ) (hx : x.length = 1000) (T : PyT) (av : Average)
    (hT : T = .global ∧ av = .glob ∨ T = .num 0 ∧ av = .no) : ∃ F : FloatOps, F.Correct ∧ ∃ s l,
    (exArgs T .list).make = .ok s ∧ s.average = av ∧ x.length = s.built.Ninput ∧
    (exArgs T .list).run x = .ok (.list l) ∧
    (Rounded.ofFloat F).Accurate s.built.Npadded (2 ^ (-50 : ℤ)) := by
  obtain ⟨F, hF⟩ := exists_correct
  obtain ⟨s, l, hs, hN, hav, hl⟩ := exArgs_list (T := T) (av := av) (by tauto) x hx
  exact ⟨F, hF, s, l, hs, hav, by rw [hN, hx], hl, ofFloat_accurate hF _⟩

/-- The rounded operations of the examples are not the exact ones: `π` is not a double. -/
example (F : FloatOps) (hF : F.Correct) : (Rounded.ofFloat F).sum [Real.pi] ≠ Rounded.exact.sum [Real.pi] := by
  intro h
  have h : F.rnd ([Real.pi].sum) = [Real.pi].sum := h
  obtain ⟨m, e, -, hr⟩ := hF.rnd_double [Real.pi].sum
  rw [h, List.sum_singleton] at hr
  apply irrational_pi
  exact ⟨(m : ℚ) * 2 ^ e, by rw [hr]; push_cast; rfl⟩

end Verif
