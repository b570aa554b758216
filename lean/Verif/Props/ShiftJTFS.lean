import Verif.Props.SharpJTFS
import Verif.Props.RollJTFS

/-!
# C129: short translations move the coefficients of joint time-frequency scattering little

Before the average over time a translation of the signal is a translation of every stack.  The low-pass filter of time
turns it into a small displacement, which is carried through the frequency axis as the rounding errors of C126 are.
-/

namespace Verif

open Finset FrontJ JTFS

/-- The low-pass filter of time: bounds of its levels and displacement of its output by a translation of `c` samples. -/
def ShiftPhi (N ls : ℕ) (cT D : ℝ) (c : ℤ) (L : List (List ℝ)) : Prop :=
  ∀ l ≤ ls, ∀ y : List ℝ, L[l]? = some y → y.length * 2 ^ l = N ∧ (∀ m < y.length, |y.getD m 0| ≤ cT) ∧
    ∀ s : ℤ, c = 2 ^ l * s → ∀ m < y.length, |y.getD m 0| * ‖tw y.length (-((m : ℤ) * s)) - 1‖ ≤ D

/-- Two relations between one value and another. -/
theorem Sim.both {α β : Type} {R : α → β → Prop} {Q : α → α → Prop} {a : Py α} {b : Py β} (h : Sim R a b)
    (h' : Sim Q a a) : Sim (fun x y => R x y ∧ Q x x) a b := fun x hx => by
  obtain ⟨y, hy, hr⟩ := h x hx
  obtain ⟨z, hz, hq⟩ := h' x hx
  obtain rfl := Except.ok.inj (hx.symm.trans hz)
  exact ⟨y, hy, hr, hq⟩

section

variable {δ : ℝ} {k k' : ℕ} {cT D M : ℝ} (hcT : 0 ≤ cT) (hD : D = ((1 + δ) ^ k - 1) * cT) (hD0 : 0 ≤ D) {c : ℤ} {N0 H W : ℕ}

include hcT hD hD0

theorem shift_mulL {X X' : List ℂ} (hl : X'.length = X.length)
    (hX : ∀ s : ℤ, s * N0 = c * X.length → X' = shiftF X s) (hn : SpecL 0 W k' M X X) {f : List ℝ} {l : ℕ}
    (hf : f.length * 2 ^ l = N0) (hC : ∀ m < f.length, |f.getD m 0| ≤ cT)
    (hf' : ∀ s : ℤ, c = 2 ^ l * s → ∀ m < f.length, |f.getD m 0| * ‖tw f.length (-((m : ℤ) * s)) - 1‖ ≤ D)
    (hd : (2 : ℤ) ^ l ∣ c) :
    Sim (SpecL δ W k (cT * M)) (RoundedJ.exact.backend.cdgmm X f) (RoundedJ.exact.backend.cdgmm X' f) := by
  intro b hb
  change (if X.length ≠ f.length then Except.error PyErr.runtime else .ok (Rounded.exact.mul X f)) = Except.ok b at hb
  split at hb
  · cases hb
  rename_i hfl
  have hfl := not_not.1 hfl
  injection hb with hb
  subst hb
  obtain ⟨s, rfl⟩ := hd
  have hX' : X' = shiftF X s := hX s (by rw [← hf, hfl]; push_cast; ring)
  refine ⟨Rounded.exact.mul X' f, if_neg (not_not.2 (hl.trans hfl)), mul_nonneg hcT hn.1,
    by rw [length_exact_mul hfl]; exact hn.2.1, by rw [length_exact_mul hfl, length_exact_mul (by omega), hl], ?_, ?_⟩
  · rw [length_exact_mul hfl]
    refine (anorm_mul hfl hcT hC).trans ?_
    calc cT * Spec.anorm X ≤ cT * (Real.sqrt X.length * M) := mul_le_mul_of_nonneg_left hn.2.2.norm hcT
      _ = _ := by ring
  · rw [length_exact_mul hfl]
    have key : Spec.adist (Rounded.exact.mul X f) (Rounded.exact.mul X' f) ≤ D * Spec.anorm X := by
      unfold Spec.adist Spec.anorm
      rw [length_exact_mul hfl]
      refine Spec.l2_le_of_sq hD0 ?_
      rw [mul_sum]
      refine sum_le_sum fun i hi => ?_
      have hi := mem_range.1 hi
      rw [getD_exact_mul hfl, getD_exact_mul (by omega), hX', shiftF, getD_tab_lt hi]
      have e : X.getD i 0 * (f.getD i 0 : ℂ) - X.getD i 0 * tw X.length (-((i : ℤ) * s)) * (f.getD i 0 : ℂ) =
          - ((f.getD i 0 : ℂ) * (tw X.length (-((i : ℤ) * s)) - 1) * X.getD i 0) := by ring
      rw [e, norm_neg, norm_mul, norm_mul, mul_pow, Complex.norm_real, Real.norm_eq_abs]
      refine mul_le_mul_of_nonneg_right (pow_le_pow_left₀ (by positivity) ?_ 2) (sq_nonneg _)
      rw [hfl]
      exact hf' s rfl i (by omega)
    refine (key.trans (mul_le_mul_of_nonneg_left hn.2.2.norm hD0)).trans (le_of_eq ?_)
    rw [hD]
    ring

theorem shift_mulS {X X' : Img ℂ} (hX : HatRows c N0 X X') (hn : SpecS 0 H W k' M X X) {f : List ℝ} {l : ℕ}
    (hf : f.length * 2 ^ l = N0) (hC : ∀ m < f.length, |f.getD m 0| ≤ cT)
    (hf' : ∀ s : ℤ, c = 2 ^ l * s → ∀ m < f.length, |f.getD m 0| * ‖tw f.length (-((m : ℤ) * s)) - 1‖ ≤ D)
    (hd : (2 : ℤ) ^ l ∣ c) :
    Sim (SpecS δ H W k (cT * M)) (RoundedJ.exact.backend.cdgmmS X f) (RoundedJ.exact.backend.cdgmmS X' f) := by
  intro b hb
  change (if X.w ≠ f.length then Except.error PyErr.runtime else .ok (RoundedJ.exact.mul X f)) = Except.ok b at hb
  split at hb
  · cases hb
  rename_i hfl
  have hfl := not_not.1 hfl
  injection hb with hb
  subst hb
  obtain ⟨s, rfl⟩ := hd
  obtain ⟨hh, hw, hX⟩ := hX
  have hX := hX s (by rw [← hf, hfl]; push_cast; ring)
  refine ⟨RoundedJ.exact.mul X' f, if_neg (not_not.2 (hw.trans hfl)), mul_nonneg hcT hn.1, hn.2.1, hn.2.2.1,
    hh, hw, inorm_nonneg _, ?_, ?_⟩
  · refine (inorm_mulJ hcT fun n h => hC n (by omega)).trans ?_
    calc cT * Spec.inorm X ≤ cT * (Real.sqrt X.w * M) := mul_le_mul_of_nonneg_left hn.2.2.2.err.norm hcT
      _ = _ := by show _ = Real.sqrt X.w * (cT * M); ring
  · have key : Spec.idist (RoundedJ.exact.mul X f) (RoundedJ.exact.mul X' f) ≤ D * Spec.inorm X := by
      rw [← inorm_subI]
      refine inorm_le_of_sq hD0 ?_
      rw [inorm_sq, inorm_sq, mul_sum]
      refine sum_le_sum fun i hi => ?_
      rw [mul_sum]
      refine sum_le_sum fun m hm => ?_
      have hi : i < X.h := mem_range.1 hi
      have hm : m < X.w := mem_range.1 hm
      rw [px_subI (RoundedJ.exact.mul X f) (RoundedJ.exact.mul X' f) hi hm, px_mulJ X f hi hm, px_mulJ X' f (by omega) (by omega)]
      have hp : X'.px i m = X.px i m * tw X.w (-((m : ℤ) * s)) := by
        have h1 := congrArg (fun r : List ℂ => r.getD m 0) (hX i hi)
        simp only [shiftF] at h1
        rw [Img.getD_row (by omega), getD_tab_lt (by rw [Img.length_row]; exact hm), Img.getD_row hm, Img.length_row] at h1
        exact h1
      rw [hp]
      have e : X.px i m * (f.getD m 0 : ℂ) - X.px i m * tw X.w (-((m : ℤ) * s)) * (f.getD m 0 : ℂ) =
          - ((f.getD m 0 : ℂ) * (tw X.w (-((m : ℤ) * s)) - 1) * X.px i m) := by ring
      rw [e, norm_neg, norm_mul, norm_mul, mul_pow, Complex.norm_real, Real.norm_eq_abs]
      refine mul_le_mul_of_nonneg_right (pow_le_pow_left₀ (by positivity) ?_ 2) (sq_nonneg _)
      rw [hfl]
      exact hf' s rfl m (by omega)
    refine (key.trans (mul_le_mul_of_nonneg_left hn.2.2.2.err.norm hD0)).trans (le_of_eq ?_)
    rw [hD]
    show _ = ((1 + δ) ^ k - 1) * (Real.sqrt X.w * (cT * M))
    ring

/-! ## The core -/

variable (hδ : 0 ≤ δ)
include hδ

theorem shift_zeroth {phi : Filt (List ℝ)} {ls : ℕ} (hphi : ShiftPhi N0 ls cT D c phi.levels) {x y : List ℝ}
    {X X' : List ℂ} (hX : (rollRelJ c N0).rC 0 X X' ∧ SpecL 0 W k' M X X) :
    Sim (SigL δ W (k + 2) (cT * M)) (zeroth RoundedJ.exact.backend phi ls true x X)
      (zeroth RoundedJ.exact.backend phi ls true y X') := by
  unfold zeroth
  refine Sim.bind (R := fun f g => f = g ∧ phi.levels[0]? = some f) (fun f hf => ⟨f, hf, rfl, listGet_eq_ok.1 hf⟩) ?_
  rintro f _ ⟨rfl, hf⟩
  obtain ⟨h1, h2, h3⟩ := hphi 0 (Nat.zero_le _) f hf
  refine Sim.bind (shift_mulL hcT hD hD0 hX.1.1 hX.1.2 hX.2 h1 h2 h3 (one_dvd _)) fun a b hab => ?_
  refine Sim.bind (sim_meanL hδ (exactJ_accurate W hδ) le_rfl ls hab) fun a b hab => ?_
  exact Sim.ok (sigL_irfft hδ (exactJ_accurate W hδ) le_rfl hab.1)

theorem shift_first {phi psi : Filt (List ℝ)} {ls : ℕ} (hphi : ShiftPhi N0 ls cT D c phi.levels)
    (hpsi : Dyadic psi.levels) (hd : (2 : ℤ) ^ min psi.j ls ∣ c)
    {X X' : List ℂ} (hX : (rollRelJ c N0).rC 0 X X' ∧ SpecL 0 W k' M X X) :
    Sim (fun a b => (rollRelJ c N0).rC 1 a.1 b.1 ∧ SigL δ W (k + 2) (cT * M) a.2 b.2)
      (first RoundedJ.exact.backend phi ls true X psi) (first RoundedJ.exact.backend phi ls true X' psi) := by
  have hA := exactJ_accurate W (le_refl (0 : ℝ))
  unfold first
  refine Sim.bind (sim_level hpsi 0) ?_
  rintro f _ ⟨rfl, hf⟩
  refine Sim.bind (Sim.both ((rollRelJ c N0).cdgmm 0 _ _ f f hX.1 rfl)
    (sim_mulL le_rfl hA le_rfl (by positivity) hf hX.2)) fun a b hab => ?_
  refine Sim.bind (Sim.both ((rollRelJ c N0).subsample 0 _ _ _ hab.1) (sim_meanL le_rfl hA le_rfl _ hab.2)) fun a b hab => ?_
  rw [pow_zero, one_mul] at hab
  refine Sim.bind (Sim.both ((rollRelJ c N0).ifft 0 _ _ hab.1) (Sim.ok (sigL_ifft le_rfl hA le_rfl hab.2.1))) fun a b hab => ?_
  refine Sim.bind (Sim.both ((rollRelJ c N0).modulus 0 _ _ hab.1) (Sim.ok (sigL_modulus le_rfl hA le_rfl hab.2))) fun a b hab => ?_
  refine Sim.bind (Sim.both ((rollRelJ c N0).rfft 1 _ _ hab.1) (Sim.ok (specL_rfft le_rfl hA le_rfl hab.2))) fun u v huv => ?_
  have hs : sub1 ls true psi.j = min psi.j ls := rfl
  rw [hs]
  refine Sim.bind (R := fun f g => f = g ∧ phi.levels[min psi.j ls]? = some f)
    (fun f hf => ⟨f, hf, rfl, listGet_eq_ok.1 hf⟩) ?_
  rintro g _ ⟨rfl, hg⟩
  obtain ⟨h1, h2, h3⟩ := hphi _ (min_le_right _ _) g hg
  refine Sim.bind (shift_mulL hcT hD hD0 huv.1.1 huv.1.2 huv.2 h1 h2 h3 hd) fun a b hab => ?_
  refine Sim.bind (sim_meanL hδ (exactJ_accurate W hδ) le_rfl _ hab) fun a b hab => ?_
  refine Sim.bind (Sim.ok (sigL_irfft hδ (exactJ_accurate W hδ) le_rfl hab.1)) fun a b hab => ?_
  exact Sim.ok ⟨huv.1, hab⟩

omit hcT hD hD0 in
theorem SigL.up {E : Type} [NormedAddCommGroup E] {k k' : ℕ} (hk : k ≤ k') {x x' : List E} (h : SigL δ W k M x x') :
    SigL δ W k' M x x' := by
  refine ⟨h.1, h.2.len, h.2.norm, h.2.dist.trans (mul_le_mul_of_nonneg_right ?_ h.2.nonneg)⟩
  have : (1 + δ) ^ k ≤ (1 + δ) ^ k' := pow_le_pow_right₀ (by linarith) hk
  linarith

theorem shift_widthFirst {phi : Filt (List ℝ)} {ls : ℕ} (hphi : ShiftPhi N0 ls cT D c phi.levels)
    {psi1 psi2 : List (Filt (List ℝ))} (h1 : ∀ f ∈ psi1, Dyadic f.levels)
    (hd : ∀ f ∈ psi1, (2 : ℤ) ^ min f.j ls ∣ c) {x y : List ℝ} (hx : (rollRelJ c N0).rR 0 x y ∧ SigL 0 W k' M x x) :
    Sim (fun a b => SigL δ W (k + 2) (cT * M) a.1 b.1 ∧
      (TNear δ k W (Real.sqrt psi1.length * (cT * M)) a.2.1 b.2.1 ∧ a.2.1.n = [-1]) ∧
      List.Forall₂ (fun p q => JRel.tpath ((rollRelJ c N0).rCS 1 false false) p q ∧
        ∃ f ∈ psi2, p.j = [-1, (f.j : ℤ)] ∧ p.n.length = 2) a.2.2 b.2.2)
      (widthFirst RoundedJ.exact.backend x phi psi1 psi2 ls true)
      (widthFirst RoundedJ.exact.backend y phi psi1 psi2 ls true) := by
  have hA := exactJ_accurate W (le_refl (0 : ℝ))
  have hM : 0 ≤ M := hx.2.2.nonneg
  unfold widthFirst
  refine Sim.bind (Sim.both ((rollRelJ c N0).rfft 0 _ _ hx.1) (Sim.ok (specL_rfft le_rfl hA le_rfl hx.2))) fun X X' hX => ?_
  refine Sim.bind (shift_zeroth hcT hD hD0 hδ hphi hX) fun s t hs => ?_
  refine Sim.bind (R := fun l m => List.Forall₂ (fun a b => (rollRelJ c N0).rC 1 a.1 b.1 ∧ SigL δ W (k + 2) (cT * M) a.2 b.2) l m ∧
    l.length = psi1.length) (fun l hl => ?_) ?_
  · obtain ⟨m, hm, hlm⟩ := Front1D.sim_mapM (R := fun f g => f = g ∧ f ∈ psi1)
      (g := first RoundedJ.exact.backend phi ls true X') (fun a b hab => by
        obtain ⟨rfl, ha⟩ := hab
        exact shift_first hcT hD hD0 hδ hphi (h1 a ha) (hd a ha) hX) (List.forall₂_same.2 fun f hf => ⟨rfl, hf⟩) _ hl
    exact ⟨m, hm, hlm, (mapM_eq_ok.1 hl).length_eq.symm⟩
  rintro l m ⟨hlm, hlen⟩
  refine Sim.bind (err_stack hδ (k := k) (n1 := psi1.length) (W := W) (M := cT * M) (l := l.map Prod.snd)
    (m := m.map Prod.snd) ?_ ?_ (by positivity)) fun Y Y' hY => ?_
  · rw [List.forall₂_map_left_iff, List.forall₂_map_right_iff]
    exact hlm.imp fun _ _ h => SigL.up hδ (by omega) h.2
  · rw [List.length_map, hlen]
  have hus : List.Forall₂ (fun u v => u.1 = v.1 ∧ (rollRelJ c N0).rC 1 u.2 v.2)
      (List.zip (psi1.map fun p => p.j) (l.map Prod.fst)) (List.zip (psi1.map fun p => p.j) (m.map Prod.fst)) := by
    refine forall₂_zip (List.forall₂_same.2 fun _ _ => rfl) ?_
    rw [List.forall₂_map_left_iff, List.forall₂_map_right_iff]
    exact hlm.imp fun _ _ h => h.1
  refine Sim.bind (Core1D.sim_forEnum (R := fun f g => f = g ∧ f ∈ psi2)
    (P := fun p q => JRel.tpath ((rollRelJ c N0).rCS 1 false false) p q ∧
        ∃ f ∈ psi2, p.j = [-1, (f.j : ℤ)] ∧ p.n.length = 2)
    (g := stack2 RoundedJ.exact.backend ls true (List.zip (psi1.map fun p => p.j) (m.map Prod.fst)))
    (fun a b n hab => ?_) (List.forall₂_same.2 fun f hf => ⟨rfl, hf⟩) 0) fun p q hpq => ?_
  · obtain ⟨rfl, ha⟩ := hab
    intro z hz
    obtain ⟨z', hz', hr⟩ := sim_stack2 (rollRelJ c N0) ls true hus (psi := a) (psi' := a)
      ⟨rfl, List.forall₂_same.2 fun _ _ => rfl⟩ n z hz
    refine ⟨z', hz', forall₂_imp_mem hr fun p hp q _ hpq => ⟨hpq.1, a, ha, ?_⟩⟩
    obtain ⟨ys, -, ⟨-, rfl⟩ | ⟨-, Y, -, rfl⟩⟩ := stack2_eq_ok (B := npJ) hz
    · cases hp
    · obtain rfl := List.mem_singleton.1 hp
      exact ⟨rfl, rfl⟩
  · refine Sim.ok ⟨hs, ⟨⟨⟨?_, ?_, hY.2.2⟩, rfl, rfl, hlm.length_eq⟩, rfl⟩, hpq⟩
    · rw [hY.1, List.length_map]
    · have := hY.2.1
      rwa [List.length_map] at this

end

/-- Labels of the paths of `frequency_scattering`. -/
theorem shift_frLabels {B : JBackend} {lsFr : ℕ} {avgFr : Bool} {j n : List Int} {m : ℕ} {X : B.CS} {psis : List (FiltFr B.F)}
    {out : List (FPath B.CS)} (h : Core1D.forEnum (frBody B lsFr avgFr j n m X) psis 0 = .ok out) {p : FPath B.CS}
    (hp : p ∈ out) : p.j = j ∧ p.n.length = n.tail.length + 1 := by
  obtain ⟨i, a, z, -, hz, hpz⟩ := (Core1D.forEnum_mem h p).1 hp
  unfold frBody at hz
  obtain ⟨_, -, hz⟩ := bind_eq_ok.1 hz
  obtain ⟨_, -, hz⟩ := bind_eq_ok.1 hz
  obtain ⟨_, -, hz⟩ := bind_eq_ok.1 hz
  obtain ⟨_, -, hz⟩ := bind_eq_ok.1 hz
  obtain ⟨_, -, hz⟩ := bind_eq_ok.1 hz
  injection hz with hz
  subst hz
  obtain rfl := List.mem_singleton.1 hpz
  exact ⟨rfl, by simp⟩

/-- Pairs of paths: near each other at the first order, where the average has been taken, and translated at the second. -/
def ShiftF (δ : ℝ) (k NF W ls : ℕ) (M : ℝ) (c : ℤ) (N0 : ℕ) (p q : FPath (Img ℂ)) : Prop :=
  (FNear δ k NF W M p q ∧ p.n.length = 1) ∨
  (JRel.fpath ((rollRelJ c N0).rCS 1 false false) p q ∧ p.n.length = 2 ∧ SigS 0 NF W 14 M p.coef p.coef ∧ 1 ≤ NF ∧
    ∃ j : ℕ, p.j.getLast? = some (j : ℤ) ∧ (j ≤ ls → (2 : ℤ) ^ j ∣ c))

section

variable {δ : ℝ} {k k' : ℕ} {cT c0 D M : ℝ} (hδ : 0 ≤ δ) (hcT : 1 ≤ cT) (hD : D = ((1 + δ) ^ k - 1) * cT) (hD0 : 0 ≤ D)
  {c : ℤ} {N0 NF W : ℕ}

include hδ hcT hD hD0

theorem shift_joint (hc0 : cT ≤ c0) {o : JObj (List ℝ)} {ls : ℕ} (hphi : ShiftPhi N0 ls cT D c o.phi.levels)
    (hphiD : Dyadic o.phi.levels)
    (h1 : ∀ f ∈ o.psi1, Dyadic f.levels) (h2 : ∀ f ∈ o.psi2, PsiLe ls c0 f) (hd1 : ∀ f ∈ o.psi1, (2 : ℤ) ^ min f.j ls ∣ c)
    (hd2 : ∀ f ∈ o.psi2, (2 : ℤ) ^ min f.j ls ∣ c) (hpsis : ∀ f ∈ o.psisFr, Dyadic f.levels) (hphiN : o.phiFr.N = NF)
    (lsFr : ℕ) (avgFr : Bool) {x y : List ℝ} (hx : (rollRelJ c N0).rR 0 x y ∧ SigL 0 W 1 M x x) :
    Sim (fun a b => SigL δ W (k + 2) (cT * M) a.1 b.1 ∧
      List.Forall₂ (ShiftF δ k NF W ls (Real.sqrt o.psi1.length * (c0 * M)) c N0) a.2 b.2)
      (joint RoundedJ.exact.backend x o.phi o.psi1 o.psi2 ls true o.phiFr o.psisFr lsFr avgFr)
      (joint RoundedJ.exact.backend y o.phi o.psi1 o.psi2 ls true o.phiFr o.psisFr lsFr avgFr) := by
  have hM : 0 ≤ M := hx.2.2.nonneg
  have hphiT : LevelsLe ls c0 o.phi.levels := fun l hl y hy m hm => ((hphi l hl y hy).2.1 m hm).trans hc0
  have hle : Real.sqrt o.psi1.length * (cT * M) ≤ Real.sqrt o.psi1.length * (c0 * M) := by gcongr
  unfold joint
  refine Sim.bind (Sim.both (shift_widthFirst (by linarith) hD hD0 hδ hphi h1 hd1 hx)
    (err_widthFirst le_rfl (exactJ_accurate (max W NF) le_rfl) (le_max_left _ _) hphiD (by linarith) hphiT h1 h2 true
      hx.2)) fun t u htu => ?_
  obtain ⟨⟨hz, ⟨hS, hSn⟩, hY⟩, -, -, -, hself⟩ := htu
  refine Sim.bind (R := List.Forall₂ (ShiftF δ k NF W ls (Real.sqrt o.psi1.length * (c0 * M)) c N0)) (fun l hl => ?_)
    fun p q hpq => ?_
  · obtain ⟨m, hm, hlm⟩ := err_frequencyReal hδ (exactJ_accurate NF hδ) le_rfl hphiN hpsis lsFr avgFr hS
      (fun h => by rw [hSn] at h; simp at h) l hl
    refine ⟨m, hm, forall₂_imp_mem hlm fun p hp q _ hpq => .inl ⟨⟨⟨hpq.1.1, hpq.1.2.1, hpq.1.2.2.mono hδ le_rfl hle⟩,
      hpq.2⟩, ?_⟩⟩
    unfold frequencyReal at hl
    obtain ⟨_, -, hl⟩ := bind_eq_ok.1 hl
    obtain ⟨_, -, hl⟩ := bind_eq_ok.1 hl
    obtain ⟨_, -, hl⟩ := bind_eq_ok.1 hl
    rw [(shift_frLabels hl hp).2, hSn]
    rfl
  refine Sim.bind (R := fun l m => List.Forall₂ (ShiftF δ k NF W ls (Real.sqrt o.psi1.length * (c0 * M)) c N0)
    l.flatten m.flatten) ?_ fun l m hlm => Sim.ok ⟨hz, List.rel_append hpq hlm⟩
  refine Sim.mono (Front1D.sim_mapM (P := List.Forall₂ (ShiftF δ k NF W ls (Real.sqrt o.psi1.length * (c0 * M)) c N0))
    (fun a b hab => ?_) (forall₂_imp_mem hY fun p hp q _ hpq => And.intro hpq (List.forall₂_same.1 hself p hp)))
    fun l m hlm => List.rel_flatten hlm
  obtain ⟨⟨hroll, f, hf, hj, hn⟩, hnear, -⟩ := hab
  intro l hl
  obtain ⟨m, hm, hlm⟩ := sim_frequencyComplex (rollRelJ c N0) (phi := o.phiFr) (phi' := o.phiFr)
    ⟨rfl, rfl, List.forall₂_same.2 fun _ _ => rfl⟩ (psis := o.psisFr) (psis' := o.psisFr)
    (List.forall₂_same.2 fun _ _ => ⟨rfl, rfl, List.forall₂_same.2 fun _ _ => rfl⟩) lsFr avgFr hroll trivial l hl
  obtain ⟨l', hl', hll⟩ := err_frequencyComplex le_rfl (exactJ_accurate NF le_rfl) le_rfl hphiN hpsis lsFr avgFr hnear
    (fun _ => ⟨f.j, by rw [hj]; rfl⟩) l hl
  obtain rfl := Except.ok.inj (hl.symm.trans hl')
  refine ⟨m, hm, forall₂_imp_mem hlm fun p hp q _ hpq => .inr ?_⟩
  have hp' := List.forall₂_same.1 hll p hp
  have hl2 := hl
  unfold frequencyComplex at hl2
  obtain ⟨_, -, hl2⟩ := bind_eq_ok.1 hl2
  obtain ⟨_, -, hl2⟩ := bind_eq_ok.1 hl2
  obtain ⟨_, -, hl2⟩ := bind_eq_ok.1 hl2
  obtain ⟨e1, e2⟩ := shift_frLabels hl2 hp
  refine ⟨hpq.1, by rw [e2, List.length_tail, hn], hp'.1, hp'.2.2.2.2, f.j, by rw [e1, hj]; rfl, fun h => ?_⟩
  have := hd2 f hf
  rwa [min_eq_left h] at this

omit hcT in
theorem shift_timeAveraging (hcT : 0 ≤ cT) {phi : Filt (List ℝ)} {ls : ℕ} (hphi : ShiftPhi N0 ls cT D c phi.levels) {j : List ℤ} {i : ℕ}
    (hj : j.getLast? = some (i : ℤ)) (hd : i ≤ ls → (2 : ℤ) ^ i ∣ c) {U V : Img ℝ}
    (h : (rollRelJ c N0).rRS 2 false U V ∧ SigS 0 NF W k' M U U) :
    Sim (fun a b => a.h ≤ NF ∧ Near2 δ (k + 2) (cT * M) a b) (timeAveraging RoundedJ.exact.backend phi ls j U)
      (timeAveraging RoundedJ.exact.backend phi ls j V) := by
  unfold timeAveraging
  rw [hj]
  refine Sim.bind (Sim.both ((rollRelJ c N0).rfftS 2 false _ _ h.1)
    (Sim.ok (specS_rfft le_rfl (exactJ_accurate W le_rfl) le_rfl h.2))) fun X X' hX => ?_
  refine Sim.bind (R := fun f g => f = g ∧ phi.levels[i]? = some f) (fun f hf => ⟨f, hf, rfl, ?_⟩) ?_
  · unfold listGetI at hf
    rw [if_pos (Int.natCast_nonneg i), Int.toNat_natCast] at hf
    exact listGet_eq_ok.1 hf
  rintro f _ ⟨rfl, hf⟩
  by_cases hle : i ≤ ls
  · obtain ⟨h1, h2, h3⟩ := hphi i hle f hf
    refine Sim.bind (shift_mulS hcT hD hD0 hX.1 hX.2 h1 h2 h3 (hd hle)) fun a b hab => ?_
    refine Sim.bind (sim_meanS hδ (exactJ_accurate W hδ) le_rfl _ hab) fun a b hab => ?_
    have := sigS_irfft hδ (exactJ_accurate W hδ) le_rfl hab.1
    exact Sim.ok ⟨this.1, this.2.2⟩
  · intro z hz
    obtain ⟨b, -, hz⟩ := bind_eq_ok.1 hz
    obtain ⟨d, hz, -⟩ := bind_eq_ok.1 hz
    change (if ((ls : ℤ) - (i : ℤ)) < 0 then Except.error PyErr.type else _) = Except.ok d at hz
    rw [if_pos (by omega)] at hz
    cases hz

theorem shift_averageBody {phi : Filt (List ℝ)} {ls : ℕ} (hphi : ShiftPhi N0 ls cT D c phi.levels)
    (hphiD : Dyadic phi.levels) {phiFr : PhiFr (List ℝ)}
    (hphiFr : Dyadic phiFr.levels) {lsFr : ℕ} {cF : ℝ} (hcF : 1 ≤ cF) (hphiF : LevelsLe lsFr cF phiFr.levels)
    (avF : Average) (arr : Bool) (fmt : Format) {p q : FPath (Img ℂ)} (h : ShiftF δ k NF W ls M c N0 p q) (E0 : ℝ) :
    Sim (List.Forall₂ (PathC (errOf E0 (((1 + δ) ^ (k + 18 + Spec.avgOps avF) - 1) *
        (Spec.avgGain avF cF NF * (cT * M))))))
      (averageBody RoundedJ.exact.backend phi ls .loc phiFr lsFr avF arr fmt p)
      (averageBody RoundedJ.exact.backend phi ls .loc phiFr lsFr avF arr fmt q) := by
  have hphiT : LevelsLe ls cT phi.levels := fun l hl y hy m hm => (hphi l hl y hy).2.1 m hm
  have hA := exactJ_accurate (max W NF) hδ
  rcases h with ⟨h, -⟩ | ⟨h, hn, hs, hNF, j, hj, hdj⟩
  · exact err_averageBody hδ hA (le_max_left _ _) (le_max_right _ _) hphiD hcT hphiT .loc hphiFr hcF hphiF avF arr fmt h E0
  obtain ⟨hr, e1, e2, e3, e4, e5, e6, e7⟩ := h
  unfold averageBody
  refine Sim.bind (Sim.both ((rollRelJ c N0).modulusS 1 _ _ hr)
    (Sim.ok (sigS_modulus le_rfl (exactJ_accurate W le_rfl) le_rfl hs))) fun U V hU => ?_
  refine Sim.bind (R := fun a b => a.h ≤ NF ∧ Near2 δ (k + 18) (cT * M) a b) ?_ fun U V hU => ?_
  · have ht : ∀ {z : FPath (Img ℂ)} {Z : Img ℝ}, z.n = p.n → z.j = p.j →
        averageTime RoundedJ.exact.backend phi ls .loc z Z = timeAveraging RoundedJ.exact.backend phi ls p.j Z :=
      fun {z Z} h1 h2 => by
        unfold averageTime
        rw [if_neg (by simp), if_pos ⟨rfl, by rw [h1, hn]; omega⟩, h2]
    rw [ht rfl rfl, ht e2.symm e1.symm]
    exact (shift_timeAveraging hδ hD hD0 (by linarith) hphi hj hdj hU).mono fun a b hab =>
      ⟨hab.1, hab.2.mono hδ (by omega) le_rfl⟩
  have hF : FNear δ 1 NF W (Spec.inorm p.coef) p { q with coef := p.coef } :=
    ⟨⟨hs.1, hs.2.1, (Near2.refl p.coef).mono hδ (by omega) le_rfl⟩, ⟨e1, e2, e3, e4, e5, e6, e7⟩,
      fun h0 => by rw [h0] at hn; simp at hn, fun _ => ⟨j, hj⟩, hNF⟩
  refine Sim.bind (show Sim (fun a b => Near2 δ (k + 18 + Spec.avgOps avF) (Spec.avgGain avF cF NF * (cT * M)) a.1 b.1 ∧
    a.2 = b.2) _ (averageFreq RoundedJ.exact.backend phiFr lsFr avF { q with coef := p.coef } V) from
    err_averageFreq hδ hA (le_max_right _ _) hphiFr hcF hphiF avF hF hU) fun U V hU => ?_
  rw [← e3, ← hU.2]
  refine Sim.bind (R := Near2 δ (k + 18 + Spec.avgOps avF) (Spec.avgGain avF cF NF * (cT * M))) ?_ fun a b hab => ?_
  · unfold unpadFr
    split
    · exact fun y hy => hU.1.unpadFrequency hδ hy
    · exact Sim.ok hU.1
  · exact err_format fmt (p := ⟨a, p.j, p.n, p.n1Max, p.jFr, p.nFr, U.2, p.spin⟩)
      (q := ⟨b, q.j, q.n, p.n1Max, q.jFr, q.nFr, U.2, q.spin⟩) hab ⟨e1, e2, rfl, e4, e5, rfl, e7⟩
      (fun h0 => by have h0 : p.n = [] := h0; rw [h0] at hn; simp at hn) E0

theorem shift_paths (hc0 : cT ≤ c0) {o : JObj (List ℝ)} (hav : o.average = .loc) {ls lsFr : ℕ}
    (hphi : ShiftPhi N0 ls cT D c o.phi.levels) (hphiD : Dyadic o.phi.levels)
    (h1 : ∀ f ∈ o.psi1, Dyadic f.levels) (h2 : ∀ f ∈ o.psi2, PsiLe ls c0 f) (hd1 : ∀ f ∈ o.psi1, (2 : ℤ) ^ min f.j ls ∣ c)
    (hd2 : ∀ f ∈ o.psi2, (2 : ℤ) ^ min f.j ls ∣ c) (hpsis : ∀ f ∈ o.psisFr, Dyadic f.levels)
    (hphiFr : Dyadic o.phiFr.levels) {cF : ℝ} (hcF : 1 ≤ cF) (hphiF : LevelsLe lsFr cF o.phiFr.levels)
    (hphiN : o.phiFr.N = NF) {x y : List ℝ} (hx : (rollRelJ c N0).rR 0 x y ∧ SigL 0 W 1 M x x) :
    Sim (List.Forall₂ (PathC (errOf (((1 + δ) ^ (k + 2) - 1) * (cT * M))
        (((1 + δ) ^ (k + 18 + Spec.avgOps o.averageFr) - 1) *
          (Spec.avgGain o.averageFr cF NF * (cT * (Real.sqrt o.psi1.length * (c0 * M))))))))
      (paths RoundedJ.exact.backend o ls lsFr x) (paths RoundedJ.exact.backend o ls lsFr y) := by
  unfold paths
  rw [hav]
  refine Sim.bind (shift_joint hδ hcT hD hD0 hc0 hphi hphiD h1 h2 hd1 hd2 hpsis hphiN lsFr _ hx) fun g g' hg => ?_
  unfold averageAndFormat
  refine Sim.bind (R := Near δ (k + 2) (cT * M)) (Sim.ok hg.1.2) fun z z' hz => ?_
  refine Sim.bind (Front1D.sim_mapM
    (f := averageBody RoundedJ.exact.backend o.phi ls .loc o.phiFr lsFr o.averageFr _ o.fmt)
    (g := averageBody RoundedJ.exact.backend o.phi ls .loc o.phiFr lsFr o.averageFr _ o.fmt)
    (fun a b hab => shift_averageBody hδ hcT hD hD0 hphi hphiD hphiFr hcF hphiF o.averageFr _ _ hab
      (((1 + δ) ^ (k + 2) - 1) * (cT * M))) hg.2) fun l m hlm => ?_
  exact Sim.ok (List.Forall₂.cons ⟨hz.coefErr, rfl, rfl, rfl, rfl, rfl⟩ (List.rel_flatten hlm))

end

/-! ## C129 -/

theorem shiftPhi_of {f : Filt (List ℝ)} {N : ℕ} {T : ℝ} (hT0 : 0 < T) (hf : FromFull f (gauss1d N (0.1 / T))) {ls : ℕ}
    (hls : (2 : ℝ) ^ ls ≤ T) (c : ℤ) : ShiftPhi N ls 1.001 (0.77 * |(c : ℝ)| / T) c f.levels := fun l hl y hy => by
  have hl' : (2 : ℝ) ^ l ≤ T := (pow_le_pow_right₀ one_le_two hl).trans hls
  have h1 := (hf.level hy).1
  rw [length_gauss (by positivity)] at h1
  obtain ⟨h2, h3⟩ := phi_level_bounds hf hl' hy
  exact ⟨h1, h2, fun s hs => h3 c s hs⟩

/-- **C129.**  With a local average of support `T` in time, joint time-frequency scattering is insensitive to translations
that are short compared with `T`: when the padded signal `x` is rolled by `c` samples, `c` a multiple of the steps of the
wavelets, the same paths are returned, the coefficients of order zero move by at most `0.77 |c| / T` times the Euclidean
norm of `x`, and those of the other paths by at most `0.79 |c| / T` times the norm of `x`, the square root of the number of
wavelets of the first order and the gain of the average over frequency (1.001 if it is local). -/
theorem C129_shift (a : JArgs) (s : ScJ) (hmake : a.make = .ok s) (T : Rat)
    (hT : parseT a.T a.J s.base.built.Ninput = .ok (T, .loc)) (Q1 Q2 : ℕ) (hQ : parseQ a.Q = .ok ((Q1 : ℤ), (Q2 : ℤ)))
    (F : Rat) (avF : Average) (hF : parseT a.F a.Jfr ((a.J + 1) * Q1) = .ok (F, avF))
    (ls lsFr : ℕ) (hlsT : (2 : ℚ) ^ ls ≤ T) (hlsF : (2 : ℚ) ^ lsFr ≤ F) (hQJ2 : Q2 ≤ 2 ^ a.J)
    (hNp : 2 ^ (a.J + 4) ≤ s.base.built.Npadded)
    (x y : List ℝ) (hx : x.length = s.base.built.Npadded) (c : ℤ) (hroll : Spec.IsRoll c x y)
    (hd1 : ∀ f ∈ s.base.psi1, (2 : ℤ) ^ min f.j.toNat ls ∣ c) (hd2 : ∀ f ∈ s.base.psi2, (2 : ℤ) ^ min f.j.toNat ls ∣ c)
    (out : List (JPath (List ℝ) (Img ℝ))) (h : paths npJ (a.obj s Q1) ls lsFr x = .ok out) :
    ∃ out', paths npJ (a.obj s Q1) ls lsFr y = .ok out' ∧
      List.Forall₂ (fun p q => SameLabels p q ∧ Spec.CoefErr (
        if p.n = [] then 0.77 * |(c : ℝ)| / T * Spec.l2 x.length (fun i => x.getD i 0)
        else 0.79 * |(c : ℝ)| / T * Real.sqrt s.base.psi1.length * Spec.avgGain avF 1.001 s.nFr *
          Spec.l2 x.length (fun i => x.getD i 0)) p.coef q.coef) out out' := by
  obtain ⟨-, h2, h3⟩ := sharp_gains hmake hT hlsT hQ hF hlsF hQJ2 hNp
  obtain ⟨d0, d1, -, d3, d4⟩ := obj_dyadic hmake Q1
  obtain ⟨Q, q, F', hbase, hQ', -, hF', haF, -, -⟩ := JArgs.make_eq_ok hmake
  obtain rfl := Except.ok.inj (hQ.symm.trans hQ')
  have hF'' : parseT a.F a.Jfr ((a.J + 1) * Q1) = .ok F' := hF'
  obtain rfl := Except.ok.inj (hF.symm.trans hF'')
  obtain ⟨t, R1, R2, lT, M1, M2, -, -, -, hT', -⟩ := make_filters hbase
  have hav : s.base.average = .loc := (congrArg Prod.snd (Except.ok.inj (hT'.symm.trans hT)))
  have hTR : (2 : ℝ) ^ ls ≤ (T : ℝ) := by exact_mod_cast hlsT
  have hT0 : (0 : ℝ) < T := lt_of_lt_of_le (by positivity) hTR
  set D : ℝ := 0.77 * |(c : ℝ)| / T with hDdef
  have hD0 : 0 ≤ D := by positivity
  have hphi : ShiftPhi x.length ls 1.001 D c (a.obj s Q1).phi.levels := by
    rw [hx]
    exact shiftPhi_of hT0 (make_fromFull hbase hT hQ).1 hTR c
  set r := D / 1.001 with hr
  have hr0 : 0 ≤ r := by positivity
  have hu := fun K : ℕ => shift_paths (δ := rootErr r K) (k := K + 1) (cT := 1.001) (c0 := 1.02) (D := D)
    (M := Spec.anorm x) (W := x.length) (NF := (a.obj s Q1).phiFr.N)
    (rootErr_nonneg hr0 K) (by norm_num) (by rw [rootErr_pow hr0, add_sub_cancel_left, hr]; ring) hD0 (by norm_num)
    (o := a.obj s Q1) hav hphi d0 d1 h2
    (fun f hf => by
      obtain ⟨g, hg, rfl⟩ := List.mem_map.1 hf
      exact hd1 g hg)
    (fun f hf => by
      obtain ⟨g, hg, rfl⟩ := List.mem_map.1 hf
      exact hd2 g hg) d3 d4 (cF := 1.001) (by norm_num) h3 rfl
    (x := x) (y := y) ⟨rollJ_start hroll, le_rfl, SigL.up le_rfl (Nat.zero_le 1) ⟨le_rfl, Near.refl x⟩ |>.2⟩
  obtain ⟨out', h', -⟩ := hu 0 out h
  refine ⟨out', h', forall₂_of_forall (P := fun K => PathC (errOf
    (((1 + rootErr r K) ^ (K + 1 + 2) - 1) * (1.001 * Spec.anorm x))
    (((1 + rootErr r K) ^ (K + 1 + 18 + Spec.avgOps (a.obj s Q1).averageFr) - 1) *
      (Spec.avgGain (a.obj s Q1).averageFr 1.001 (a.obj s Q1).phiFr.N *
        (1.001 * (Real.sqrt (a.obj s Q1).psi1.length * (1.02 * Spec.anorm x)))))))
    (fun p q hpq => ⟨(hpq 0).2, ?_⟩) fun K => ?_⟩
  · obtain ⟨m', hm', h⟩ := hu K out h
    obtain rfl := Except.ok.inj (h'.symm.trans hm')
    exact h
  · have hn0 := anorm_nonneg x
    have hG : 0 ≤ Spec.avgGain avF 1.001 s.nFr := by cases avF <;> unfold Spec.avgGain <;> positivity
    refine coefErr_of_forall (fun e he => ?_) fun K => (hpq K).1
    rw [← anorm_real]
    by_cases hn : p.n = []
    · simp only [if_pos hn] at he ⊢
      refine (lim_bound hr0 he).trans (le_of_eq ?_)
      rw [hr]
      ring
    · simp only [if_neg hn] at he ⊢
      have hb := lim_bound hr0 (c := 18 + Spec.avgOps (a.obj s Q1).averageFr) (e := e)
        (G := Spec.avgGain avF 1.001 s.nFr * (1.001 * (Real.sqrt s.base.psi1.length * (1.02 * Spec.anorm x))))
        fun K => by
          rw [← add_assoc]
          refine (he K).trans (le_of_eq ?_)
          have e1 : (a.obj s Q1).averageFr = avF := haF
          have e2 : (a.obj s Q1).psi1.length = s.base.psi1.length := List.length_map _
          rw [e1, e2]
          rfl
      refine hb.trans ?_
      have e : r * (Spec.avgGain avF 1.001 s.nFr * (1.001 * (Real.sqrt s.base.psi1.length * (1.02 * Spec.anorm x)))) =
          0.7854 * (|(c : ℝ)| / T * Real.sqrt s.base.psi1.length * Spec.avgGain avF 1.001 s.nFr * Spec.anorm x) := by
        rw [hr, hDdef]
        ring
      rw [e]
      have h0 : 0 ≤ |(c : ℝ)| / T * Real.sqrt s.base.psi1.length * Spec.avgGain avF 1.001 s.nFr * Spec.anorm x := by
        positivity
      calc _ ≤ 0.79 * (|(c : ℝ)| / T * Real.sqrt s.base.psi1.length * Spec.avgGain avF 1.001 s.nFr * Spec.anorm x) :=
            mul_le_mul_of_nonneg_right (by norm_num) h0
        _ = _ := by ring

/-- **C129.**  In particular for translations by multiples of `2^(J-1)`. -/
theorem C129_multiple (a : JArgs) (s : ScJ) (hmake : a.make = .ok s) (T : Rat)
    (hT : parseT a.T a.J s.base.built.Ninput = .ok (T, .loc)) (Q1 Q2 : ℕ) (hQ : parseQ a.Q = .ok ((Q1 : ℤ), (Q2 : ℤ)))
    (hQ12 : Q2 ≤ Q1) (F : Rat) (avF : Average) (hF : parseT a.F a.Jfr ((a.J + 1) * Q1) = .ok (F, avF))
    (ls lsFr : ℕ) (hlsT : (2 : ℚ) ^ ls ≤ T) (hlsF : (2 : ℚ) ^ lsFr ≤ F) (hQJ2 : Q2 ≤ 2 ^ a.J)
    (hNp : 2 ^ (a.J + 4) ≤ s.base.built.Npadded)
    (x y : List ℝ) (hx : x.length = s.base.built.Npadded) (c : ℤ) (hroll : Spec.IsRoll c x y)
    (hd : (2 : ℤ) ^ (a.J - 1) ∣ c)
    (out : List (JPath (List ℝ) (Img ℝ))) (h : paths npJ (a.obj s Q1) ls lsFr x = .ok out) :
    ∃ out', paths npJ (a.obj s Q1) ls lsFr y = .ok out' ∧
      List.Forall₂ (fun p q => SameLabels p q ∧ Spec.CoefErr (
        if p.n = [] then 0.77 * |(c : ℝ)| / T * Spec.l2 x.length (fun i => x.getD i 0)
        else 0.79 * |(c : ℝ)| / T * Real.sqrt s.base.psi1.length * Spec.avgGain avF 1.001 s.nFr *
          Spec.l2 x.length (fun i => x.getD i 0)) p.coef q.coef) out out' := by
  obtain ⟨_, _, _, hbase, -⟩ := JArgs.make_eq_ok hmake
  obtain ⟨t, lT, -, -, -, -, -, -, -, f1, f2, -, -, -⟩ := base_facts hbase hQ (by exact_mod_cast hQ12)
  have key : ∀ j : ℤ, j ≤ max ((a.J : ℤ) - 1) 0 → (2 : ℤ) ^ min j.toNat ls ∣ c := fun j hj =>
    (pow_dvd_pow 2 (by omega)).trans hd
  exact C129_shift a s hmake T hT Q1 Q2 hQ F avF hF ls lsFr hlsT hlsF hQJ2 hNp x y hx c hroll
    (fun f hf => key _ (f1 f hf).2.2.2) (fun f hf => key _ (f2 f hf).2.2.1) out h

/-- The hypotheses of `C129_multiple` are met by `TimeFrequencyScattering(J=3, J_fr=2, shape=1000, Q=8, T=512)`, every
signal of that length and the translation by 4 samples. -/
example (x : List ℝ) (hx : x.length = 1000) :
    ∃ s U out out', (⟨3, 2, .int 8, .int (1000 : ℕ), .num (2 ^ 9), none, .int 1, .none, none, .list, .joint⟩ : JArgs).make = .ok s ∧
      npPad x s.base.built.padLeft s.base.built.padRight = .ok U ∧
      paths npJ ((⟨3, 2, .int 8, .int (1000 : ℕ), .num (2 ^ 9), none, .int 1, .none, none, .list, .joint⟩ : JArgs).obj s 8) 9 2 U = .ok out ∧
      paths npJ ((⟨3, 2, .int 8, .int (1000 : ℕ), .num (2 ^ 9), none, .int 1, .none, none, .list, .joint⟩ : JArgs).obj s 8) 9 2
        (tab U.length fun n => U.getD (((n : ℤ) - 4) % U.length).toNat 0) = .ok out' ∧
      List.Forall₂ (fun p q => SameLabels p q ∧ Spec.CoefErr (
        if p.n = [] then 0.77 * |((4 : ℤ) : ℝ)| / ((2 ^ 9 : ℚ) : ℝ) * Spec.l2 U.length (fun i => U.getD i 0)
        else 0.79 * |((4 : ℤ) : ℝ)| / ((2 ^ 9 : ℚ) : ℝ) * Real.sqrt s.base.psi1.length * 1.001 *
          Spec.l2 U.length (fun i => U.getD i 0)) p.coef q.coef) out out' := by
  set a : JArgs := ⟨3, 2, .int 8, .int (1000 : ℕ), .num (2 ^ 9), none, .int 1, .none, none, .list, .joint⟩ with ha
  have hT : parseT a.T a.J 1000 = .ok (2 ^ 9, .loc) := by
    simp only [ha, parseT]
    norm_num
  have hls : log2Stride a.stride a.T a.J 1000 = .ok ((9 : ℕ) : ℤ) := by
    refine (C07_log2_stride_ok _ _ _ _ _).2 (Or.inl ⟨rfl, ?_⟩)
    unfold log2T
    rw [hT]
    show (Except.ok (floorLog2 ((2 : Rat) ^ 9)) : Py ℤ) = _
    rw [floorLog2_twoPow]
  obtain ⟨s, hs, hN, hav, havF, hrun⟩ := C76_no_error a 1000 rfl (by norm_num) (2 ^ 9) .loc hT 8 1 rfl (by norm_num)
    (le_jPad_of_pow (by norm_num) (show 2 ^ 3 ≤ 1000 by norm_num)) 9 hls le_rfl (fun _ => by show 3 ≤ 10; norm_num) 1 rfl
    (2 ^ 2) .loc rfl (by show (2 : ℚ) ^ 2 ≤ 8 * 2 ^ 2; norm_num) (by show (2 : ℚ) ^ 2 < 2 ^ (2 + 1); norm_num) rfl (.inr rfl) (.inl rfl)
  obtain ⟨r, hr⟩ := hrun x hx
  obtain ⟨s', hmake', h'⟩ := bind_eq_ok.1 hr
  obtain rfl := Except.ok.inj (hs.symm.trans hmake')
  obtain ⟨⟨Q1, Q2⟩, hQ, h'⟩ := bind_eq_ok.1 h'
  have hQ8 : (Except.ok ((8 : Int), (1 : Int)) : Py _) = .ok (Q1, Q2) := hQ
  obtain ⟨rfl, rfl⟩ := Prod.mk.inj (Except.ok.inj hQ8)
  obtain ⟨-, P, ⟨U, ls, lsFr, S, h1, h2, h3, h4, -⟩, -⟩ := scattering_eq_ok h'
  obtain ⟨s', hs', -, -, -, hstr⟩ := C76_construction a 1000 rfl (by norm_num) (2 ^ 9) .loc hT 8 1 rfl (by norm_num)
    (le_jPad_of_pow (by norm_num) (show 2 ^ 3 ≤ 1000 by norm_num)) 1 rfl (2 ^ 2) .loc rfl (by rw [floorLog2_twoPow])
  obtain rfl := Except.ok.inj (hs.symm.trans hs')
  have e : ls = ((9 : ℕ) : ℤ) := by
    have h : log2Stride s.base.built.stride a.T a.J s.base.built.Ninput = .ok ls := h2
    rw [hstr, hN] at h
    exact Except.ok.inj (h.symm.trans hls)
  have e' : lsFr = ((2 : ℕ) : ℤ) := by
    refine Except.ok.inj (h3.symm.trans ((C07_log2_stride_ok _ _ _ _ _).2 (Or.inl ⟨rfl, ?_⟩)))
    show (Except.ok (floorLog2 ((2 : Rat) ^ 2)) : Py ℤ) = _
    rw [floorLog2_twoPow]
  subst e e'
  obtain ⟨-, -, -, hb, -⟩ := JArgs.make_eq_ok hs
  obtain ⟨t, lT, -, -, -, k1, -⟩ := make_sizes hb
  have hU : U.length = s.base.built.Npadded := by
    rw [length_npPad (show npPad x s.base.built.padLeft s.base.built.padRight = .ok U from h1), hx, ← k1, hN]
  obtain ⟨out', h5, h6⟩ := C129_multiple a s hs (2 ^ 9) (by rw [hN]; exact hT) 8 1 rfl (by norm_num) (2 ^ 2) .loc rfl 9 2
    le_rfl le_rfl (by norm_num) (by show 2 ^ 7 ≤ _; omega) U _ hU 4 (isRoll_tab U 4) (by show (2 : ℤ) ^ 2 ∣ 4; norm_num) S h4
  exact ⟨s, U, S, out', hs, h1, h4, h5, h6⟩

end Verif
