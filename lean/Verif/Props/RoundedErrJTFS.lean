import Verif.Lemmas.RoundedSimJTFS
import Verif.Props.ObjectJTFS
import Verif.Props.Energy1D
import Verif.Props.InstancesJTFS

/-!
# C126: error of joint time-frequency scattering with rounded operations
-/

namespace Verif

open Finset FrontJ JTFS

namespace Spec

/-- Operations of an average. -/
def avgOps : Average → ℕ
  | .loc => 4
  | .glob => 1
  | .no => 0

/-- Gain of an average over at most `n` samples; `c` bounds the low-pass filter. -/
noncomputable def avgGain (a : Average) (c : ℝ) (n : ℕ) : ℝ :=
  match a with
  | .loc => c
  | .glob => Real.sqrt n
  | .no => 1

/-- Coefficients of the same kind and shape at Euclidean distance at most `E`. -/
def CoefErr (E : ℝ) : JCoef (List ℝ) (Img ℝ) → JCoef (List ℝ) (Img ℝ) → Prop
  | .sig x, .sig y => y.length = x.length ∧ Spec.l2 x.length (fun i => x.getD i 0 - y.getD i 0) ≤ E
  | .stk x, .stk y => y.h = x.h ∧ y.w = x.w ∧ Spec.norm2 x.h x.w (fun i k => x.px i k - y.px i k) ≤ E
  | _, _ => False

end Spec

theorem coefErr_same {E : ℝ} {c d : JCoef (List ℝ) (Img ℝ)} (h : Spec.CoefErr E c d) : Spec.SameCoef c d := by
  cases c <;> cases d
  · exact h.1
  · exact h
  · exact h
  · exact ⟨h.1, h.2.1⟩

theorem Near.coefErr {δ M : ℝ} {k : ℕ} {x y : List ℝ} (h : Near δ k M x y) :
    Spec.CoefErr (((1 + δ) ^ k - 1) * M) (.sig x) (.sig y) :=
  ⟨h.len, by rw [← adist_real]; exact h.dist⟩

theorem Near2.coefErr {δ M : ℝ} {k : ℕ} {x y : Img ℝ} (h : Near2 δ k M x y) :
    Spec.CoefErr (((1 + δ) ^ k - 1) * M) (.stk x) (.stk y) :=
  ⟨h.h, h.w, by rw [← idist_real]; exact h.err.dist⟩

theorem coefErr_unpad {E : ℝ} {c d : JCoef (List ℝ) (Img ℝ)} (h : Spec.CoefErr E c d) (i0 i1 : ℕ) :
    Spec.CoefErr E (unpadCoef npFrontJ i0 i1 c) (unpadCoef npFrontJ i0 i1 d) := by
  cases c with
  | sig x =>
    cases d with
    | stk y => exact h
    | sig y =>
      obtain ⟨hl, he⟩ := h
      refine ⟨?_, ?_⟩
      · change (npUnpad y i0 i1).length = (npUnpad x i0 i1).length
        unfold npUnpad
        rw [List.length_drop, List.length_drop, List.length_take, List.length_take, hl]
      · have := adist_unpad hl i0 i1
        rw [adist_real, adist_real] at this
        exact this.trans he
  | stk x =>
    cases d with
    | sig y => exact h
    | stk y =>
      obtain ⟨hh, hw, he⟩ := h
      refine ⟨hh, ?_, ?_⟩
      · change min i1 y.w - i0 = min i1 x.w - i0
        rw [hw]
      · refine le_trans (le_of_eq ?_) ((norm2_window x.h x.w i0 i1 fun i k => x.px i k - y.px i k).trans he)
        refine norm2_ext (h := x.h) (w := min i1 x.w - i0) fun i hi k hk => ?_
        rw [show (npFrontJ.unpadS x i0 i1).px i k = x.px i (i0 + k) from Img.px_tab' hi hk,
          show (npFrontJ.unpadS y i0 i1).px i k = y.px i (i0 + k) from
            Img.px_tab' (by rw [hh]; exact hi) (by rw [hw]; exact hk)]

/-! ## Levels that are used -/

/-- The levels of a filter up to `K` are bounded by `c`. -/
def LevelsLe (K : ℕ) (c : ℝ) (L : List (List ℝ)) : Prop :=
  ∀ l ≤ K, ∀ y : List ℝ, L[l]? = some y → ∀ m < y.length, |y.getD m 0| ≤ c

/-- The levels of a wavelet used for second-order paths are bounded by `c`. -/
def PsiLe (ls : ℕ) (c : ℝ) (psi : Filt (List ℝ)) : Prop :=
  ∀ l < psi.j, l ≤ ls → ∀ y : List ℝ, psi.levels[l]? = some y → ∀ m < y.length, |y.getD m 0| ≤ c

theorem LevelsLe.mono {K : ℕ} {c d : ℝ} {L : List (List ℝ)} (h : LevelsLe K c L) (hcd : c ≤ d) : LevelsLe K d L :=
  fun l hl y hy m hm => (h l hl y hy m hm).trans hcd

theorem sim_level_le {L : List (List ℝ)} (h : Dyadic L) {K : ℕ} {c : ℝ} (hc : LevelsLe K c L) (l : ℕ) :
    Sim (fun f g => f = g ∧ ∀ m < f.length, |f.getD m 0| ≤ if l ≤ K then c else (2 : ℝ) ^ l)
      (listGet L l) (listGet L l) := fun f hf => ⟨f, hf, rfl, by
  split
  · exact hc l ‹_› f (listGet_eq_ok.1 hf)
  · exact h l f (listGet_eq_ok.1 hf)⟩

theorem ite_pow_nonneg {c : ℝ} (hc : 0 ≤ c) (p : Prop) [Decidable p] (l : ℕ) : 0 ≤ if p then c else (2 : ℝ) ^ l := by
  split
  · exact hc
  · positivity

/-! ## The core -/

section

variable {R : RoundedJ} {N : ℕ} {δ : ℝ} (hδ : 0 ≤ δ) (hR : R.Accurate N δ) {H W NF k : ℕ} (hW : W ≤ N) (hNF : NF ≤ N)
  {M : ℝ}

include hδ hR hW

theorem err_zeroth {phi : Filt (List ℝ)} (hphi : Dyadic phi.levels) (ls : ℕ) (avg : Bool) {x x' : List ℝ}
    (hx : SigL δ W k M x x') {c c' : List ℂ} (hc : SpecL δ W (k + 1) M c c') :
    Sim (SigL δ W (k + if avg then 4 else 0) M) (zeroth RoundedJ.exact.backend phi ls avg x c)
      (zeroth R.backend phi ls avg x' c') := by
  unfold zeroth
  cases avg with
  | false => exact Sim.ok hx
  | true =>
    refine Sim.bind (sim_level hphi 0) ?_
    rintro f _ ⟨rfl, hf⟩
    refine Sim.bind (sim_mulL hδ hR hW (by positivity) hf hc) fun c d hc => ?_
    refine Sim.bind (sim_meanL hδ hR hW ls hc) fun c d hc => ?_
    have := sigL_irfft hδ hR hW hc.1
    rw [pow_zero, one_mul] at this
    exact Sim.ok this

theorem err_first {phi psi : Filt (List ℝ)} (hphi : Dyadic phi.levels) (hpsi : Dyadic psi.levels) {ls : ℕ} {c0 : ℝ}
    (hc0 : 0 ≤ c0) (hphiT : LevelsLe ls c0 phi.levels) (avg : Bool) {c c' : List ℂ} (hc : SpecL δ W (k + 1) M c c') :
    Sim (fun a b => SpecL δ W (k + 6) M a.1 b.1 ∧ SigL δ W (k + 9) (c0 * M) a.2 b.2 ∧ sub1 ls avg psi.j ≤ ls)
      (first RoundedJ.exact.backend phi ls avg c psi) (first R.backend phi ls avg c' psi) := by
  unfold first
  refine Sim.bind (sim_level hpsi 0) ?_
  rintro f _ ⟨rfl, hf⟩
  refine Sim.bind (sim_mulL hδ hR hW (by positivity) hf hc) fun c d hc => ?_
  refine Sim.bind (sim_meanL hδ hR hW _ hc) fun c d hc => ?_
  rw [pow_zero, one_mul] at hc
  have h4 := sigL_ifft hδ hR hW hc.1
  have h5 := sigL_modulus hδ hR hW h4
  have h6 := specL_rfft hδ hR hW h5
  refine Sim.bind (Sim.ok h4) fun c d hc => ?_
  refine Sim.bind (Sim.ok (sigL_modulus hδ hR hW hc)) fun x y hx => ?_
  refine Sim.bind (Sim.ok (specL_rfft hδ hR hW hx)) fun u v hu => ?_
  refine Sim.bind (sim_level_le hphi hphiT _) ?_
  rintro g _ ⟨rfl, hg⟩
  refine Sim.bind (sim_mulL hδ hR hW (ite_pow_nonneg hc0 _ _) hg hu) fun c d hc => ?_
  refine Sim.bind (sim_meanL hδ hR hW _ hc) fun c d hc => ?_
  have hle : sub1 ls avg psi.j ≤ ls := by have := hc.2; omega
  have h2 : (if sub1 ls avg psi.j ≤ ls then c0 else (2 : ℝ) ^ sub1 ls avg psi.j) * M ≤ c0 * M := by rw [if_pos hle]
  refine Sim.bind (Sim.ok (sigL_irfft hδ hR hW (hc.1.le hδ h2))) fun x y hx => ?_
  exact Sim.ok ⟨hu, hx, hle⟩

theorem err_second {psi : Filt (List ℝ)} {ls : ℕ} {c0 : ℝ} (hc0 : 0 ≤ c0) (hpsi : PsiLe ls c0 psi) (avg : Bool)
    {u v : ℕ × List ℂ}
    (hu : (u.1 = v.1 ∧ SpecL δ W (k + 6) M u.2 v.2 ∧ sub1 ls avg u.1 ≤ ls) ∧ u.1 < psi.j) :
    Sim (SigL δ W (k + 9) (c0 * M)) (second RoundedJ.exact.backend ls avg psi u) (second R.backend ls avg psi v) := by
  obtain ⟨⟨h1, h2, h3⟩, h4⟩ := hu
  unfold second
  rw [← h1]
  have h5 : sub1 ls avg u.1 ≤ u.1 := by
    unfold sub1
    split
    · exact min_le_left _ _
    · exact le_rfl
  refine Sim.bind (R := fun f g => f = g ∧ ∀ m < f.length, |f.getD m 0| ≤ c0) (fun f hf => ⟨f, hf, rfl,
    hpsi _ (by omega) h3 f (listGet_eq_ok.1 hf)⟩) ?_
  rintro f _ ⟨rfl, hf⟩
  refine Sim.bind (sim_mulL hδ hR hW hc0 hf h2) fun c d hc => ?_
  refine Sim.bind (sim_meanL hδ hR hW _ hc) fun c d hc => ?_
  exact Sim.ok (sigL_ifft hδ hR hW hc.1)

end

/-- Stacks with the same labels: as many rows as `n1_max`, at least one. -/
def TNear {E : Type} [NormedAddCommGroup E] (δ : ℝ) (k W : ℕ) (M : ℝ) (p q : TPath (Img E)) : Prop :=
  (p.coef.h = p.n1Max ∧ 0 < p.n1Max ∧ p.coef.w ≤ W ∧ Near2 δ (k + 9) M p.coef q.coef) ∧ p.j = q.j ∧ p.n = q.n ∧
    p.n1Max = q.n1Max

/-- Stacks of signals. -/
theorem err_stack {E : Type} [NormedAddCommGroup E] {δ : ℝ} (hδ : 0 ≤ δ) {k n1 W : ℕ} {M : ℝ} {l m : List (List E)}
    (h : List.Forall₂ (SigL δ W (k + 9) M) l m) (hn : l.length ≤ n1) (hM : 0 ≤ M) :
    Sim (fun Y Y' : Img E => Y.h = l.length ∧ 0 < l.length ∧ Y.w ≤ W ∧ Near2 δ (k + 9) (Real.sqrt n1 * M) Y Y')
      (stackImg l) (stackImg m) := by
  intro y hy
  obtain ⟨h1, h2, y', h3, h4⟩ := Near2.stack hδ hM (h.imp fun a b hab => hab.2) hn hy
  have hne := (Is.stack hy).1
  refine ⟨y', h3, h1, List.length_pos_of_ne_nil hne, ?_, h4⟩
  cases h with
  | nil => exact absurd rfl hne
  | @cons a b l m hab _ =>
    rw [← h2 a List.mem_cons_self]
    exact hab.1

section

variable {R : RoundedJ} {N : ℕ} {δ : ℝ} (hδ : 0 ≤ δ) (hR : R.Accurate N δ) {H W NF k n1 : ℕ} (hW : W ≤ N) (hNF : NF ≤ N)
  {M : ℝ}

include hδ hR hW

theorem err_stack2 {psi : Filt (List ℝ)} {ls : ℕ} {c0 : ℝ} (hc0 : 0 ≤ c0) (hpsi : PsiLe ls c0 psi) (avg : Bool) {us vs : List (ℕ × List ℂ)}
    (hM : 0 ≤ M) (hus : List.Forall₂ (fun u v => u.1 = v.1 ∧ SpecL δ W (k + 6) M u.2 v.2 ∧ sub1 ls avg u.1 ≤ ls) us vs)
    (hn : us.length ≤ n1) (n : ℕ) :
    Sim (List.Forall₂ fun p q => TNear δ k W (Real.sqrt n1 * (c0 * M)) p q ∧ ∃ j : ℕ, p.j = [-1, (j : ℤ)])
      (stack2 RoundedJ.exact.backend ls avg us psi n) (stack2 R.backend ls avg vs psi n) := by
  unfold stack2
  have hf := forall₂_imp_mem (JTFS.forall₂_filter hus (p := fun u => decide (psi.j > u.1))
    (q := fun u => decide (psi.j > u.1)) fun a b hab => by rw [hab.1])
    (Q := fun u v => (u.1 = v.1 ∧ SpecL δ W (k + 6) M u.2 v.2 ∧ sub1 ls avg u.1 ≤ ls) ∧ u.1 < psi.j)
    fun a ha b _ hab => ⟨hab, of_decide_eq_true (List.mem_filter.1 ha).2⟩
  intro z hz
  obtain ⟨ys, h1, h2⟩ := bind_eq_ok.1 hz
  obtain ⟨ys', h1', hy⟩ := Front1D.sim_mapM (fun a b hab => err_second hδ hR hW hc0 hpsi avg hab) hf _ h1
  rw [h1', pyOk_bind]
  have hlen : ys.length ≤ n1 := by
    rw [← (mapM_eq_ok.1 h1).length_eq]
    exact (List.length_filter_le _ _).trans hn
  have hyl := hy.length_eq
  rw [← hyl]
  by_cases hc : ys.length > 0
  · rw [if_pos hc] at h2 ⊢
    refine Sim.bind (err_stack hδ hy hlen (by positivity)) (fun Y Y' hY => ?_) z h2
    exact Sim.ok (List.Forall₂.cons ⟨⟨hY, rfl, rfl, rfl⟩, _, rfl⟩ List.Forall₂.nil)
  · rw [if_neg hc] at h2 ⊢
    exact Sim.ok List.Forall₂.nil z h2

theorem err_widthFirst {phi : Filt (List ℝ)} {psi1 psi2 : List (Filt (List ℝ))} (hphi : Dyadic phi.levels)
    {ls : ℕ} {c0 : ℝ}
    (hc0 : 0 ≤ c0) (hphiT : LevelsLe ls c0 phi.levels) (h1 : ∀ f ∈ psi1, Dyadic f.levels)
    (h2 : ∀ f ∈ psi2, PsiLe ls c0 f) (avg : Bool) {x x' : List ℝ}
    (hx : SigL δ W k M x x') :
    Sim (fun a b => SigL δ W (k + if avg then 4 else 0) M a.1 b.1 ∧
      TNear δ k W (Real.sqrt psi1.length * (c0 * M)) a.2.1 b.2.1 ∧ a.2.1.n = [-1] ∧
      List.Forall₂ (fun p q => TNear δ k W (Real.sqrt psi1.length * (c0 * M)) p q ∧ ∃ j : ℕ, p.j = [-1, (j : ℤ)])
        a.2.2 b.2.2)
      (widthFirst RoundedJ.exact.backend x phi psi1 psi2 ls avg) (widthFirst R.backend x' phi psi1 psi2 ls avg) := by
  have hM : 0 ≤ M := hx.2.nonneg
  unfold widthFirst
  refine Sim.bind (Sim.ok (specL_rfft hδ hR hW hx)) fun c d hc => ?_
  refine Sim.bind (err_zeroth hδ hR hW hphi ls avg hx hc) fun s t hs => ?_
  have hself : ∀ {P : Filt (List ℝ) → Prop} (l : List (Filt (List ℝ))), (∀ f ∈ l, P f) →
      List.Forall₂ (fun f g => f = g ∧ P f) l l := fun l hl => List.forall₂_same.2 fun f hf => ⟨rfl, hl f hf⟩
  refine Sim.bind (R := fun l m => List.Forall₂ (fun a b => SpecL δ W (k + 6) M a.1 b.1 ∧ SigL δ W (k + 9) (c0 * M) a.2 b.2) l m ∧
      List.Forall₂ (fun (p : Filt (List ℝ)) (_ : List ℂ × List ℝ) => sub1 ls avg p.j ≤ ls) psi1 l)
    (fun l hl => ?_) ?_
  · have hl' := mapM_eq_ok.1 hl
    obtain ⟨m, hm, hlm⟩ := Front1D.sim_mapM (R := fun f g => f = g ∧ Dyadic f.levels)
      (P := fun a b => SpecL δ W (k + 6) M a.1 b.1 ∧ SigL δ W (k + 9) (c0 * M) a.2 b.2) (g := first R.backend phi ls avg d)
      (fun a b hab => by
        obtain ⟨rfl, ha⟩ := hab
        exact (err_first hδ hR hW hphi ha hc0 hphiT avg hc).mono fun _ _ h => ⟨h.1, h.2.1⟩) (hself psi1 h1) _ hl
    refine ⟨m, hm, hlm, ?_⟩
    refine forall₂_imp_mem hl' fun p hp r _ hpr => ?_
    obtain ⟨_, -, h⟩ := err_first hδ hR hW hphi (h1 p hp) hc0 hphiT avg hc r hpr
    exact h.2.2
  rintro l m ⟨hlm, hls⟩
  have hlen : l.length = psi1.length := hls.length_eq.symm
  refine Sim.bind (err_stack hδ (k := k) (n1 := psi1.length) (W := W) (M := c0 * M) (l := l.map Prod.snd) (m := m.map Prod.snd) ?_ ?_ (by positivity))
    fun Y Y' hY => ?_
  · rw [List.forall₂_map_left_iff, List.forall₂_map_right_iff]
    exact hlm.imp fun _ _ h => h.2
  · rw [List.length_map, hlen]
  have hus : List.Forall₂ (fun u v => u.1 = v.1 ∧ SpecL δ W (k + 6) M u.2 v.2 ∧ sub1 ls avg u.1 ≤ ls)
      (List.zip (psi1.map fun p => p.j) (l.map Prod.fst)) (List.zip (psi1.map fun p => p.j) (m.map Prod.fst)) := by
    refine forall₂_imp_mem (forall₂_zip (R := fun a b => a = b) (P := SpecL δ W (k + 6) M) (List.forall₂_same.2 fun _ _ => rfl)
      (m := psi1.map fun p => p.j) (l' := l.map Prod.fst) (m' := m.map Prod.fst) ?_) ?_
    · rw [List.forall₂_map_left_iff, List.forall₂_map_right_iff]
      exact hlm.imp fun _ _ h => h.1
    · intro a ha b _ hab
      refine ⟨hab.1, hab.2, ?_⟩
      obtain ⟨p, hp, e⟩ := List.mem_map.1 (List.of_mem_zip ha).1
      rw [← e]
      exact (forall₂_mem_left hls hp).elim fun r hr => hr.2
  refine Sim.bind (Core1D.sim_forEnum (R := fun f g => f = g ∧ PsiLe ls c0 f) (fun a b n hab => by
    obtain ⟨rfl, ha⟩ := hab
    refine err_stack2 hδ hR hW hc0 ha avg hM hus (n1 := psi1.length) ?_ n
    rw [List.length_zip, List.length_map]
    exact Nat.min_le_left _ _) (hself psi2 h2) 0) fun p q hpq => ?_
  refine Sim.ok ⟨hs, ⟨⟨?_, ?_, hY.2.2⟩, rfl, rfl, hlm.length_eq⟩, rfl, hpq⟩
  · rw [hY.1, List.length_map]
  · have := hY.2.1
    rwa [List.length_map] at this

end

/-- Paths of `frequency_scattering`. -/
def FNear (δ : ℝ) (k NF W : ℕ) (M : ℝ) (p q : FPath (Img ℂ)) : Prop :=
  SigS δ NF W (k + 13) M p.coef q.coef ∧ (p.j = q.j ∧ p.n = q.n ∧ p.n1Max = q.n1Max ∧ p.jFr = q.jFr ∧ p.nFr = q.nFr ∧
    p.n1Stride = q.n1Stride ∧ p.spin = q.spin) ∧ p.n ≠ [] ∧ (p.n.length > 1 → ∃ j : ℕ, p.j.getLast? = some (j : ℤ)) ∧
    1 ≤ NF

section

variable {R : RoundedJ} {N : ℕ} {δ : ℝ} (hδ : 0 ≤ δ) (hR : R.Accurate N δ) {W NF k n1 : ℕ} (hW : W ≤ N) (hNF : NF ≤ N)
  {M : ℝ}

include hδ hR hNF

theorem err_frBody (lsFr : ℕ) (avgFr : Bool) {j n : List Int} (m : ℕ)
    (hj : n.tail.length ≥ 1 → ∃ i : ℕ, j.getLast? = some (i : ℤ)) (h1 : 1 ≤ NF) {c d : Img ℂ} (hc : SpecS δ W NF (k + 10) M c d)
    {psi : FiltFr (List ℝ)} (hpsi : Dyadic psi.levels) (i : ℕ) :
    Sim (List.Forall₂ (FNear δ k NF W M)) (frBody RoundedJ.exact.backend lsFr avgFr j n m c psi i)
      (frBody R.backend lsFr avgFr j n m d psi i) := by
  unfold frBody
  refine Sim.bind (sim_level hpsi 0) ?_
  rintro f _ ⟨rfl, hf⟩
  refine Sim.bind (sim_mulS hδ hR hNF (by positivity) hf hc) fun c d hc => ?_
  refine Sim.bind (sim_meanS hδ hR hNF _ hc) fun c d hc => ?_
  rw [pow_zero, one_mul] at hc
  refine Sim.bind (Sim.ok (sigS_ifft hδ hR hNF hc.1)) fun c d hc => ?_
  refine Sim.bind (R := SigS δ NF W (k + 13) M) (Sim.ok ⟨hc.2.1, hc.1, hc.2.2.swap⟩) fun c d hc => ?_
  refine Sim.ok (List.Forall₂.cons ⟨hc, ⟨rfl, rfl, rfl, rfl, rfl, rfl, rfl⟩, by simp, fun hl => hj ?_, h1⟩ List.Forall₂.nil)
  simp only [List.length_append, List.length_singleton] at hl
  omega

omit hδ hR hNF in
/-- Transposition and padding of the frequency axis. -/
theorem err_padFr {E : Type} [NormedAddCommGroup E] {X Y : TPath (Img E)} (hX : TNear δ k W M X Y) :
    Sim (fun y y' : Img E => SigS δ W NF (k + 9) M y y' ∧ 1 ≤ NF) (padFrequencyImg X.coef.swap ((NF : ℤ) - X.n1Max))
      (padFrequencyImg Y.coef.swap ((NF : ℤ) - X.n1Max)) := by
  obtain ⟨⟨hh, h0, hw, h⟩, -⟩ := hX
  intro y hy
  obtain ⟨hp, e1, e2, y', hy', hn⟩ := h.swap.pad hy
  have e3 : X.coef.swap.w = X.coef.h := rfl
  have e4 : X.coef.swap.h = X.coef.w := rfl
  exact ⟨y', hy', ⟨by omega, by omega, hn⟩, by omega⟩

theorem err_frequencyReal {phi : PhiFr (List ℝ)} (hphiN : phi.N = NF) {psis : List (FiltFr (List ℝ))}
    (hpsis : ∀ f ∈ psis, Dyadic f.levels) (lsFr : ℕ) (avgFr : Bool) {X Y : TPath (Img ℝ)} (hX : TNear δ k W M X Y)
    (hn : X.n.tail.length ≥ 1 → ∃ i : ℕ, X.j.getLast? = some (i : ℤ)) :
    Sim (List.Forall₂ (FNear δ k NF W M)) (frequencyReal RoundedJ.exact.backend phi psis lsFr avgFr X)
      (frequencyReal R.backend phi psis lsFr avgFr Y) := by
  unfold frequencyReal
  rw [← hX.2.1, ← hX.2.2.1, ← hX.2.2.2, hphiN]
  refine Sim.bind (R := fun c d => c = X.coef.swap ∧ d = Y.coef.swap) (Sim.ok ⟨rfl, rfl⟩) ?_
  rintro _ _ ⟨rfl, rfl⟩
  refine Sim.bind (err_padFr hX) fun c d hc => ?_
  refine Sim.bind (Sim.ok (specS_rfft hδ hR hNF hc.1)) fun u v hu => ?_
  refine Core1D.sim_forEnum (R := fun f g => f = g ∧ Dyadic f.levels) (fun a b n hab => ?_)
    (List.forall₂_same.2 fun f hf => ⟨rfl, hpsis f (List.mem_of_mem_filter hf)⟩) 0
  obtain ⟨rfl, ha⟩ := hab
  exact err_frBody hδ hR hNF lsFr avgFr _ hn hc.2 hu ha n

theorem err_frequencyComplex {phi : PhiFr (List ℝ)} (hphiN : phi.N = NF) {psis : List (FiltFr (List ℝ))}
    (hpsis : ∀ f ∈ psis, Dyadic f.levels) (lsFr : ℕ) (avgFr : Bool) {X Y : TPath (Img ℂ)} (hX : TNear δ k W M X Y)
    (hn : X.n.tail.length ≥ 1 → ∃ i : ℕ, X.j.getLast? = some (i : ℤ)) :
    Sim (List.Forall₂ (FNear δ k NF W M)) (frequencyComplex RoundedJ.exact.backend phi psis lsFr avgFr X)
      (frequencyComplex R.backend phi psis lsFr avgFr Y) := by
  unfold frequencyComplex
  rw [← hX.2.1, ← hX.2.2.1, ← hX.2.2.2, hphiN]
  refine Sim.bind (R := fun c d => c = X.coef.swap ∧ d = Y.coef.swap) (Sim.ok ⟨rfl, rfl⟩) ?_
  rintro _ _ ⟨rfl, rfl⟩
  refine Sim.bind (err_padFr hX) fun c d hc => ?_
  refine Sim.bind (Sim.ok (specS_cfft hδ hR hNF hc.1)) fun u v hu => ?_
  refine Core1D.sim_forEnum (R := fun f g => f = g ∧ Dyadic f.levels) (fun a b n hab => ?_)
    (List.forall₂_same.2 fun f hf => ⟨rfl, hpsis f hf⟩) 0
  obtain ⟨rfl, ha⟩ := hab
  exact err_frBody hδ hR hNF lsFr avgFr _ hn hc.2 hu ha n

include hW

theorem err_joint {o : JObj (List ℝ)} (hphi : Dyadic o.phi.levels) {ls : ℕ} {c0 : ℝ} (hc0 : 0 ≤ c0)
    (hphiT : LevelsLe ls c0 o.phi.levels) (h1 : ∀ f ∈ o.psi1, Dyadic f.levels)
    (h2 : ∀ f ∈ o.psi2, PsiLe ls c0 f) (hpsis : ∀ f ∈ o.psisFr, Dyadic f.levels) (hphiN : o.phiFr.N = NF)
    (lsFr : ℕ) (avg avgFr : Bool) {x x' : List ℝ} (hx : SigL δ W k M x x') :
    Sim (fun a b => SigL δ W (k + if avg then 4 else 0) M a.1 b.1 ∧
      List.Forall₂ (FNear δ k NF W (Real.sqrt o.psi1.length * (c0 * M))) a.2 b.2)
      (joint RoundedJ.exact.backend x o.phi o.psi1 o.psi2 ls avg o.phiFr o.psisFr lsFr avgFr)
      (joint R.backend x' o.phi o.psi1 o.psi2 ls avg o.phiFr o.psisFr lsFr avgFr) := by
  unfold joint
  refine Sim.bind (err_widthFirst hδ hR hW hphi hc0 hphiT h1 h2 avg hx) fun t u htu => ?_
  refine Sim.bind (err_frequencyReal hδ hR hNF hphiN hpsis lsFr avgFr htu.2.1 (fun h => by
    rw [htu.2.2.1] at h
    simp at h)) fun p q hpq => ?_
  refine Sim.bind (Front1D.sim_mapM (fun a b hab => err_frequencyComplex hδ hR hNF hphiN hpsis lsFr avgFr hab.1
    (fun _ => by
      obtain ⟨j, hj⟩ := hab.2
      exact ⟨j, by rw [hj]; rfl⟩)) htu.2.2.2) fun l m hlm => ?_
  exact Sim.ok ⟨htu.1, List.rel_append hpq (List.rel_flatten hlm)⟩

/-! ## Averaging -/

omit hNF in
theorem err_averageTime {phi : Filt (List ℝ)} (hphi : Dyadic phi.levels) {ls : ℕ} {cT : ℝ} (hcT : 1 ≤ cT)
    (hphiT : LevelsLe ls cT phi.levels) (av : Average) {p q : FPath (Img ℂ)}
    {M' : ℝ} (hpq : FNear δ k NF W M' p q) {U V : Img ℝ} (h : SigS δ NF W (k + 14) M U V) :
    Sim (fun a b => a.h ≤ NF ∧ Near2 δ (k + 14 + Spec.avgOps av) (Spec.avgGain av cT W * M) a b)
      (averageTime RoundedJ.exact.backend phi ls av p U) (averageTime R.backend phi ls av q V) := by
  have hM := h.2.2.err.nonneg
  have hid : av ≠ .glob → Near2 δ (k + 14 + Spec.avgOps av) (Spec.avgGain av cT W * M) U V := fun hg => by
    refine h.2.2.mono hδ (Nat.le_add_right _ _) ?_
    refine le_mul_of_one_le_left hM ?_
    cases av with
    | loc => exact hcT
    | glob => exact absurd rfl hg
    | no => exact le_rfl
  obtain ⟨-, ⟨e1, e2, -⟩, -, hj, -⟩ := hpq
  unfold averageTime
  rw [← e1, ← e2]
  split
  · rename_i hg
    subst hg
    have := sigS_sum hδ hR hW h
    exact Sim.ok ⟨this.1, this.2.2⟩
  · rename_i hg
    split
    · rename_i hl
      obtain ⟨rfl, hl⟩ := hl
      obtain ⟨j, hj⟩ := hj hl
      unfold timeAveraging
      rw [hj]
      refine Sim.bind (Sim.ok (specS_rfft hδ hR hW h)) fun c d hc => ?_
      refine Sim.bind (R := fun f g => f = g ∧ ∀ m < f.length, |f.getD m 0| ≤ if j ≤ ls then cT else (2 : ℝ) ^ j) ?_ ?_
      · change Sim _ (listGetI phi.levels (j : ℤ)) (listGetI phi.levels (j : ℤ))
        unfold listGetI
        rw [if_pos (Int.natCast_nonneg j), Int.toNat_natCast]
        exact sim_level_le hphi hphiT j
      rintro f _ ⟨rfl, hf⟩
      refine Sim.bind (sim_mulS hδ hR hW (ite_pow_nonneg (by linarith) _ _) hf hc) fun c d hc => ?_
      refine Sim.bind (sim_meanS hδ hR hW _ hc) fun c d hc => ?_
      have hle : j ≤ ls := by have := hc.2; omega
      rw [if_pos hle] at hc
      have := sigS_irfft hδ hR hW hc.1
      exact Sim.ok ⟨this.1, this.2.2⟩
    · exact Sim.ok ⟨h.1, hid hg⟩

omit hW in
theorem err_averageFreq {phi : PhiFr (List ℝ)} (hphi : Dyadic phi.levels) {lsFr : ℕ} {cF : ℝ} (hcF : 1 ≤ cF)
    (hphiF : LevelsLe lsFr cF phi.levels) (av : Average) {p q : FPath (Img ℂ)}
    {M' : ℝ} {k0 : ℕ} (hpq : FNear δ k0 NF W M' p q) {k : ℕ} {U V : Img ℝ} (h : U.h ≤ NF ∧ Near2 δ k M U V) :
    Sim (fun a b => Near2 δ (k + Spec.avgOps av) (Spec.avgGain av cF NF * M) a.1 b.1 ∧ a.2 = b.2)
      (averageFreq RoundedJ.exact.backend phi lsFr av p U) (averageFreq R.backend phi lsFr av q V) := by
  have hM := h.2.err.nonneg
  obtain ⟨-, ⟨-, -, e3, e4, -, e6, e7⟩, -, -, h1⟩ := hpq
  have hid : Near2 δ (k + Spec.avgOps av) (Spec.avgGain av cF NF * M) U V := by
    refine h.2.mono hδ (Nat.le_add_right _ _) ?_
    refine le_mul_of_one_le_left hM ?_
    cases av with
    | loc => exact hcF
    | glob => exact Real.one_le_sqrt.2 (by exact_mod_cast h1)
    | no => exact le_rfl
  have hs : SigS δ U.w NF k M U.swap V.swap := ⟨le_rfl, h.1, h.2.swap⟩
  unfold averageFreq
  rw [← e3, ← e4, ← e6, ← e7]
  split
  · rename_i hav
    unfold frequencyAveraging
    refine Sim.bind (R := SigS δ U.w NF k M) (Sim.ok hs) fun c d hc => ?_
    cases av with
    | no => exact absurd rfl hav.1
    | glob =>
      refine Sim.bind (Sim.ok (sigS_sum hδ hR hNF hc)) fun c d hc => ?_
      refine Sim.bind (R := Near2 δ (k + 1) (Real.sqrt NF * M)) (Sim.ok hc.2.2.swap) fun c d hc => ?_
      exact Sim.ok ⟨hc, rfl⟩
    | loc =>
      refine Sim.bind (Sim.ok (specS_rfft hδ hR hNF hc)) fun c d hc => ?_
      refine Sim.bind (sim_level_le hphi hphiF _) ?_
      rintro f _ ⟨rfl, hf⟩
      refine Sim.bind (sim_mulS hδ hR hNF (ite_pow_nonneg (by linarith) _ _) hf hc) fun c d hc => ?_
      refine Sim.bind (sim_meanS hδ hR hNF _ hc) fun c d hc => ?_
      have hle : min p.jFr phi.j ≤ lsFr := by have := hc.2; omega
      rw [if_pos hle] at hc
      refine Sim.bind (Sim.ok (sigS_irfft hδ hR hNF hc.1)) fun c d hc => ?_
      refine Sim.bind (R := Near2 δ (k + 4) (cF * M)) (Sim.ok hc.2.2.swap) fun c d hc => ?_
      exact Sim.ok ⟨hc, rfl⟩
  · exact Sim.ok ⟨hid, rfl⟩

end

/-- Paths whose error depends on whether their order is zero. -/
def errOf (E0 E : ℝ) (n : List Int) (c d : JCoef (List ℝ) (Img ℝ)) : Prop := Spec.CoefErr (if n = [] then E0 else E) c d

theorem err_split {δ M : ℝ} {k : ℕ} {x y : Img ℝ} (h : Near2 δ k M x y) :
    List.Forall₂ (Near δ k M) (splitImg x) (splitImg y) := by
  unfold splitImg
  have e : y.h = x.h := h.h
  unfold tab
  rw [e, List.forall₂_map_left_iff, List.forall₂_map_right_iff]
  exact List.forall₂_same.2 fun i hi => h.row (List.mem_range.1 hi)

section

variable {R : RoundedJ} {N : ℕ} {δ : ℝ} (hδ : 0 ≤ δ) (hR : R.Accurate N δ) {W NF k n1 : ℕ} (hW : W ≤ N) (hNF : NF ≤ N)
  {M : ℝ}

theorem err_format (fmt : Format) {k : ℕ} {p q : FPath (Img ℝ)} (h : Near2 δ k M p.coef q.coef)
    (hl : p.j = q.j ∧ p.n = q.n ∧ p.n1Max = q.n1Max ∧ p.jFr = q.jFr ∧ p.nFr = q.nFr ∧ p.n1Stride = q.n1Stride ∧
      p.spin = q.spin) (hn : p.n ≠ []) (E0 : ℝ) :
    Sim (List.Forall₂ (PathC (errOf E0 (((1 + δ) ^ k - 1) * M)))) (formatPath RoundedJ.exact.backend fmt p)
      (formatPath R.backend fmt q) := by
  obtain ⟨e1, e2, e3, e4, e5, e6, e7⟩ := hl
  unfold formatPath
  cases fmt with
  | joint =>
    rw [← e1, ← e2, ← e3, ← e4, ← e5, ← e6, ← e7]
    refine Sim.ok (List.Forall₂.cons ⟨?_, rfl, rfl, rfl, rfl, rfl⟩ List.Forall₂.nil)
    unfold errOf
    rw [if_neg hn]
    exact h.coefErr
  | other => exact Sim.ok List.Forall₂.nil
  | time =>
    show Sim _ (timeFormatting RoundedJ.exact.backend p) (timeFormatting R.backend q)
    unfold timeFormatting
    rw [← e1, ← e2, ← e3, ← e4, ← e5, ← e6, ← e7]
    refine Sim.bind (Sim.ok (err_split h)) fun l m hlm => ?_
    refine Core1D.sim_forEnum (R := Eq) ?_ (List.forall₂_same.2 fun _ _ => rfl) 0
    rintro n1 _ i rfl
    refine Sim.bind (sim_listGet' hlm i) fun x y hxy => ?_
    refine Sim.ok (List.Forall₂.cons ⟨?_, rfl, rfl, rfl, rfl, rfl⟩ List.Forall₂.nil)
    unfold errOf
    rw [if_neg (List.cons_ne_nil _ _)]
    exact hxy.coefErr

include hδ hR hW hNF

theorem err_averageBody {phi : Filt (List ℝ)} (hphi : Dyadic phi.levels) {ls : ℕ} {cT : ℝ} (hcT : 1 ≤ cT)
    (hphiT : LevelsLe ls cT phi.levels) (av : Average) {phiFr : PhiFr (List ℝ)}
    (hphiFr : Dyadic phiFr.levels) {lsFr : ℕ} {cF : ℝ} (hcF : 1 ≤ cF) (hphiF : LevelsLe lsFr cF phiFr.levels) (avF : Average) (arr : Bool) (fmt : Format) {p q : FPath (Img ℂ)}
    (h : FNear δ k NF W M p q) (E0 : ℝ) :
    Sim (List.Forall₂ (PathC (errOf E0 (((1 + δ) ^ (k + 14 + Spec.avgOps av + Spec.avgOps avF) - 1) *
        (Spec.avgGain avF cF NF * (Spec.avgGain av cT W * M))))))
      (averageBody RoundedJ.exact.backend phi ls av phiFr lsFr avF arr fmt p)
      (averageBody R.backend phi ls av phiFr lsFr avF arr fmt q) := by
  unfold averageBody
  refine Sim.bind (Sim.ok (sigS_modulus hδ hR hW h.1)) fun U V hU => ?_
  refine Sim.bind (err_averageTime hδ hR hW hphi hcT hphiT av h hU) fun U V hU => ?_
  refine Sim.bind (err_averageFreq hδ hR hNF hphiFr hcF hphiF avF h hU) fun U V hU => ?_
  obtain ⟨-, ⟨e1, e2, e3, e4, e5, e6, e7⟩, hn, -, -⟩ := h
  rw [← e3, ← hU.2]
  refine Sim.bind (R := Near2 δ (k + 14 + Spec.avgOps av + Spec.avgOps avF)
    (Spec.avgGain avF cF NF * (Spec.avgGain av cT W * M))) ?_ fun c d hc => ?_
  · unfold unpadFr
    split
    · exact fun y hy => hU.1.unpadFrequency hδ hy
    · exact Sim.ok hU.1
  · exact err_format fmt (p := ⟨c, p.j, p.n, p.n1Max, p.jFr, p.nFr, U.2, p.spin⟩)
      (q := ⟨d, q.j, q.n, p.n1Max, q.jFr, q.nFr, U.2, q.spin⟩) hc ⟨e1, e2, rfl, e4, e5, rfl, e7⟩ hn E0

theorem err_paths {o : JObj (List ℝ)} {ls lsFr : ℕ} {c0 cT cF : ℝ} (hcT : 1 ≤ cT) (hc0 : cT ≤ c0) (hcF : 1 ≤ cF)
    (hphi : Dyadic o.phi.levels) (hphiT : LevelsLe ls cT o.phi.levels) (h1 : ∀ f ∈ o.psi1, Dyadic f.levels)
    (h2 : ∀ f ∈ o.psi2, PsiLe ls c0 f) (hphiF : LevelsLe lsFr cF o.phiFr.levels) (hpsis : ∀ f ∈ o.psisFr, Dyadic f.levels) (hphiFr : Dyadic o.phiFr.levels)
    (hphiN : o.phiFr.N = NF) {x x' : List ℝ} (hx : SigL δ W k M x x') :
    Sim (List.Forall₂ (PathC (errOf (((1 + δ) ^ (k + Spec.avgOps o.average) - 1) * (Spec.avgGain o.average 1 W * M))
        (((1 + δ) ^ (k + 14 + Spec.avgOps o.average + Spec.avgOps o.averageFr) - 1) *
          (Spec.avgGain o.averageFr cF NF * (Spec.avgGain o.average cT W *
            (Real.sqrt o.psi1.length * (c0 * M))))))))
      (paths RoundedJ.exact.backend o ls lsFr x) (paths R.backend o ls lsFr x') := by
  unfold paths
  refine Sim.bind (err_joint hδ hR hW hNF hphi (by linarith) (hphiT.mono hc0) h1 h2 hpsis hphiN lsFr _ _ hx) fun g g' hg => ?_
  unfold averageAndFormat
  refine Sim.bind (R := Near δ (k + Spec.avgOps o.average) (Spec.avgGain o.average 1 W * M)) ?_ fun z z' hz => ?_
  · have h0 := hg.1
    unfold averageZeroth
    cases ha : o.average with
    | glob =>
      rw [ha] at h0
      exact Sim.ok (sigL_sum hδ hR hW h0).2
    | loc =>
      rw [ha] at h0
      refine Sim.ok ?_
      show Near δ (k + 4) (1 * M) _ _
      rw [one_mul]
      exact h0.2
    | no =>
      rw [ha] at h0
      refine Sim.ok ?_
      show Near δ k (1 * M) _ _
      rw [one_mul]
      exact h0.2
  refine Sim.bind (Front1D.sim_mapM
    (f := averageBody RoundedJ.exact.backend o.phi ls o.average o.phiFr lsFr o.averageFr _ o.fmt)
    (g := averageBody R.backend o.phi ls o.average o.phiFr lsFr o.averageFr _ o.fmt)
    (fun a b hab => err_averageBody hδ hR hW hNF hphi hcT hphiT o.average hphiFr hcF hphiF o.averageFr _ _ hab
      (((1 + δ) ^ (k + Spec.avgOps o.average) - 1) * (Spec.avgGain o.average 1 W * M))) hg.2)
    fun l m hlm => ?_
  exact Sim.ok (List.Forall₂.cons ⟨hz.coefErr, rfl, rfl, rfl, rfl, rfl⟩ (List.rel_flatten hlm))

end

/-! ## Filters of constructed objects -/

theorem dyadic_of {h : List ℝ} {b : ℤ} {lv : List (List ℝ)} (hl : makeLevels false h b = .ok lv) (h1 : l1norm h ≤ 1) :
    Dyadic lv := fun _ _ hy => FromFull.gain (f := ⟨lv, 0⟩) ⟨b, hl⟩ h1 hy

theorem dyadic_map {mean : Bool} (hmean : mean = false) {N : ℕ} {alpha : ℝ} {pj lT : ℤ} {l : List (ℝ × ℝ)} {m : List FiltX}
    (h : List.Forall₂ (fun p f => makePsi mean N alpha pj lT p = .ok f) l m) : ∀ f ∈ m, Dyadic f.levels := by
  subst hmean
  intro f hf
  obtain ⟨p, -, hp⟩ := forall₂_mem_right h hf
  exact dyadic_of (makePsi_fields hp).2.2.2 (l1norm_morlet1d_le _ _ _)

theorem obj_dyadic {a : JArgs} {s : ScJ} (hmake : a.make = .ok s) (Q1 : ℕ) :
    Dyadic (a.obj s Q1).phi.levels ∧ (∀ f ∈ (a.obj s Q1).psi1, Dyadic f.levels) ∧
    (∀ f ∈ (a.obj s Q1).psi2, Dyadic f.levels) ∧ (∀ f ∈ (a.obj s Q1).psisFr, Dyadic f.levels) ∧
    Dyadic (a.obj s Q1).phiFr.levels := by
  obtain ⟨Q, q, F, hbase, -, -, -, -, -, hfr⟩ := JArgs.make_eq_ok hmake
  obtain ⟨t, R1, R2, lT, M1, M2, -, -, -, -, -, -, h1, h2, -, -, hlv, -, -⟩ := make_filters hbase
  obtain ⟨phi1, psis, M, hr, hlv0, -, hpsi, hlv1, -, -, -⟩ := createFiltersFr_eq_ok hfr
  have hr : s.psisFr = phi1 :: psis := hr
  refine ⟨dyadic_of hlv (l1norm_morlet1d_le _ _ _), ?_, ?_, ?_, dyadic_of hlv0 (l1norm_morlet1d_le _ _ _)⟩
  · intro f hf
    obtain ⟨g, hg, rfl⟩ := List.mem_map.1 hf
    exact dyadic_map rfl h1 g hg
  · intro f hf
    obtain ⟨g, hg, rfl⟩ := List.mem_map.1 hf
    exact dyadic_map rfl h2 g hg
  · intro f hf
    obtain ⟨g, hg, rfl⟩ := List.mem_map.1 hf
    rw [hr] at hg
    rcases List.mem_cons.1 hg with rfl | hg
    · exact dyadic_of hlv1 (l1norm_morlet1d_le _ _ _)
    · exact dyadic_map rfl hpsi g hg

/-! ## C126 -/

theorem err_post (o : JObj (List ℝ)) (ls : ℕ) {E0 E : ℝ} {p q : JPath (List ℝ) (Img ℝ)} (h : PathC (errOf E0 E) p q) :
    Sim (PathC (errOf E0 E)) (post npFrontJ o ls p) (post npFrontJ o ls q) := by
  obtain ⟨hc, h1, h2, h3, h4, h5⟩ := h
  unfold post
  split
  · exact Sim.ok ⟨hc, h1, h2, h3, h4, h5⟩
  · have hres : resolution o ls p = resolution o ls q := by
      unfold resolution
      rw [h1, h2]
    rw [← hres]
    refine Sim.bind (Front1D.sim_self _) ?_
    rintro r _ rfl
    refine Sim.bind (Front1D.sim_self _) ?_
    rintro i0 _ rfl
    refine Sim.bind (Front1D.sim_self _) ?_
    rintro i1 _ rfl
    exact Sim.ok ⟨coefErr_unpad hc i0 i1, h1, h2, h3, h4, h5⟩

theorem padded_dist {x y U : List ℝ} {l r : ℕ} (hxy : y.length = x.length) (hU : npPad x l r = .ok U) :
    ∃ V, npPad y l r = .ok V ∧ V.length = U.length ∧ Spec.adist U V ≤ Real.sqrt 3 * Spec.adist x y := by
  obtain ⟨hl, hr, hlen⟩ := npPad_length hU
  obtain ⟨V, hV⟩ : ∃ V, npPad y l r = .ok V := by
    unfold npPad
    rw [if_neg (by omega)]
    exact ⟨_, rfl⟩
  obtain ⟨-, -, hlenV⟩ := npPad_length hV
  obtain ⟨u1, u2⟩ := padded_of_npPad hU
  obtain ⟨v1, v2⟩ := padded_of_npPad hV
  refine ⟨V, hV, by omega, ?_⟩
  have hsq : Spec.adist U V ^ 2 ≤ (Real.sqrt 3 * Spec.adist x y) ^ 2 := by
    rw [mul_pow, Real.sq_sqrt (by norm_num), adist_real, adist_real]
    unfold Spec.l2
    rw [Real.sq_sqrt (sum_nonneg fun _ _ => sq_nonneg _), Real.sq_sqrt (sum_nonneg fun _ _ => sq_nonneg _), u1]
    refine le_trans (le_of_eq (sum_congr rfl fun i hi => ?_))
      (sum_mirror_le_three x.length l r hl hr (fun i => (x.getD i 0 - y.getD i 0) ^ 2) fun i => sq_nonneg _)
    have hi := mem_range.1 hi
    rw [u2 i hi, v2 i (by omega), hxy]
  have h0 : 0 ≤ Spec.adist x y := Real.sqrt_nonneg _
  exact (le_abs_self _).trans (abs_le_of_sq_le_sq hsq (by positivity))

/-- The paths for a signal `x` and those computed from `x'`. -/
theorem err_unassembled {a : JArgs} {s : ScJ} (hmake : a.make = .ok s) (Q1 : ℕ)
    (ls lsFr : ℕ) (hls : log2Stride s.base.built.stride a.T a.J s.base.built.Ninput = .ok (ls : ℤ))
    (hlsFr : log2Stride a.strideFr a.F a.Jfr ((a.J + 1) * Q1) = .ok (lsFr : ℤ))
    {c0 cT cF : ℝ} (hcT : 1 ≤ cT) (hc0 : cT ≤ c0) (hcF : 1 ≤ cF) (hphiT : LevelsLe ls cT (a.obj s Q1).phi.levels)
    (h2 : ∀ f ∈ (a.obj s Q1).psi2, PsiLe ls c0 f) (hphiF : LevelsLe lsFr cF (a.obj s Q1).phiFr.levels)
    {R : RoundedJ} {N : ℕ} {δ : ℝ} (hδ : 0 ≤ δ) (hR : R.Accurate N δ) {x x' : List ℝ} {W : ℕ}
    (hW : W = s.base.built.padLeft + x.length + s.base.built.padRight) (hN : W ≤ N) (hNF : s.nFr ≤ N)
    {k : ℕ} {M : ℝ} (hx : Near δ k M x x') :
    Sim (List.Forall₂ (PathC (errOf
      (((1 + δ) ^ (k + Spec.avgOps s.base.average) - 1) * (Spec.avgGain s.base.average 1 W * (Real.sqrt 3 * M)))
      (((1 + δ) ^ (k + 14 + Spec.avgOps s.base.average + Spec.avgOps s.averageFr) - 1) *
        (Spec.avgGain s.averageFr cF s.nFr * (Spec.avgGain s.base.average cT W *
          (Real.sqrt s.base.psi1.length * (c0 * (Real.sqrt 3 * M)))))))))
      (unassembled RoundedJ.exact.backend npFrontJ (a.obj s Q1) x) (unassembled R.backend npFrontJ (a.obj s Q1) x') := by
  obtain ⟨hphi, h1, -, hpsis, hphiFr⟩ := obj_dyadic hmake Q1
  unfold unassembled
  refine Sim.bind (Front1D.sim_self _) ?_
  rintro _ _ rfl
  refine Sim.bind (R := SigL δ W k (Real.sqrt 3 * M)) (fun U hU => ?_) fun U V hU => ?_
  · obtain ⟨V, hV, hlen, hd⟩ := padded_dist hx.len hU
    refine ⟨V, hV, ?_, hlen, (padded_norm hU).trans (mul_le_mul_of_nonneg_left hx.norm (Real.sqrt_nonneg _)), ?_⟩
    · rw [hW]
      exact (npPad_length hU).2.2.le
    · refine hd.trans ((mul_le_mul_of_nonneg_left hx.dist (Real.sqrt_nonneg 3)).trans (le_of_eq ?_))
      ring
  refine Sim.bind (R := fun u v => u = v ∧ u = (ls : ℤ)) (fun u hu => ⟨u, hu, rfl, ?_⟩) ?_
  · have hu' : log2Stride s.base.built.stride a.T a.J s.base.built.Ninput = .ok u := hu
    rw [hls] at hu'
    exact (Except.ok.inj hu').symm
  rintro _ _ ⟨rfl, rfl⟩
  refine Sim.bind (R := fun u v => u = v ∧ u = (lsFr : ℤ)) (fun u hu => ⟨u, hu, rfl, ?_⟩) ?_
  · have hu' : log2Stride a.strideFr a.F a.Jfr ((a.J + 1) * Q1) = .ok u := hu
    rw [hlsFr] at hu'
    exact (Except.ok.inj hu').symm
  rintro _ _ ⟨rfl, rfl⟩
  rw [Int.toNat_natCast, Int.toNat_natCast]
  have hp := err_paths hδ hR hN hNF hcT hc0 hcF hphi hphiT h1 h2 hphiF hpsis hphiFr rfl hU
  have e : (a.obj s Q1).psi1.length = s.base.psi1.length := List.length_map _
  rw [e] at hp
  refine Sim.bind hp fun l m hlm => ?_
  exact Front1D.sim_mapM (fun p q hpq => err_post _ ls hpq) hlm

/-- The powers of two bound the levels that are used. -/
theorem dyadic_le {L : List (List ℝ)} (h : Dyadic L) (K : ℕ) : LevelsLe K (2 ^ K) L :=
  fun l hl y hy m hm => (h l y hy m hm).trans (pow_le_pow_right₀ one_le_two hl)

theorem dyadic_psi {psi : Filt (List ℝ)} (h : Dyadic psi.levels) (K : ℕ) : PsiLe K (2 ^ K) psi :=
  fun l _ hl y hy m hm => (h l y hy m hm).trans (pow_le_pow_right₀ one_le_two hl)

/-- The error for bounds `c0`, `cT` and `cF` of the levels that are used. -/
theorem input_gains (a : JArgs) (s : ScJ) (hmake : a.make = .ok s) (Q1 Q2 : Int) (hQ : parseQ a.Q = .ok (Q1, Q2))
    (ls lsFr : ℕ) (hls : log2Stride s.base.built.stride a.T a.J s.base.built.Ninput = .ok (ls : ℤ))
    (hlsFr : log2Stride a.strideFr a.F a.Jfr ((a.J + 1) * Q1.toNat) = .ok (lsFr : ℤ))
    {c0 cT cF : ℝ} (hcT : 1 ≤ cT) (hc0 : cT ≤ c0) (hcF : 1 ≤ cF)
    (hphiT : LevelsLe ls cT (a.obj s Q1.toNat).phi.levels) (h2 : ∀ f ∈ (a.obj s Q1.toNat).psi2, PsiLe ls c0 f)
    (hphiF : LevelsLe lsFr cF (a.obj s Q1.toNat).phiFr.levels)
    (R : RoundedJ) (N : ℕ) (δ : ℝ) (hδ : 0 ≤ δ) (hR : R.Accurate N δ) (x x' : List ℝ) (hl : x'.length = x.length) (k : ℕ)
    (hx : Spec.l2 x.length (fun i => x.getD i 0 - x'.getD i 0) ≤
      ((1 + δ) ^ k - 1) * Spec.l2 x.length (fun i => x.getD i 0)) (W : ℕ)
    (hW : W = s.base.built.padLeft + x.length + s.base.built.padRight) (hN : W ≤ N) (hNF : s.nFr ≤ N)
    (out : JOut (List ℝ) (Img ℝ)) (hout : a.run x = .ok out) :
    ∃ out', a.runRounded R x' = .ok out' ∧ Spec.OutRelJ (fun n => Spec.CoefErr (
      if n = [] then
        Real.sqrt 3 * Spec.avgGain s.base.average 1 W * ((1 + δ) ^ (k + Spec.avgOps s.base.average) - 1) *
          Spec.l2 x.length (fun i => x.getD i 0)
      else
        Real.sqrt 3 * Real.sqrt s.base.psi1.length * c0 * Spec.avgGain s.base.average cT W *
          Spec.avgGain s.averageFr cF s.nFr *
          ((1 + δ) ^ (k + 14 + Spec.avgOps s.base.average + Spec.avgOps s.averageFr) - 1) *
          Spec.l2 x.length (fun i => x.getD i 0))) out out' := by
  have hx' : Near δ k (Spec.anorm x) x x' := ⟨hl, le_rfl, by rw [adist_real, anorm_real]; exact hx⟩
  have hu := err_unassembled hmake Q1.toNat ls lsFr hls hlsFr hcT hc0 hcF hphiT h2 hphiF hδ hR hW hN hNF hx'
  rw [anorm_real] at hu
  have key : Sim (Spec.OutRelJ (errOf
      (((1 + δ) ^ (k + Spec.avgOps s.base.average) - 1) *
        (Spec.avgGain s.base.average 1 W * (Real.sqrt 3 * Spec.l2 x.length fun i => x.getD i 0)))
      (((1 + δ) ^ (k + 14 + Spec.avgOps s.base.average + Spec.avgOps s.averageFr) - 1) *
        (Spec.avgGain s.averageFr cF s.nFr * (Spec.avgGain s.base.average cT W *
          (Real.sqrt s.base.psi1.length * (c0 * (Real.sqrt 3 * Spec.l2 x.length fun i => x.getD i 0))))))))
      (a.runRounded RoundedJ.exact x) (a.runRounded R x') := by
    unfold JArgs.runRounded
    rw [hmake, hQ]
    show Sim _ (FrontJ.scattering RoundedJ.exact.backend npFrontJ (a.obj s Q1.toNat) x)
      (FrontJ.scattering R.backend npFrontJ (a.obj s Q1.toNat) x')
    rw [FrontJ.scattering_eq, FrontJ.scattering_eq]
    refine Sim.bind hu fun l m hlm => ?_
    exact assemble_relC (fun _ _ _ h => coefErr_same h) _ hlm
  obtain ⟨out', ho, hr⟩ := key out hout
  refine ⟨out', ho, ?_⟩
  generalize (1 + δ) ^ (k + 14 + Spec.avgOps s.base.average + Spec.avgOps s.averageFr) - 1 = e1 at hr ⊢
  generalize (1 + δ) ^ (k + Spec.avgOps s.base.average) - 1 = e0 at hr ⊢
  refine (congrArg (fun C => Spec.OutRelJ C out out') (funext fun n => ?_)).mpr hr
  funext c d
  unfold errOf
  congr 1
  split <;> ring

/-- **C126, the error.**  If every operation has a relative error of at most `δ`, the call with rounded operations returns
whenever the exact one does, with the same labels, and each coefficient is off, in Euclidean norm, by at most the stated
multiple of the norm of the signal.  `W` is the padded length.  The computation may start from a signal `x'` that is
itself off by `k` roundings; `C126_error` is the case `k = 0`. -/
theorem C126_input (a : JArgs) (s : ScJ) (hmake : a.make = .ok s) (Q1 Q2 : Int) (hQ : parseQ a.Q = .ok (Q1, Q2))
    (ls lsFr : ℕ) (hls : log2Stride s.base.built.stride a.T a.J s.base.built.Ninput = .ok (ls : ℤ))
    (hlsFr : log2Stride a.strideFr a.F a.Jfr ((a.J + 1) * Q1.toNat) = .ok (lsFr : ℤ))
    (R : RoundedJ) (N : ℕ) (δ : ℝ) (hδ : 0 ≤ δ) (hR : R.Accurate N δ) (x x' : List ℝ) (hl : x'.length = x.length) (k : ℕ)
    (hx : Spec.l2 x.length (fun i => x.getD i 0 - x'.getD i 0) ≤
      ((1 + δ) ^ k - 1) * Spec.l2 x.length (fun i => x.getD i 0)) (W : ℕ)
    (hW : W = s.base.built.padLeft + x.length + s.base.built.padRight) (hN : W ≤ N) (hNF : s.nFr ≤ N)
    (out : JOut (List ℝ) (Img ℝ)) (hout : a.run x = .ok out) :
    ∃ out', a.runRounded R x' = .ok out' ∧ Spec.OutRelJ (fun n => Spec.CoefErr (
      if n = [] then
        Real.sqrt 3 * Spec.avgGain s.base.average 1 W * ((1 + δ) ^ (k + Spec.avgOps s.base.average) - 1) *
          Spec.l2 x.length (fun i => x.getD i 0)
      else
        Real.sqrt 3 * Real.sqrt s.base.psi1.length * 2 ^ ls * Spec.avgGain s.base.average (2 ^ ls) W *
          Spec.avgGain s.averageFr (2 ^ lsFr) s.nFr *
          ((1 + δ) ^ (k + 14 + Spec.avgOps s.base.average + Spec.avgOps s.averageFr) - 1) *
          Spec.l2 x.length (fun i => x.getD i 0))) out out' := by
  obtain ⟨hphi, -, h2, -, hphiFr⟩ := obj_dyadic hmake Q1.toNat
  exact input_gains a s hmake Q1 Q2 hQ ls lsFr hls hlsFr (one_le_pow₀ one_le_two) le_rfl (one_le_pow₀ one_le_two)
    (dyadic_le hphi ls) (fun f hf => dyadic_psi (h2 f hf) ls) (dyadic_le hphiFr lsFr) R N δ hδ hR x x' hl k hx W hW hN hNF
    out hout

/-- **C126, the error.**  If every operation has a relative error of at most `δ`, the call with rounded operations returns
whenever the exact one does, with the same labels, and each coefficient is off, in Euclidean norm, by at most the stated
multiple of the norm of the signal.  `W` is the padded length. -/
theorem C126_error (a : JArgs) (s : ScJ) (hmake : a.make = .ok s) (Q1 Q2 : Int) (hQ : parseQ a.Q = .ok (Q1, Q2))
    (ls lsFr : ℕ) (hls : log2Stride s.base.built.stride a.T a.J s.base.built.Ninput = .ok (ls : ℤ))
    (hlsFr : log2Stride a.strideFr a.F a.Jfr ((a.J + 1) * Q1.toNat) = .ok (lsFr : ℤ))
    (R : RoundedJ) (N : ℕ) (δ : ℝ) (hδ : 0 ≤ δ) (hR : R.Accurate N δ) (x : List ℝ) (W : ℕ)
    (hW : W = s.base.built.padLeft + x.length + s.base.built.padRight) (hN : W ≤ N) (hNF : s.nFr ≤ N)
    (out : JOut (List ℝ) (Img ℝ)) (hout : a.run x = .ok out) :
    ∃ out', a.runRounded R x = .ok out' ∧ Spec.OutRelJ (fun n => Spec.CoefErr (
      if n = [] then
        Real.sqrt 3 * Spec.avgGain s.base.average 1 W * ((1 + δ) ^ Spec.avgOps s.base.average - 1) *
          Spec.l2 x.length (fun i => x.getD i 0)
      else
        Real.sqrt 3 * Real.sqrt s.base.psi1.length * 2 ^ ls * Spec.avgGain s.base.average (2 ^ ls) W *
          Spec.avgGain s.averageFr (2 ^ lsFr) s.nFr *
          ((1 + δ) ^ (14 + Spec.avgOps s.base.average + Spec.avgOps s.averageFr) - 1) *
          Spec.l2 x.length (fun i => x.getD i 0))) out out' := by
  have h0 : Spec.l2 x.length (fun i => x.getD i 0 - x.getD i 0) ≤
      ((1 + δ) ^ 0 - 1) * Spec.l2 x.length (fun i => x.getD i 0) := by
    rw [pow_zero, sub_self, zero_mul]
    unfold Spec.l2
    simp
  have := C126_input a s hmake Q1 Q2 hQ ls lsFr hls hlsFr R N δ hδ hR x x rfl 0 h0 W hW hN hNF out hout
  simpa only [Nat.zero_add] using this

/-! ## Operations that meet the assumption -/

/-- Every operation is computed exactly and its result rounded to double precision. -/
noncomputable def RoundedJ.ofFloat (F : FloatOps) : RoundedJ where
  sig := Rounded.ofFloat F
  rfft x := (RoundedJ.exact.rfft x).mapPx (rndC F)
  cfft x := (rowDft x).mapPx (rndC F)
  ifft x := (rowIdft x).mapPx (rndC F)
  irfft x := (RoundedJ.exact.irfft x).mapPx F.rnd
  modulus x := (RoundedJ.exact.modulus x).mapPx F.rnd
  mul x f := (RoundedJ.exact.mul x f).mapPx (rndC F)
  mean x k := (RoundedJ.exact.mean x k).mapPx (rndC F)
  sum x := (rowAverage x).mapPx F.rnd

/-- Correctly rounded operations are accurate to `2^-50`, for arrays of every size. -/
theorem ofFloatJ_accurate {F : FloatOps} (hF : F.Correct) (N : ℕ) :
    (RoundedJ.ofFloat F).Accurate N (2 ^ (-50 : ℤ)) := by
  have hu : (0 : ℝ) ≤ 2 ^ (-50 : ℤ) := by positivity
  have hc := fun x => idist_mapPx hu (rndC_rel hF) x
  have hr := fun x => idist_mapPx hu (g := F.rnd) (rnd_rel hF) x
  have hs := ofFloat_accurate hF N
  refine { sig := hs.toShapes
           sigs := hs
           rfft := fun x => ⟨rfl, rfl⟩
           cfft := fun x => ⟨rfl, rfl⟩
           ifft := fun x => ⟨rfl, rfl⟩
           irfft := fun x => ⟨rfl, rfl⟩
           modulus := fun x => ⟨rfl, rfl⟩
           mul := fun x f _ => ⟨rfl, rfl⟩
           mean := fun x k _ _ => ⟨rfl, rfl⟩
           sum := fun x => ⟨rfl, rfl⟩
           rfft_err := fun x _ => hc _
           cfft_err := fun x _ => hc _
           ifft_err := fun x _ => hc _
           irfft_err := fun x _ => (hr _).trans (mul_le_mul_of_nonneg_left (inorm_reJ (rowIdft x)) hu)
           modulus_err := fun x _ => hr _
           mul_err := fun x f _ h1 C hC0 hC => (hc _).trans (mul_le_mul_of_nonneg_left
             (inorm_mulJ hC0 (by rw [h1]; exact hC)) hu)
           mean_err := fun x k _ hk d => (hc _).trans (mul_le_mul_of_nonneg_left ?_ hu)
           sum_err := fun x _ i hi => ?_ }
  · exact (inorm_meanJ hk d).trans (le_of_eq (by ring))
  · have e : ((RoundedJ.ofFloat F).sum x).px i 0 = F.rnd ((rowAverage x).px i 0) := Img.px_tab hi one_pos
    rw [e]
    refine (rnd_rel hF _).trans (mul_le_mul_of_nonneg_left ?_ hu)
    rw [px_sumJ x hi]
    exact abs_sum_le_sum_abs _ _

/-- The hypotheses are met by `TimeFrequencyScattering(J=3, J_fr=2, shape=1000, Q=8)`, correctly rounded double-precision
operations and every signal of that length, for every type of output and format; the exponent is then `22`. -/
example (x : List ℝ) (hx : x.length = 1000) (o : OutType) (ho : o ≠ .other) (f : Format) (hf : f ≠ .other) :
    ∃ F : FloatOps, F.Correct ∧ ∃ s out out' W, (exJ o f).make = .ok s ∧ (exJ o f).run x = .ok out ∧
      (exJ o f).runRounded (RoundedJ.ofFloat F) x = .ok out' ∧
      Spec.OutRelJ (fun n => Spec.CoefErr (
        if n = [] then Real.sqrt 3 * 1 * ((1 + 2 ^ (-50 : ℤ)) ^ 4 - 1) * Spec.l2 x.length (fun i => x.getD i 0)
        else Real.sqrt 3 * Real.sqrt s.base.psi1.length * 2 ^ 3 * 2 ^ 3 * 2 ^ 2 * ((1 + 2 ^ (-50 : ℤ)) ^ 22 - 1) *
          Spec.l2 x.length (fun i => x.getD i 0))) out out' ∧
      W = s.base.built.padLeft + x.length + s.base.built.padRight ∧
      (RoundedJ.ofFloat F).Accurate (max W s.nFr) (2 ^ (-50 : ℤ)) := by
  obtain ⟨F, hF⟩ := exists_correct
  obtain ⟨s, r, P, hs, -, hav, havF, hls, hlsFr, hr, -, -, -⟩ := exJ_run o ho f hf x hx
  obtain ⟨out', h1, h2⟩ := C126_error (exJ o f) s hs 8 1 rfl 3 2 hls hlsFr (RoundedJ.ofFloat F)
    (max (s.base.built.padLeft + x.length + s.base.built.padRight) s.nFr) _ (by positivity) (ofFloatJ_accurate hF _) x _ rfl
    (le_max_left _ _) (le_max_right _ _) r hr
  rw [hav, havF] at h2
  exact ⟨F, hF, s, r, out', _, hs, hr, h1, h2, rfl, ofFloatJ_accurate hF _⟩

/-- They return arrays of the right shape, so that `C126_returns` applies to every call. -/
example {F : FloatOps} (hF : F.Correct) : (RoundedJ.ofFloat F).Shapes := (ofFloatJ_accurate hF 0).toShapes

/-- The rounded operations of the example are not the exact ones. -/
example (F : FloatOps) (hF : F.Correct) : (RoundedJ.ofFloat F).sum (Img.tab 1 1 fun _ _ => Real.pi) ≠
    RoundedJ.exact.sum (Img.tab 1 1 fun _ _ => Real.pi) := by
  intro h
  have hp : (rowAverage (Img.tab 1 1 fun _ _ => Real.pi)).px 0 0 = Real.pi := by
    rw [px_sumJ _ one_pos]
    exact (sum_range_one _).trans (Img.px_tab one_pos one_pos)
  have h2 : ((RoundedJ.ofFloat F).sum (Img.tab 1 1 fun _ _ => Real.pi)).px 0 0 = F.rnd Real.pi :=
    (Img.px_tab (h := 1) (w := 1) (f := fun i k => F.rnd ((rowAverage (Img.tab 1 1 fun _ _ => Real.pi)).px i k))
      one_pos one_pos).trans (congrArg F.rnd hp)
  rw [h] at h2
  have h2 : (rowAverage (Img.tab 1 1 fun _ _ => Real.pi)).px 0 0 = F.rnd Real.pi := h2
  rw [hp] at h2
  obtain ⟨m, e, -, hr⟩ := hF.rnd_double Real.pi
  rw [← h2] at hr
  apply irrational_pi
  exact ⟨(m : ℚ) * 2 ^ e, by rw [hr]; push_cast; rfl⟩

end Verif
