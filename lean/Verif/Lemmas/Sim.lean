import Verif.Model.Core1D
import Mathlib.Data.List.Forall2

/-!
# Simulation between two runs of the 1-D core

`Sim R a b`: if the computation `a` returns, so does `b`, with `R`-related results.
-/

namespace Verif

def Sim {α β : Type} (R : α → β → Prop) (a : Py α) (b : Py β) : Prop :=
  ∀ x, a = .ok x → ∃ y, b = .ok y ∧ R x y

theorem Sim.ok {α β : Type} {R : α → β → Prop} {x : α} {y : β} (h : R x y) :
    Sim R (.ok x) (.ok y) := by
  intro z hz
  injection hz with hz
  subst hz
  exact ⟨y, rfl, h⟩

theorem Sim.error {α β : Type} {R : α → β → Prop} {e : PyErr} {b : Py β} :
    Sim R (.error e) b := by
  intro z hz; cases hz

theorem Sim.bind {α β γ δ : Type} {R : α → β → Prop} {S : γ → δ → Prop}
    {a : Py α} {b : Py β} {f : α → Py γ} {g : β → Py δ}
    (h : Sim R a b) (hf : ∀ x y, R x y → Sim S (f x) (g y)) : Sim S (a >>= f) (b >>= g) := by
  intro z hz
  cases a with
  | error e => cases hz
  | ok x =>
    obtain ⟨y, hy, hR⟩ := h x rfl
    obtain ⟨w, hw, hS⟩ := hf x y hR z hz
    refine ⟨w, ?_, hS⟩
    rw [hy]
    exact hw

theorem Sim.mono {α β : Type} {R S : α → β → Prop} {a : Py α} {b : Py β}
    (h : Sim R a b) (hRS : ∀ x y, R x y → S x y) : Sim S a b := by
  intro x hx
  obtain ⟨y, hy, hr⟩ := h x hx
  exact ⟨y, hy, hRS _ _ hr⟩

/-- A relation between two backends.  The first index of `rR`/`rC` counts the moduli taken so far
(the scattering order), the second is the current log2 subsampling. -/
structure BackendRel (A B : Backend1D) where
  rR : Nat → Nat → A.R → B.R → Prop
  /-- complex tensors in the Fourier domain -/
  rC : Nat → Nat → A.C → B.C → Prop
  /-- complex tensors in the time domain (result of `ifft`) -/
  rZ : Nat → Nat → A.C → B.C → Prop
  rF : Nat → A.F → B.F → Prop
  rfft : ∀ i r x y, rR i r x y → Sim (rC i r) (A.rfft x) (B.rfft y)
  ifft : ∀ i r x y, rC i r x y → Sim (rZ i r) (A.ifft x) (B.ifft y)
  irfft : ∀ i r x y, rC i r x y → Sim (rR i r) (A.irfft x) (B.irfft y)
  modulus : ∀ i r x y, rZ i r x y → Sim (rR (i + 1) r) (A.modulus x) (B.modulus y)
  cdgmm : ∀ i r x y f g, rC i r x y → rF r f g → Sim (rC i r) (A.cdgmm x f) (B.cdgmm y g)
  subsample : ∀ i r x y e, rC i r x y → Sim (rC i (r + e)) (A.subsample x e) (B.subsample y e)

namespace BackendRel

variable {A B : Backend1D} (S : BackendRel A B)

/-- Two filters with the same scale and level-wise related contents. -/
def filt (f : Filt A.F) (g : Filt B.F) : Prop :=
  f.j = g.j ∧ f.levels.length = g.levels.length ∧
    ∀ k a b, f.levels[k]? = some a → g.levels[k]? = some b → S.rF k a b

/-- Two paths with the same labels and related coefficients: the order is the number of moduli, the
resolution is the stride when averaging and the scale of the last wavelet otherwise. -/
def path (ls : Nat) (avg : Bool) (p : Path A.R) (q : Path B.R) : Prop :=
  p.j = q.j ∧ p.n = q.n ∧
    S.rR p.n.length (if avg then ls else p.j.getLast?.getD 0) p.coef q.coef

end BackendRel

theorem listGet_eq_ok {α : Type} {l : List α} {i : Nat} {a : α} :
    listGet l i = .ok a ↔ l[i]? = some a := by
  unfold listGet
  cases h : l[i]? with
  | none => simp
  | some b => simp

theorem sim_listGet {α β : Type} {R : α → β → Prop} {l : List α} {m : List β} {i : Nat}
    (hl : l.length = m.length) (h : ∀ a b, l[i]? = some a → m[i]? = some b → R a b) :
    Sim R (listGet l i) (listGet m i) := by
  intro a ha
  have ha' := listGet_eq_ok.1 ha
  have hi : i < l.length := by
    by_contra hc
    rw [List.getElem?_eq_none (Nat.not_lt.1 hc)] at ha'
    cases ha'
  have hb : m[i]? = some (m[i]'(hl ▸ hi)) := List.getElem?_eq_getElem _
  exact ⟨_, listGet_eq_ok.2 hb, h _ _ ha' hb⟩

namespace Core1D

variable {A B : Backend1D} (S : BackendRel A B)

theorem sim_lowpass {phi : Filt A.F} {phi' : Filt B.F} (hphi : S.filt phi phi')
    {i k e : Nat} {x : A.C} {y : B.C} (h : S.rC i k x y) :
    Sim (S.rR i (k + e)) (lowpass A phi x k e) (lowpass B phi' y k e) := by
  unfold lowpass
  refine Sim.bind (sim_listGet hphi.2.1 (hphi.2.2 k)) ?_
  intro f g hfg
  refine Sim.bind (S.cdgmm i k _ _ _ _ h hfg) ?_
  intro c d hcd
  refine Sim.bind (S.subsample i k _ _ e hcd) ?_
  intro c d hcd
  exact S.irfft _ _ _ _ hcd

theorem sim_bandpass {psi : Filt A.F} {psi' : Filt B.F} (hpsi : S.filt psi psi')
    {i k e : Nat} {x : A.C} {y : B.C} (h : S.rC i k x y) :
    Sim (S.rR (i + 1) (k + e)) (bandpass A psi x k e) (bandpass B psi' y k e) := by
  unfold bandpass
  refine Sim.bind (sim_listGet hpsi.2.1 (hpsi.2.2 k)) ?_
  intro f g hfg
  refine Sim.bind (S.cdgmm i k _ _ _ _ h hfg) ?_
  intro c d hcd
  refine Sim.bind (S.subsample i k _ _ e hcd) ?_
  intro c d hcd
  refine Sim.bind (S.ifft _ _ _ _ hcd) ?_
  intro c d hcd
  exact S.modulus _ _ _ _ hcd

theorem sim_forEnum {α α' β β' : Type} {R : α → α' → Prop} {P : β → β' → Prop}
    {f : α → Nat → Py (List β)} {g : α' → Nat → Py (List β')}
    (h : ∀ a a' n, R a a' → Sim (List.Forall₂ P) (f a n) (g a' n))
    {l : List α} {l' : List α'} (hl : List.Forall₂ R l l') (n : Nat) :
    Sim (List.Forall₂ P) (forEnum f l n) (forEnum g l' n) := by
  induction hl generalizing n with
  | nil => exact Sim.ok List.Forall₂.nil
  | cons hab _ ih =>
    refine Sim.bind (h _ _ n hab) ?_
    intro x y hxy
    refine Sim.bind (ih (n + 1)) ?_
    intro x' y' hxy'
    exact Sim.ok (List.rel_append hxy hxy')

theorem sim_secondOrder {phi : Filt A.F} {phi' : Filt B.F} (hphi : S.filt phi phi')
    {ls : Nat} {avg : Bool} {j1 n1 : Nat} {k1 : Nat}
    (hk1 : k1 = if avg then min j1 ls else j1)
    {x : A.C} {y : B.C} (h : S.rC 1 k1 x y)
    {psi : Filt A.F} {psi' : Filt B.F} (hpsi : S.filt psi psi') (n2 : Nat) :
    Sim (List.Forall₂ (S.path ls avg)) (secondOrder A phi ls avg j1 n1 k1 x psi n2)
      (secondOrder B phi' ls avg j1 n1 k1 y psi' n2) := by
  unfold secondOrder
  simp only [← hpsi.1]
  by_cases hj : psi.j > j1
  · simp only [hj, if_true]
    cases avg with
    | true =>
      simp only [if_true] at hk1 ⊢
      refine Sim.bind (sim_bandpass S hpsi (e := min psi.j ls - k1) h) ?_
      intro u v huv
      refine Sim.bind (S.rfft _ _ _ _ huv) ?_
      intro c d hcd
      refine Sim.bind (sim_lowpass S hphi (e := ls - min psi.j ls) hcd) ?_
      intro s t hst
      refine Sim.ok (List.Forall₂.cons ⟨rfl, rfl, ?_⟩ List.Forall₂.nil)
      have e1 : k1 + (min psi.j ls - k1) + (ls - min psi.j ls) = ls := by omega
      rw [e1] at hst
      simpa using hst
    | false =>
      simp only [Bool.false_eq_true, if_false] at hk1 ⊢
      refine Sim.bind (sim_bandpass S hpsi (e := psi.j - k1) h) ?_
      intro u v huv
      refine Sim.ok (List.Forall₂.cons ⟨rfl, rfl, ?_⟩ List.Forall₂.nil)
      have e1 : k1 + (psi.j - k1) = psi.j := by omega
      rw [e1] at huv
      simpa using huv
  · simp only [hj, if_false]
    exact Sim.ok List.Forall₂.nil

theorem forall₂_getElem? {α β : Type} {R : α → β → Prop} {l : List α} {m : List β}
    (h : List.Forall₂ R l m) (i : Nat) :
    (l[i]? = none ∧ m[i]? = none) ∨ ∃ a b, l[i]? = some a ∧ m[i]? = some b ∧ R a b := by
  induction h generalizing i with
  | nil => left; simp
  | cons hab _ ih =>
    cases i with
    | zero => right; exact ⟨_, _, by simp, by simp, hab⟩
    | succ i => simpa using ih i

theorem sim_firstOrder {phi : Filt A.F} {phi' : Filt B.F} (hphi : S.filt phi phi')
    {psis : List (List (Filt A.F))} {psis' : List (List (Filt B.F))}
    (hpsis : List.Forall₂ (List.Forall₂ S.filt) psis psis')
    {ls : Nat} {avg : Bool}
    {x : A.C} {y : B.C} (h : S.rC 0 0 x y)
    {psi : Filt A.F} {psi' : Filt B.F} (hpsi : S.filt psi psi') (n1 : Nat) :
    Sim (List.Forall₂ (S.path ls avg)) (firstOrder A phi psis ls avg x psi n1)
      (firstOrder B phi' psis' ls avg y psi' n1) := by
  unfold firstOrder
  simp only [← hpsi.1]
  refine Sim.bind (sim_bandpass S hpsi h) ?_
  intro u v huv
  simp only [Nat.zero_add] at huv
  have hpsis1 := forall₂_getElem? hpsis 1
  have hfp : ∀ c d, S.rC 1 (if avg then min psi.j ls else psi.j) c d →
      Sim (S.path ls avg)
        (firstPath A phi ls avg psi.j n1 (if avg then min psi.j ls else psi.j) u c)
        (firstPath B phi' ls avg psi.j n1 (if avg then min psi.j ls else psi.j) v d) := by
    intro c d hcd
    unfold firstPath
    cases avg with
    | true =>
      simp only [if_true] at hcd ⊢
      refine Sim.bind (sim_lowpass S hphi (e := ls - min psi.j ls) hcd) ?_
      intro s t hst
      refine Sim.ok ⟨rfl, rfl, ?_⟩
      have e1 : min psi.j ls + (ls - min psi.j ls) = ls := by omega
      rw [e1] at hst
      simpa using hst
    | false =>
      simp only [Bool.false_eq_true, if_false] at huv ⊢
      exact Sim.ok ⟨rfl, rfl, by simpa using huv⟩
  rcases hpsis1 with ⟨h1, h2⟩ | ⟨a, b, h1, h2, hab⟩
  · rw [h1, h2]
    cases avg with
    | true =>
      refine Sim.bind (S.rfft _ _ _ _ huv) ?_
      intro c d hcd
      refine Sim.bind (hfp c d hcd) ?_
      intro p q hpq
      exact Sim.ok (List.Forall₂.cons hpq List.Forall₂.nil)
    | false =>
      refine Sim.ok (List.Forall₂.cons ⟨rfl, rfl, ?_⟩ List.Forall₂.nil)
      simpa using huv
  · rw [h1, h2]
    have key : Sim (List.Forall₂ (S.path ls avg))
        (do let U1hat ← A.rfft u
            let p1 ← firstPath A phi ls avg psi.j n1 (if avg then min psi.j ls else psi.j) u U1hat
            let p2 ← forEnum (secondOrder A phi ls avg psi.j n1
              (if avg then min psi.j ls else psi.j) U1hat) a 0
            .ok (p1 :: p2))
        (do let U1hat ← B.rfft v
            let p1 ← firstPath B phi' ls avg psi.j n1 (if avg then min psi.j ls else psi.j) v U1hat
            let p2 ← forEnum (secondOrder B phi' ls avg psi.j n1
              (if avg then min psi.j ls else psi.j) U1hat) b 0
            .ok (p1 :: p2)) := by
      refine Sim.bind (S.rfft _ _ _ _ huv) ?_
      intro c d hcd
      refine Sim.bind (hfp c d hcd) ?_
      intro p q hpq
      refine Sim.bind (sim_forEnum (R := S.filt) (P := S.path ls avg) ?_ hab 0) ?_
      · intro f g n hfg
        exact sim_secondOrder S hphi rfl hcd hfg n
      · intro l m hlm
        exact Sim.ok (List.Forall₂.cons hpq hlm)
    cases avg <;> exact key

/-- Simulation theorem for the whole of `scattering1d`. -/
theorem sim_scattering1d {phi : Filt A.F} {phi' : Filt B.F} (hphi : S.filt phi phi')
    {psis : List (List (Filt A.F))} {psis' : List (List (Filt B.F))}
    (hpsis : List.Forall₂ (List.Forall₂ S.filt) psis psis')
    {ls : Nat} {avg : Bool} {x : A.R} {y : B.R} (h : S.rR 0 0 x y) :
    Sim (List.Forall₂ (S.path ls avg)) (scattering1d A x phi psis ls avg)
      (scattering1d B y phi' psis' ls avg) := by
  unfold scattering1d
  refine Sim.bind (S.rfft _ _ _ _ h) ?_
  intro c d hcd
  refine Sim.bind (R := S.rR 0 (if avg then ls else 0)) ?_ ?_
  · unfold zeroth
    cases avg with
    | true =>
      have := sim_lowpass S hphi (e := ls) hcd
      rw [Nat.zero_add] at this
      simpa using this
    | false => exact Sim.ok h
  · intro s t hst
    refine Sim.bind (R := List.Forall₂ S.filt)
      (sim_listGet hpsis.length_eq ?_) ?_
    · intro a b ha hb
      rcases forall₂_getElem? hpsis 0 with ⟨h1, -⟩ | ⟨a', b', h1, h2, hab⟩
      · rw [h1] at ha; cases ha
      · rw [h1] at ha; rw [h2] at hb
        cases ha; cases hb; exact hab
    · intro l m hlm
      refine Sim.bind (sim_forEnum (R := S.filt) (P := S.path ls avg) ?_ hlm 0) ?_
      · intro f g n hfg
        exact sim_firstOrder S hphi hpsis hcd hfg n
      · intro p q hpq
        refine Sim.ok (List.Forall₂.cons ⟨rfl, rfl, ?_⟩ hpq)
        cases avg <;> simpa using hst

end Core1D

end Verif
