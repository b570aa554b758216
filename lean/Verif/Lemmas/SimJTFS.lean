import Verif.Lemmas.Front1D
import Verif.Model.TorchJTFS

/-!
# Simulation between two runs of joint time-frequency scattering
-/

namespace Verif

open Core1D

/-- A relation between two backends for joint time-frequency scattering.  The number counts the moduli taken so far.
Complex signals are related by `rC` in the Fourier domain and by `rT` in the time domain.  Stacks carry a flag which
says whether the last axis is the frequency axis, complex stacks a second one which says whether that axis is in
the Fourier domain.  Signals are only stacked after the first modulus and stacks only split after the second.  `padOk` are the widths for which
`pad_frequency` of the two backends is compared. -/
structure JRel (A B : JBackend) where
  rR : Nat → A.R → B.R → Prop
  rC : Nat → A.C → B.C → Prop
  rT : Nat → A.C → B.C → Prop
  rRS : Nat → Bool → A.RS → B.RS → Prop
  rCS : Nat → Bool → Bool → A.CS → B.CS → Prop
  rF : A.F → B.F → Prop
  padOk : Int → Prop
  rfft : ∀ i x y, rR i x y → Sim (rC i) (A.rfft x) (B.rfft y)
  ifft : ∀ i x y, rC i x y → Sim (rT i) (A.ifft x) (B.ifft y)
  irfft : ∀ i x y, rC i x y → Sim (rR i) (A.irfft x) (B.irfft y)
  modulus : ∀ i x y, rT i x y → Sim (rR (i + 1)) (A.modulus x) (B.modulus y)
  cdgmm : ∀ i x y f g, rC i x y → rF f g → Sim (rC i) (A.cdgmm x f) (B.cdgmm y g)
  subsample : ∀ i x y e, rC i x y → Sim (rC i) (A.subsample x e) (B.subsample y e)
  averageGlobal : ∀ i x y, rR i x y → Sim (rR i) (A.averageGlobal x) (B.averageGlobal y)
  stackR : ∀ l m, List.Forall₂ (rR 1) l m → Sim (rRS 1 false) (A.stackR l) (B.stackR m)
  stackC : ∀ l m, List.Forall₂ (rT 1) l m → Sim (rCS 1 false false) (A.stackC l) (B.stackC m)
  swapR : ∀ i d x y, rRS i d x y → Sim (rRS i (!d)) (A.swapR x) (B.swapR y)
  swapC : ∀ i d x y, rCS i d false x y → Sim (rCS i (!d) false) (A.swapC x) (B.swapC y)
  padFrequencyR : ∀ i x y p, padOk p → rRS i true x y → Sim (rRS i true) (A.padFrequencyR x p) (B.padFrequencyR y p)
  padFrequencyC : ∀ i x y p, padOk p → rCS i true false x y →
    Sim (rCS i true false) (A.padFrequencyC x p) (B.padFrequencyC y p)
  rfftS : ∀ i d x y, rRS i d x y → Sim (rCS i d true) (A.rfftS x) (B.rfftS y)
  cfftS : ∀ i d x y, rCS i d false x y → Sim (rCS i d true) (A.cfftS x) (B.cfftS y)
  ifftS : ∀ i d x y, rCS i d true x y → Sim (rCS i d false) (A.ifftS x) (B.ifftS y)
  irfftS : ∀ i d x y, rCS i d true x y → Sim (rRS i d) (A.irfftS x) (B.irfftS y)
  modulusS : ∀ i x y, rCS i false false x y → Sim (rRS (i + 1) false) (A.modulusS x) (B.modulusS y)
  cdgmmS : ∀ i d x y f g, rCS i d true x y → rF f g → Sim (rCS i d true) (A.cdgmmS x f) (B.cdgmmS y g)
  subsampleS : ∀ i d x y e, rCS i d true x y → Sim (rCS i d true) (A.subsampleS x e) (B.subsampleS y e)
  averageGlobalS : ∀ i d x y, rRS i d x y → Sim (rRS i d) (A.averageGlobalS x) (B.averageGlobalS y)
  unpadFrequency : ∀ i x y n s, rRS i false x y → Sim (rRS i false) (A.unpadFrequency x n s) (B.unpadFrequency y n s)
  split : ∀ x y n s, rRS 2 false x y → Sim (List.Forall₂ (rR 2)) (A.split x n s) (B.split y n s)

namespace JRel

variable {A B : JBackend} (S : JRel A B)

/-- Two filters with the same scale and related levels. -/
def filt (f : Filt A.F) (g : Filt B.F) : Prop := f.j = g.j ∧ List.Forall₂ S.rF f.levels g.levels

def filtFr (f : FiltFr A.F) (g : FiltFr B.F) : Prop :=
  f.j = g.j ∧ f.spin = g.spin ∧ List.Forall₂ S.rF f.levels g.levels

def phiFr (f : PhiFr A.F) (g : PhiFr B.F) : Prop :=
  f.j = g.j ∧ f.N = g.N ∧ List.Forall₂ S.rF f.levels g.levels

def tpath {α β : Type} (R : α → β → Prop) (p : TPath α) (q : TPath β) : Prop :=
  R p.coef q.coef ∧ p.j = q.j ∧ p.n = q.n ∧ p.n1Max = q.n1Max

def fpath {α β : Type} (R : α → β → Prop) (p : FPath α) (q : FPath β) : Prop :=
  R p.coef q.coef ∧ p.j = q.j ∧ p.n = q.n ∧ p.n1Max = q.n1Max ∧ p.jFr = q.jFr ∧ p.nFr = q.nFr ∧
    p.n1Stride = q.n1Stride ∧ p.spin = q.spin

/-- Paths below a stack. -/
def fpath1 (p : FPath A.CS) (q : FPath B.CS) : Prop := fpath (S.rCS 1 false false) p q ∧ p.n ≠ []

/-- Related coefficients. -/
def coef (i : Nat) : JCoef A.R A.RS → JCoef B.R B.RS → Prop
  | .sig x, .sig y => S.rR i x y
  | .stk x, .stk y => S.rRS i false x y
  | _, _ => False

/-- Two paths with the same labels and related coefficients: no modulus at order zero, two otherwise. -/
def path (p : JPath A.R A.RS) (q : JPath B.R B.RS) : Prop :=
  S.coef (if p.n = [] then 0 else 2) p.coef q.coef ∧ p.j = q.j ∧ p.n = q.n ∧ p.order = q.order ∧ p.fr = q.fr ∧ p.n1 = q.n1

end JRel

theorem pyOk_bind {α β : Type} (a : α) (f : α → Py β) : ((Except.ok a : Py α) >>= f) = f a := rfl

theorem sim_listGet' {α β : Type} {R : α → β → Prop} {l : List α} {m : List β} (h : List.Forall₂ R l m) (i : Nat) :
    Sim R (listGet l i) (listGet m i) := by
  refine sim_listGet h.length_eq fun a b ha hb => ?_
  rcases forall₂_getElem? h i with ⟨h1, -⟩ | ⟨a', b', h1, h2, hab⟩
  · rw [h1] at ha; cases ha
  · rw [h1] at ha; rw [h2] at hb
    cases ha; cases hb; exact hab

theorem sim_listGetI {α β : Type} {R : α → β → Prop} {l : List α} {m : List β} (h : List.Forall₂ R l m) (i : Int) :
    Sim R (listGetI l i) (listGetI m i) := by
  unfold listGetI
  rw [← h.length_eq]
  split
  · exact sim_listGet' h _
  · split
    · exact sim_listGet' h _
    · exact Sim.error

namespace JTFS

variable {A B : JBackend} (S : JRel A B)

theorem sim_zeroth {phi : Filt A.F} {phi' : Filt B.F} (hphi : S.filt phi phi') (ls : Nat) (avg : Bool) {x : A.R}
    {y : B.R} (h : S.rR 0 x y) {c : A.C} {d : B.C} (hc : S.rC 0 c d) :
    Sim (S.rR 0) (zeroth A phi ls avg x c) (zeroth B phi' ls avg y d) := by
  unfold zeroth
  cases avg with
  | false => exact Sim.ok h
  | true =>
    refine Sim.bind (sim_listGet' hphi.2 0) fun f g hfg => ?_
    refine Sim.bind (S.cdgmm _ _ _ _ _ hc hfg) fun c d hc => ?_
    refine Sim.bind (S.subsample _ _ _ _ hc) fun c d hc => ?_
    exact S.irfft _ _ _ hc

theorem sim_first {phi : Filt A.F} {phi' : Filt B.F} (hphi : S.filt phi phi') (ls : Nat) (avg : Bool) {c : A.C}
    {d : B.C} (hc : S.rC 0 c d) {psi : Filt A.F} {psi' : Filt B.F} (hpsi : S.filt psi psi') :
    Sim (fun a b => S.rC 1 a.1 b.1 ∧ S.rR 1 a.2 b.2) (first A phi ls avg c psi) (first B phi' ls avg d psi') := by
  unfold first
  rw [← hpsi.1]
  refine Sim.bind (sim_listGet' hpsi.2 0) fun f g hfg => ?_
  refine Sim.bind (S.cdgmm _ _ _ _ _ hc hfg) fun c d hc => ?_
  refine Sim.bind (S.subsample _ _ _ _ hc) fun c d hc => ?_
  refine Sim.bind (S.ifft _ _ _ hc) fun c d hc => ?_
  refine Sim.bind (S.modulus _ _ _ hc) fun x y hx => ?_
  refine Sim.bind (S.rfft _ _ _ hx) fun u v hu => ?_
  refine Sim.bind (sim_listGet' hphi.2 _) fun f g hfg => ?_
  refine Sim.bind (S.cdgmm _ _ _ _ _ hu hfg) fun c d hc => ?_
  refine Sim.bind (S.subsample _ _ _ _ hc) fun c d hc => ?_
  refine Sim.bind (S.irfft _ _ _ hc) fun x y hx => ?_
  exact Sim.ok ⟨hu, hx⟩

theorem sim_second (ls : Nat) (avg : Bool) {psi : Filt A.F} {psi' : Filt B.F} (hpsi : S.filt psi psi')
    {u : Nat × A.C} {v : Nat × B.C} (hu : u.1 = v.1 ∧ S.rC 1 u.2 v.2) :
    Sim (S.rT 1) (second A ls avg psi u) (second B ls avg psi' v) := by
  unfold second
  rw [← hpsi.1, ← hu.1]
  refine Sim.bind (sim_listGet' hpsi.2 _) fun f g hfg => ?_
  refine Sim.bind (S.cdgmm _ _ _ _ _ hu.2 hfg) fun c d hc => ?_
  refine Sim.bind (S.subsample _ _ _ _ hc) fun c d hc => ?_
  exact S.ifft _ _ _ hc

theorem forall₂_filter {α β : Type} {R : α → β → Prop} {l : List α} {m : List β} (h : List.Forall₂ R l m)
    {p : α → Bool} {q : β → Bool} (hpq : ∀ a b, R a b → p a = q b) : List.Forall₂ R (l.filter p) (m.filter q) := by
  induction h with
  | nil => exact List.Forall₂.nil
  | cons hab _ ih =>
    rw [List.filter_cons, List.filter_cons, ← hpq _ _ hab]
    split
    · exact List.Forall₂.cons hab ih
    · exact ih

theorem sim_stack2 (ls : Nat) (avg : Bool) {us : List (Nat × A.C)} {vs : List (Nat × B.C)}
    (hus : List.Forall₂ (fun u v => u.1 = v.1 ∧ S.rC 1 u.2 v.2) us vs) {psi : Filt A.F} {psi' : Filt B.F}
    (hpsi : S.filt psi psi') (n : Nat) :
    Sim (List.Forall₂ fun p q => JRel.tpath (S.rCS 1 false false) p q ∧ p.n1Max ≤ us.length) (stack2 A ls avg us psi n) (stack2 B ls avg vs psi' n) := by
  unfold stack2
  have hf := forall₂_filter hus (p := fun u => decide (psi.j > u.1)) (q := fun u => decide (psi'.j > u.1))
    fun a b hab => by rw [hpsi.1, hab.1]
  intro z hz
  obtain ⟨ys, h1, h2⟩ := bind_eq_ok.1 hz
  obtain ⟨ys', h1', hy⟩ := Front1D.sim_mapM (fun a b hab => sim_second S ls avg hpsi hab) hf _ h1
  rw [h1', pyOk_bind]
  have hlen : ys.length ≤ us.length := by
    rw [← (mapM_eq_ok.1 h1).length_eq]
    exact List.length_filter_le _ _
  rw [← hy.length_eq, ← hpsi.1]
  by_cases hc : ys.length > 0
  · rw [if_pos hc] at h2 ⊢
    refine Sim.bind (S.stackC _ _ hy) (fun Y Y' hY => ?_) z h2
    exact Sim.ok (List.Forall₂.cons ⟨⟨hY, rfl, rfl, rfl⟩, hlen⟩ List.Forall₂.nil)
  · rw [if_neg hc] at h2 ⊢
    exact Sim.ok List.Forall₂.nil z h2

theorem forall₂_zip {α β γ δ : Type} {R : α → β → Prop} {P : γ → δ → Prop} {l : List α} {m : List β}
    (h : List.Forall₂ R l m) {l' : List γ} {m' : List δ} (h' : List.Forall₂ P l' m') :
    List.Forall₂ (fun a b => R a.1 b.1 ∧ P a.2 b.2) (l.zip l') (m.zip m') := by
  induction h generalizing l' m' with
  | nil => exact List.Forall₂.nil
  | cons hab _ ih =>
    cases h' with
    | nil => exact List.Forall₂.nil
    | cons hcd h' => exact List.Forall₂.cons ⟨hab, hcd⟩ (ih h')

theorem sim_widthFirst {phi : Filt A.F} {phi' : Filt B.F} (hphi : S.filt phi phi') {psi1 psi2 : List (Filt A.F)}
    {psi1' psi2' : List (Filt B.F)} (h1 : List.Forall₂ S.filt psi1 psi1') (h2 : List.Forall₂ S.filt psi2 psi2')
    (ls : Nat) (avg : Bool) {x : A.R} {y : B.R} (hx : S.rR 0 x y) :
    Sim (fun a b => S.rR 0 a.1 b.1 ∧ (JRel.tpath (S.rRS 1 false) a.2.1 b.2.1 ∧ a.2.1.n1Max ≤ psi1.length) ∧
      List.Forall₂ (fun p q => JRel.tpath (S.rCS 1 false false) p q ∧ p.n1Max ≤ psi1.length) a.2.2 b.2.2)
      (widthFirst A x phi psi1 psi2 ls avg) (widthFirst B y phi' psi1' psi2' ls avg) := by
  unfold widthFirst
  refine Sim.bind (S.rfft _ _ _ hx) fun c d hc => ?_
  refine Sim.bind (sim_zeroth S hphi ls avg hx hc) fun s t hs => ?_
  refine Sim.bind (R := fun l m => List.Forall₂ (fun a b => S.rC 1 a.1 b.1 ∧ S.rR 1 a.2 b.2) l m ∧ l.length = psi1.length)
    (fun l hl => ?_) ?_
  · obtain ⟨m, hm, hlm⟩ := Front1D.sim_mapM (fun a b hab => sim_first S hphi ls avg hc hab) h1 _ hl
    exact ⟨m, hm, hlm, (mapM_eq_ok.1 hl).length_eq.symm⟩
  rintro l m ⟨hlm, hlen⟩
  refine Sim.bind (S.stackR _ _ ?_) fun Y Y' hY => ?_
  · rw [List.forall₂_map_left_iff, List.forall₂_map_right_iff]
    exact hlm.imp fun _ _ h => h.2
  have hus : List.Forall₂ (fun u v => u.1 = v.1 ∧ S.rC 1 u.2 v.2)
      (List.zip (psi1.map fun p => p.j) (l.map Prod.fst)) (List.zip (psi1'.map fun p => p.j) (m.map Prod.fst)) := by
    refine forall₂_zip ?_ ?_
    · rw [List.forall₂_map_left_iff, List.forall₂_map_right_iff]
      exact h1.imp fun _ _ h => h.1
    · rw [List.forall₂_map_left_iff, List.forall₂_map_right_iff]
      exact hlm.imp fun _ _ h => h.1
  refine Sim.bind (sim_forEnum (R := S.filt) (fun a b n hab => sim_stack2 S ls avg hus hab n) h2 0) fun p q hpq => ?_
  refine Sim.ok ⟨hs, ⟨⟨hY, rfl, rfl, hlm.length_eq⟩, hlen.le⟩, hpq.imp fun _ _ h => ⟨h.1, h.2.trans ?_⟩⟩
  rw [List.length_zip, List.length_map]
  exact Nat.min_le_left _ _

theorem sim_frBody (lsFr : Nat) (avgFr : Bool) (j n : List Int) (m : Nat) {c : A.CS} {d : B.CS} (hc : S.rCS 1 true true c d)
    {psi : FiltFr A.F} {psi' : FiltFr B.F} (hpsi : S.filtFr psi psi') (k : Nat) :
    Sim (List.Forall₂ (S.fpath1)) (frBody A lsFr avgFr j n m c psi k) (frBody B lsFr avgFr j n m d psi' k) := by
  unfold frBody
  rw [← hpsi.1, ← hpsi.2.1]
  refine Sim.bind (sim_listGet' hpsi.2.2 0) fun f g hfg => ?_
  refine Sim.bind (S.cdgmmS _ _ _ _ _ _ hc hfg) fun c d hc => ?_
  refine Sim.bind (S.subsampleS _ _ _ _ _ hc) fun c d hc => ?_
  refine Sim.bind (S.ifftS _ _ _ _ hc) fun c d hc => ?_
  refine Sim.bind (S.swapC _ _ _ _ hc) fun c d hc => ?_
  exact Sim.ok (List.Forall₂.cons ⟨⟨hc, rfl, rfl, rfl, rfl, rfl, rfl, rfl⟩, by simp⟩ List.Forall₂.nil)

theorem sim_frequencyReal {phi : PhiFr A.F} {phi' : PhiFr B.F} (hphi : S.phiFr phi phi') {psis : List (FiltFr A.F)}
    {psis' : List (FiltFr B.F)} (hpsis : List.Forall₂ S.filtFr psis psis') (lsFr : Nat) (avgFr : Bool)
    {X : TPath A.RS} {Y : TPath B.RS} (hX : JRel.tpath (S.rRS 1 false) X Y) (hp : S.padOk ((phi.N : Int) - X.n1Max)) :
    Sim (List.Forall₂ (S.fpath1)) (frequencyReal A phi psis lsFr avgFr X)
      (frequencyReal B phi' psis' lsFr avgFr Y) := by
  unfold frequencyReal
  rw [← hphi.2.1, ← hX.2.1, ← hX.2.2.1, ← hX.2.2.2]
  refine Sim.bind (S.swapR _ _ _ _ hX.1) fun c d hc => ?_
  refine Sim.bind (S.padFrequencyR _ _ _ _ hp hc) fun c d hc => ?_
  refine Sim.bind (S.rfftS _ _ _ _ hc) fun c d hc => ?_
  refine sim_forEnum (R := S.filtFr) (fun a b n hab => sim_frBody S lsFr avgFr _ _ _ hc hab n)
    (forall₂_filter hpsis fun a b hab => ?_) 0
  rw [hab.2.1]

theorem sim_frequencyComplex {phi : PhiFr A.F} {phi' : PhiFr B.F} (hphi : S.phiFr phi phi') {psis : List (FiltFr A.F)}
    {psis' : List (FiltFr B.F)} (hpsis : List.Forall₂ S.filtFr psis psis') (lsFr : Nat) (avgFr : Bool)
    {X : TPath A.CS} {Y : TPath B.CS} (hX : JRel.tpath (S.rCS 1 false false) X Y) (hp : S.padOk ((phi.N : Int) - X.n1Max)) :
    Sim (List.Forall₂ (S.fpath1)) (frequencyComplex A phi psis lsFr avgFr X)
      (frequencyComplex B phi' psis' lsFr avgFr Y) := by
  unfold frequencyComplex
  rw [← hphi.2.1, ← hX.2.1, ← hX.2.2.1, ← hX.2.2.2]
  refine Sim.bind (S.swapC _ _ _ _ hX.1) fun c d hc => ?_
  refine Sim.bind (S.padFrequencyC _ _ _ _ hp hc) fun c d hc => ?_
  refine Sim.bind (S.cfftS _ _ _ _ hc) fun c d hc => ?_
  exact sim_forEnum (R := S.filtFr) (fun a b n hab => sim_frBody S lsFr avgFr _ _ _ hc hab n) hpsis 0

theorem sim_joint {phi : Filt A.F} {phi' : Filt B.F} (hphi : S.filt phi phi') {psi1 psi2 : List (Filt A.F)}
    {psi1' psi2' : List (Filt B.F)} (h1 : List.Forall₂ S.filt psi1 psi1') (h2 : List.Forall₂ S.filt psi2 psi2')
    (ls : Nat) (avg : Bool) {phiFr : PhiFr A.F} {phiFr' : PhiFr B.F} (hphiFr : S.phiFr phiFr phiFr')
    {psis : List (FiltFr A.F)} {psis' : List (FiltFr B.F)} (hpsis : List.Forall₂ S.filtFr psis psis') (lsFr : Nat)
    (avgFr : Bool) {x : A.R} {y : B.R} (hx : S.rR 0 x y)
    (hp : ∀ n : Nat, n ≤ psi1.length → S.padOk ((phiFr.N : Int) - n)) :
    Sim (fun a b => S.rR 0 a.1 b.1 ∧ List.Forall₂ (S.fpath1) a.2 b.2)
      (joint A x phi psi1 psi2 ls avg phiFr psis lsFr avgFr) (joint B y phi' psi1' psi2' ls avg phiFr' psis' lsFr avgFr) := by
  unfold joint
  refine Sim.bind (sim_widthFirst S hphi h1 h2 ls avg hx) fun t u htu => ?_
  refine Sim.bind (sim_frequencyReal S hphiFr hpsis lsFr avgFr htu.2.1.1 (hp _ htu.2.1.2)) fun p q hpq => ?_
  refine Sim.bind (Front1D.sim_mapM (fun a b hab => sim_frequencyComplex S hphiFr hpsis lsFr avgFr hab.1 (hp _ hab.2))
    htu.2.2) fun l m hlm => ?_
  refine Sim.ok ⟨htu.1, List.rel_append hpq (List.rel_flatten hlm)⟩

theorem sim_timeAveraging {phi : Filt A.F} {phi' : Filt B.F} (hphi : S.filt phi phi') (ls : Nat) (j : List Int)
    {U : A.RS} {V : B.RS} (h : S.rRS 2 false U V) : Sim (S.rRS 2 false) (timeAveraging A phi ls j U) (timeAveraging B phi' ls j V) := by
  unfold timeAveraging
  cases j.getLast? with
  | none => exact Sim.error
  | some k =>
    refine Sim.bind (S.rfftS _ _ _ _ h) fun c d hc => ?_
    refine Sim.bind (sim_listGetI hphi.2 k) fun f g hfg => ?_
    refine Sim.bind (S.cdgmmS _ _ _ _ _ _ hc hfg) fun c d hc => ?_
    refine Sim.bind (S.subsampleS _ _ _ _ _ hc) fun c d hc => ?_
    exact S.irfftS _ _ _ _ hc

theorem sim_frequencyAveraging {phi : PhiFr A.F} {phi' : PhiFr B.F} (hphi : S.phiFr phi phi') (lsFr : Nat) (glob : Bool)
    (m jFr : Nat) {U : A.RS} {V : B.RS} (h : S.rRS 2 false U V) :
    Sim (fun a b => S.rRS 2 false a.1 b.1 ∧ a.2 = b.2) (frequencyAveraging A phi lsFr glob m jFr U)
      (frequencyAveraging B phi' lsFr glob m jFr V) := by
  unfold frequencyAveraging
  rw [← hphi.1]
  refine Sim.bind (S.swapR _ _ _ _ h) fun c d hc => ?_
  cases glob with
  | true =>
    refine Sim.bind (S.averageGlobalS _ _ _ _ hc) fun c d hc => ?_
    refine Sim.bind (S.swapR _ _ _ _ hc) fun c d hc => ?_
    exact Sim.ok ⟨hc, rfl⟩
  | false =>
    refine Sim.bind (S.rfftS _ _ _ _ hc) fun c d hc => ?_
    refine Sim.bind (sim_listGet' hphi.2.2 _) fun f g hfg => ?_
    refine Sim.bind (S.cdgmmS _ _ _ _ _ _ hc hfg) fun c d hc => ?_
    refine Sim.bind (S.subsampleS _ _ _ _ _ hc) fun c d hc => ?_
    refine Sim.bind (S.irfftS _ _ _ _ hc) fun c d hc => ?_
    refine Sim.bind (S.swapR _ _ _ _ hc) fun c d hc => ?_
    exact Sim.ok ⟨hc, rfl⟩

theorem sim_timeFormatting {p : FPath A.RS} {q : FPath B.RS} (h : JRel.fpath (S.rRS 2 false) p q) :
    Sim (List.Forall₂ S.path) (timeFormatting A p) (timeFormatting B q) := by
  obtain ⟨hc, h1, h2, h3, h4, h5, h6, h7⟩ := h
  unfold timeFormatting
  rw [← h1, ← h2, ← h3, ← h4, ← h5, ← h6, ← h7]
  refine Sim.bind (S.split _ _ _ _ hc) fun l m hlm => ?_
  refine sim_forEnum (R := Eq) ?_ (List.forall₂_same.2 fun _ _ => rfl) 0
  rintro n1 _ i rfl
  refine Sim.bind (sim_listGet' hlm i) fun x y hxy => ?_
  refine Sim.ok (List.Forall₂.cons ⟨?_, rfl, rfl, rfl, rfl, rfl⟩ List.Forall₂.nil)
  rw [if_neg (List.cons_ne_nil _ _)]
  exact hxy

theorem sim_averageTime {phi : Filt A.F} {phi' : Filt B.F} (hphi : S.filt phi phi') (ls : Nat) (average : Average)
    {p : FPath A.CS} {q : FPath B.CS} (h : JRel.fpath (S.rCS 1 false false) p q) {U : A.RS} {V : B.RS} (hU : S.rRS 2 false U V) :
    Sim (S.rRS 2 false) (averageTime A phi ls average p U) (averageTime B phi' ls average q V) := by
  unfold averageTime
  rw [← h.2.1, ← h.2.2.1]
  split
  · exact S.averageGlobalS _ _ _ _ hU
  · split
    · exact sim_timeAveraging S hphi ls _ hU
    · exact Sim.ok hU

theorem sim_averageFreq {phi : PhiFr A.F} {phi' : PhiFr B.F} (hphi : S.phiFr phi phi') (lsFr : Nat) (average : Average)
    {p : FPath A.CS} {q : FPath B.CS} (h : JRel.fpath (S.rCS 1 false false) p q) {U : A.RS} {V : B.RS} (hU : S.rRS 2 false U V) :
    Sim (fun a b => S.rRS 2 false a.1 b.1 ∧ a.2 = b.2) (averageFreq A phi lsFr average p U)
      (averageFreq B phi' lsFr average q V) := by
  obtain ⟨-, -, -, h3, h4, -, h6, h7⟩ := h
  unfold averageFreq
  rw [← h3, ← h4, ← h6, ← h7]
  split
  · exact sim_frequencyAveraging S hphi lsFr _ _ _ hU
  · exact Sim.ok ⟨hU, rfl⟩

theorem sim_averageBody {phi : Filt A.F} {phi' : Filt B.F} (hphi : S.filt phi phi') (ls : Nat) (average : Average)
    {phiFr : PhiFr A.F} {phiFr' : PhiFr B.F} (hphiFr : S.phiFr phiFr phiFr') (lsFr : Nat) (averageFr : Average)
    (arrayOut : Bool) (fmt : Format) {p : FPath A.CS} {q : FPath B.CS} (h : JRel.fpath (S.rCS 1 false false) p q)
    (hn : p.n ≠ []) :
    Sim (List.Forall₂ S.path) (averageBody A phi ls average phiFr lsFr averageFr arrayOut fmt p)
      (averageBody B phi' ls average phiFr' lsFr averageFr arrayOut fmt q) := by
  unfold averageBody
  refine Sim.bind (S.modulusS _ _ _ h.1) fun U V hU => ?_
  refine Sim.bind (sim_averageTime S hphi ls average h hU) fun U V hU => ?_
  refine Sim.bind (sim_averageFreq S hphiFr lsFr averageFr h hU) fun U V hU => ?_
  obtain ⟨-, h1, h2, h3, h4, h5, h6, h7⟩ := h
  rw [← h1, ← h2, ← h3, ← h4, ← h5, ← h7, ← hU.2]
  refine Sim.bind (R := S.rRS 2 false) ?_ fun c d hc => ?_
  · unfold unpadFr
    split
    · exact S.unpadFrequency _ _ _ _ _ hU.1
    · exact Sim.ok hU.1
  · unfold formatPath
    cases fmt with
    | joint =>
      refine Sim.ok (List.Forall₂.cons ⟨?_, rfl, rfl, rfl, rfl, rfl⟩ List.Forall₂.nil)
      rw [if_neg hn]
      exact hc
    | time => exact sim_timeFormatting S ⟨hc, rfl, rfl, rfl, rfl, rfl, rfl, rfl⟩
    | other => exact Sim.ok List.Forall₂.nil

theorem sim_averageAndFormat {phi : Filt A.F} {phi' : Filt B.F} (hphi : S.filt phi phi') (ls : Nat) (average : Average)
    {phiFr : PhiFr A.F} {phiFr' : PhiFr B.F} (hphiFr : S.phiFr phiFr phiFr') (lsFr : Nat) (averageFr : Average)
    (arrayOut : Bool) (fmt : Format) {g : A.R × List (FPath A.CS)} {g' : B.R × List (FPath B.CS)}
    (hg : S.rR 0 g.1 g'.1 ∧ List.Forall₂ S.fpath1 g.2 g'.2) :
    Sim (List.Forall₂ S.path) (averageAndFormat A g phi ls average phiFr lsFr averageFr arrayOut fmt)
      (averageAndFormat B g' phi' ls average phiFr' lsFr averageFr arrayOut fmt) := by
  unfold averageAndFormat
  refine Sim.bind (R := S.rR 0) ?_ fun x y hx => ?_
  · unfold averageZeroth
    split
    · exact S.averageGlobal _ _ _ hg.1
    · exact Sim.ok hg.1
  refine Sim.bind (Front1D.sim_mapM (fun a b hab => sim_averageBody S hphi ls average hphiFr lsFr averageFr arrayOut fmt
    hab.1 hab.2) hg.2) fun l m hlm => ?_
  exact Sim.ok (List.Forall₂.cons ⟨hx, rfl, rfl, rfl, rfl, rfl⟩ (List.rel_flatten hlm))

end JTFS

namespace FrontJ

/-- Two sets of frontend operations compatible with a backend relation. -/
structure FrontRelJ {A B : JBackend} (S : JRel A B) (fa : JFrontOps A.R A.RS) (fb : JFrontOps B.R B.RS) where
  rIn : A.R → B.R → Prop
  rO : Nat → A.R → B.R → Prop
  rOS : Nat → A.RS → B.RS → Prop
  pad : ∀ x y l r, rIn x y → Sim (S.rR 0) (fa.pad x l r) (fb.pad y l r)
  unpad : ∀ i x y i0 i1, S.rR i x y → rO i (fa.unpad x i0 i1) (fb.unpad y i0 i1)
  unpadS : ∀ i x y i0 i1, S.rRS i false x y → rOS i (fa.unpadS x i0 i1) (fb.unpadS y i0 i1)
  keep : ∀ i x y, S.rR i x y → rO i x y
  keepS : ∀ i x y, S.rRS i false x y → rOS i x y

/-- Objects that differ only in the representation of their filters. -/
structure ObjRelJ {A B : JBackend} (S : JRel A B) (o : JObj A.F) (o' : JObj B.F) : Prop where
  padLeft : o.padLeft = o'.padLeft
  padRight : o.padRight = o'.padRight
  indStart : o.indStart = o'.indStart
  indEnd : o.indEnd = o'.indEnd
  phi : S.filt o.phi o'.phi
  psi1 : List.Forall₂ S.filt o.psi1 o'.psi1
  psi2 : List.Forall₂ S.filt o.psi2 o'.psi2
  log2Stride : o.log2Stride = o'.log2Stride
  average : o.average = o'.average
  phiFr : S.phiFr o.phiFr o'.phiFr
  psisFr : List.Forall₂ S.filtFr o.psisFr o'.psisFr
  log2StrideFr : o.log2StrideFr = o'.log2StrideFr
  averageFr : o.averageFr = o'.averageFr
  outType : o.outType = o'.outType
  fmt : o.fmt = o'.fmt
  padFr : ∀ n : Nat, n ≤ o.psi1.length → S.padOk ((o.phiFr.N : Int) - n)

variable {A B : JBackend} {S : JRel A B} {fa : JFrontOps A.R A.RS} {fb : JFrontOps B.R B.RS}

/-- Related coefficients of the output. -/
def coefOut (F : FrontRelJ S fa fb) (i : Nat) : JCoef A.R A.RS → JCoef B.R B.RS → Prop
  | .sig x, .sig y => F.rO i x y
  | .stk x, .stk y => F.rOS i x y
  | _, _ => False

/-- Two paths of the output with the same labels and related coefficients. -/
def pathOut (F : FrontRelJ S fa fb) (p : JPath A.R A.RS) (q : JPath B.R B.RS) : Prop :=
  coefOut F (if p.n = [] then 0 else 2) p.coef q.coef ∧ p.j = q.j ∧ p.n = q.n ∧ p.order = q.order ∧ p.fr = q.fr ∧
    p.n1 = q.n1

theorem sim_paths {o : JObj A.F} {o' : JObj B.F} (h : ObjRelJ S o o') (ls lsFr : Nat) {x : A.R} {y : B.R}
    (hx : S.rR 0 x y) : Sim (List.Forall₂ S.path) (paths A o ls lsFr x) (paths B o' ls lsFr y) := by
  unfold paths
  rw [← h.average, ← h.averageFr, ← h.outType, ← h.fmt]
  refine Sim.bind (JTFS.sim_joint S h.phi h.psi1 h.psi2 ls _ h.phiFr h.psisFr lsFr _ hx h.padFr) fun g g' hg => ?_
  exact JTFS.sim_averageAndFormat S h.phi ls _ h.phiFr lsFr _ _ _ hg

theorem sim_postJ (F : FrontRelJ S fa fb) {o : JObj A.F} {o' : JObj B.F} (h : ObjRelJ S o o') (ls : Nat)
    {p : JPath A.R A.RS} {q : JPath B.R B.RS} (hpq : S.path p q) :
    Sim (pathOut F) (post fa o ls p) (post fb o' ls q) := by
  obtain ⟨hc, h1, h2, h3, h4, h5⟩ := hpq
  unfold post
  rw [← h.average]
  split
  · refine Sim.ok ⟨?_, h1, h2, h3, h4, h5⟩
    cases hp : p.coef <;> cases hq : q.coef <;> rw [hp, hq] at hc
    · exact F.keep _ _ _ hc
    · exact hc.elim
    · exact hc.elim
    · exact F.keepS _ _ _ hc
  · have hres : resolution o ls p = resolution o' ls q := by
      unfold resolution
      rw [h.average, h1, h2]
    rw [← hres, ← h.indStart, ← h.indEnd]
    refine Sim.bind (Front1D.sim_self _) ?_
    rintro r _ rfl
    refine Sim.bind (Front1D.sim_self _) ?_
    rintro i0 _ rfl
    refine Sim.bind (Front1D.sim_self _) ?_
    rintro i1 _ rfl
    refine Sim.ok ⟨?_, h1, h2, h3, h4, h5⟩
    show coefOut F (if p.n = [] then 0 else 2) (unpadCoef fa i0 i1 p.coef) (unpadCoef fb i0 i1 q.coef)
    cases hp : p.coef <;> cases hq : q.coef <;> rw [hp, hq] at hc
    · exact F.unpad _ _ _ _ _ hc
    · exact hc.elim
    · exact hc.elim
    · exact F.unpadS _ _ _ _ _ hc

theorem scattering_eq (B : JBackend) (ops : JFrontOps B.R B.RS) (o : JObj B.F) (x : B.R) :
    scattering B ops o x = unassembled B ops o x >>= assemble ops o := by
  unfold scattering unassembled
  simp only [bind_assoc]

/-- Simulation for the frontend. -/
theorem sim_unassembled (F : FrontRelJ S fa fb) {o : JObj A.F} {o' : JObj B.F} (h : ObjRelJ S o o') {x : A.R} {y : B.R}
    (hx : F.rIn x y) : Sim (List.Forall₂ (pathOut F)) (unassembled A fa o x) (unassembled B fb o' y) := by
  unfold unassembled
  have hch : checkRuntimeArgs o = checkRuntimeArgs o' := by
    unfold checkRuntimeArgs
    rw [h.outType, h.average, h.fmt, h.averageFr]
  rw [← hch, ← h.padLeft, ← h.padRight, ← h.log2Stride, ← h.log2StrideFr]
  refine Sim.bind (Front1D.sim_self _) ?_
  rintro _ _ rfl
  refine Sim.bind (F.pad _ _ _ _ hx) fun U V hU => ?_
  refine Sim.bind (Front1D.sim_self _) ?_
  rintro ls _ rfl
  refine Sim.bind (Front1D.sim_self _) ?_
  rintro lsFr _ rfl
  refine Sim.bind (sim_paths h _ _ hU) fun l m hlm => ?_
  exact Front1D.sim_mapM (fun a b hab => sim_postJ F h _ hab) hlm

end FrontJ

end Verif
