import Verif.Model.Core2D
import Verif.Lemmas.Labels1D

/-!
# What the 2-D core returns, and simulation between two runs
-/

namespace Verif

namespace Core2D

open Core1D (forEnum forEnum_eq_ok forEnum_mem forEnum_ok forEnum_map sim_forEnum)

theorem subExp_eq_ok {a b e : Nat} : subExp a b = .ok e ↔ b ≤ a ∧ e = a - b := by
  unfold subExp
  by_cases h : b ≤ a
  · simp only [h, if_true, true_and]
    constructor
    · intro h; injection h with h; exact h.symm
    · intro h; rw [h]
  · simp [h]

section run

variable (B : Backend1D) (ops : Ops2D B.R)

theorem secondOrder_eq_ok {J : Nat} {phi : List B.F} {psi1 psi2 : Filt2 B.F} {n1 n2 : Nat}
    {U1c : B.C} {out : List (Path2 B.R)}
    (h : secondOrder B ops J phi psi1 n1 U1c psi2 n2 = .ok out) :
    (psi2.j ≤ psi1.j ∧ out = []) ∨
    (psi1.j < psi2.j ∧ ∃ U2c S2, second B psi2 psi1.j U1c = .ok U2c ∧
      lowpass B ops J phi U2c psi2.j = .ok S2 ∧
      out = [⟨S2, [psi1.j, psi2.j], [n1, n2], [psi1.theta, psi2.theta]⟩]) := by
  unfold secondOrder at h
  split at h
  · rename_i hj
    injection h with h
    exact .inl ⟨hj, h.symm⟩
  · rename_i hj
    obtain ⟨U2c, hU, h⟩ := bind_eq_ok.1 h
    obtain ⟨S2, hS, h⟩ := bind_eq_ok.1 h
    injection h with h
    exact .inr ⟨by omega, U2c, S2, hU, hS, h.symm⟩

theorem firstOrder_eq_ok {J : Nat} {phi : List B.F} {psi : List (Filt2 B.F)} {mo : Int}
    {U0c : B.C} {psi1 : Filt2 B.F} {n1 : Nat} {out : List (Path2 B.R × List (Path2 B.R))}
    (h : firstOrder B ops J phi psi mo U0c psi1 n1 = .ok out) :
    ∃ U1c S1 p2, first B psi1 U0c = .ok U1c ∧ lowpass B ops J phi U1c psi1.j = .ok S1 ∧
      out = [(⟨S1, [psi1.j], [n1], [psi1.theta]⟩, p2)] ∧
      (mo < 2 → p2 = []) ∧
      (2 ≤ mo → forEnum (secondOrder B ops J phi psi1 n1 U1c) psi 0 = .ok p2) := by
  unfold firstOrder at h
  obtain ⟨U1c, hU, h⟩ := bind_eq_ok.1 h
  obtain ⟨S1, hS, h⟩ := bind_eq_ok.1 h
  split at h
  · rename_i hm
    injection h with h
    exact ⟨U1c, S1, [], hU, hS, h.symm, fun _ => rfl, fun h => absurd hm (by omega)⟩
  · rename_i hm
    obtain ⟨p2, hp, h⟩ := bind_eq_ok.1 h
    injection h with h
    exact ⟨U1c, S1, p2, hU, hS, h.symm, fun h => absurd h hm, fun _ => hp⟩

theorem paths_eq_ok {x : B.R} {J : Nat} {phi : List B.F} {psi : List (Filt2 B.F)} {mo : Int}
    {out : List (Path2 B.R)} (h : paths B ops x J phi psi mo = .ok out) :
    ∃ Ur U0c S0 l, ops.pad x = .ok Ur ∧ B.rfft Ur = .ok U0c ∧
      lowpass B ops J phi U0c 0 = .ok S0 ∧
      forEnum (firstOrder B ops J phi psi mo U0c) psi 0 = .ok l ∧
      out = ⟨S0, [], [], []⟩ :: (l.map Prod.fst ++ (l.map Prod.snd).flatten) := by
  unfold paths at h
  obtain ⟨Ur, h1, h⟩ := bind_eq_ok.1 h
  obtain ⟨U0c, h2, h⟩ := bind_eq_ok.1 h
  obtain ⟨S0, h3, h⟩ := bind_eq_ok.1 h
  obtain ⟨l, h4, h⟩ := bind_eq_ok.1 h
  injection h with h
  exact ⟨Ur, U0c, S0, l, h1, h2, h3, h4, h.symm⟩

/-- What it means for a path to be a correct output of the 2-D core. -/
inductive IsPath2 (x : B.R) (J : Nat) (phi : List B.F) (psi : List (Filt2 B.F)) (mo : Int) :
    Path2 B.R → Prop
  | zero (Ur : B.R) (U0c : B.C) (c : B.R) (hp : ops.pad x = .ok Ur) (h0 : B.rfft Ur = .ok U0c)
      (hc : lowpass B ops J phi U0c 0 = .ok c) : IsPath2 x J phi psi mo ⟨c, [], [], []⟩
  | one (Ur : B.R) (U0c U1c : B.C) (c : B.R) (n1 : Nat) (f : Filt2 B.F)
      (hp : ops.pad x = .ok Ur) (h0 : B.rfft Ur = .ok U0c) (hn1 : psi[n1]? = some f)
      (hU : first B f U0c = .ok U1c) (hc : lowpass B ops J phi U1c f.j = .ok c) :
      IsPath2 x J phi psi mo ⟨c, [f.j], [n1], [f.theta]⟩
  | two (Ur : B.R) (U0c U1c U2c : B.C) (c : B.R) (n1 n2 : Nat) (f g : Filt2 B.F) (hm : 2 ≤ mo)
      (hp : ops.pad x = .ok Ur) (h0 : B.rfft Ur = .ok U0c) (hn1 : psi[n1]? = some f)
      (hn2 : psi[n2]? = some g) (hj : f.j < g.j)
      (hU : first B f U0c = .ok U1c) (hU2 : second B g f.j U1c = .ok U2c)
      (hc : lowpass B ops J phi U2c g.j = .ok c) :
      IsPath2 x J phi psi mo ⟨c, [f.j, g.j], [n1, n2], [f.theta, g.theta]⟩

theorem mem_paths {x : B.R} {J : Nat} {phi : List B.F} {psi : List (Filt2 B.F)} {mo : Int}
    {out : List (Path2 B.R)} (h : paths B ops x J phi psi mo = .ok out) {p : Path2 B.R}
    (hp : p ∈ out) : IsPath2 B ops x J phi psi mo p := by
  obtain ⟨Ur, U0c, S0, l, h1, h2, h3, h4, rfl⟩ := paths_eq_ok B ops h
  rcases List.mem_cons.1 hp with rfl | hp
  · exact .zero Ur U0c S0 h1 h2 h3
  · rcases List.mem_append.1 hp with hp | hp
    · obtain ⟨q, hq, rfl⟩ := List.mem_map.1 hp
      obtain ⟨n1, f, y, hn1, hy, hqy⟩ := (forEnum_mem h4 q).1 hq
      obtain ⟨U1c, S1, p2, hU, hS, rfl, -, -⟩ := firstOrder_eq_ok B ops hy
      rw [List.mem_singleton] at hqy
      subst hqy
      exact .one Ur U0c U1c S1 n1 f h1 h2 hn1 hU hS
    · obtain ⟨s, hs, hps⟩ := List.mem_flatten.1 hp
      obtain ⟨q, hq, rfl⟩ := List.mem_map.1 hs
      obtain ⟨n1, f, y, hn1, hy, hqy⟩ := (forEnum_mem h4 q).1 hq
      obtain ⟨U1c, S1, p2, hU, hS, rfl, hlt, hge⟩ := firstOrder_eq_ok B ops hy
      rw [List.mem_singleton] at hqy
      subst hqy
      simp only at hps
      by_cases hm : mo < 2
      · rw [hlt hm] at hps; cases hps
      · have hm : 2 ≤ mo := by omega
        obtain ⟨n2, g, z, hn2, hz, hpz⟩ := (forEnum_mem (hge hm) p).1 hps
        rcases secondOrder_eq_ok B ops hz with ⟨-, rfl⟩ | ⟨hj, U2c, S2, hU2, hS2, rfl⟩
        · cases hpz
        · rw [List.mem_singleton] at hpz
          subst hpz
          exact .two Ur U0c U1c U2c S2 n1 n2 f g hm h1 h2 hn1 hn2 hj hU hU2 hS2

/-- Label of a path. -/
abbrev Lab := List Nat × List Nat × List Nat

/-- `(j, n, theta)` of a path. -/
def lab {R : Type} (p : Path2 R) : Lab := (p.j, p.n, p.theta)

/-- Labels of the second-order paths below one first-order filter. -/
def labels2 {F : Type} (psi : List (Filt2 F)) (f : Filt2 F) (n1 : Nat) : List Lab :=
  (psi.zipIdx 0).flatMap fun q =>
    if f.j < q.1.j then [([f.j, q.1.j], [n1, q.2], [f.theta, q.1.theta])] else []

/-- All labels in output order. -/
def labels {F : Type} (psi : List (Filt2 F)) (mo : Int) : List Lab :=
  ([], [], []) :: ((psi.zipIdx 0).map fun q => ([q.1.j], [q.2], [q.1.theta])) ++
    (if mo < 2 then [] else (psi.zipIdx 0).flatMap fun q => labels2 psi q.1 q.2)

theorem labels_eq {x : B.R} {J : Nat} {phi : List B.F} {psi : List (Filt2 B.F)} {mo : Int}
    {out : List (Path2 B.R)} (h : paths B ops x J phi psi mo = .ok out) :
    out.map lab = labels psi mo := by
  obtain ⟨Ur, U0c, S0, l, h1, h2, h3, h4, rfl⟩ := paths_eq_ok B ops h
  have key := forEnum_map (g := fun q : Path2 B.R × List (Path2 B.R) => (lab q.1, q.2.map lab))
    (h := fun f n1 => [(([f.j], [n1], [f.theta]), if mo < 2 then [] else labels2 psi f n1)])
    (by
      intro f n1 y _ hy
      obtain ⟨U1c, S1, p2, hU, hS, rfl, hlt, hge⟩ := firstOrder_eq_ok B ops hy
      simp only [List.map_cons, List.map_nil]
      congr 2
      by_cases hm : mo < 2
      · rw [hlt hm, if_pos hm]; rfl
      · rw [if_neg hm]
        refine forEnum_map (h := fun g n2 =>
          if f.j < g.j then [([f.j, g.j], [n1, n2], [f.theta, g.theta])] else []) ?_ (hge (by omega))
        intro g n2 z _ hz
        rcases secondOrder_eq_ok B ops hz with ⟨hj, rfl⟩ | ⟨hj, U2c, S2, hU2, hS2, rfl⟩
        · rw [if_neg (by omega)]; rfl
        · rw [if_pos hj]; rfl) h4
  have e1 : (l.map Prod.fst).map lab = (psi.zipIdx 0).map fun q => ([q.1.j], [q.2], [q.1.theta]) := by
    have := congrArg (List.map Prod.fst) key
    rw [List.map_map] at this
    rw [List.map_map]
    refine this.trans ?_
    rw [List.map_flatMap]
    simp only [List.map_cons, List.map_nil]
    induction psi.zipIdx 0 with
    | nil => rfl
    | cons a l ih => simp [ih]
  have e2 : ((l.map Prod.snd).flatten).map lab =
      (psi.zipIdx 0).flatMap fun q => if mo < 2 then [] else labels2 psi q.1 q.2 := by
    have := congrArg (fun z => (List.map Prod.snd z).flatten) key
    simp only [List.map_map] at this
    rw [List.map_flatten, List.map_map]
    refine this.trans ?_
    rw [List.map_flatMap]
    simp only [List.map_cons, List.map_nil]
    induction psi.zipIdx 0 with
    | nil => rfl
    | cons a l ih => simp [ih, List.flatMap_cons]
  unfold labels
  rw [List.map_cons, List.map_append, e1, e2]
  by_cases hm : mo < 2
  · simp [hm, lab]
  · simp [hm, lab]

end run

/-! ## Simulation -/

variable {A B : Backend1D} (S : BackendRel A B)

/-- Two wavelets with the same labels and level-wise related contents. -/
def filt2 (f : Filt2 A.F) (g : Filt2 B.F) : Prop :=
  f.j = g.j ∧ f.theta = g.theta ∧ f.levels.length = g.levels.length ∧
    ∀ k a b, f.levels[k]? = some a → g.levels[k]? = some b → S.rF k a b

/-- Two low-pass level lists. -/
def phi2 (f : List A.F) (g : List B.F) : Prop :=
  f.length = g.length ∧ ∀ k a b, f[k]? = some a → g[k]? = some b → S.rF k a b

/-- Two paths with the same labels and related coefficients. -/
def path2 (P : Nat → A.R → B.R → Prop) (p : Path2 A.R) (q : Path2 B.R) : Prop :=
  p.j = q.j ∧ p.n = q.n ∧ p.theta = q.theta ∧ P p.n.length p.coef q.coef

variable {opsA : Ops2D A.R} {opsB : Ops2D B.R} {P : Nat → A.R → B.R → Prop}

theorem sim_subExp (a b : Nat) : Sim (fun e e' => e = e' ∧ b ≤ a ∧ e = a - b) (subExp a b)
    (subExp a b) := by
  intro e he
  obtain ⟨h1, h2⟩ := subExp_eq_ok.1 he
  exact ⟨e, he, rfl, h1, h2⟩

theorem sim_lowpass {J : Nat} (hP : ∀ i r r', S.rR i J r r' → P i (opsA.unpad r) (opsB.unpad r'))
    {phi : List A.F} {phi' : List B.F} (hphi : phi2 S phi phi') {i lev : Nat} {x : A.C} {y : B.C}
    (h : S.rC i lev x y) :
    Sim (P i) (lowpass A opsA J phi x lev) (lowpass B opsB J phi' y lev) := by
  unfold lowpass
  refine Sim.bind (sim_listGet hphi.1 (hphi.2 lev)) ?_
  intro f g hfg
  refine Sim.bind (S.cdgmm i lev _ _ _ _ h hfg) ?_
  intro c d hcd
  refine Sim.bind (sim_subExp J lev) ?_
  rintro e e' ⟨rfl, hle, rfl⟩
  refine Sim.bind (S.subsample i lev _ _ (J - lev) hcd) ?_
  intro c d hcd
  rw [Nat.add_sub_cancel' hle] at hcd
  refine Sim.bind (S.irfft _ _ _ _ hcd) ?_
  intro r r' hr
  exact Sim.ok (hP _ _ _ hr)

theorem sim_first {psi : Filt2 A.F} {psi' : Filt2 B.F} (hpsi : filt2 S psi psi') {x : A.C} {y : B.C}
    (h : S.rC 0 0 x y) : Sim (S.rC 1 psi.j) (first A psi x) (first B psi' y) := by
  unfold first
  refine Sim.bind (sim_listGet hpsi.2.2.1 (hpsi.2.2.2 0)) ?_
  intro f g hfg
  refine Sim.bind (S.cdgmm 0 0 _ _ _ _ h hfg) ?_
  intro c d hcd
  refine Sim.bind (R := S.rC 0 psi.j) ?_ ?_
  · unfold subIfPos
    rw [← hpsi.1]
    by_cases hj : psi.j > 0
    · rw [if_pos hj, if_pos hj]
      have := S.subsample 0 0 _ _ psi.j hcd
      rwa [Nat.zero_add] at this
    · rw [if_neg hj, if_neg hj]
      rw [show psi.j = 0 by omega]
      exact Sim.ok hcd
  · intro c d hcd
    refine Sim.bind (S.ifft _ _ _ _ hcd) ?_
    intro c d hcd
    refine Sim.bind (S.modulus _ _ _ _ hcd) ?_
    intro c d hcd
    exact S.rfft _ _ _ _ hcd

theorem sim_second {psi : Filt2 A.F} {psi' : Filt2 B.F} (hpsi : filt2 S psi psi') {j1 : Nat}
    {x : A.C} {y : B.C} (h : S.rC 1 j1 x y) :
    Sim (S.rC 2 psi.j) (second A psi j1 x) (second B psi' j1 y) := by
  unfold second
  refine Sim.bind (sim_listGet hpsi.2.2.1 (hpsi.2.2.2 j1)) ?_
  intro f g hfg
  refine Sim.bind (S.cdgmm 1 j1 _ _ _ _ h hfg) ?_
  intro c d hcd
  rw [← hpsi.1]
  refine Sim.bind (sim_subExp psi.j j1) ?_
  rintro e e' ⟨rfl, hle, rfl⟩
  refine Sim.bind (S.subsample _ _ _ _ (psi.j - j1) hcd) ?_
  intro c d hcd
  rw [Nat.add_sub_cancel' hle] at hcd
  refine Sim.bind (S.ifft _ _ _ _ hcd) ?_
  intro c d hcd
  refine Sim.bind (S.modulus _ _ _ _ hcd) ?_
  intro c d hcd
  exact S.rfft _ _ _ _ hcd

theorem sim_paths {J : Nat} (hP : ∀ i r r', S.rR i J r r' → P i (opsA.unpad r) (opsB.unpad r'))
    {phi : List A.F} {phi' : List B.F} (hphi : phi2 S phi phi')
    {psi : List (Filt2 A.F)} {psi' : List (Filt2 B.F)} (hpsi : List.Forall₂ (filt2 S) psi psi')
    (mo : Int) {x : A.R} {y : B.R} (hpad : Sim (S.rR 0 0) (opsA.pad x) (opsB.pad y)) :
    Sim (List.Forall₂ (path2 P)) (paths A opsA x J phi psi mo) (paths B opsB y J phi' psi' mo) := by
  unfold paths
  refine Sim.bind hpad ?_
  intro u v huv
  refine Sim.bind (S.rfft _ _ _ _ huv) ?_
  intro c d hcd
  refine Sim.bind (sim_lowpass S hP hphi hcd) ?_
  intro s t hst
  refine Sim.bind (sim_forEnum (R := filt2 S)
    (P := fun p q => path2 P p.1 q.1 ∧ List.Forall₂ (path2 P) p.2 q.2) ?_ hpsi 0) ?_
  · intro f g n1 hfg
    unfold firstOrder
    refine Sim.bind (sim_first S hfg hcd) ?_
    intro c1 d1 hcd1
    rw [← hfg.1]
    refine Sim.bind (sim_lowpass S hP hphi hcd1) ?_
    intro s t hst
    have hp : path2 P (⟨s, [f.j], [n1], [f.theta]⟩ : Path2 A.R)
        (⟨t, [f.j], [n1], [g.theta]⟩ : Path2 B.R) :=
      ⟨rfl, rfl, by simp [hfg.2.1], hst⟩
    by_cases hm : mo < 2
    · simp only [if_pos hm]
      exact Sim.ok (List.Forall₂.cons ⟨hp, List.Forall₂.nil⟩ List.Forall₂.nil)
    · simp only [if_neg hm]
      refine Sim.bind (sim_forEnum (R := filt2 S) (P := path2 P) ?_ hpsi 0) ?_
      · intro f2 g2 n2 hfg2
        unfold secondOrder
        rw [← hfg.1, ← hfg2.1]
        by_cases hj : f2.j ≤ f.j
        · rw [if_pos hj, if_pos hj]
          exact Sim.ok List.Forall₂.nil
        · rw [if_neg hj, if_neg hj]
          refine Sim.bind (sim_second S hfg2 hcd1) ?_
          intro c2 d2 hcd2
          refine Sim.bind (sim_lowpass S hP hphi hcd2) ?_
          intro s t hst
          refine Sim.ok (List.Forall₂.cons ⟨rfl, rfl, ?_, hst⟩ List.Forall₂.nil)
          simp [hfg.2.1, hfg2.2.1]
      · intro l m hlm
        exact Sim.ok (List.Forall₂.cons ⟨hp, hlm⟩ List.Forall₂.nil)
  · intro l m hlm
    refine Sim.ok (List.Forall₂.cons ⟨rfl, rfl, rfl, hst⟩ (List.rel_append ?_ ?_))
    · exact List.forall₂_map_left_iff.2 (List.forall₂_map_right_iff.2 (hlm.imp fun _ _ h => h.1))
    · exact List.rel_flatten
        (List.forall₂_map_left_iff.2 (List.forall₂_map_right_iff.2 (hlm.imp fun _ _ h => h.2)))

end Core2D

end Verif
