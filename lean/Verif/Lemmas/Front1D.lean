import Verif.Lemmas.Sim
import Verif.Lemmas.Labels1D
import Verif.Model.Frontend1D
import Mathlib.Data.List.Sort

/-!
# Sorting and post-processing in the 1-D frontend
-/

namespace Verif

namespace Front1D

theorem lexLe_total (a b : List Nat) : lexLe a b || lexLe b a := by
  induction a generalizing b with
  | nil => simp [lexLe]
  | cons x a ih =>
    cases b with
    | nil => simp [lexLe]
    | cons y b =>
      unfold lexLe
      rcases Nat.lt_trichotomy x y with h | h | h
      · simp [h]
      · subst h
        simp only [lt_irrefl, if_false]
        exact ih b
      · simp [h]

theorem lexLe_trans (a b c : List Nat) (h1 : lexLe a b) (h2 : lexLe b c) : lexLe a c := by
  induction a generalizing b c with
  | nil => simp [lexLe]
  | cons x a ih =>
    cases b with
    | nil => simp [lexLe] at h1
    | cons y b =>
      cases c with
      | nil => simp [lexLe] at h2
      | cons z c =>
        unfold lexLe at h1 h2 ⊢
        rcases Nat.lt_trichotomy x y with hxy | hxy | hxy
        · rcases Nat.lt_trichotomy y z with hyz | hyz | hyz
          · simp [hxy.trans hyz]
          · subst hyz; simp [hxy]
          · simp [hyz, Nat.not_lt.2 hyz.le] at h2
        · subst hxy
          rcases Nat.lt_trichotomy x z with hyz | hyz | hyz
          · simp [hyz]
          · subst hyz
            simp only [lt_irrefl, if_false] at h1 h2 ⊢
            exact ih _ _ h1 h2
          · simp [hyz, Nat.not_lt.2 hyz.le] at h2
        · simp [hxy, Nat.not_lt.2 hxy.le] at h1

theorem lexLe_antisymm (a b : List Nat) (h1 : lexLe a b) (h2 : lexLe b a) : a = b := by
  induction a generalizing b with
  | nil =>
    cases b with
    | nil => rfl
    | cons y b => simp [lexLe] at h2
  | cons x a ih =>
    cases b with
    | nil => simp [lexLe] at h1
    | cons y b =>
      unfold lexLe at h1 h2
      rcases Nat.lt_trichotomy x y with hxy | hxy | hxy
      · simp [hxy, Nat.not_lt.2 hxy.le] at h2
      · subst hxy
        simp only [lt_irrefl, if_false] at h1 h2
        rw [ih _ h1 h2]
      · simp [hxy, Nat.not_lt.2 hxy.le] at h1

theorem keyLe_total (a b : List Nat) : keyLe a b || keyLe b a := by
  unfold keyLe
  rcases Nat.lt_trichotomy a.length b.length with h | h | h
  · simp [h]
  · simp only [h, lt_irrefl, if_false]; exact lexLe_total a b
  · simp [h]

theorem keyLe_trans (a b c : List Nat) (h1 : keyLe a b) (h2 : keyLe b c) : keyLe a c := by
  unfold keyLe at *
  rcases Nat.lt_trichotomy a.length b.length with h | h | h
  · rcases Nat.lt_trichotomy b.length c.length with h' | h' | h'
    · simp [h.trans h']
    · simp [← h', h]
    · simp [h', Nat.not_lt.2 h'.le] at h2
  · rcases Nat.lt_trichotomy b.length c.length with h' | h' | h'
    · simp [h, h']
    · simp only [h, h', lt_irrefl, if_false] at h1 h2 ⊢
      exact lexLe_trans _ _ _ h1 h2
    · simp [h', Nat.not_lt.2 h'.le] at h2
  · simp [h, Nat.not_lt.2 h.le] at h1

theorem keyLe_antisymm (a b : List Nat) (h1 : keyLe a b) (h2 : keyLe b a) : a = b := by
  unfold keyLe at *
  rcases Nat.lt_trichotomy a.length b.length with h | h | h
  · simp [h, Nat.not_lt.2 h.le] at h2
  · simp only [h, lt_irrefl, if_false] at h1 h2
    exact lexLe_antisymm _ _ h1 h2
  · simp [h, Nat.not_lt.2 h.le] at h1

theorem map_sortPaths {R : Type} (l : List (Path R)) :
    (sortPaths l).map (fun p => p.n) = (l.map fun p => p.n).mergeSort keyLe := by
  unfold sortPaths
  exact List.map_mergeSort (fun _ _ _ _ => rfl)

theorem sortPaths_perm {R : Type} (l : List (Path R)) : (sortPaths l).Perm l :=
  List.mergeSort_perm _ _

theorem mem_sortPaths {R : Type} {l : List (Path R)} {p : Path R} : p ∈ sortPaths l ↔ p ∈ l :=
  (sortPaths_perm l).mem_iff

theorem sorted_keys (l : List (List Nat)) :
    (l.mergeSort keyLe).Pairwise fun a b => keyLe a b = true :=
  List.pairwise_mergeSort (fun a b c => keyLe_trans a b c) (fun a b => keyLe_total a b) l

/-- Sorting by label commutes with any label-preserving correspondence. -/
theorem sortPaths_rel {R R' : Type} {P : Path R → Path R' → Prop}
    (hP : ∀ p q, P p q → p.n = q.n) {l : List (Path R)} {l' : List (Path R')}
    (h : List.Forall₂ P l l') : List.Forall₂ P (sortPaths l) (sortPaths l') := by
  have hz : List.Forall₂ P ((l.zip l').map Prod.fst) ((l.zip l').map Prod.snd) ∧
      ∀ z ∈ l.zip l', P z.1 z.2 := by
    induction h with
    | nil => simp
    | cons hab _ ih =>
      simp only [List.zip_cons_cons, List.map_cons, List.mem_cons, forall_eq_or_imp]
      exact ⟨List.Forall₂.cons hab ih.1, hab, ih.2⟩
  have hl : (l.zip l').map Prod.fst = l := List.map_fst_zip h.length_eq.le
  have hl' : (l.zip l').map Prod.snd = l' := List.map_snd_zip h.length_eq.ge
  have e1 : sortPaths l =
      ((l.zip l').mergeSort fun a b => keyLe a.1.n b.1.n).map Prod.fst := by
    unfold sortPaths
    rw [List.map_mergeSort (s := fun p q : Path R => keyLe p.n q.n) (fun _ _ _ _ => rfl), hl]
  have e2 : sortPaths l' =
      ((l.zip l').mergeSort fun a b => keyLe a.1.n b.1.n).map Prod.snd := by
    unfold sortPaths
    rw [List.map_mergeSort (s := fun p q : Path R' => keyLe p.n q.n), hl']
    intro a ha b hb
    rw [hP _ _ (hz.2 a ha), hP _ _ (hz.2 b hb)]
  rw [e1, e2, List.forall₂_map_left_iff, List.forall₂_map_right_iff, List.forall₂_same]
  intro z hz'
  exact hz.2 z ((List.mergeSort_perm _ _).mem_iff.1 hz')

/-- Two sets of frontend operations compatible with a backend relation. -/
structure FrontRel {A B : Backend1D} (S : BackendRel A B) (fa : FrontOps A.R)
    (fb : FrontOps B.R) where
  rIn : A.R → B.R → Prop
  rOut : Nat → A.R → B.R → Prop
  pad : ∀ x y l r, rIn x y → Sim (S.rR 0 0) (fa.pad x l r) (fb.pad y l r)
  unpad : ∀ i r x y i0 i1, S.rR i r x y → rOut i (fa.unpad x i0 i1) (fb.unpad y i0 i1)
  averageGlobal : ∀ i r x y, S.rR i r x y → rOut i (fa.averageGlobal x) (fb.averageGlobal y)

/-- Objects that differ only in the representation of their filters. -/
structure ObjRel {A B : Backend1D} (S : BackendRel A B) (o : Obj1D A.F) (o' : Obj1D B.F) :
    Prop where
  padLeft : o.padLeft = o'.padLeft
  padRight : o.padRight = o'.padRight
  indStart : o.indStart = o'.indStart
  indEnd : o.indEnd = o'.indEnd
  phi : S.filt o.phi o'.phi
  psi1 : List.Forall₂ S.filt o.psi1 o'.psi1
  psi2 : List.Forall₂ S.filt o.psi2 o'.psi2
  maxOrder : o.maxOrder = o'.maxOrder
  log2Stride : o.log2Stride = o'.log2Stride
  average : o.average = o'.average
  oversampling : o.oversampling = o'.oversampling
  outType : o.outType = o'.outType

theorem sim_mapM {α α' β β' : Type} {R : α → α' → Prop} {P : β → β' → Prop}
    {f : α → Py β} {g : α' → Py β'} (h : ∀ a b, R a b → Sim P (f a) (g b))
    {l : List α} {l' : List α'} (hl : List.Forall₂ R l l') :
    Sim (List.Forall₂ P) (l.mapM f) (l'.mapM g) := by
  induction hl with
  | nil => exact Sim.ok List.Forall₂.nil
  | cons hab _ ih =>
    rw [List.mapM_cons, List.mapM_cons]
    refine Sim.bind (h _ _ hab) ?_
    intro x y hxy
    refine Sim.bind ih ?_
    intro xs ys hxs
    exact Sim.ok (List.Forall₂.cons hxy hxs)

theorem sim_self {α : Type} (a : Py α) : Sim Eq a a := fun x hx => ⟨x, hx, rfl⟩

/-- The number of banks the slice `[:(1+max_order)]` leaves. -/
def nBanks (mo : Int) : Nat := if 0 ≤ mo then mo.toNat else if mo = -2 then 1 else 0

theorem psis_eq {F : Type} (o : Obj1D F) : psis o = [o.psi1, o.psi2].take (nBanks o.maxOrder) := by
  unfold psis sliceTo nBanks
  by_cases h : 0 ≤ o.maxOrder
  · rw [if_pos (by omega), if_pos h,
      show (1 + o.maxOrder).toNat = o.maxOrder.toNat + 1 by omega, List.take_succ_cons]
    rfl
  · rw [if_neg h]
    by_cases h1 : o.maxOrder = -1
    · rw [h1]; rfl
    · rw [if_neg (by omega)]
      by_cases h2 : o.maxOrder = -2
      · rw [h2]; rfl
      · rw [if_neg h2]
        obtain h3 | h3 : ((([[], o.psi1, o.psi2] : List (List (Filt F))).length : Int) + (1 + o.maxOrder)).toNat = 0 ∨
            ((([[], o.psi1, o.psi2] : List (List (Filt F))).length : Int) + (1 + o.maxOrder)).toNat = 1 := by
          simp only [List.length_cons, List.length_nil]
          omega
        · rw [h3]; rfl
        · rw [h3]; rfl

theorem one_le_nBanks {mo : Int} : 1 ≤ nBanks mo ↔ 1 ≤ mo ∨ mo = -2 := by
  unfold nBanks
  split
  · omega
  · split <;> omega

theorem nBanks_of_nonneg {mo : Int} (h : 0 ≤ mo) : nBanks mo = mo.toNat := if_pos h

theorem psis_rel {A B : Backend1D} {S : BackendRel A B} {o : Obj1D A.F} {o' : Obj1D B.F}
    (h : ObjRel S o o') : List.Forall₂ (List.Forall₂ S.filt) (psis o) (psis o') := by
  rw [psis_eq, psis_eq, ← h.maxOrder]
  exact List.forall₂_take _
    (List.Forall₂.cons h.psi1 (List.Forall₂.cons h.psi2 List.Forall₂.nil))

/-- Labels agree, coefficients are related. -/
def PathRel {A B : Backend1D} {S : BackendRel A B} {fa : FrontOps A.R} {fb : FrontOps B.R}
    (F : FrontRel S fa fb) (p : Path A.R) (q : Path B.R) : Prop :=
  p.n = q.n ∧ p.j = q.j ∧ F.rOut p.n.length p.coef q.coef

theorem sim_post {A B : Backend1D} {S : BackendRel A B} {fa : FrontOps A.R} {fb : FrontOps B.R}
    (F : FrontRel S fa fb) {o : Obj1D A.F} {o' : Obj1D B.F} (h : ObjRel S o o') (ls : Nat)
    (avg : Bool) {p : Path A.R} {q : Path B.R} (hpq : S.path ls avg p q) :
    Sim (PathRel F) (post fa o ls p) (post fb o' ls q) := by
  obtain ⟨hj, hn, hc⟩ := hpq
  have hres : resolution o ls p = resolution o' ls q := by
    unfold resolution
    rw [h.average, h.oversampling, hj, hn]
  unfold post
  rw [hres]
  refine Sim.bind (sim_self _) ?_
  rintro res _ rfl
  rw [h.average]
  by_cases hg : o'.average = .glob
  · simp only [hg, if_true]
    exact Sim.ok ⟨hn, hj, F.averageGlobal _ _ _ _ hc⟩
  · simp only [hg, if_false]
    rw [h.indStart, h.indEnd]
    refine Sim.bind (sim_self _) ?_
    rintro i0 _ rfl
    refine Sim.bind (sim_self _) ?_
    rintro i1 _ rfl
    exact Sim.ok ⟨hn, hj, F.unpad _ _ _ _ _ _ hc⟩

/-- Simulation for the list output of the frontend. -/
theorem sim_list {A B : Backend1D} {S : BackendRel A B} {fa : FrontOps A.R} {fb : FrontOps B.R}
    (F : FrontRel S fa fb) {o : Obj1D A.F} {o' : Obj1D B.F} (h : ObjRel S o o')
    (hlist : o.outType = .list) {x : A.R} {y : B.R} (hxy : F.rIn x y) :
    Sim (fun r s => ∃ l m, r = .list l ∧ s = .list m ∧ List.Forall₂ (PathRel F) l m)
      (scattering A fa o x) (scattering B fb o' y) := by
  have hlist' : o'.outType = .list := by rw [← h.outType, hlist]
  unfold scattering checkRuntimeArgs
  rw [hlist, hlist']
  simp only [reduceCtorEq, if_false, and_false]
  refine Sim.bind (sim_self _) ?_
  rintro u _ rfl
  rw [h.padLeft, h.padRight, h.log2Stride, h.average]
  refine Sim.bind (F.pad _ _ _ _ hxy) ?_
  intro U V hUV
  refine Sim.bind (sim_self _) ?_
  rintro ls _ rfl
  refine Sim.bind (Core1D.sim_scattering1d S h.phi (psis_rel h) hUV) ?_
  intro out out' ho
  refine Sim.bind (sim_mapM (fun a b hab => sim_post F h _ _ hab) ho) ?_
  intro l m hlm
  unfold assemble
  rw [hlist, hlist']
  exact Sim.ok ⟨_, _, rfl, rfl, sortPaths_rel (fun p q hpq => hpq.1) hlm⟩

end Front1D

end Verif
