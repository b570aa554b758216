import Verif.Props.Paths1D
import Verif.Props.Frontend1D
import Verif.Props.NoError1D
import Verif.Props.Channels2D
import Verif.Props.Scattering3D

/-!
# C85: `max_order` only adds coefficients
-/

namespace Verif

open Front1D

/-! ## 1-D -/

theorem psis_two {F : Type} (o : Obj1D F) (h : 2 ≤ o.maxOrder) : psis o = [o.psi1, o.psi2] := by
  rw [psis_eq, nBanks_of_nonneg (by omega), List.take_of_length_le (by
    show 2 ≤ o.maxOrder.toNat
    omega)]

theorem psis_one {F : Type} (o : Obj1D F) (h : o.maxOrder = 1) : psis o = [o.psi1] := by
  rw [psis_eq, h]
  rfl

theorem forall₂_filter {α β : Type} {R : α → β → Prop} {P : α → Bool} {Q : β → Bool}
    (hPQ : ∀ a b, R a b → P a = Q b) {l : List α} {m : List β} (h : List.Forall₂ R l m) :
    List.Forall₂ R (l.filter P) (m.filter Q) := by
  induction h with
  | nil => exact .nil
  | cons hab _ ih =>
    rw [List.filter_cons, List.filter_cons, hPQ _ _ hab]
    split
    · exact .cons hab ih
    · exact ih

theorem post_label {F R : Type} {ops : FrontOps R} {o : Obj1D F} {ls : Nat} {p q : Path R}
    (h : post ops o ls p = .ok q) : p.n = q.n := by
  unfold post at h
  obtain ⟨res, -, h⟩ := bind_eq_ok.1 h
  split at h
  · injection h with h; rw [← h]
  · obtain ⟨i0, -, h⟩ := bind_eq_ok.1 h
    obtain ⟨i1, -, h⟩ := bind_eq_ok.1 h
    injection h with h; rw [← h]

/-- The post-processed paths of the object with `max_order=1`. -/
theorem paths_max_order {B : Backend1D} {ops : FrontOps B.R} {o : Obj1D B.F} {x : B.R}
    (ho : 2 ≤ o.maxOrder) {m : List (Path B.R)} (h : paths B ops o x = .ok m) :
    paths B ops { o with maxOrder := 1 } x = .ok (m.filter fun p => decide (p.n.length ≤ 1)) := by
  obtain ⟨U0, ls, out, h1, h2, h3, h4⟩ := paths_eq_ok.1 h
  rw [psis_two o ho] at h3
  refine paths_eq_ok.2 ⟨U0, ls, out.filter fun p => decide (p.n.length ≤ 1), h1, h2, ?_, ?_⟩
  · rw [psis_one _ rfl]
    exact C14_max_order_one B U0 o.phi o.psi1 o.psi2 ls.toNat _ out h3
  · refine forall₂_filter (fun a b hab => ?_) h4
    rw [post_label hab]

/-- In the sorted list the paths of order at most one come first. -/
theorem sortPaths_split {R : Type} {m : List (Path R)} (hn : (m.map fun p => p.n).Nodup) :
    ∃ l2, sortPaths m = sortPaths (m.filter fun p => decide (p.n.length ≤ 1)) ++ l2 ∧
      ∀ p ∈ l2, ¬ p.n.length ≤ 1 := by
  refine ⟨(sortPaths m).filter fun p => ! decide (p.n.length ≤ 1), ?_, fun p hp => by
    simpa using (List.mem_filter.1 hp).2⟩
  have hs := sortPaths_sorted hn
  have hs' := sortPaths_sorted (l := m.filter fun p => decide (p.n.length ≤ 1))
    (hn.sublist (List.filter_sublist.map _))
  rw [List.pairwise_map] at hs hs'
  have hm2 : ∀ p ∈ (sortPaths m).filter fun p => ! decide (p.n.length ≤ 1), ¬ p.n.length ≤ 1 :=
    fun p hp => by simpa using (List.mem_filter.1 hp).2
  have hm1 : ∀ p ∈ sortPaths (m.filter fun p => decide (p.n.length ≤ 1)), p.n.length ≤ 1 := by
    intro p hp
    have := (List.mem_filter.1 (mem_sortPaths.1 hp)).2
    simpa using this
  have hperm : (sortPaths m).Perm (sortPaths (m.filter fun p => decide (p.n.length ≤ 1)) ++
      (sortPaths m).filter fun p => ! decide (p.n.length ≤ 1)) := by
    have a1 := List.filter_append_perm (fun p : Path R => decide (p.n.length ≤ 1)) (sortPaths m)
    refine a1.symm.trans (List.Perm.append ?_ (List.Perm.refl _))
    exact ((sortPaths_perm m).filter _).trans (sortPaths_perm _).symm
  refine hperm.eq_of_pairwise (le := fun p q : Path R =>
    p.n.length < q.n.length ∨ (p.n.length = q.n.length ∧ p.n < q.n)) ?_ hs ?_
  · rintro a b - - (h | ⟨h, h'⟩) (g | ⟨g, g'⟩)
    · omega
    · omega
    · omega
    · exact absurd (lt_trans h' g') (lt_irrefl _)
  · rw [List.pairwise_append]
    refine ⟨hs', hs.filter _, fun a ha b hb => Or.inl ?_⟩
    have := hm1 a ha
    have := hm2 b hb
    omega

/-- **C85 (1-D, any backend).**  If the transform with `max_order >= 2` returns a list of paths, the
same object with `max_order=1` returns its initial segment of paths of order zero and one. -/
theorem C85_list (B : Backend1D) (ops : FrontOps B.R) (o : Obj1D B.F) (ho : 2 ≤ o.maxOrder) (x : B.R)
    (l : List (Path B.R)) (h : scattering B ops o x = .ok (.list l)) :
    ∃ l1 l2, l = l1 ++ l2 ∧ scattering B ops { o with maxOrder := 1 } x = .ok (.list l1) ∧
      (∀ p ∈ l1, p.n.length ≤ 1) ∧ ∀ p ∈ l2, ¬ p.n.length ≤ 1 := by
  obtain ⟨hc, m, hm, ha⟩ := scattering_eq_ok.1 h
  have hot : o.outType = .list ∧ l = sortPaths m := by
    unfold assemble at ha
    split at ha
    · cases ha
    · rename_i ho
      injection ha with ha
      injection ha with ha
      exact ⟨ho, ha.symm⟩
    · obtain ⟨r, -, ha⟩ := bind_eq_ok.1 ha
      cases ha
  obtain ⟨hot, rfl⟩ := hot
  obtain ⟨l2, e, h2⟩ := sortPaths_split (paths_nodup hm)
  refine ⟨_, l2, e, scattering_eq_ok.2 ⟨hc, _, paths_max_order ho hm, ?_⟩, ?_, h2⟩
  · unfold assemble
    rw [show ({ o with maxOrder := 1 } : Obj1D B.F).outType = .list from hot]
  · intro p hp
    have := (List.mem_filter.1 (mem_sortPaths.1 hp)).2
    simpa using this

/-- **C85 (1-D array).**  The rows of the array with `max_order=1` are the first rows of the array with
`max_order >= 2`. -/
theorem C85_array (B : Backend1D) (ops : FrontOps B.R) (o : Obj1D B.F) (ho : 2 ≤ o.maxOrder) (x : B.R)
    (rows : List B.R) (h : scattering B ops { o with outType := .array } x = .ok (.array rows)) :
    ∃ r1 r2, rows = r1 ++ r2 ∧
      scattering B ops { o with outType := .array, maxOrder := 1 } x = .ok (.array r1) := by
  have havg : o.average ≠ .no := by
    have := (scattering_eq_ok.1 h).1.2
    simpa using this
  obtain ⟨l, hl, rfl⟩ := C16_array_eq_list B ops o x rows h
  obtain ⟨l1, l2, rfl, h1, -⟩ := C85_list B ops { o with outType := .list } ho x l hl
  refine ⟨l1.map fun p => p.coef, l2.map fun p => p.coef, List.map_append, ?_⟩
  refine C16_array_exists B ops { o with maxOrder := 1 } x l1 h1 havg ?_
  intro p hp q hq
  obtain ⟨-, m, hm, ha⟩ := scattering_eq_ok.1 h
  obtain ⟨r, hr, ha⟩ := bind_eq_ok.1 ha
  unfold stackRows at hr
  split at hr
  · cases hr
  · split at hr
    · rename_i a t hs hall
      injection hr with hr
      injection ha with ha
      injection ha with ha
      rw [List.all_eq_true] at hall
      have hmem : ∀ p ∈ l1, ops.size p.coef = ops.size a := by
        intro p hp
        have : p.coef ∈ r := by
          rw [ha]
          exact List.mem_map_of_mem (List.mem_append_left _ hp)
        rw [← hr] at this
        simpa using hall _ this
      rw [hmem p hp, hmem q hq]
    · cases hr

/-- **C85 (1-D dictionary).**  The entries of the dictionary with `max_order=1` are exactly the entries
of the dictionary with `max_order >= 2` whose key has length zero or one. -/
theorem C85_dict (B : Backend1D) (ops : FrontOps B.R) (o : Obj1D B.F) (ho : 2 ≤ o.maxOrder) (x : B.R)
    (d : List (List Nat × B.R)) (h : scattering B ops { o with outType := .dict } x = .ok (.dict d)) :
    ∃ d1, scattering B ops { o with outType := .dict, maxOrder := 1 } x = .ok (.dict d1) ∧
      d1.Perm (d.filter fun e => e.1.length ≤ 1) := by
  obtain ⟨l, hl, hd, -⟩ := (C16_dict_eq_list B ops o x).2 d h
  obtain ⟨l1, l2, rfl, h1, hs, hb⟩ := C85_list B ops { o with outType := .list } ho x l hl
  obtain ⟨d1, hd1, hp, -⟩ := (C16_dict_eq_list B ops { o with maxOrder := 1 } x).1 l1 h1
  refine ⟨d1, hd1, hp.trans ?_⟩
  refine List.Perm.trans ?_ (hd.filter _).symm
  rw [List.map_append, List.filter_append]
  have e1 : (l1.map fun p => (p.n, p.coef)).filter (fun e => decide (e.1.length ≤ 1)) =
      l1.map fun p => (p.n, p.coef) := by
    rw [List.filter_eq_self]
    intro e he
    obtain ⟨p, hp, rfl⟩ := List.mem_map.1 he
    simpa using hs p hp
  have e2 : (l2.map fun p => (p.n, p.coef)).filter (fun e => decide (e.1.length ≤ 1)) = [] := by
    rw [List.filter_eq_nil_iff]
    intro e he
    obtain ⟨p, hp, rfl⟩ := List.mem_map.1 he
    simpa using hb p hp
  rw [e1, e2, List.append_nil]

/-- **C85 (1-D objects).**  Same statement for the numpy object: `max_order` does not enter the
construction of the filters. -/
theorem C85_object (a : Args1D) (ha : 2 ≤ a.maxOrder) (x : List ℝ) (l : List (Path (List ℝ)))
    (h : a.run x = .ok (.list l)) :
    ∃ l1 l2, l = l1 ++ l2 ∧ { a with maxOrder := 1 }.run x = .ok (.list l1) ∧
      (∀ p ∈ l1, p.n.length ≤ 1) ∧ ∀ p ∈ l2, ¬ p.n.length ≤ 1 := by
  obtain ⟨s, hs, h⟩ := bind_eq_ok.1 h
  obtain ⟨l1, l2, e, h1, h2⟩ := C85_list npBackend npFront (a.obj s) ha x l h
  exact ⟨l1, l2, e, bind_eq_ok.2 ⟨s, hs, h1⟩, h2⟩

/-- Orders above two add nothing. -/
theorem C85_saturates (a : Args1D) (ha : 2 ≤ a.maxOrder) (x : List ℝ) :
    { a with maxOrder := 2 }.run x = a.run x := by
  unfold Args1D.run
  have hm : ({ a with maxOrder := 2 } : Args1D).make = a.make := rfl
  rw [hm]
  cases a.make with
  | error e => rfl
  | ok s =>
    show scattering npBackend npFront _ x = scattering npBackend npFront _ x
    have hp : psis (({ a with maxOrder := 2 } : Args1D).obj s) = psis (a.obj s) := by
      rw [psis_two _ (le_refl 2), psis_two (a.obj s) ha]
      rfl
    unfold scattering
    rw [hp]
    rfl

example (x : List ℝ) (hx : x.length = 1000) :
    ∃ l, (exArgs .none .list).run x = .ok (.list l) ∧ 2 ≤ (exArgs .none .list).maxOrder := by
  obtain ⟨s, l, -, -, -, h⟩ := exArgs_list (T := .none) (av := .loc) (Or.inl ⟨rfl, rfl⟩) x hx
  exact ⟨l, h, le_refl 2⟩

/-! ## 2-D -/

theorem forEnum_fst {B : Backend1D} {ops : Ops2D B.R} {J : Nat} {phi : List B.F} {psi : List (Filt2 B.F)}
    {mo : Int} {U0c : B.C} (ps : List (Filt2 B.F)) (n : Nat) (l : List (Path2 B.R × List (Path2 B.R)))
    (h : Core1D.forEnum (Core2D.firstOrder B ops J phi psi mo U0c) ps n = .ok l) :
    Core1D.forEnum (Core2D.firstOrder B ops J phi psi 1 U0c) ps n = .ok (l.map fun p => (p.1, [])) := by
  induction ps generalizing n l with
  | nil => injection h with h; rw [← h]; rfl
  | cons a ps ih =>
    obtain ⟨y, hy, h⟩ := bind_eq_ok.1 h
    obtain ⟨z, hz, h⟩ := bind_eq_ok.1 h
    injection h with h
    obtain ⟨U1c, S1, p2, e1, e2, rfl, -⟩ := Core2D.firstOrder_eq_ok _ _ hy
    refine bind_eq_ok.2 ⟨[(⟨S1, [a.j], [n], [a.theta]⟩, [])], ?_, bind_eq_ok.2 ⟨_, ih _ _ hz, ?_⟩⟩
    · unfold Core2D.firstOrder
      simp only [bind, Except.bind, e1, e2]
      rfl
    · rw [← h]; rfl

/-- **C85 (2-D, any backend).**  The paths with `max_order=1` are the first paths of any higher order;
what follows is of order two. -/
theorem C85_paths2 (B : Backend1D) (ops : Ops2D B.R) (x : B.R) (J : Nat) (phi : List B.F)
    (psi : List (Filt2 B.F)) (mo : Int) (l : List (Path2 B.R))
    (h : Core2D.paths B ops x J phi psi mo = .ok l) :
    ∃ l1 l2, l = l1 ++ l2 ∧ Core2D.paths B ops x J phi psi 1 = .ok l1 ∧ l1.length = 1 + psi.length := by
  obtain ⟨Ur, U0c, S0, m, h1, h2, h3, h4, rfl⟩ := Core2D.paths_eq_ok _ _ h
  have h5 := forEnum_fst psi 0 m h4
  refine ⟨⟨S0, [], [], []⟩ :: m.map Prod.fst, (m.map Prod.snd).flatten, by simp, ?_, ?_⟩
  · unfold Core2D.paths
    simp only [bind, Except.bind, h1, h2, h3, h5]
    congr 2
    rw [List.map_map, List.map_map]
    have : ((m.map (Prod.snd ∘ fun p : Path2 B.R × List (Path2 B.R) => (p.1, ([] : List (Path2 B.R)))))).flatten = [] := by
      rw [List.flatten_eq_nil_iff]
      intro a ha
      obtain ⟨b, -, rfl⟩ := List.mem_map.1 ha
      rfl
    rw [this, List.append_nil]
    rfl
  · have hl : m.length = psi.length := by
      clear h3 h5
      have key : ∀ (ps : List (Filt2 B.F)) (n : Nat) (m : List (Path2 B.R × List (Path2 B.R))),
          Core1D.forEnum (Core2D.firstOrder B ops J phi psi mo U0c) ps n = .ok m → m.length = ps.length := by
        intro ps
        induction ps with
        | nil => intro n m h; injection h with h; rw [← h]; rfl
        | cons a ps ih =>
          intro n m h
          obtain ⟨y, hy, h⟩ := bind_eq_ok.1 h
          obtain ⟨z, hz, h⟩ := bind_eq_ok.1 h
          injection h with h
          obtain ⟨U1c, S1, p2, -, -, rfl, -⟩ := Core2D.firstOrder_eq_ok _ _ hy
          rw [← h]
          simp [ih _ _ hz]
      exact key _ _ _ h4
    simp [hl, Nat.add_comm]

/-- The paths of the two objects. -/
theorem paths_object2 (a : Args2D) (x : Img ℝ) :
    ∀ out, a.run x = .ok out → ∃ s l l1, a.make = .ok s ∧ a.check s x.h x.w = .ok () ∧
      Core2D.paths np2Backend (a.ops s) x a.J s.phi s.psi a.maxOrder = .ok l ∧
      Core2D.paths np2Backend (a.ops s) x a.J s.phi s.psi 1 = .ok l1 ∧ l1 = l.take (1 + a.J * a.L) := by
  intro out h
  obtain ⟨s, l, hs, hc, hl, -, -⟩ := run_eq_ok h
  obtain ⟨l1, l2, rfl, h1, h2⟩ := C85_paths2 _ _ _ _ _ _ _ _ hl
  refine ⟨s, _, l1, hs, hc, hl, h1, ?_⟩
  have : s.psi.length = a.J * a.L := by
    unfold Args2D.make at hs
    split at hs
    · cases hs
    · injection hs with hs
      rw [← hs]
      simp [filterBank2, List.length_flatMap]
  rw [← this, ← h2, List.take_left]

/-- **C85 (2-D objects).**  For both output types: the object with `max_order=1` returns the first
`1 + J * L` channels of the object with a higher order. -/
theorem C85_object2 (a : Args2D) (x : Img ℝ) :
    (∀ l, a.outType = .list → a.run x = .ok (.list l) →
      { a with maxOrder := 1 }.run x = .ok (.list (l.take (1 + a.J * a.L)))) ∧
    (∀ rows, a.outType = .array → a.run x = .ok (.array rows) →
      { a with maxOrder := 1 }.run x = .ok (.array (rows.take (1 + a.J * a.L)))) := by
  constructor
  · intro l ho h
    obtain ⟨s, m, l1, hs, hc, hm, h1, rfl⟩ := paths_object2 a x _ h
    have e : l = m := by
      obtain ⟨s', l', hs', -, hl', -, h6⟩ := run_eq_ok h
      rw [hs] at hs'
      injection hs' with hs'
      subst hs'
      rw [hm] at hl'
      injection hl' with hl'
      have := h6 ho
      injection this with this
      rw [this, hl']
    subst e
    refine bind_eq_ok.2 ⟨s, hs, bind_eq_ok.2 ⟨(), hc, bind_eq_ok.2 ⟨_, h1, ?_⟩⟩⟩
    rw [ho]
    rfl
  · intro rows ho h
    obtain ⟨s, m, l1, hs, hc, hm, h1, rfl⟩ := paths_object2 a x _ h
    have h' := h
    unfold Args2D.run at h' ⊢
    obtain ⟨s', hs', h'⟩ := bind_eq_ok.1 h'
    rw [hs] at hs'
    injection hs' with hs'
    subst hs'
    obtain ⟨⟨⟩, -, h'⟩ := bind_eq_ok.1 h'
    unfold Core2D.scattering2d at h' ⊢
    obtain ⟨l', hl', h'⟩ := bind_eq_ok.1 h'
    rw [hm] at hl'
    have hl' := Except.ok.inj hl'
    subst hl'
    rw [ho] at h'
    obtain ⟨r, hr, h'⟩ := bind_eq_ok.1 h'
    have h' := Out2D.array.inj (Except.ok.inj h')
    subst h'
    refine bind_eq_ok.2 ⟨s, hs, bind_eq_ok.2 ⟨(), hc, bind_eq_ok.2 ⟨_, h1, ?_⟩⟩⟩
    rw [ho]
    refine bind_eq_ok.2 ⟨r.take (1 + a.J * a.L), ?_, rfl⟩
    rw [List.map_take]
    unfold Core2D.stack at hr ⊢
    cases hmm : m.map (fun p => p.coef) with
    | nil => rw [hmm] at hr; cases hr
    | cons c t =>
      rw [hmm] at hr
      simp only at hr
      split at hr
      · rename_i hall
        injection hr with hr
        subst hr
        rw [Nat.add_comm, List.take_succ_cons]
        simp only
        rw [if_pos]
        rw [List.all_eq_true] at hall ⊢
        intro b hb
        apply hall
        rw [← List.take_succ_cons] at hb
        exact List.mem_of_mem_take hb
      · cases hr

example (x : Img ℝ) (hh : x.h = 9) (hw : x.w = 14) :
    ∃ l, exArgs2.run x = .ok (.list l) ∧ exArgs2.outType = .list ∧ exArgs2.maxOrder = 2 := by
  obtain ⟨l, h⟩ := exArgs2_run x hh hw
  exact ⟨l, h, rfl, rfl⟩

/-! ## 3-D -/

/-- **C85 (3-D).**  The rows with `max_order=1` are the first `J + 1` rows with `max_order=2`. -/
theorem C85_object3 (a : Args3D) (Y : ℤ → ℕ → ℝ → ℝ → ℂ) (x : Vol ℝ)
    (out : List (List (List ℝ))) (h : a.run Y x = .ok out) :
    { a with maxOrder := 1 }.run Y x = .ok (out.take (a.J + 1)) := by
  have hx : x.shape = a.shape := by
    by_contra hc
    rw [C45_rejects a Y x hc] at h
    cases h
  have hq : a.powers ≠ [] := by
    intro hq
    rw [C45_no_powers_violated a Y hq x hx] at h
    cases h
  rw [run3_eq a Y hq hx] at h
  injection h with h
  rw [run3_eq { a with maxOrder := 1 } Y hq hx, ← h]
  congr 1
  rw [← List.map_take]
  have : (Spec.paths3 a.J (a.maxOrder = 2)).take (a.J + 1) = Spec.paths3 a.J (decide ((1 : ℕ) = 2)) := by
    unfold Spec.paths3
    rw [List.take_left' (by simp)]
    simp
  rw [this]
  rfl

example (Y : ℤ → ℕ → ℝ → ℝ → ℂ) (x : Vol ℝ) (hx : x.shape = (8, 8, 8)) :
    ∃ out, (⟨2, (8, 8, 8), 3, 1, 2, true, true, [1 / 2, 1, 2]⟩ : Args3D).run Y x = .ok out := by
  obtain ⟨out, h, -⟩ := C45_layout_partial ⟨2, (8, 8, 8), 3, 1, 2, true, true, [1 / 2, 1, 2]⟩ Y (by simp) x hx
  exact ⟨out, h⟩

end Verif
