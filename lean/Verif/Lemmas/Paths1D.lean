import Verif.Lemmas.ShapeFront

/-!
# The paths computed by the frontend, before they are put in a container
-/

namespace Verif

namespace Front1D

/-- Paths after post-processing, in the order they are generated. -/
def paths (B : Backend1D) (ops : FrontOps B.R) (o : Obj1D B.F) (x : B.R) :
    Py (List (Path B.R)) := do
  let U0 ← ops.pad x o.padLeft o.padRight
  let ls ← o.log2Stride
  let out ← Core1D.scattering1d B U0 o.phi (psis o) ls.toNat (decide (o.average = .loc))
  out.mapM (post ops o ls.toNat)

theorem scattering_eq (B : Backend1D) (ops : FrontOps B.R) (o : Obj1D B.F) (x : B.R) :
    scattering B ops o x =
      (checkRuntimeArgs o >>= fun _ => paths B ops o x >>= assemble ops o) := by
  unfold scattering paths
  simp only [bind_assoc]

theorem check_ok {F : Type} {o : Obj1D F} {u : Unit} :
    checkRuntimeArgs o = .ok u ↔ o.outType ≠ .other ∧ ¬ (o.average = .no ∧ o.outType = .array) := by
  unfold checkRuntimeArgs
  split
  · simp [*]
  · split
    · simp [*]
    · simp [*]

theorem scattering_eq_ok {B : Backend1D} {ops : FrontOps B.R} {o : Obj1D B.F} {x : B.R}
    {r : Out1D B.R} :
    scattering B ops o x = .ok r ↔
      (o.outType ≠ .other ∧ ¬ (o.average = .no ∧ o.outType = .array)) ∧
      ∃ l, paths B ops o x = .ok l ∧ assemble ops o l = .ok r := by
  rw [scattering_eq, bind_eq_ok]
  constructor
  · rintro ⟨u, hu, h⟩
    obtain ⟨l, hl, h⟩ := bind_eq_ok.1 h
    exact ⟨check_ok.1 hu, l, hl, h⟩
  · rintro ⟨hc, l, hl, h⟩
    exact ⟨(), check_ok.2 hc, bind_eq_ok.2 ⟨l, hl, h⟩⟩

theorem post_labels {F R : Type} {ops : FrontOps R} {o : Obj1D F} {ls : Nat} {p q : Path R}
    (h : post ops o ls p = .ok q) : q.n = p.n ∧ q.j = p.j := by
  unfold post at h
  obtain ⟨r, hr, h⟩ := bind_eq_ok.1 h
  split at h
  · injection h with h; rw [← h]; exact ⟨rfl, rfl⟩
  · obtain ⟨i0, h0, h⟩ := bind_eq_ok.1 h
    obtain ⟨i1, h1, h⟩ := bind_eq_ok.1 h
    injection h with h; rw [← h]; exact ⟨rfl, rfl⟩

/-- Decomposition of a successful computation of the paths. -/
theorem paths_eq_ok {B : Backend1D} {ops : FrontOps B.R} {o : Obj1D B.F} {x : B.R}
    {l : List (Path B.R)} :
    paths B ops o x = .ok l ↔ ∃ U0 ls out, ops.pad x o.padLeft o.padRight = .ok U0 ∧
      o.log2Stride = .ok ls ∧
      Core1D.scattering1d B U0 o.phi (psis o) ls.toNat (decide (o.average = .loc)) = .ok out ∧
      List.Forall₂ (fun p q => post ops o ls.toNat p = .ok q) out l := by
  unfold paths
  constructor
  · intro h
    obtain ⟨U0, h0, h⟩ := bind_eq_ok.1 h
    obtain ⟨ls, h1, h⟩ := bind_eq_ok.1 h
    obtain ⟨out, h2, h⟩ := bind_eq_ok.1 h
    exact ⟨U0, ls, out, h0, h1, h2, mapM_eq_ok.1 h⟩
  · rintro ⟨U0, ls, out, h0, h1, h2, h3⟩
    exact bind_eq_ok.2 ⟨U0, h0, bind_eq_ok.2 ⟨ls, h1, bind_eq_ok.2 ⟨out, h2, mapM_eq_ok.2 h3⟩⟩⟩

theorem paths_labels {B : Backend1D} {ops : FrontOps B.R} {o : Obj1D B.F} {x : B.R}
    {l : List (Path B.R)} (h : paths B ops o x = .ok l) :
    l.map (fun p => (p.j, p.n)) = Core1D.labels B (psis o) := by
  obtain ⟨U0, ls, out, h0, h1, h2, h3⟩ := paths_eq_ok.1 h
  rw [← Core1D.labels_eq B h2]
  clear h2 h
  induction h3 with
  | nil => rfl
  | cons hab _ ih =>
    rw [List.map_cons, List.map_cons, ih, (post_labels hab).1, (post_labels hab).2]

theorem paths_nodup {B : Backend1D} {ops : FrontOps B.R} {o : Obj1D B.F} {x : B.R}
    {l : List (Path B.R)} (h : paths B ops o x = .ok l) : (l.map fun p => p.n).Nodup := by
  have := Core1D.labels_nodup B (psis o)
  rw [← paths_labels h, List.map_map] at this
  exact this

theorem paths_ne_nil {B : Backend1D} {ops : FrontOps B.R} {o : Obj1D B.F} {x : B.R}
    {l : List (Path B.R)} (h : paths B ops o x = .ok l) : l ≠ [] := by
  rintro rfl
  have := paths_labels h
  simp [Core1D.labels] at this

/-- Strict order of labels: by order first, then lexicographically. -/
theorem lt_of_keyLe {a b : List Nat} (h : keyLe a b = true) (hne : a ≠ b) :
    a.length < b.length ∨ (a.length = b.length ∧ a < b) := by
  unfold keyLe at h
  rcases Nat.lt_trichotomy a.length b.length with h1 | h1 | h1
  · exact Or.inl h1
  · right
    refine ⟨h1, ?_⟩
    simp only [h1, lt_irrefl, if_false] at h
    clear h1
    induction a generalizing b with
    | nil =>
      cases b with
      | nil => exact absurd rfl hne
      | cons y b => exact List.nil_lt_cons _ _
    | cons x a ih =>
      cases b with
      | nil => simp [lexLe] at h
      | cons y b =>
        rw [List.cons_lt_cons_iff]
        unfold lexLe at h
        rcases Nat.lt_trichotomy x y with hxy | hxy | hxy
        · exact Or.inl hxy
        · subst hxy
          simp only [lt_irrefl, if_false] at h
          exact Or.inr ⟨rfl, ih (fun hab => hne (by rw [hab])) h⟩
        · simp [hxy, Nat.not_lt.2 hxy.le] at h
  · simp [h1, Nat.not_lt.2 h1.le] at h

theorem sortPaths_sorted {R : Type} {l : List (Path R)} (hn : (l.map fun p => p.n).Nodup) :
    ((sortPaths l).map fun p => p.n).Pairwise fun a b =>
      a.length < b.length ∨ (a.length = b.length ∧ a < b) := by
  rw [map_sortPaths]
  have h1 := sorted_keys (l.map fun p => p.n)
  have h2 : ((l.map fun p => p.n).mergeSort keyLe).Nodup :=
    (List.mergeSort_perm _ _).nodup_iff.2 hn
  exact (h1.and h2).imp fun h => lt_of_keyLe h.1 h.2

theorem dictInsert_fold {R : Type} (l : List (Path R)) (hn : (l.map fun p => p.n).Nodup)
    (d : List (List Nat × R)) (hd : ∀ p ∈ l, ∀ e ∈ d, e.1 ≠ p.n) :
    l.foldl (fun d p => dictInsert d p.n p.coef) d = d ++ l.map fun p => (p.n, p.coef) := by
  induction l generalizing d with
  | nil => simp
  | cons a l ih =>
    rw [List.map_cons, List.nodup_cons] at hn
    have h1 : dictInsert d a.n a.coef = d ++ [(a.n, a.coef)] := by
      unfold dictInsert
      rw [if_neg]
      intro h
      obtain ⟨e, he, hee⟩ := List.any_eq_true.1 h
      exact hd a (by simp) e he (by simpa using hee)
    rw [List.foldl_cons, h1, ih hn.2]
    · simp
    · intro p hp e he
      rcases List.mem_append.1 he with he | he
      · exact hd p (by simp [hp]) e he
      · rw [List.mem_singleton] at he
        subst he
        intro heq
        exact hn.1 (List.mem_map.2 ⟨p, hp, heq.symm⟩)

end Front1D

/-- The length of every tensor in a run over signals of length `N`. -/
noncomputable def lenRel (N : Nat) : BackendRel npBackend (dryBackend (List ℝ)) where
  rR _ r x _ := List.length x * 2 ^ r = N
  rC _ r x _ := List.length x * 2 ^ r = N
  rZ _ r x _ := List.length x * 2 ^ r = N
  rF _ _ _ := True
  rfft i r x y h := Sim.ok (by rw [length_npRfft]; exact h)
  ifft i r x y h := Sim.ok (by rw [length_idft]; exact h)
  irfft i r x y h := Sim.ok (by rw [length_npIrfft]; exact h)
  modulus i r x y h := Sim.ok (by rw [length_npModulus]; exact h)
  cdgmm i r x y f g h _ := by
    intro a ha
    exact ⟨(), rfl, by show List.length a * 2 ^ r = N; rw [length_of_cdgmm ha]; exact h⟩
  subsample i r x y e h := by
    intro a ha
    have ha : npSubsampleFourier x (2 ^ e) = .ok a := ha
    refine ⟨(), rfl, ?_⟩
    rw [Nat.pow_add, ← h, ← length_of_subsample ha]
    ring

/-- Lengths before unpadding. -/
theorem core_length {x : List ℝ} {phi : Filt (List ℝ)} {psis : List (List (Filt (List ℝ)))}
    {ls : Nat} {avg : Bool} {out : List (Path (List ℝ))}
    (h : Core1D.scattering1d npBackend x phi psis ls avg = .ok out) {p : Path (List ℝ)}
    (hp : p ∈ out) : p.coef.length * 2 ^ (if avg then ls else p.j.getLast?.getD 0) = x.length := by
  have h0 : ∀ f : Filt (List ℝ), (lenRel x.length).filt f f := fun f =>
    ⟨rfl, rfl, fun _ _ _ _ _ => trivial⟩
  have h1 : ∀ l : List (Filt (List ℝ)), List.Forall₂ (lenRel x.length).filt l l := fun l => by
    induction l with
    | nil => exact List.Forall₂.nil
    | cons a l ih => exact List.Forall₂.cons (h0 a) ih
  have h2 : ∀ l : List (List (Filt (List ℝ))),
      List.Forall₂ (List.Forall₂ (lenRel x.length).filt) l l := fun l => by
    induction l with
    | nil => exact List.Forall₂.nil
    | cons a l ih => exact List.Forall₂.cons (h1 a) ih
  obtain ⟨out', -, hf⟩ := Core1D.sim_scattering1d (lenRel x.length) (h0 phi) (h2 psis)
    (ls := ls) (avg := avg) (x := x) (y := ()) (by show _ = _; simp) out h
  obtain ⟨q, hq, -, -, hc⟩ := forall₂_mem_left hf hp
  exact hc

end Verif
