import Verif.Props.Frontend1D

/-!
# Property C15: `output_size(detail=True)` of `ScatteringBase1D`
-/

namespace Verif

open Front1D

theorem eraseDups_sublist (l : List Nat) : l.eraseDups.Sublist l := by
  induction l using List.reverseRecOn with
  | nil => simp
  | append_singleton l a ih =>
    rw [List.eraseDups_append]
    refine ih.append ?_
    by_cases h : a ∈ l
    · simp [List.removeAll, h]
    · simp [List.removeAll, h, List.eraseDups_cons]

theorem nodup_eraseDups (l : List Nat) : l.eraseDups.Nodup := by
  induction l using List.reverseRecOn with
  | nil => simp
  | append_singleton l a ih =>
    rw [List.eraseDups_append]
    by_cases h : a ∈ l
    · simpa [List.removeAll, h] using ih
    · have : ([a].removeAll l).eraseDups = [a] := by simp [List.removeAll, h, List.eraseDups_cons]
      rw [this]
      refine List.nodup_append.2 ⟨ih, List.nodup_singleton _, ?_⟩
      rintro b hb c hc rfl
      rw [List.mem_singleton] at hc
      exact h (hc ▸ List.mem_eraseDups.1 hb)

/-- The multiplicities of a sorted list of numbers below `k`: one for each number that occurs, in order. -/
theorem counterValues_sorted {l : List Nat} {k : Nat} (hs : l.Pairwise (· ≤ ·)) (hk : ∀ a ∈ l, a < k) :
    counterValues l = ((List.range k).map fun v => l.count v).filter (· ≠ 0) := by
  have e : l.eraseDups = (List.range k).filter fun v => decide (v ∈ l) := by
    refine List.Perm.eq_of_pairwise (le := (· ≤ ·)) (fun a b _ _ h1 h2 => le_antisymm h1 h2)
      (hs.sublist (eraseDups_sublist l)) (List.Pairwise.sublist List.filter_sublist (List.pairwise_le_range))
      ((List.perm_ext_iff_of_nodup (nodup_eraseDups l) (List.nodup_range.filter _)).2 fun a => ?_)
    simp only [List.mem_eraseDups, List.mem_filter, List.mem_range, decide_eq_true_eq]
    exact ⟨fun h => ⟨hk a h, h⟩, fun h => h.2⟩
  unfold counterValues
  rw [e, List.filter_map]
  congr 1
  refine List.filter_congr fun v _ => ?_
  simp [Function.comp, List.count_eq_zero]

theorem label_length {B : Backend1D} {psis : List (List (Filt B.F))} {q : List Nat × List Nat}
    (h : q ∈ Core1D.labels B psis) : q.2.length < 3 := by
  unfold Core1D.labels at h
  rcases List.mem_cons.1 h with rfl | h
  · simp
  obtain ⟨p, -, h⟩ := List.mem_flatMap.1 h
  rcases List.mem_cons.1 h with rfl | h
  · simp
  obtain ⟨r, -, h⟩ := List.mem_flatMap.1 h
  split at h
  · rw [List.mem_singleton] at h
    subst h
    simp
  · simp at h

/-- **C15 (detail).**  Whenever `meta()` returns and the transform returns a list, `output_size(detail=True)` is the
numbers of coefficients of orders zero, one and two, in this order and without the zeros among them. -/
theorem C15_detail (B : Backend1D) (ops : FrontOps B.R) (o : Obj1D B.F) (x : B.R)
    (keys : List (List Nat)) (hk : metaKey o = .ok keys) (l : List (Path B.R))
    (hl : scattering B ops { o with outType := .list } x = .ok (.list l)) :
    outputSizeDetail o =
      .ok (([0, 1, 2].map fun k => (l.filter fun p => p.n.length = k).length).filter (· ≠ 0)) := by
  obtain ⟨hkl, ho, -, -⟩ := C15_meta_rows B ops o x keys hk l hl
  unfold outputSizeDetail
  refine bind_eq_ok.2 ⟨_, ho, ?_⟩
  congr 1
  have hs : (l.map fun p => p.n.length).Pairwise (· ≤ ·) := by
    have := C16_list_sorted B ops { o with outType := .list } x l hl
    rw [List.pairwise_map] at this ⊢
    exact this.imp fun h => h.elim le_of_lt fun h => le_of_eq h.1
  have hb : ∀ a ∈ l.map fun p => p.n.length, a < 3 := by
    intro a ha
    obtain ⟨p, hp, rfl⟩ := List.mem_map.1 ha
    obtain ⟨-, m, hm, e⟩ := scattering_eq_ok.1 hl
    injection e with e
    injection e with e
    have hm' : paths B ops o x = .ok m := hm
    have hpm : p ∈ m := by rw [← e] at hp; exact mem_sortPaths.1 hp
    have hlab := paths_labels hm'
    exact label_length (q := (p.j, p.n)) (by rw [← hlab]; exact List.mem_map.2 ⟨p, hpm, rfl⟩)
  rw [counterValues_sorted hs hb]
  congr 1
  refine List.map_congr_left fun k _ => ?_
  rw [List.count, List.countP_map, List.countP_eq_length_filter]
  congr 1

/-- The hypotheses hold for the small object of `Lemmas/Example1D.lean`. -/
example (x : List ℝ) (hx : x.length = 4) : ∃ keys l, metaKey (exObj .loc) = .ok keys ∧
    scattering npBackend npFront { exObj .loc with outType := .list } x = .ok (.list l) := by
  obtain ⟨l, hl⟩ := exObj_run .loc x hx
  obtain ⟨keys, hk⟩ := (C15_meta_ok_iff (exObj .loc) 1 rfl (by decide)).2 (by
    simp only [exObj, exFilt]
    refine ⟨by simp, fun _ f hf g hg h => ?_⟩
    simp only [List.mem_cons, List.not_mem_nil, or_false] at hf hg
    rcases hf with rfl | rfl <;> rcases hg with rfl | rfl <;> simp at h ⊢)
  exact ⟨keys, l, hk, hl⟩

/-- Multiplicities of a sorted list. -/
example : counterValues [0, 1, 1, 1, 2, 2] = [1, 3, 2] := by decide

end Verif
