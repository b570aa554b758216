import Verif.Lemmas.Core1D
import Mathlib.Data.List.Nodup
import Mathlib.Data.List.Pairwise

/-!
# The labels of the paths of the 1-D core
-/

namespace Verif

namespace Core1D

variable (B : Backend1D)

theorem forEnum_map {α β γ : Type} {f : α → Nat → Py (List β)} {g : β → γ}
    {h : α → Nat → List γ} {l : List α} {n : Nat} {out : List β}
    (hf : ∀ a i x, a ∈ l → f a i = .ok x → x.map g = h a i) (ho : forEnum f l n = .ok out) :
    out.map g = (l.zipIdx n).flatMap fun p => h p.1 p.2 := by
  induction l generalizing n out with
  | nil =>
    simp only [forEnum] at ho
    injection ho with ho
    simp [← ho]
  | cons a l ih =>
    rw [forEnum] at ho
    obtain ⟨x, hx, ho⟩ := bind_eq_ok.1 ho
    obtain ⟨y, hy, ho⟩ := bind_eq_ok.1 ho
    injection ho with ho
    rw [← ho, List.map_append, List.zipIdx_cons, List.flatMap_cons, hf a n x (by simp) hx,
      ih (fun a i x ha => hf a i x (by simp [ha])) hy]

/-- Labels of the second-order paths below one first-order filter. -/
def labels2 (j1 n1 : Nat) (psi2 : List (Filt B.F)) : List (List Nat × List Nat) :=
  (psi2.zipIdx 0).flatMap fun q =>
    if j1 < q.1.j then [([j1, q.1.j], [n1, q.2])] else []

/-- Labels `(j, n)` of all paths, in the order they are yielded. -/
def labels (psis : List (List (Filt B.F))) : List (List Nat × List Nat) :=
  ([], []) :: ((psis[0]?.getD []).zipIdx 0).flatMap fun p =>
    ([p.1.j], [p.2]) :: labels2 B p.1.j p.2 (psis[1]?.getD [])

theorem labels_eq {U0 : B.R} {phi : Filt B.F} {psis : List (List (Filt B.F))} {ls : Nat}
    {avg : Bool} {out : List (Path B.R)} (h : scattering1d B U0 phi psis ls avg = .ok out) :
    out.map (fun p => (p.j, p.n)) = labels B psis := by
  obtain ⟨uh, c, p1, r, huh, hc, hp1, hr, rfl⟩ := scattering1d_eq_ok B h
  unfold labels
  rw [List.map_cons, hp1]
  congr 1
  refine forEnum_map (h := fun psi n1 =>
    ([psi.j], [n1]) :: labels2 B psi.j n1 (psis[1]?.getD [])) ?_ hr
  intro psi n1 x _ hx
  obtain ⟨u, c1, rest, hu, hc1, rfl, hnone, hsome⟩ := firstOrder_eq_ok B hx
  rw [List.map_cons]
  congr 1
  cases hp2 : psis[1]? with
  | none => rw [hnone hp2]; simp [labels2]
  | some p2 =>
    obtain ⟨u1h, hu1h, hrest⟩ := hsome p2 hp2
    refine forEnum_map (h := fun psi' n2 =>
      if psi.j < psi'.j then [([psi.j, psi'.j], [n1, n2])] else []) ?_ hrest
    intro psi' n2 y _ hy
    by_cases hj : psi'.j > psi.j
    · obtain ⟨c2, rfl, hc2⟩ := (secondOrder_eq_ok B hj).1 hy
      simp [hj]
    · rw [secondOrder_skip B hj] at hy
      cases hy
      simp only [List.map_nil]
      rw [if_neg (by omega)]

theorem pairwise_zipIdx {α : Type} (l : List α) (n : Nat) :
    (l.zipIdx n).Pairwise fun a b => a.2 < b.2 := by
  have h : ((l.zipIdx n).map Prod.snd).Pairwise (· < ·) := by
    rw [List.zipIdx_map_snd]
    exact List.pairwise_lt_range'
  exact List.pairwise_map.1 h

theorem labels2_n {psi2 : List (Filt B.F)} {j1 n1 : Nat} {x : List Nat × List Nat}
    (hx : x ∈ labels2 B j1 n1 psi2) :
    ∃ n2 g, psi2[n2]? = some g ∧ j1 < g.j ∧ x = ([j1, g.j], [n1, n2]) := by
  unfold labels2 at hx
  obtain ⟨q, hq, hxq⟩ := List.mem_flatMap.1 hx
  split at hxq
  · rename_i hj
    rw [List.mem_singleton] at hxq
    exact ⟨q.2, q.1, List.mem_zipIdx_iff_getElem?.1 hq, hj, hxq⟩
  · cases hxq

theorem mem_labels2 {psi2 : List (Filt B.F)} {j1 n1 n2 : Nat} {g : Filt B.F}
    (hg : psi2[n2]? = some g) (hj : j1 < g.j) :
    ([j1, g.j], [n1, n2]) ∈ labels2 B j1 n1 psi2 := by
  unfold labels2
  refine List.mem_flatMap.2 ⟨(g, n2), List.mem_zipIdx_iff_getElem?.2 hg, ?_⟩
  simp [hj]

/-- No path is yielded twice. -/
theorem labels_nodup (psis : List (List (Filt B.F))) : ((labels B psis).map Prod.snd).Nodup := by
  unfold labels
  rw [List.map_cons, List.nodup_cons]
  constructor
  · intro h
    obtain ⟨x, hx, hx0⟩ := List.mem_map.1 h
    obtain ⟨p, hp, hxp⟩ := List.mem_flatMap.1 hx
    rcases List.mem_cons.1 hxp with rfl | hxp
    · simp at hx0
    · obtain ⟨n2, g, -, -, rfl⟩ := labels2_n B hxp
      simp at hx0
  · rw [List.map_flatMap, List.nodup_flatMap]
    constructor
    · intro p _
      rw [List.map_cons, List.nodup_cons]
      constructor
      · intro h
        obtain ⟨x, hx, hx0⟩ := List.mem_map.1 h
        obtain ⟨n2, g, -, -, rfl⟩ := labels2_n B hx
        simp at hx0
      · unfold labels2
        rw [List.map_flatMap, List.nodup_flatMap]
        constructor
        · intro q _
          split <;> simp
        · refine (pairwise_zipIdx _ 0).imp ?_
          intro a b hab x hxa hxb
          simp only at hxa hxb
          split at hxa
          · split at hxb
            · simp only [List.map_cons, List.map_nil, List.mem_singleton] at hxa hxb
              rw [hxa] at hxb
              simp at hxb
              omega
            · cases hxb
          · cases hxa
    · refine (pairwise_zipIdx _ 0).imp ?_
      intro a b hab x hxa hxb
      have hd : ∀ p : Filt B.F × Nat, x ∈ (([p.1.j], [p.2]) :: labels2 B p.1.j p.2
          (psis[1]?.getD [])).map Prod.snd → x.head? = some p.2 := by
        intro p hx
        obtain ⟨y, hy, rfl⟩ := List.mem_map.1 hx
        rcases List.mem_cons.1 hy with rfl | hy
        · rfl
        · obtain ⟨n2, g, -, -, rfl⟩ := labels2_n B hy
          rfl
      have h1 := hd a hxa
      have h2 := hd b hxb
      rw [h1] at h2
      injection h2
      omega

theorem mem_labels {psis : List (List (Filt B.F))} {x : List Nat × List Nat} :
    x ∈ labels B psis ↔ x = ([], []) ∨
      (∃ n1 f, (psis[0]?.getD [])[n1]? = some f ∧ x = ([f.j], [n1])) ∨
      (∃ n1 n2 f g, (psis[0]?.getD [])[n1]? = some f ∧ (psis[1]?.getD [])[n2]? = some g ∧
        f.j < g.j ∧ x = ([f.j, g.j], [n1, n2])) := by
  unfold labels
  rw [List.mem_cons]
  constructor
  · rintro (rfl | h)
    · left; rfl
    · right
      obtain ⟨p, hp, hxp⟩ := List.mem_flatMap.1 h
      have hp' := List.mem_zipIdx_iff_getElem?.1 hp
      rcases List.mem_cons.1 hxp with rfl | hxp
      · left; exact ⟨p.2, p.1, hp', rfl⟩
      · right
        obtain ⟨n2, g, hg, hj, rfl⟩ := labels2_n B hxp
        exact ⟨p.2, n2, p.1, g, hp', hg, hj, rfl⟩
  · rintro (rfl | ⟨n1, f, hf, rfl⟩ | ⟨n1, n2, f, g, hf, hg, hj, rfl⟩)
    · left; rfl
    · right
      refine List.mem_flatMap.2 ⟨(f, n1), List.mem_zipIdx_iff_getElem?.2 hf, by simp⟩
    · right
      refine List.mem_flatMap.2 ⟨(f, n1), List.mem_zipIdx_iff_getElem?.2 hf, ?_⟩
      exact List.mem_cons_of_mem _ (mem_labels2 B hg hj)

end Core1D

end Verif
