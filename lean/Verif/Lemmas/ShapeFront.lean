import Verif.Lemmas.Torch1D
import Verif.Lemmas.Front1D

/-!
# Lengths in the 1-D frontend
-/

namespace Verif

open Front1D

theorem npPad_length {x y : List ℝ} {l r : Nat} (h : npPad x l r = .ok y) :
    l < x.length ∧ r < x.length ∧ y.length = l + x.length + r := by
  unfold npPad at h
  split at h
  · cases h
  · rename_i hc
    push Not at hc
    injection h with h
    exact ⟨hc.1, hc.2, by rw [← h]; simp⟩

theorem npPad_ok {x : List ℝ} {l r : Nat} (hl : l < x.length) (hr : r < x.length) :
    ∃ y, npPad x l r = .ok y ∧ y.length = l + x.length + r := by
  unfold npPad
  rw [if_neg (by omega)]
  exact ⟨_, rfl, by simp⟩

noncomputable def npToShapeFront : FrontRel npToShape npFront shapeFront where
  rIn x n := n = List.length x
  rOut _ x n := n = List.length x
  pad x n l r h := by
    subst h
    intro u hu
    obtain ⟨h1, h2, h3⟩ := npPad_length hu
    refine ⟨_, ?_, rfl⟩
    show (if _ then _ else _) = _
    rw [if_neg (by omega), h3]
  unpad i r x n i0 i1 h := by
    have h : n = List.length x := h
    subst h
    show min _ _ - _ = List.length (npUnpad x i0 i1)
    unfold npUnpad
    rw [List.length_drop, List.length_take]
  averageGlobal i r x n h := rfl

noncomputable def shapeToNpFront : FrontRel shapeToNp shapeFront npFront where
  rIn n x := n = List.length x
  rOut _ n x := n = List.length x
  pad n x l r h := by
    subst h
    intro u hu
    have hu : (if l ≥ List.length x ∨ r ≥ List.length x then (Except.error PyErr.value : Py Nat)
      else .ok (l + List.length x + r)) = .ok u := hu
    split at hu
    · cases hu
    · rename_i hc
      push Not at hc
      injection hu with hu
      obtain ⟨y, hy, hl⟩ := npPad_ok (x := x) hc.1 hc.2
      exact ⟨y, hy, by rw [← hu]; exact hl.symm⟩
  unpad i r n x i0 i1 h := by
    have h : n = List.length x := h
    subst h
    show min _ _ - _ = List.length (npUnpad x i0 i1)
    unfold npUnpad
    rw [List.length_drop, List.length_take]
  averageGlobal i r n x h := rfl

/-- Lengths of the levels of a filter. -/
def Filt.shape (f : Filt (List ℝ)) : Filt Nat := ⟨f.levels.map List.length, f.j⟩

/-- The object with filters replaced by their lengths. -/
def Obj1D.shape (o : Obj1D (List ℝ)) : Obj1D Nat :=
  ⟨o.padLeft, o.padRight, o.indStart, o.indEnd, o.phi.shape, o.psi1.map Filt.shape,
    o.psi2.map Filt.shape, o.maxOrder, o.log2Stride, o.average, o.oversampling, o.outType⟩

theorem npToShape_filt (f : Filt (List ℝ)) : npToShape.filt f f.shape := by
  refine ⟨rfl, by simp [Filt.shape], fun k a b ha hb => ?_⟩
  have hb : (List.map List.length f.levels)[k]? = some b := hb
  rw [List.getElem?_map, ha] at hb
  injection hb with hb
  exact hb.symm

theorem shapeToNp_filt (f : Filt (List ℝ)) : shapeToNp.filt f.shape f := by
  refine ⟨rfl, by simp [Filt.shape], fun k a b ha hb => ?_⟩
  have ha : (List.map List.length f.levels)[k]? = some a := ha
  have hb : f.levels[k]? = some b := hb
  rw [List.getElem?_map, hb] at ha
  injection ha with ha
  exact ha.symm

theorem npToShape_obj (o : Obj1D (List ℝ)) : ObjRel npToShape o o.shape := by
  have h1 : ∀ l : List (Filt (List ℝ)), List.Forall₂ npToShape.filt l (l.map Filt.shape) := by
    intro l
    rw [List.forall₂_map_right_iff, List.forall₂_same]
    intro f _
    exact npToShape_filt f
  exact ⟨rfl, rfl, rfl, rfl, npToShape_filt _, h1 _, h1 _, rfl, rfl, rfl, rfl, rfl⟩

theorem shapeToNp_obj (o : Obj1D (List ℝ)) : ObjRel shapeToNp o.shape o := by
  have h1 : ∀ l : List (Filt (List ℝ)), List.Forall₂ shapeToNp.filt (l.map Filt.shape) l := by
    intro l
    rw [List.forall₂_map_left_iff, List.forall₂_same]
    intro f _
    exact shapeToNp_filt f
  exact ⟨rfl, rfl, rfl, rfl, shapeToNp_filt _, h1 _, h1 _, rfl, rfl, rfl, rfl, rfl⟩

/-- A numpy run succeeds as soon as the run on lengths does. -/
theorem np_run_of_shape {o : Obj1D (List ℝ)} (ho : o.outType = .list) {x : List ℝ}
    {l : List (Path Nat)}
    (h : Front1D.scattering shapeBackend shapeFront o.shape x.length = .ok (.list l)) :
    ∃ m, Front1D.scattering npBackend npFront o x = .ok (.list m) ∧
      List.Forall₂ (fun p q => p.n = q.n ∧ p.j = q.j ∧ p.coef = q.coef.length) l m := by
  obtain ⟨r, hr, l', m, h1, rfl, hlm⟩ := Front1D.sim_list shapeToNpFront (shapeToNp_obj o) ho
    (x := x.length) (y := x) rfl _ h
  injection h1 with h1
  subst h1
  exact ⟨m, hr, hlm⟩

end Verif
