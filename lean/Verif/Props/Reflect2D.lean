import Verif.Lemmas.Reflect2D

/-!
# Half a turn of an image
-/

namespace Verif

open Core2D

/-- **Half a turn, before the borders are cut.**  If `y[i, j] = x[-i mod h, -j mod w]` for the padded
images, then every coefficient of `y` is the coefficient of `x` of the same path, turned in the same way
on its own grid.  (`unpad` is the identity here.) -/
theorem C91_half_turn (x y : Img ℝ) (hh : y.h = x.h) (hw : y.w = x.w)
    (hr : Spec.IsReflect2 x.h x.w x.px y.px) (J : Nat) (phi : List (Img ℝ))
    (psi : List (Filt2 (Img ℝ))) (mo : Int) (l : List (Path2 (Img ℝ)))
    (h : paths np2Backend ⟨fun x => .ok x, id, fun x => (x.h, x.w)⟩ x J phi psi mo = .ok l) :
    ∃ l' : List (Path2 (Img ℝ)),
      paths np2Backend ⟨fun x => .ok x, id, fun x => (x.h, x.w)⟩ y J phi psi mo = .ok l' ∧
      List.Forall₂ (fun p q => p.j = q.j ∧ p.n = q.n ∧ p.theta = q.theta ∧
        q.coef.h = p.coef.h ∧ q.coef.w = p.coef.w ∧
        Spec.IsReflect2 p.coef.h p.coef.w p.coef.px q.coef.px) l l' := by
  refine sim_paths reflRel2 (P := fun _ (r r' : Img ℝ) => r'.h = r.h ∧ r'.w = r.w ∧
    Spec.IsReflect2 r.h r.w r.px r'.px) (fun i r r' hr => ?_)
    (phi2_refl _ (fun _ _ => rfl) phi) (filts2_refl _ (fun _ _ => rfl) psi) mo ?_ _ h
  · exact ⟨hr.1, hr.2.1, hr.2.2⟩
  · exact Sim.ok ⟨hh, hw, hr⟩

/-- **Half a turn of the returned coefficients** (`pre_pad`: the caller supplies the padded image).
`unpad` cuts one pixel on each side, so that the centre is one pixel outside the returned frame: pixel
`(i, j)` of a coefficient of `y` is pixel `(h - i, w - j)` of that of `x` whenever both are in the
frame. -/
theorem C91_returned (a : Args2D) (ho : a.outType = .list) (hp : a.prePad = true) (x y : Img ℝ)
    (hh : y.h = x.h) (hw : y.w = x.w) (hr : Spec.IsReflect2 x.h x.w x.px y.px)
    (l : List (Path2 (Img ℝ))) (h : a.run x = .ok (.list l)) :
    ∃ l' : List (Path2 (Img ℝ)), a.run y = .ok (.list l') ∧
      List.Forall₂ (fun p q => p.j = q.j ∧ p.n = q.n ∧ p.theta = q.theta ∧
        q.coef.h = p.coef.h ∧ q.coef.w = p.coef.w ∧
        ∀ i j i' j' : Nat, i < p.coef.h → j < p.coef.w → i' < p.coef.h → j' < p.coef.w →
          i + i' = p.coef.h → j + j' = p.coef.w → q.coef.px i j = p.coef.px i' j') l l' := by
  refine run_sim ho reflRel2 (fun _ _ => rfl)
    (P := fun _ r r' => r'.h = r.h ∧ r'.w = r.w ∧
      ∀ i j i' j' : Nat, i < r.h → j < r.w → i' < r.h → j' < r.w →
          i + i' = r.h → j + j' = r.w → r'.px i j = r.px i' j') ?_ hh hw ?_ h
  · rintro k r r' ⟨h1, h2, h3⟩
    refine ⟨by simp [np2Unpad, h1], by simp [np2Unpad, h2], ?_⟩
    intro i j i' j' hi hj hi' hj' ei ej
    have hi : i < Img.h r - 2 := hi
    have hj : j < Img.w r - 2 := hj
    have hi' : i' < Img.h r - 2 := hi'
    have hj' : j' < Img.w r - 2 := hj'
    have ei : i + i' = Img.h r - 2 := ei
    have ej : j + j' = Img.w r - 2 := ej
    unfold np2Unpad
    rw [Img.px_tab (by rw [h1]; exact hi) (by rw [h2]; exact hj), Img.px_tab hi' hj',
      h3 (i + 1) (j + 1) (by omega) (by omega)]
    congr 1
    · unfold Spec.negIdx
      rw [if_neg (by omega)]
      omega
    · unfold Spec.negIdx
      rw [if_neg (by omega)]
      omega
  · intro s
    unfold Args2D.pad
    rw [if_pos hp]
    exact Sim.ok ⟨hh, hw, hr⟩

/-! ## A case that meets the hypotheses -/

example : ∃ l l', exArgs2p.run (Img.tab 16 20 fun i j => (i * i * j : ℝ)) = .ok (.list l) ∧
    exArgs2p.run (Img.tab 16 20 fun i j =>
      ((Spec.negIdx 16 i : ℝ) * Spec.negIdx 16 i * Spec.negIdx 20 j)) = .ok (.list l') := by
  obtain ⟨out, h⟩ := C40_no_error exArgs2p (by decide) (by decide) (by decide) (by decide)
    (Img.tab 16 20 fun i j => (i * i * j : ℝ)) ⟨by decide, by decide⟩
  obtain ⟨l, hl, -⟩ := C39_channels exArgs2p rfl _ out h
  rw [hl] at h
  obtain ⟨l', h', -⟩ := C91_returned exArgs2p rfl rfl (Img.tab 16 20 fun i j => (i * i * j : ℝ))
    (Img.tab 16 20 fun i j => ((Spec.negIdx 16 i : ℝ) * Spec.negIdx 16 i * Spec.negIdx 20 j)) rfl rfl
    (fun i j hi hj => by
      have hi : i < 16 := hi
      have hj : j < 20 := hj
      rw [Img.px_tab hi hj]
      exact (Img.px_tab (α := ℝ) (f := fun i j => (i * i * j : ℝ)) (Spec.negIdx_lt hi)
        (Spec.negIdx_lt hj)).symm) l h
  exact ⟨l, l', h, h'⟩

end Verif
