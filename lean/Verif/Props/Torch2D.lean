import Verif.Props.Laws2D
import Verif.Lemmas.Torch2D

/-!
# C59: the torch 2-D frontend computes the numpy coefficients
-/

namespace Verif

open Core2D

theorem torch2_pad {a : Args2D} {s : Sc2D} (hs : a.make = .ok s) (hM : 2 ≤ a.M) (hN : 2 ≤ a.N)
    {x : Img ℝ} (hc : a.check s x.h x.w = .ok ()) : a.torchPad s x = a.pad s x := by
  obtain ⟨h1, h2, h3, h4, -, -⟩ := make_eq_ok hs
  obtain ⟨c1, -, -⟩ := check_eq_ok.1 hc
  unfold Args2D.torchPad Args2D.pad
  cases hp : a.prePad with
  | true => rfl
  | false =>
    rw [if_neg (by simp), if_neg (by simp)]
    obtain ⟨e1, e2⟩ := c1 hp
    rw [h3, h4, ← e1, ← e2]
    exact C43_backends_agree x a.J (by omega) (by omega) (by rw [e1]; exact h1) (by rw [e2]; exact h2)

theorem paths_phi_ne {B : Backend1D} {ops : Ops2D B.R} {x : B.R} {J : Nat} {phi : List B.F} {psi : List (Filt2 B.F)}
    {mo : Int} {l : List (Path2 B.R)} (h : paths B ops x J phi psi mo = .ok l) : phi ≠ [] := by
  rintro rfl
  obtain ⟨Ur, U0c, S0, l', -, -, h0, -⟩ := paths_eq_ok B _ h
  obtain ⟨f, hf, -⟩ := bind_eq_ok.1 h0
  cases hf

/-- An object that transforms anything was built for sides of two pixels or more. -/
theorem two_le_sides {a : Args2D} {s : Sc2D} (hs : a.make = .ok s) (h : s.phi ≠ []) : 2 ≤ a.M ∧ 2 ≤ a.N := by
  obtain ⟨h1, h2, -, -, h5, -⟩ := make_eq_ok hs
  have hJ : 1 ≤ a.J := by
    by_contra hJ
    have hJ : a.J = 0 := by omega
    exact h (by rw [h5, hJ]; rfl)
  have : 2 ^ 1 ≤ 2 ^ a.J := Nat.pow_le_pow_right (by norm_num) hJ
  omega

theorem torch2_stack (a : Args2D) (s : Sc2D) (l : List (Img ℝ)) :
    stack torch2Backend (a.torchOps s) l = stack np2Backend (a.ops s) l := by
  unfold stack
  cases l <;> rfl

/-- **Torch = numpy.**  The torch object returns exactly when the numpy one does, and then the same value
(channels, order, coefficients; same for both values of `out_type`). -/
theorem C59_torch_eq_numpy (a : Args2D) (x : Img ℝ)
    (out : Out2D (Img ℝ)) : a.runTorch x = .ok out ↔ a.run x = .ok out := by
  have eqpath : ∀ {l l' : List (Path2 (Img ℝ))},
      List.Forall₂ (path2 (A := np2Backend) (B := np2Backend) fun _ (x y : Img ℝ) => y = x) l l' →
      l' = l := by
    intro l l' h
    induction h with
    | nil => rfl
    | cons hpq _ ih =>
      obtain ⟨h1, h2, h3, h4⟩ := hpq
      rw [ih]
      congr 1
      rename_i p q _ _ _
      cases p; cases q
      simp only at h1 h2 h3 h4
      rw [h1, h2, h3, h4]
  constructor
  · intro h
    unfold Args2D.runTorch at h
    obtain ⟨s, hs, h⟩ := bind_eq_ok.1 h
    obtain ⟨⟨⟩, hc, h⟩ := bind_eq_ok.1 h
    unfold scattering2d at h
    obtain ⟨l, hl, h⟩ := bind_eq_ok.1 h
    obtain ⟨hM, hN⟩ := two_le_sides hs (paths_phi_ne hl)
    obtain ⟨l', hl', hrel⟩ := sim_paths torch2ToNp (opsA := a.torchOps s) (opsB := a.ops s)
      (P := fun _ x y => y = x) (J := a.J) (fun i (r r' : Img ℝ) (hr : r' = r) => by rw [hr]; rfl)
      (phi := s.phi) (phi' := s.phi)
      ⟨rfl, fun k a b ha hb => by rw [ha] at hb; cases hb; rfl⟩
      (psi := s.psi) (psi' := s.psi)
      (by
        have : ∀ q : List (Filt2 (Img ℝ)), List.Forall₂ (filt2 torch2ToNp) q q := by
          intro q
          induction q with
          | nil => exact List.Forall₂.nil
          | cons f q ih =>
            exact List.Forall₂.cons ⟨rfl, rfl, rfl, fun k a b ha hb => by
              rw [ha] at hb; cases hb; rfl⟩ ih
        exact this _)
      a.maxOrder (x := x) (y := x) (by
        intro u hu
        exact ⟨u, (torch2_pad hs hM hN hc).symm.trans hu, rfl⟩) _ hl
    have := eqpath hrel
    subst this
    rw [torch2_stack] at h
    refine bind_eq_ok.2 ⟨s, hs, bind_eq_ok.2 ⟨(), hc, bind_eq_ok.2 ⟨l', hl', h⟩⟩⟩
  · intro h
    unfold Args2D.run at h
    obtain ⟨s, hs, h⟩ := bind_eq_ok.1 h
    obtain ⟨⟨⟩, hc, h⟩ := bind_eq_ok.1 h
    unfold scattering2d at h
    obtain ⟨l, hl, h⟩ := bind_eq_ok.1 h
    obtain ⟨hM, hN⟩ := two_le_sides hs (paths_phi_ne hl)
    obtain ⟨l', hl', hrel⟩ := sim_paths np2ToTorch (opsA := a.ops s) (opsB := a.torchOps s)
      (P := fun _ x y => y = x) (J := a.J) (fun i (r r' : Img ℝ) (hr : r' = r) => by rw [hr]; rfl)
      (phi := s.phi) (phi' := s.phi)
      ⟨rfl, fun k a b ha hb => by rw [ha] at hb; cases hb; rfl⟩
      (psi := s.psi) (psi' := s.psi)
      (by
        have : ∀ q : List (Filt2 (Img ℝ)), List.Forall₂ (filt2 np2ToTorch) q q := by
          intro q
          induction q with
          | nil => exact List.Forall₂.nil
          | cons f q ih =>
            exact List.Forall₂.cons ⟨rfl, rfl, rfl, fun k a b ha hb => by
              rw [ha] at hb; cases hb; rfl⟩ ih
        exact this _)
      a.maxOrder (x := x) (y := x) (by
        intro u hu
        exact ⟨u, (torch2_pad hs hM hN hc).trans hu, rfl⟩) _ hl
    have := eqpath hrel
    subst this
    rw [← torch2_stack] at h
    refine bind_eq_ok.2 ⟨s, hs, bind_eq_ok.2 ⟨(), hc, bind_eq_ok.2 ⟨l', hl', h⟩⟩⟩

/-- The hypotheses are met. -/
example : ∃ l, exArgs2.runTorch (Img.tab 9 14 fun i j => (i * j : ℝ)) = .ok (.list l) := by
  obtain ⟨l, h⟩ := exArgs2_run (Img.tab 9 14 fun i j => (i * j : ℝ)) rfl rfl
  exact ⟨l, (C59_torch_eq_numpy exArgs2 _ _).2 h⟩

end Verif
