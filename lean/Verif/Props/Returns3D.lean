import Verif.Props.Scattering3D

/-!
# Exactly when the 3-D transform returns
-/

namespace Verif

open Core3D

/-- **C94, 3-D.**  A call returns exactly when the volume has the declared shape and the list of integral powers
is not empty, whatever `J`, `L`, `sigma_0`, `max_order` and `rotation_covariant`. -/
theorem C94_returns_iff_3d (a : Args3D) (Y : ℤ → ℕ → ℝ → ℝ → ℂ) (x : Vol ℝ) :
    (∃ out, a.run Y x = .ok out) ↔ x.shape = a.shape ∧ a.powers ≠ [] := by
  constructor
  · rintro ⟨out, h⟩
    unfold Args3D.run at h
    split at h
    · cases h
    · rename_i hx
      refine ⟨not_not.1 hx, fun hq => ?_⟩
      obtain ⟨U0c, -, h⟩ := bind_eq_ok.1 h
      obtain ⟨s, hs, -⟩ := bind_eq_ok.1 h
      obtain ⟨r, -, hr⟩ := forall₂_mem_left (mapM_eq_ok.1 hs) (List.mem_range.2 (Nat.succ_pos a.L))
      obtain ⟨fl, -, hr⟩ := bind_eq_ok.1 hr
      obtain ⟨q, hq', -⟩ := bind_eq_ok.1 hr
      obtain ⟨v, -, hv⟩ := forall₂_mem_left (mapM_eq_ok.1 hq') (List.mem_range.2 (Nat.succ_pos a.J))
      obtain ⟨fs, -, hv⟩ := bind_eq_ok.1 hv
      obtain ⟨U1, -, hv⟩ := bind_eq_ok.1 hv
      obtain ⟨S1, h1, -⟩ := bind_eq_ok.1 hv
      have h1 : np3Averaging a.powers U1 = .ok S1 := h1
      rw [np3Averaging, if_pos hq] at h1
      cases h1
  · rintro ⟨hx, hq⟩
    exact ⟨_, run3_eq a Y hq hx⟩

example (Y : ℤ → ℕ → ℝ → ℝ → ℂ) (x : Vol ℝ) :
    (∃ out, (⟨2, (4, 5, 6), 3, 1, 2, true, true, [1 / 2, 1, 2]⟩ : Args3D).run Y x = .ok out) ↔ x.shape = (4, 5, 6) := by
  rw [C94_returns_iff_3d]
  simp

end Verif
