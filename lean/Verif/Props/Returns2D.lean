import Verif.Props.Channels2D

/-!
# Exactly when the 2-D transform returns
-/

namespace Verif

open Core2D

/-- **C94, 2-D.**  A call returns exactly when `J ≥ 1`, both sides are at least `2^J`, the output type is known
and the image has the declared (or, with `pre_pad`, the padded) shape; `L` and `max_order` play no
role. -/
theorem C94_returns_iff_2d (a : Args2D) (x : Img ℝ) :
    (∃ out, a.run x = .ok out) ↔ 1 ≤ a.J ∧ 2 ^ a.J ≤ a.M ∧ 2 ^ a.J ≤ a.N ∧ a.outType ≠ .other ∧
      (if a.prePad then x.h = padded2 a.M a.J ∧ x.w = padded2 a.N a.J else x.h = a.M ∧ x.w = a.N) := by
  constructor
  · rintro ⟨out, h⟩
    obtain ⟨s, hs, h⟩ := bind_eq_ok.1 h
    obtain ⟨u, hc, h⟩ := bind_eq_ok.1 h
    obtain ⟨h1, h2, h3, h4, h5, h6⟩ := make_eq_ok hs
    obtain ⟨c1, c2, c3⟩ := check_eq_ok.1 hc
    obtain ⟨l, hl, -⟩ := bind_eq_ok.1 h
    refine ⟨?_, h1, h2, c3, ?_⟩
    · by_contra hJ
      have hJ : a.J = 0 := by omega
      have hphi : s.phi = [] := by rw [h5, hJ]; rfl
      rw [hphi] at hl
      obtain ⟨Ur, U0c, S0, l', -, -, h0, -⟩ := paths_eq_ok np2Backend _ hl
      obtain ⟨f, hf, -⟩ := bind_eq_ok.1 h0
      cases hf
    · split
      · rename_i hp
        rw [← h3, ← h4]
        exact c2 hp
      · rename_i hp
        exact c1 (by simpa using hp)
  · rintro ⟨hJ, hM, hN, ho, hx⟩
    exact C40_no_error a hJ hM hN ho x hx

/-- `Scattering2D(J=2, shape=(5, 7), L=3)`. -/
example (x : Img ℝ) : (∃ out, (⟨2, 5, 7, 3, 2, false, .array⟩ : Args2D).run x = .ok out) ↔ x.h = 5 ∧ x.w = 7 := by
  rw [C94_returns_iff_2d]
  simp

end Verif
