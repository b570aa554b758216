import Verif.Model.NdArray2D
import Verif.Lemmas.Torch2D
import Verif.Lemmas.NdArray

/-!
# Images of an array
-/

namespace Verif

/-- `X` is an array of `n` images of the shape of `x`, and its image number `i` (if there is one) is `x`. -/
def HasImg {α : Type} (n i : Nat) (x : Img α) (X : Imgs α) : Prop :=
  X.n = n ∧ X.h = x.h ∧ X.w = x.w ∧ (i < n → X.px i = x.px)

/-- An operation on every image. -/
theorem HasImg.lift {α β : Type} {n i : Nat} {x : Img α} {X : Imgs α} (h : HasImg n i x X) (f : Img α → Img β)
    (hh : ∀ y, (f y).h = y.h) (hw : ∀ y, (f y).w = y.w) :
    HasImg n i (f x) ⟨X.n, X.h, X.w, fun k => (f (X.img k)).px⟩ := by
  obtain ⟨h1, h2, h3, h4⟩ := h
  refine ⟨h1, by rw [hh]; exact h2, by rw [hw]; exact h3, fun hi => ?_⟩
  have : X.img i = x := by
    unfold Imgs.img
    rw [h2, h3, h4 hi]
  simp only [this]

/-- One image at a time. -/
noncomputable def imgsRel (n i : Nat) : BackendRel np2Backend imgsBackend where
  rR _ _ x X := HasImg n i x X
  rC _ _ x X := HasImg n i x X
  rZ _ _ x X := HasImg n i x X
  rF _ f g := g = f
  rfft _ _ x y h := Sim.ok (h.lift np2Rfft (fun _ => rfl) (fun _ => rfl))
  ifft _ _ x y h := Sim.ok (h.lift idft2 (fun _ => rfl) (fun _ => rfl))
  irfft _ _ x y h := Sim.ok (h.lift np2Irfft (fun _ => rfl) (fun _ => rfl))
  modulus _ _ x y h := Sim.ok (h.lift np2Modulus (fun _ => rfl) (fun _ => rfl))
  cdgmm _ _ x X f g h hfg := by
    subst hfg
    obtain ⟨h1, h2, h3, h4⟩ := h
    intro u hu
    have hu : np2Cdgmm x g = .ok u := hu
    unfold np2Cdgmm at hu
    split at hu
    · cases hu
    · rename_i hc
      obtain rfl := Except.ok.inj hu
      refine ⟨⟨X.n, X.h, X.w, fun i => (Img.tab X.h X.w fun r c => X.px i r c * (g.px r c : ℂ)).px⟩, ?_, h1, ?_, ?_,
        fun hi => ?_⟩
      · show (if _ then _ else _) = _
        rw [if_neg (by rw [h2, h3]; exact hc)]
      · exact h2
      · exact h3
      · simp only [h2, h3, h4 hi]
  subsample _ _ x X e h := by
    obtain ⟨h1, h2, h3, h4⟩ := h
    intro u hu
    have hu : np2Subsample x (2 ^ e) = .ok u := hu
    unfold np2Subsample at hu
    rw [if_neg (by positivity)] at hu
    split at hu
    · cases hu
    · rename_i hc
      obtain rfl := Except.ok.inj hu
      refine ⟨⟨X.n, X.h / 2 ^ e, X.w / 2 ^ e, fun i => (Img.tab (X.h / 2 ^ e) (X.w / 2 ^ e) fun r c =>
        (∑ p ∈ Finset.range (2 ^ e), ∑ q ∈ Finset.range (2 ^ e),
          X.px i (p * (X.h / 2 ^ e) + r) (q * (X.w / 2 ^ e) + c)) / (((2 ^ e : ℕ) : ℂ) * ((2 ^ e : ℕ) : ℂ))).px⟩,
          ?_, h1, ?_, ?_, fun hi => ?_⟩
      · show (if _ then _ else _) = _
        rw [if_neg (by rw [h2, h3]; exact hc)]
      · simp only [h2]; rfl
      · simp only [h3]; rfl
      · simp only [h2, h3, h4 hi]

theorem imgsPad_img {n i : Nat} {x : Img ℝ} {X : Imgs ℝ} (h : HasImg n i x X) (t b l r : Nat) :
    Sim (HasImg n i) (np2Pad t b l r x) (imgsPad t b l r X) := by
  obtain ⟨h1, h2, h3, h4⟩ := h
  intro u hu
  unfold np2Pad at hu
  split at hu
  · cases hu
  · rename_i hc
    obtain rfl := Except.ok.inj hu
    refine ⟨⟨X.n, t + X.h + b, l + X.w + r, fun i => (Img.tab (t + X.h + b) (l + X.w + r) fun p q =>
      X.px i (mirrorIndex X.h t p) (mirrorIndex X.w l q)).px⟩, ?_, h1, ?_, ?_, fun hi => ?_⟩
    · unfold imgsPad
      rw [if_neg (by rw [h2, h3]; exact hc)]
    · simp only [h2]; rfl
    · simp only [h3]; rfl
    · simp only [h2, h3, h4 hi]

theorem imgsUnpad_img {n i : Nat} {x : Img ℝ} {X : Imgs ℝ} (h : HasImg n i x X) :
    HasImg n i (np2Unpad x) (imgsUnpad X) := by
  obtain ⟨h1, h2, h3, h4⟩ := h
  refine ⟨h1, ?_, ?_, fun hi => ?_⟩
  · show X.h - 2 = x.h - 2; rw [h2]
  · show X.w - 2 = x.w - 2; rw [h3]
  · have : X.img i = x := by
      unfold Imgs.img
      rw [h2, h3, h4 hi]
    simp only [imgsUnpad, this]

end Verif
