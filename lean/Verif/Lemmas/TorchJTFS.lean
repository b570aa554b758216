import Verif.Lemmas.SimJTFS
import Verif.Lemmas.Torch2D
import Verif.Lemmas.NpJTFS
import Verif.Props.Laws1D

/-!
# Torch operations of joint time-frequency scattering are the numpy ones
-/

namespace Verif

open Finset

theorem view2C_inj_row {x : Img (ℝ × ℝ)} : (view2C x).Canon := Img.canon_tab _ _ _

theorem view2C_tab (h w : Nat) (f : Nat → Nat → ℝ × ℝ) :
    view2C (Img.tab h w f) = Img.tab h w fun i j => (⟨(f i j).1, (f i j).2⟩ : ℂ) := by
  unfold view2C Img.map
  refine Img.tab_congr fun i j hi hj => ?_
  rw [Img.h_tab] at hi
  rw [Img.w_tab] at hj
  rw [Img.px_tab hi hj]

theorem torchRowRfft_eq (x : Img ℝ) : view2C (torchRowRfft x) = rowDft (x.map fun r : ℝ => (r : ℂ)) := by
  unfold torchRowRfft
  rw [view2C_view2R (x := rowDft _) (Img.canon_tab _ _ _)]
  congr 1
  unfold Img.map
  rw [view2C_tab]
  rfl

theorem torchRowFft_eq (x : Img (ℝ × ℝ)) : view2C (torchRowFft x) = rowDft (view2C x) :=
  view2C_view2R (Img.canon_tab _ _ _)

theorem torchRowIfft_eq (x : Img (ℝ × ℝ)) : view2C (torchRowIfft x) = rowIdft (view2C x) :=
  view2C_view2R (Img.canon_tab _ _ _)

theorem view2C_swap (x : Img (ℝ × ℝ)) : view2C x.swap = (view2C x).swap := by
  unfold Img.swap
  rw [view2C_tab]
  refine Img.tab_congr fun i j hi hj => ?_
  exact (px_view2C x hj hi).symm

theorem torchRowCdgmm_ok {A : Img (ℝ × ℝ)} {f : List ℝ} {y : Img (ℝ × ℝ)} (h : torchRowCdgmm A f = .ok y) :
    rowCdgmm (view2C A) f = .ok (view2C y) := by
  unfold torchRowCdgmm at h
  split at h
  · cases h
  · rename_i hc
    injection h with h
    subst h
    unfold rowCdgmm
    rw [if_neg (by exact hc), view2C_tab]
    refine congrArg Except.ok (Img.tab_congr fun i j hi hj => ?_)
    rw [px_view2C A hi hj]
    apply Complex.ext <;> simp

theorem torchRowCdgmm_exists {A : Img (ℝ × ℝ)} {f : List ℝ} {z : Img ℂ} (h : rowCdgmm (view2C A) f = .ok z) :
    ∃ y, torchRowCdgmm A f = .ok y ∧ z = view2C y := by
  have : ∃ y, torchRowCdgmm A f = .ok y := by
    unfold rowCdgmm at h
    split at h
    · cases h
    · rename_i hc
      exact ⟨_, if_neg hc⟩
  obtain ⟨y, hy⟩ := this
  exact ⟨y, hy, Except.ok.inj (h.symm.trans (torchRowCdgmm_ok hy))⟩

theorem torchRowSubsample_ok {x y : Img (ℝ × ℝ)} {e : Int} (h : torchRowSubsample x e = .ok y) :
    rowSubsample (view2C x) e = .ok (view2C y) := by
  unfold torchRowSubsample at h
  split at h
  · cases h
  · rename_i he
    split at h
    · cases h
    · rename_i hc
      injection h with h
      subst h
      unfold rowSubsample
      rw [if_neg he, if_neg (by exact hc), view2C_tab]
      refine congrArg Except.ok (Img.tab_congr fun i m hi hm => ?_)
      push Not at hc
      have e : ∀ r ∈ range (2 ^ e.toNat), (view2C x).px i (r * ((view2C x).w / 2 ^ e.toNat) + m) =
          ⟨(x.px i (r * (x.w / 2 ^ e.toNat) + m)).1, (x.px i (r * (x.w / 2 ^ e.toNat) + m)).2⟩ := by
        intro r hr
        refine px_view2C x hi ?_
        have := block_lt (mem_range.1 hr) hm
        rw [w_view2C, hc] at this
        exact this
      rw [Finset.sum_congr rfl e]
      rw [← Complex.ofReal_natCast]
      apply Complex.ext
      · rw [Complex.div_ofReal_re, Complex.re_sum]
      · rw [Complex.div_ofReal_im, Complex.im_sum]

theorem torchRowSubsample_exists {x : Img (ℝ × ℝ)} {e : Int} {z : Img ℂ} (h : rowSubsample (view2C x) e = .ok z) :
    ∃ y, torchRowSubsample x e = .ok y ∧ z = view2C y := by
  have : ∃ y, torchRowSubsample x e = .ok y := by
    unfold rowSubsample at h
    split at h
    · cases h
    · rename_i he
      split at h
      · cases h
      · rename_i hc
        unfold torchRowSubsample
        rw [if_neg he]
        exact ⟨_, if_neg hc⟩
  obtain ⟨y, hy⟩ := this
  exact ⟨y, hy, Except.ok.inj (h.symm.trans (torchRowSubsample_ok hy))⟩

theorem torchPadFrequency_eq {α : Type} [Zero α] (x : Img α) {p : Int} (hp : 0 ≤ p) :
    torchPadFrequency x p = padFrequencyImg x p := by
  unfold torchPadFrequency padFrequencyImg
  rw [if_neg (by omega), if_neg (by omega), show ((x.w : Int) + p).toNat = x.w + p.toNat by omega]

theorem view2C_padFrequency (x : Img (ℝ × ℝ)) {p : Int} (hp : 0 ≤ p) :
    padFrequencyImg (view2C x) p = (padFrequencyImg x p).map view2C := by
  unfold padFrequencyImg
  rw [if_neg (by omega), if_neg (by omega)]
  show _ = Except.ok _
  rw [view2C_tab]
  refine congrArg Except.ok (Img.tab_congr fun i j hi hj => ?_)
  show (if j < x.w then (view2C x).px i j else 0) = _
  split
  · rename_i h
    exact px_view2C x hi h
  · rfl

/-- Torch and numpy stack the same lists, with the same result. -/
theorem torchStack_iff {α : Type} [Zero α] (l : List (List α)) (y : Img α) :
    torchStackImg l = .ok y ↔ stackImg l = .ok y := by
  unfold torchStackImg stackImg
  cases l with
  | nil => simp
  | cons a l =>
    simp only
    split
    · rfl
    · simp

theorem stackImg_view {l : List (List (ℝ × ℝ))} {z : Img ℂ} :
    stackImg (l.map viewAsComplex) = .ok z ↔ ∃ y, stackImg l = .ok y ∧ z = view2C y := by
  unfold stackImg
  cases l with
  | nil => simp
  | cons a l =>
    have hall : ((a :: l).map viewAsComplex).all (fun b => b.length == (viewAsComplex a).length) =
        (a :: l).all fun b => b.length == a.length := by
      rw [List.all_map]
      congr 1
      funext b
      simp
    have htab : Img.tab ((a :: l).map viewAsComplex).length (viewAsComplex a).length
        (fun i j => (((a :: l).map viewAsComplex).getD i []).getD j 0) =
        view2C (Img.tab (a :: l).length a.length fun i j => ((a :: l).getD i []).getD j 0) := by
      rw [view2C_tab, List.length_map, length_viewAsComplex]
      refine Img.tab_congr fun i j _ _ => ?_
      have := getD_map' (a :: l) viewAsComplex i []
      rw [show viewAsComplex [] = ([] : List ℂ) from rfl] at this
      rw [this]
      exact getD_viewAsComplex _ _
    rw [List.map_cons] at hall htab ⊢
    show (if _ then _ else _) = _ ↔ _
    simp only
    rw [hall]
    split
    · rw [htab]
      constructor
      · intro h; exact ⟨_, rfl, (Except.ok.inj h).symm⟩
      · rintro ⟨y, h, rfl⟩; rw [← Except.ok.inj h]
    · simp

theorem forall₂_eq_map {α β : Type} {f : α → β} {l : List α} {m : List β}
    (h : List.Forall₂ (fun x y => y = f x) l m) : m = l.map f := by
  induction h with
  | nil => rfl
  | cons hab _ ih => rw [hab, ih]; rfl

theorem forall₂_eq_map' {α β : Type} {f : α → β} {l : List α} {m : List β}
    (h : List.Forall₂ (fun y x => y = f x) m l) : m = l.map f := by
  induction h with
  | nil => rfl
  | cons hab _ ih => rw [hab, ih]; rfl

theorem forall₂_eq {α : Type} {l m : List α} (h : List.Forall₂ (fun x y => y = x) l m) : m = l := by
  rw [forall₂_eq_map (f := id) h]; simp

theorem forall₂_rfl {α : Type} (l : List α) : List.Forall₂ (fun x y : α => y = x) l l := by
  induction l with
  | nil => exact .nil
  | cons a l ih => exact .cons rfl ih

theorem sim_of_ok {α β : Type} {R : α → β → Prop} {a : Py α} {b : Py β}
    (h : ∀ x, a = .ok x → ∃ y, b = .ok y ∧ R x y) : Sim R a b := h

/-- torch to numpy. -/
noncomputable def torchToNpJ : JRel torchJ npJ where
  rR _ x y := y = x
  rC _ x y := y = viewAsComplex x
  rT _ x y := y = viewAsComplex x
  rRS _ _ x y := y = x
  rCS _ _ _ x y := y = view2C x
  rF f g := g = f
  padOk p := 0 ≤ p
  rfft i x y h := Sim.ok (by rw [h, torchRfft_eq])
  ifft i x y h := Sim.ok (by rw [h]; unfold torchIfft; rw [viewAsComplex_viewAsReal])
  irfft i x y h := Sim.ok (by rw [h]; rfl)
  modulus i x y h := Sim.ok (by rw [h, torchModulus_eq])
  cdgmm i x y f g h hfg := by
    subst hfg; subst h
    intro a ha
    exact ⟨_, (torchCdgmm_eq _ _ _).1 ha, rfl⟩
  subsample i x y e h := by
    subst h
    intro a ha
    dsimp only at ha ⊢
    split at ha
    · cases ha
    · rename_i he
      rw [if_neg he]
      exact ⟨_, (torchSubsample_eq _ _ _).1 ha, rfl⟩
  averageGlobal i x y h := Sim.ok (by rw [h, torchAverage_eq])
  stackR l m h := by
    intro a ha
    rw [forall₂_eq h]
    exact ⟨a, (torchStack_iff _ _).1 ha, rfl⟩
  stackC l m h := by
    intro a ha
    rw [forall₂_eq_map h]
    exact ⟨_, stackImg_view.2 ⟨a, (torchStack_iff _ _).1 ha, rfl⟩, rfl⟩
  swapR i _ x y h := Sim.ok (by rw [h])
  swapC i _ x y h := Sim.ok (by rw [h, view2C_swap])
  padFrequencyR i x y p hp h := by
    subst h
    intro a ha
    exact ⟨a, (torchPadFrequency_eq _ hp).symm.trans ha, rfl⟩
  padFrequencyC i x y p hp h := by
    subst h
    intro a ha
    have ha : torchPadFrequency x p = .ok a := ha
    rw [torchPadFrequency_eq _ hp] at ha
    refine ⟨view2C a, ?_, rfl⟩
    show padFrequencyImg (view2C x) p = _
    rw [view2C_padFrequency x hp, ha]
    rfl
  rfftS i _ x y h := Sim.ok (by rw [h, torchRowRfft_eq])
  cfftS i _ x y h := Sim.ok (by rw [h, torchRowFft_eq])
  ifftS i _ x y h := Sim.ok (by rw [h, torchRowIfft_eq])
  irfftS i _ x y h := Sim.ok (by rw [h]; rfl)
  modulusS i x y h := Sim.ok (by rw [h, torch2Modulus_eq]; rfl)
  cdgmmS i _ x y f g h hfg := by
    subst hfg; subst h
    intro a ha
    exact ⟨_, torchRowCdgmm_ok ha, rfl⟩
  subsampleS i _ x y e h := by
    subst h
    intro a ha
    exact ⟨_, torchRowSubsample_ok ha, rfl⟩
  averageGlobalS i _ x y h := Sim.ok (by rw [h]; rfl)
  unpadFrequency i x y n s h := by
    subst h
    intro a ha
    exact ⟨a, ha, rfl⟩
  split x y n s h := Sim.ok (by rw [h]; exact forall₂_rfl _)

/-- numpy to torch. -/
noncomputable def npToTorchJ : JRel npJ torchJ where
  rR _ x y := y = x
  rC _ x y := x = viewAsComplex y
  rT _ x y := x = viewAsComplex y
  rRS _ _ x y := y = x
  rCS _ _ _ x y := x = view2C y
  rF f g := g = f
  padOk p := 0 ≤ p
  rfft i x y h := Sim.ok (by rw [h, torchRfft_eq])
  ifft i x y h := Sim.ok (by rw [h]; unfold torchIfft; rw [viewAsComplex_viewAsReal])
  irfft i x y h := Sim.ok (by rw [h]; rfl)
  modulus i x y h := Sim.ok (by rw [h, torchModulus_eq])
  cdgmm i x y f g h hfg := by
    subst hfg; subst h
    intro a ha
    have : a = viewAsComplex (viewAsReal a) := (viewAsComplex_viewAsReal a).symm
    exact ⟨viewAsReal a, (torchCdgmm_eq _ _ _).2 (by rw [← this]; exact ha), this⟩
  subsample i x y e h := by
    subst h
    intro a ha
    dsimp only at ha ⊢
    split at ha
    · cases ha
    · rename_i he
      rw [if_neg he]
      have : a = viewAsComplex (viewAsReal a) := (viewAsComplex_viewAsReal a).symm
      exact ⟨viewAsReal a, (torchSubsample_eq _ _ _).2 (by rw [← this]; exact ha), this⟩
  averageGlobal i x y h := Sim.ok (by rw [h, torchAverage_eq])
  stackR l m h := by
    intro a ha
    rw [forall₂_eq h]
    exact ⟨a, (torchStack_iff _ _).2 ha, rfl⟩
  stackC l m h := by
    intro a ha
    rw [forall₂_eq_map' h] at ha
    obtain ⟨y, hy, hz⟩ := stackImg_view.1 ha
    exact ⟨y, (torchStack_iff _ _).2 hy, hz⟩
  swapR i _ x y h := Sim.ok (by rw [h])
  swapC i _ x y h := Sim.ok (by rw [h, view2C_swap])
  padFrequencyR i x y p hp h := by
    subst h
    intro a ha
    exact ⟨a, (torchPadFrequency_eq _ hp).trans ha, rfl⟩
  padFrequencyC i x y p hp h := by
    subst h
    intro a ha
    have ha : padFrequencyImg (view2C y) p = .ok a := ha
    rw [view2C_padFrequency y hp, ← torchPadFrequency_eq _ hp] at ha
    cases hy : torchPadFrequency y p with
    | error e => rw [hy] at ha; cases ha
    | ok z =>
      rw [hy] at ha
      exact ⟨z, hy, (Except.ok.inj ha).symm⟩
  rfftS i _ x y h := Sim.ok (by rw [h, torchRowRfft_eq])
  cfftS i _ x y h := Sim.ok (by rw [h, torchRowFft_eq])
  ifftS i _ x y h := Sim.ok (by rw [h, torchRowIfft_eq])
  irfftS i _ x y h := Sim.ok (by rw [h]; rfl)
  modulusS i x y h := Sim.ok (by rw [h, torch2Modulus_eq]; rfl)
  cdgmmS i _ x y f g h hfg := by
    subst hfg; subst h
    intro a ha
    exact torchRowCdgmm_exists ha
  subsampleS i _ x y e h := by
    subst h
    intro a ha
    exact torchRowSubsample_exists ha
  averageGlobalS i _ x y h := Sim.ok (by rw [h]; rfl)
  unpadFrequency i x y n s h := by
    subst h
    intro a ha
    exact ⟨a, ha, rfl⟩
  split x y n s h := Sim.ok (by rw [h]; exact forall₂_rfl _)

namespace FrontJ

noncomputable def torchToNpFrontJ : FrontRelJ torchToNpJ torchFrontJ npFrontJ where
  rIn x y := y = x
  rO _ x y := y = x
  rOS _ x y := y = x
  pad x y l r h := by
    subst h
    intro a ha
    exact ⟨a, (torchPad_eq y l r).symm.trans ha, rfl⟩
  unpad i x y i0 i1 h := by rw [h]; exact (torchUnpad_eq x i0 i1).symm
  unpadS i x y i0 i1 h := by rw [h]; rfl
  keep i x y h := h
  keepS i x y h := h

noncomputable def npToTorchFrontJ : FrontRelJ npToTorchJ npFrontJ torchFrontJ where
  rIn x y := y = x
  rO _ x y := y = x
  rOS _ x y := y = x
  pad x y l r h := by
    subst h
    intro a ha
    refine ⟨a, ?_, rfl⟩
    show torchFront.pad y l r = _
    rw [torchPad_eq]
    exact ha
  unpad i x y i0 i1 h := by rw [h]; exact torchUnpad_eq x i0 i1
  unpadS i x y i0 i1 h := by rw [h]; rfl
  keep i x y h := h
  keepS i x y h := h

theorem forall₂_refl_of {α : Type} {R : α → α → Prop} (h : ∀ a, R a a) (l : List α) : List.Forall₂ R l l := by
  induction l with
  | nil => exact .nil
  | cons a l ih => exact .cons (h a) ih

theorem objJ_torch {o : JObj (List ℝ)} (h : o.psi1.length ≤ o.phiFr.N) : ObjRelJ torchToNpJ o o := by
  have h0 : ∀ f : Filt (List ℝ), torchToNpJ.filt f f := fun f => ⟨rfl, forall₂_rfl _⟩
  have h1 : ∀ f : FiltFr (List ℝ), torchToNpJ.filtFr f f := fun f => ⟨rfl, rfl, forall₂_rfl _⟩
  exact ⟨rfl, rfl, rfl, rfl, h0 _, forall₂_refl_of h0 _, forall₂_refl_of h0 _, rfl, rfl, ⟨rfl, rfl, forall₂_rfl _⟩,
    forall₂_refl_of h1 _, rfl, rfl, rfl, rfl, fun n hn => by show (0 : Int) ≤ _; omega⟩

theorem objJ_np {o : JObj (List ℝ)} (h : o.psi1.length ≤ o.phiFr.N) : ObjRelJ npToTorchJ o o := by
  have h0 : ∀ f : Filt (List ℝ), npToTorchJ.filt f f := fun f => ⟨rfl, forall₂_rfl _⟩
  have h1 : ∀ f : FiltFr (List ℝ), npToTorchJ.filtFr f f := fun f => ⟨rfl, rfl, forall₂_rfl _⟩
  exact ⟨rfl, rfl, rfl, rfl, h0 _, forall₂_refl_of h0 _, forall₂_refl_of h0 _, rfl, rfl, ⟨rfl, rfl, forall₂_rfl _⟩,
    forall₂_refl_of h1 _, rfl, rfl, rfl, rfl, fun n hn => by show (0 : Int) ≤ _; omega⟩

/-- Up to `reshape_output`, torch and numpy compute the same paths. -/
theorem unassembled_torch {o : JObj (List ℝ)} (h : o.psi1.length ≤ o.phiFr.N) (x : List ℝ)
    (P : List (JPath (List ℝ) (Img ℝ))) :
    unassembled torchJ torchFrontJ o x = .ok P ↔ unassembled npJ npFrontJ o x = .ok P := by
  have key : ∀ {p q : JPath (List ℝ) (Img ℝ)}, (match p.coef, q.coef with
      | .sig x, .sig y => y = x
      | .stk x, .stk y => y = x
      | _, _ => False) → p.j = q.j → p.n = q.n → p.order = q.order → p.fr = q.fr → p.n1 = q.n1 → q = p := by
    rintro ⟨c, _, _, _, _, _⟩ ⟨d, _, _, _, _, _⟩ hc h1 h2 h3 h4 h5
    simp only at hc h1 h2 h3 h4 h5
    subst h1; subst h2; subst h3; subst h4; subst h5
    cases c <;> cases d <;> simp only at hc
    · rw [hc]
    · rw [hc]
  constructor
  · intro hP
    obtain ⟨P', hP', hr⟩ := sim_unassembled torchToNpFrontJ (objJ_torch h) (x := x) (y := x) rfl P hP
    rw [hP', forall₂_eq (hr.imp fun p q hpq => ?_)]
    obtain ⟨hc, h1, h2, h3, h4, h5⟩ := hpq
    refine key ?_ h1 h2 h3 h4 h5
    cases hp : p.coef <;> cases hq : q.coef <;> rw [hp, hq] at hc <;> exact hc
  · intro hP
    obtain ⟨P', hP', hr⟩ := sim_unassembled npToTorchFrontJ (objJ_np h) (x := x) (y := x) rfl P hP
    rw [hP', forall₂_eq (hr.imp fun p q hpq => ?_)]
    obtain ⟨hc, h1, h2, h3, h4, h5⟩ := hpq
    refine key ?_ h1 h2 h3 h4 h5
    cases hp : p.coef <;> cases hq : q.coef <;> rw [hp, hq] at hc <;> exact hc

end FrontJ

end Verif
