import Verif.Lemmas.RoundedJTFS
import Verif.Lemmas.SimJTFS
import Verif.Props.NdJTFS
import Verif.Props.Rounded2D

/-!
# C126: joint time-frequency scattering with rounded operations returns like the exact one
-/

namespace Verif

open Finset FrontJ

/-- The operations return arrays of the right shape. -/
structure RoundedJ.Shapes (R : RoundedJ) : Prop where
  sig : R.sig.Shapes
  rfft : ∀ x, (R.rfft x).h = x.h ∧ (R.rfft x).w = x.w
  cfft : ∀ x, (R.cfft x).h = x.h ∧ (R.cfft x).w = x.w
  ifft : ∀ x, (R.ifft x).h = x.h ∧ (R.ifft x).w = x.w
  irfft : ∀ x, (R.irfft x).h = x.h ∧ (R.irfft x).w = x.w
  modulus : ∀ x, (R.modulus x).h = x.h ∧ (R.modulus x).w = x.w
  mul : ∀ x f, x.w = f.length → (R.mul x f).h = x.h ∧ (R.mul x f).w = x.w
  mean : ∀ x k, 0 < k → k * (x.w / k) = x.w → (R.mean x k).h = x.h ∧ (R.mean x k).w = x.w / k
  sum : ∀ x, (R.sum x).h = x.h ∧ (R.sum x).w = 1

theorem exactJ_shapes : RoundedJ.exact.Shapes where
  sig := exact_shapes
  rfft _ := ⟨rfl, rfl⟩
  cfft _ := ⟨rfl, rfl⟩
  ifft _ := ⟨rfl, rfl⟩
  irfft _ := ⟨rfl, rfl⟩
  modulus _ := ⟨rfl, rfl⟩
  mul _ _ _ := ⟨rfl, rfl⟩
  mean _ _ _ _ := ⟨rfl, rfl⟩
  sum _ := ⟨rfl, rfl⟩

theorem runRoundedJ_exact (a : JArgs) (x : List ℝ) : a.runRounded RoundedJ.exact x = a.run x := rfl

namespace Spec

/-- Coefficients of the same kind and shape. -/
def SameCoef : JCoef (List ℝ) (Img ℝ) → JCoef (List ℝ) (Img ℝ) → Prop
  | .sig x, .sig y => y.length = x.length
  | .stk x, .stk y => y.h = x.h ∧ y.w = x.w
  | _, _ => False

/-- Outputs of the same kind with the same labels, whose coefficients are related by `C`, which may depend on the key.
The rows of an array carry no key. -/
def OutRelJ (C : List Int → JCoef (List ℝ) (Img ℝ) → JCoef (List ℝ) (Img ℝ) → Prop) :
    JOut (List ℝ) (Img ℝ) → JOut (List ℝ) (Img ℝ) → Prop
  | .list l, .list m => List.Forall₂ (fun p q => C p.n p.coef q.coef ∧ p.j = q.j ∧ p.n = q.n ∧ p.order = q.order ∧
      p.fr = q.fr ∧ p.n1 = q.n1) l m
  | .dict l, .dict m => List.Forall₂ (fun a b => a.1 = b.1 ∧ C a.1 a.2 b.2) l m
  | .arrayTime l, .arrayTime m => List.Forall₂ (fun x y => ∃ n, C n (.sig x) (.sig y)) l m
  | .arrayJoint l, .arrayJoint m => List.Forall₂ (fun x y => ∃ n, C n (.stk x) (.stk y)) l m
  | _, _ => False

/-- Outputs of the same kind with the same labels and shapes. -/
def SameShapeJ : JOut (List ℝ) (Img ℝ) → JOut (List ℝ) (Img ℝ) → Prop := OutRelJ fun _ => SameCoef

end Spec

/-! ## Assembly -/

section

variable {C : List Int → JCoef (List ℝ) (Img ℝ) → JCoef (List ℝ) (Img ℝ) → Prop}

/-- The same labels and related coefficients. -/
def PathC (C : List Int → JCoef (List ℝ) (Img ℝ) → JCoef (List ℝ) (Img ℝ) → Prop) (p q : JPath (List ℝ) (Img ℝ)) : Prop :=
  C p.n p.coef q.coef ∧ p.j = q.j ∧ p.n = q.n ∧ p.order = q.order ∧ p.fr = q.fr ∧ p.n1 = q.n1

theorem dictI_relC {k : List Int} {v w : JCoef (List ℝ) (Img ℝ)} (hv : C k v w)
    {d d' : List (List Int × JCoef (List ℝ) (Img ℝ))} (h : List.Forall₂ (fun a b => a.1 = b.1 ∧ C a.1 a.2 b.2) d d') :
    List.Forall₂ (fun a b => a.1 = b.1 ∧ C a.1 a.2 b.2) (dictInsertI d k v) (dictInsertI d' k w) := by
  have hany : d.any (fun e => e.1 == k) = d'.any (fun e => e.1 == k) := by
    induction h with
    | nil => rfl
    | cons hab _ ih => simp only [List.any_cons, hab.1, ih]
  unfold dictInsertI
  rw [hany]
  split
  · rw [List.forall₂_map_left_iff, List.forall₂_map_right_iff]
    refine h.imp fun a b hab => ?_
    rw [← hab.1]
    split
    · exact ⟨rfl, hv⟩
    · exact hab
  · exact List.rel_append h (List.Forall₂.cons ⟨rfl, hv⟩ List.Forall₂.nil)

theorem foldl_dictI_relC {l m : List (JPath (List ℝ) (Img ℝ))} (h : List.Forall₂ (PathC C) l m)
    {d d' : List (List Int × JCoef (List ℝ) (Img ℝ))} (hd : List.Forall₂ (fun a b => a.1 = b.1 ∧ C a.1 a.2 b.2) d d') :
    List.Forall₂ (fun a b => a.1 = b.1 ∧ C a.1 a.2 b.2) (l.foldl (fun d p => dictInsertI d p.n p.coef) d)
      (m.foldl (fun d p => dictInsertI d p.n p.coef) d') := by
  induction h generalizing d d' with
  | nil => exact hd
  | @cons a b _ _ hab _ ih =>
    simp only [List.foldl_cons]
    refine ih ?_
    rw [← hab.2.2.1]
    exact dictI_relC hab.1 hd

theorem stackEq_relC {α β : Type} [DecidableEq β] {size : α → β} {R : α → α → Prop}
    (hR : ∀ a b, R a b → size b = size a) {l m : List α} (h : List.Forall₂ R l m) :
    Sim (List.Forall₂ R) (stackEq size l) (stackEq size m) := by
  intro r hr
  obtain ⟨rfl, hne, hs⟩ := stackEq_eq_ok hr
  refine ⟨m, ?_, h⟩
  cases h with
  | nil => exact absurd rfl hne
  | @cons a b l m hab hlm =>
    show (if _ then _ else _) = _
    rw [if_pos]
    rw [List.all_eq_true]
    intro z hz
    obtain ⟨y, hy, e⟩ := forall₂_mem_right (List.Forall₂.cons hab hlm) hz
    rw [beq_iff_eq, hR _ _ e, hR _ _ hab]
    exact hs y hy a List.mem_cons_self

variable (hC : ∀ n c d, C n c d → Spec.SameCoef c d)
include hC

theorem stks_relC {l m : List (JPath (List ℝ) (Img ℝ))} (h : List.Forall₂ (PathC C) l m) :
    List.Forall₂ (fun x y => ∃ n, C n (.stk x) (.stk y)) (stks l) (stks m) := by
  induction h with
  | nil => exact List.Forall₂.nil
  | @cons a b l m hab _ ih =>
    unfold stks at ih ⊢
    rw [List.filterMap_cons, List.filterMap_cons]
    have h1 := hab.1
    have h2 := hC _ _ _ h1
    cases ha : a.coef <;> cases hb : b.coef <;> rw [ha, hb] at h1 h2
    · exact ih
    · exact h2.elim
    · exact h2.elim
    · exact List.Forall₂.cons ⟨_, h1⟩ ih

theorem sigs_relC {l m : List (JPath (List ℝ) (Img ℝ))} (h : List.Forall₂ (PathC C) l m) :
    List.Forall₂ (fun x y => ∃ n, C n (.sig x) (.sig y)) (sigs l) (sigs m) := by
  induction h with
  | nil => exact List.Forall₂.nil
  | @cons a b l m hab _ ih =>
    unfold sigs at ih ⊢
    rw [List.filterMap_cons, List.filterMap_cons]
    have h1 := hab.1
    have h2 := hC _ _ _ h1
    cases ha : a.coef <;> cases hb : b.coef <;> rw [ha, hb] at h1 h2
    · exact List.Forall₂.cons ⟨_, h1⟩ ih
    · exact h2.elim
    · exact h2.elim
    · exact ih

theorem assemble_relC (o : JObj (List ℝ)) {l m : List (JPath (List ℝ) (Img ℝ))} (h : List.Forall₂ (PathC C) l m) :
    Sim (Spec.OutRelJ C) (assemble npFrontJ o l) (assemble npFrontJ o m) := by
  have hS : Sim (Spec.OutRelJ C) (stackEq npFrontJ.size (sigs l) >>= fun rows => .ok (.arrayTime rows))
      (stackEq npFrontJ.size (sigs m) >>= fun rows => .ok (.arrayTime rows)) :=
    Sim.bind (stackEq_relC (fun a b ⟨n, hab⟩ => hC _ _ _ hab) (sigs_relC hC h)) fun r t hrt => Sim.ok hrt
  have ht : List.Forall₂ (PathC C) l.tail m.tail := by
    cases h with
    | nil => exact List.Forall₂.nil
    | cons _ h => exact h
  unfold assemble
  cases o.outType with
  | dict => exact Sim.ok (foldl_dictI_relC h List.Forall₂.nil)
  | list => exact Sim.ok h
  | other => exact Sim.ok h
  | array =>
    cases o.fmt with
    | time => exact hS
    | other => exact hS
    | joint =>
      refine Sim.bind (stackEq_relC (fun a b ⟨n, hab⟩ => ?_) (stks_relC hC ht)) fun r t hrt => Sim.ok hrt
      obtain ⟨h1, h2⟩ := hC _ _ _ hab
      exact Prod.ext h1 h2

end

/-! ## Which runs return -/

theorem stack_shapeJ {α : Type} [Zero α] {l m : List (List α)} (h : List.Forall₂ (fun x y => y.length = x.length) l m) :
    Sim (fun x y : Img α => y.h = x.h ∧ y.w = x.w) (stackImg l) (stackImg m) := by
  intro y hy
  cases h with
  | nil => cases hy
  | @cons a b l m hab hlm =>
    have hF : List.Forall₂ (fun x y : List α => y.length = x.length) (a :: l) (b :: m) := List.Forall₂.cons hab hlm
    change (if _ then Except.ok (Img.tab _ a.length _) else _) = Except.ok y at hy
    split at hy
    · rename_i hall
      injection hy with hy
      refine ⟨Img.tab (b :: m).length b.length fun i j => ((b :: m).getD i []).getD j 0, if_pos ?_, ?_, ?_⟩
      · rw [List.all_eq_true] at hall ⊢
        intro z hz
        obtain ⟨y, hy, e⟩ := forall₂_mem_right hF hz
        have := hall y hy
        rw [beq_iff_eq] at this ⊢
        rw [e, hab, this]
      · rw [← hy]; exact hF.length_eq.symm
      · rw [← hy]; exact hab
    · cases hy

/-- Arrays of the same shape. -/
def roundRelJ {A B : RoundedJ} (hA : A.Shapes) (hB : B.Shapes) : JRel A.backend B.backend where
  rR _ x y := List.length y = List.length x
  rC _ x y := List.length y = List.length x
  rT _ x y := List.length y = List.length x
  rRS _ _ x y := Img.h y = Img.h x ∧ Img.w y = Img.w x
  rCS _ _ _ x y := Img.h y = Img.h x ∧ Img.w y = Img.w x
  rF f g := f = g
  padOk _ := True
  rfft _ x y h := Sim.ok (by rw [hA.sig.rfft, hB.sig.rfft]; exact h)
  ifft _ x y h := Sim.ok (by rw [hA.sig.ifft, hB.sig.ifft]; exact h)
  irfft _ x y h := Sim.ok (by rw [hA.sig.irfft, hB.sig.irfft]; exact h)
  modulus _ x y h := Sim.ok (by rw [hA.sig.modulus, hB.sig.modulus]; exact h)
  cdgmm _ x y f g h hfg := by
    subst hfg
    intro b hb
    change (if List.length x ≠ List.length f then Except.error PyErr.runtime else .ok (A.sig.mul x f)) = Except.ok b at hb
    split at hb
    · cases hb
    · rename_i hl
      have hl := not_not.1 hl
      injection hb with hb
      refine ⟨B.sig.mul y f, if_neg (not_not.2 (by rw [h, hl])), ?_⟩
      rw [← hb]
      change (B.sig.mul y f).length = (A.sig.mul x f).length
      rw [hA.sig.mul _ _ hl, hB.sig.mul _ _ (by rw [h, hl])]
      exact h
  subsample _ x y e h := by
    intro b hb
    change (if e < 0 then Except.error PyErr.type else if 2 ^ e.toNat = 0 then .error .zeroDiv
      else if 2 ^ e.toNat * (List.length x / 2 ^ e.toNat) ≠ List.length x then .error .value
      else .ok (A.sig.mean x (2 ^ e.toNat))) = Except.ok b at hb
    split at hb
    · cases hb
    split at hb
    · cases hb
    split at hb
    · cases hb
    rename_i h0 h1 hd
    have hd := not_not.1 hd
    injection hb with hb
    have hd' : 2 ^ e.toNat * (List.length y / 2 ^ e.toNat) = List.length y := by rw [h]; exact hd
    refine ⟨B.sig.mean y (2 ^ e.toNat), (if_neg h0).trans ((if_neg h1).trans (if_neg (not_not.2 hd'))), ?_⟩
    rw [← hb]
    change (B.sig.mean y (2 ^ e.toNat)).length = (A.sig.mean x (2 ^ e.toNat)).length
    rw [hA.sig.mean _ _ (by positivity) hd, hB.sig.mean _ _ (by positivity) hd', h]
  averageGlobal _ x y _ := Sim.ok rfl
  stackR _ _ h := stack_shapeJ h
  stackC _ _ h := stack_shapeJ h
  swapR _ _ x y h := Sim.ok ⟨h.2, h.1⟩
  swapC _ _ x y h := Sim.ok ⟨h.2, h.1⟩
  padFrequencyR _ x y p _ h := by
    intro b hb
    change (if p < 0 then Except.error PyErr.value else _) = Except.ok b at hb
    split at hb
    · cases hb
    · rename_i hp
      injection hb with hb
      refine ⟨_, if_neg hp, ?_⟩
      rw [← hb]
      exact ⟨h.1, congrArg (· + p.toNat) h.2⟩
  padFrequencyC _ x y p _ h := by
    intro b hb
    change (if p < 0 then Except.error PyErr.value else _) = Except.ok b at hb
    split at hb
    · cases hb
    · rename_i hp
      injection hb with hb
      refine ⟨_, if_neg hp, ?_⟩
      rw [← hb]
      exact ⟨h.1, congrArg (· + p.toNat) h.2⟩
  rfftS _ _ x y h := Sim.ok (by rw [(hA.rfft x).1, (hA.rfft x).2, (hB.rfft y).1, (hB.rfft y).2]; exact h)
  cfftS _ _ x y h := Sim.ok (by rw [(hA.cfft x).1, (hA.cfft x).2, (hB.cfft y).1, (hB.cfft y).2]; exact h)
  ifftS _ _ x y h := Sim.ok (by rw [(hA.ifft x).1, (hA.ifft x).2, (hB.ifft y).1, (hB.ifft y).2]; exact h)
  irfftS _ _ x y h := Sim.ok (by rw [(hA.irfft x).1, (hA.irfft x).2, (hB.irfft y).1, (hB.irfft y).2]; exact h)
  modulusS _ x y h := Sim.ok (by rw [(hA.modulus x).1, (hA.modulus x).2, (hB.modulus y).1, (hB.modulus y).2]; exact h)
  cdgmmS _ _ x y f g h hfg := by
    subst hfg
    intro b hb
    change (if Img.w x ≠ List.length f then Except.error PyErr.runtime else .ok (A.mul x f)) = Except.ok b at hb
    split at hb
    · cases hb
    · rename_i hl
      have hl := not_not.1 hl
      injection hb with hb
      have hl' : Img.w y = List.length f := by rw [h.2, hl]
      refine ⟨B.mul y f, if_neg (not_not.2 hl'), ?_⟩
      rw [← hb]
      change (B.mul y f).h = (A.mul x f).h ∧ (B.mul y f).w = (A.mul x f).w
      obtain ⟨a1, a2⟩ := hA.mul x f hl
      obtain ⟨b1, b2⟩ := hB.mul y f hl'
      rw [a1, a2, b1, b2]
      exact h
  subsampleS _ _ x y e h := by
    intro b hb
    change (if e < 0 then Except.error PyErr.type else if 2 ^ e.toNat * (Img.w x / 2 ^ e.toNat) ≠ Img.w x
      then .error .value else .ok (A.mean x (2 ^ e.toNat))) = Except.ok b at hb
    split at hb
    · cases hb
    split at hb
    · cases hb
    rename_i h0 hd
    have hd := not_not.1 hd
    injection hb with hb
    have hd' : 2 ^ e.toNat * (Img.w y / 2 ^ e.toNat) = Img.w y := by rw [h.2]; exact hd
    refine ⟨B.mean y (2 ^ e.toNat), (if_neg h0).trans (if_neg (not_not.2 hd')), ?_⟩
    rw [← hb]
    change (B.mean y (2 ^ e.toNat)).h = (A.mean x (2 ^ e.toNat)).h ∧ (B.mean y (2 ^ e.toNat)).w = (A.mean x (2 ^ e.toNat)).w
    obtain ⟨a1, a2⟩ := hA.mean x (2 ^ e.toNat) (by positivity) hd
    obtain ⟨b1, b2⟩ := hB.mean y (2 ^ e.toNat) (by positivity) hd'
    rw [a1, a2, b1, b2, h.1, h.2]
    exact ⟨rfl, rfl⟩
  averageGlobalS _ _ x y h := Sim.ok (by
    rw [(hA.sum x).1, (hA.sum x).2, (hB.sum y).1, (hB.sum y).2]; exact ⟨h.1, rfl⟩)
  unpadFrequency _ x y n s h := by
    intro b hb
    change (if s = 0 then Except.error PyErr.zeroDiv else _) = Except.ok b at hb
    split at hb
    · cases hb
    · rename_i hs
      injection hb with hb
      refine ⟨_, if_neg hs, ?_⟩
      rw [← hb]
      exact ⟨congrArg (min · (1 + n / s)) h.1, h.2⟩
  split x y _ _ h := Sim.ok (by
    change List.Forall₂ _ (tab (Img.h x) _) (tab (Img.h y) _)
    unfold tab
    rw [h.1, List.forall₂_map_left_iff, List.forall₂_map_right_iff]
    refine List.forall₂_same.2 fun i _ => ?_
    simp [h.2])

def roundFrontJ {A B : RoundedJ} (hA : A.Shapes) (hB : B.Shapes) : FrontRelJ (roundRelJ hA hB) npFrontJ npFrontJ where
  rIn x y := List.length y = List.length x
  rO _ x y := List.length y = List.length x
  rOS _ x y := Img.h y = Img.h x ∧ Img.w y = Img.w x
  pad x y l r h := by
    intro u hu
    change npPad x l r = .ok u at hu
    change ∃ v, npPad y l r = .ok v ∧ v.length = List.length u
    unfold npPad at hu ⊢
    split at hu
    · cases hu
    · rename_i hc
      injection hu with hu
      refine ⟨_, if_neg (by rw [h]; exact hc), ?_⟩
      rw [← hu]
      simp [h]
  unpad _ x y i0 i1 h := by
    change (npUnpad y i0 i1).length = (npUnpad x i0 i1).length
    unfold npUnpad
    rw [List.length_drop, List.length_drop, List.length_take, List.length_take, h]
  unpadS _ x y i0 i1 h := ⟨h.1, congrArg (min i1 · - i0) h.2⟩
  keep _ x y h := h
  keepS _ x y h := h

theorem forall₂_self {α : Type} {R : α → α → Prop} (h : ∀ a, R a a) (l : List α) : List.Forall₂ R l l :=
  List.forall₂_same.2 fun a _ => h a

theorem roundObjJ {A B : RoundedJ} (hA : A.Shapes) (hB : B.Shapes) (o : JObj (List ℝ)) :
    ObjRelJ (roundRelJ hA hB) o o := by
  have hF : ∀ l : List (List ℝ), List.Forall₂ (roundRelJ hA hB).rF l l := forall₂_self fun _ => rfl
  exact ⟨rfl, rfl, rfl, rfl, ⟨rfl, hF _⟩, forall₂_self (fun f => ⟨rfl, hF _⟩) _, forall₂_self (fun f => ⟨rfl, hF _⟩) _,
    rfl, rfl, ⟨rfl, rfl, hF _⟩, forall₂_self (fun f => ⟨rfl, rfl, hF _⟩) _, rfl, rfl, rfl, rfl, fun _ _ => trivial⟩

theorem sim_roundedJ {A B : RoundedJ} (hA : A.Shapes) (hB : B.Shapes) (a : JArgs) (x : List ℝ) :
    Sim Spec.SameShapeJ (a.runRounded A x) (a.runRounded B x) := by
  unfold JArgs.runRounded
  refine Sim.bind (sim_eq _) ?_
  rintro s _ rfl
  refine Sim.bind (sim_eq _) ?_
  rintro Q _ rfl
  rw [scattering_eq, scattering_eq]
  refine Sim.bind (sim_unassembled (roundFrontJ hA hB) (roundObjJ hA hB _) (x := x) (y := x) rfl) ?_
  intro l m hlm
  refine assemble_relC (fun _ _ _ h => h) _ (hlm.imp fun p q h => ⟨?_, h.2⟩)
  have h1 := h.1
  show Spec.SameCoef p.coef q.coef
  cases hp : p.coef <;> cases hq : q.coef <;> rw [hp, hq] at h1 <;> exact h1

/-- **C126.**  The call with rounded operations returns exactly when the exact call returns, and then with the same
labels and shapes. -/
theorem C126_returns (a : JArgs) (R : RoundedJ) (hR : R.Shapes) (x : List ℝ) :
    (∀ out, a.run x = .ok out → ∃ out', a.runRounded R x = .ok out' ∧ Spec.SameShapeJ out out') ∧
    (∀ out', a.runRounded R x = .ok out' → ∃ out, a.run x = .ok out ∧ Spec.SameShapeJ out out') := by
  have h1 := sim_roundedJ exactJ_shapes hR a x
  refine ⟨fun out h => h1 out h, fun out' h => ?_⟩
  obtain ⟨out, ho, -⟩ := sim_roundedJ hR exactJ_shapes a x out' h
  obtain ⟨out'', ho'', hs⟩ := h1 out ho
  rw [h] at ho''
  injection ho'' with ho''
  subst ho''
  exact ⟨out, ho, hs⟩

end Verif
