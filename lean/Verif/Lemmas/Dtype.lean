import Verif.Model.Dtype
import Verif.Lemmas.Front1D
import Verif.Lemmas.Core2D
import Verif.Lemmas.Torch2D

/-!
# Simulations between tagged and typed tensors
-/

namespace Verif

namespace Front1D

theorem dictInsert_forall₂ {α β : Type} {R : α → β → Prop} {d : List (List Nat × α)} {d' : List (List Nat × β)}
    (h : List.Forall₂ (fun a b => a.1 = b.1 ∧ R a.2 b.2) d d') (k : List Nat) {v : α} {v' : β} (hv : R v v') :
    List.Forall₂ (fun a b => a.1 = b.1 ∧ R a.2 b.2) (dictInsert d k v) (dictInsert d' k v') := by
  have hany : d.any (fun e => e.1 == k) = d'.any (fun e => e.1 == k) := by
    induction h with
    | nil => rfl
    | cons hab _ ih => simp only [List.any_cons, hab.1, ih]
  unfold dictInsert
  rw [hany]
  split
  · rw [List.forall₂_map_left_iff, List.forall₂_map_right_iff]
    refine h.imp fun a b hab => ?_
    rw [hab.1]
    split
    · exact ⟨rfl, hv⟩
    · exact hab
  · exact List.rel_append h (List.Forall₂.cons ⟨rfl, hv⟩ List.Forall₂.nil)

/-- Outputs of the same kind, related coefficient by coefficient. -/
def OutRel {A B : Backend1D} {S : BackendRel A B} {fa : FrontOps A.R} {fb : FrontOps B.R} (F : FrontRel S fa fb) :
    Out1D A.R → Out1D B.R → Prop
  | .array l, .array m => List.Forall₂ (fun x y => ∃ i, F.rOut i x y) l m
  | .list l, .list m => List.Forall₂ (PathRel F) l m
  | .dict l, .dict m => List.Forall₂ (fun a b => a.1 = b.1 ∧ ∃ i, F.rOut i a.2 b.2) l m
  | _, _ => False

/-- Simulation of the whole frontend, for every `out_type`. -/
theorem sim_out {A B : Backend1D} {S : BackendRel A B} {fa : FrontOps A.R} {fb : FrontOps B.R}
    (F : FrontRel S fa fb) (hsize : ∀ i x y, F.rOut i x y → fa.size x = fb.size y)
    {o : Obj1D A.F} {o' : Obj1D B.F} (h : ObjRel S o o') {x : A.R} {y : B.R} (hxy : F.rIn x y) :
    Sim (OutRel F) (scattering A fa o x) (scattering B fb o' y) := by
  unfold scattering checkRuntimeArgs
  rw [h.average, h.outType]
  refine Sim.bind (sim_self _) ?_
  rintro u _ rfl
  rw [h.padLeft, h.padRight, h.log2Stride]
  refine Sim.bind (F.pad _ _ _ _ hxy) ?_
  intro U V hUV
  refine Sim.bind (sim_self _) ?_
  rintro ls _ rfl
  refine Sim.bind (Core1D.sim_scattering1d S h.phi (psis_rel h) hUV) ?_
  intro out out' ho
  refine Sim.bind (sim_mapM (fun a b hab => sim_post F h _ _ hab) ho) ?_
  intro l m hlm
  have harr : Sim (OutRel F) (do
      let rows ← stackRows fa ((sortPaths l).map fun p => p.coef)
      .ok (.array rows)) (do
      let rows ← stackRows fb ((sortPaths m).map fun p => p.coef)
      .ok (.array rows)) := by
    have hf : List.Forall₂ (fun x y => ∃ i, F.rOut i x y) ((sortPaths l).map fun p => p.coef)
        ((sortPaths m).map fun p => p.coef) := by
      rw [List.forall₂_map_left_iff, List.forall₂_map_right_iff]
      exact (sortPaths_rel (fun p q hpq => hpq.1) hlm).imp fun p q hpq => ⟨_, hpq.2.2⟩
    refine Sim.bind (R := List.Forall₂ (fun x y => ∃ i, F.rOut i x y)) ?_ fun r s hrs => Sim.ok hrs
    generalize ((sortPaths l).map fun p => p.coef) = la at hf
    generalize ((sortPaths m).map fun p => p.coef) = lb at hf
    have hs : la.map fa.size = lb.map fb.size := by
      induction hf with
      | nil => rfl
      | cons hab _ ih =>
        obtain ⟨i, hi⟩ := hab
        rw [List.map_cons, List.map_cons, hsize _ _ _ hi, ih]
    intro r hr
    cases hf with
    | nil => cases hr
    | @cons a b la lb hab hf =>
      unfold stackRows at hr ⊢
      rw [List.map_cons, List.map_cons] at hs
      have h0 : fa.size a = fb.size b := List.head_eq_of_cons_eq hs
      have h1 : la.map fa.size = lb.map fb.size := List.tail_eq_of_cons_eq hs
      have hall : ((a :: la).all fun c => fa.size c == fa.size a) = ((b :: lb).all fun c => fb.size c == fb.size b) := by
        have e1 : ((a :: la).all fun c => fa.size c == fa.size a) =
            (((a :: la).map fa.size).all fun n => n == fa.size a) := by rw [List.all_map]; rfl
        have e2 : ((b :: lb).all fun c => fb.size c == fb.size b) =
            (((b :: lb).map fb.size).all fun n => n == fb.size b) := by rw [List.all_map]; rfl
        rw [e1, e2, List.map_cons, List.map_cons, h0, h1]
      simp only at hr ⊢
      rw [hall] at hr
      split at hr
      · rename_i hc
        rw [if_pos hc]
        obtain rfl := Except.ok.inj hr
        exact ⟨_, rfl, List.Forall₂.cons hab hf⟩
      · cases hr
  unfold assemble
  rw [h.outType]
  cases o'.outType with
  | array => exact harr
  | other => exact harr
  | list => exact Sim.ok (sortPaths_rel (fun p q hpq => hpq.1) hlm)
  | dict =>
    refine Sim.ok ?_
    clear harr
    have : ∀ {d : List (List Nat × A.R)} {d' : List (List Nat × B.R)},
        List.Forall₂ (fun a b => a.1 = b.1 ∧ ∃ i, F.rOut i a.2 b.2) d d' →
        List.Forall₂ (fun a b => a.1 = b.1 ∧ ∃ i, F.rOut i a.2 b.2)
          (l.foldl (fun d p => dictInsert d p.n p.coef) d) (m.foldl (fun d p => dictInsert d p.n p.coef) d') := by
      induction hlm with
      | nil => exact id
      | @cons a b _ _ hab _ ih =>
        intro d d' hd
        simp only [List.foldl_cons]
        refine ih ?_
        rw [hab.1]
        exact dictInsert_forall₂ (R := fun x y => ∃ i, F.rOut i x y) hd b.n ⟨_, hab.2.2⟩
    exact this List.Forall₂.nil

end Front1D

/-- Typed to tagged. -/
def toDtype (B : Backend1D) (I : Type) (f : B.R → B.R) (g : I → I) : BackendRel B (dtypeBackend B I f g) where
  rR _ _ x t := t = .real x
  rC _ _ z t := t = .complex z
  rZ _ _ z t := t = .complex z
  rF _ a b := b = a
  rfft _ _ x t h := by subst h; intro c hc; exact ⟨_, bind_eq_ok.2 ⟨c, hc, rfl⟩, rfl⟩
  ifft _ _ x t h := by subst h; intro c hc; exact ⟨_, bind_eq_ok.2 ⟨c, hc, rfl⟩, rfl⟩
  irfft _ _ x t h := by subst h; intro c hc; exact ⟨_, bind_eq_ok.2 ⟨c, hc, rfl⟩, rfl⟩
  modulus _ _ x t h := by subst h; intro c hc; exact ⟨_, bind_eq_ok.2 ⟨c, hc, rfl⟩, rfl⟩
  cdgmm _ _ x t a b h hab := by subst h; subst hab; intro c hc; exact ⟨_, bind_eq_ok.2 ⟨c, hc, rfl⟩, rfl⟩
  subsample _ _ x t e h := by subst h; intro c hc; exact ⟨_, bind_eq_ok.2 ⟨c, hc, rfl⟩, rfl⟩

/-- Tagged to typed. -/
def fromDtype (B : Backend1D) (I : Type) (f : B.R → B.R) (g : I → I) : BackendRel (dtypeBackend B I f g) B where
  rR _ _ t x := t = .real x
  rC _ _ t z := t = .complex z
  rZ _ _ t z := t = .complex z
  rF _ a b := b = a
  rfft _ _ t x h := by
    subst h; intro c hc; obtain ⟨d, hd, hc⟩ := bind_eq_ok.1 hc; exact ⟨d, hd, (Except.ok.inj hc).symm⟩
  ifft _ _ t x h := by
    subst h; intro c hc; obtain ⟨d, hd, hc⟩ := bind_eq_ok.1 hc; exact ⟨d, hd, (Except.ok.inj hc).symm⟩
  irfft _ _ t x h := by
    subst h; intro c hc; obtain ⟨d, hd, hc⟩ := bind_eq_ok.1 hc; exact ⟨d, hd, (Except.ok.inj hc).symm⟩
  modulus _ _ t x h := by
    subst h; intro c hc; obtain ⟨d, hd, hc⟩ := bind_eq_ok.1 hc; exact ⟨d, hd, (Except.ok.inj hc).symm⟩
  cdgmm _ _ t x a b h hab := by
    subst h; subst hab
    intro c hc; obtain ⟨d, hd, hc⟩ := bind_eq_ok.1 hc; exact ⟨d, hd, (Except.ok.inj hc).symm⟩
  subsample _ _ t x e h := by
    subst h; intro c hc; obtain ⟨d, hd, hc⟩ := bind_eq_ok.1 hc; exact ⟨d, hd, (Except.ok.inj hc).symm⟩

end Verif
