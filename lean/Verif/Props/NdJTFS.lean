import Verif.Lemmas.NdJTFS
import Verif.Props.LawsJTFS
import Verif.Props.NdArray2D

/-!
# C88: joint time-frequency scattering of arrays of any shape
-/

namespace Verif

namespace FrontJ

/-- Which coefficients are stacks. -/
theorem paths_kind {B : JBackend} {o : JObj B.F} {ls lsFr : Nat} {U : B.R} {S : List (JPath B.R B.RS)}
    (h : paths B o ls lsFr U = .ok S) :
    ∃ p0 S', S = p0 :: S' ∧ p0.n = [] ∧ (∃ r, p0.coef = .sig r) ∧ ∀ p ∈ S', p.n ≠ [] ∧
      (o.fmt = .joint → ∃ X, p.coef = .stk X) ∧ (o.fmt ≠ .joint → ∃ r, p.coef = .sig r) := by
  have hl := paths_labels B h
  unfold paths at h
  obtain ⟨g, -, h⟩ := bind_eq_ok.1 h
  obtain ⟨z, l, -, hm, rfl⟩ := JTFS.averageAndFormat_eq_ok B h
  refine ⟨_, _, rfl, rfl, ⟨z, rfl⟩, fun p hp => ⟨?_, ?_⟩⟩
  · have hm : p.n ∈ l.flatten.map fun q => q.n := List.mem_map_of_mem hp
    rw [(List.cons.inj hl).2, List.mem_flatMap] at hm
    obtain ⟨q, hq, hm⟩ := hm
    have hqn : q.n ≠ [] := by
      unfold JTFS.labels at hq
      rcases List.mem_append.1 hq with hq | hq
      · obtain ⟨_, -, rfl⟩ := List.mem_map.1 hq
        simp
      · obtain ⟨_, -, hq⟩ := List.mem_flatMap.1 hq
        obtain ⟨_, -, rfl⟩ := List.mem_map.1 hq
        simp
    unfold JTFS.fmtLabels at hm
    split at hm
    · rw [List.mem_singleton] at hm
      rw [hm]
      exact hqn
    · obtain ⟨_, -, hm⟩ := List.mem_map.1 hm
      rw [← hm]
      simp
    · cases hm
  · obtain ⟨b, hb, hpb⟩ := List.mem_flatten.1 hp
    obtain ⟨f, -, hfb⟩ := forall₂_mem_right (mapM_eq_ok.1 hm) hb
    obtain ⟨_, _, T, T', _, _, _, _, _, hfp⟩ := JTFS.averageBody_eq_ok B hfb
    cases hfmt : o.fmt with
    | joint =>
      rw [hfmt] at hfp
      obtain rfl := Except.ok.inj hfp
      rw [List.mem_singleton] at hpb
      subst hpb
      exact ⟨fun _ => ⟨_, rfl⟩, fun hh => absurd rfl hh⟩
    | time =>
      rw [hfmt] at hfp
      obtain ⟨l', -, hfp⟩ := bind_eq_ok.1 hfp
      obtain ⟨i, n1, x, -, hx, hpx⟩ := (Core1D.forEnum_mem hfp p).1 hpb
      obtain ⟨c, -, hx⟩ := bind_eq_ok.1 hx
      obtain rfl := Except.ok.inj hx
      rw [List.mem_singleton] at hpx
      subst hpx
      exact ⟨fun hh => (by cases hh), fun _ => ⟨c, rfl⟩⟩
    | other =>
      rw [hfmt] at hfp
      obtain rfl := Except.ok.inj hfp
      cases hpb

end FrontJ

namespace NdFrontJ

open Nd (Row Stk Blk block)
open FrontJ (FrontRelJ ObjRelJ pathOut coefOut)

/-- Signals at order zero and, unless the format is `'joint'`, everywhere; otherwise stacks. -/
def Kind {R RS : Type} (fmt : Format) (p : JPath R RS) : Prop :=
  (p.n = [] ∧ ∃ r, p.coef = .sig r) ∨
    (p.n ≠ [] ∧ (fmt = .joint → ∃ X, p.coef = .stk X) ∧ (fmt ≠ .joint → ∃ r, p.coef = .sig r))

/-- The coefficient of one signal and of a batch. -/
def CoefRel (bs : List Nat) (k : Nat) : JCoef (List ℝ) (Img ℝ) → JCoef (Nd ℝ) (Nd ℝ) → Prop
  | .sig x, .sig X => Row X bs k x
  | .stk x, .stk X => Stk X bs k x
  | _, _ => False

/-- The path of one signal and of a batch. -/
def PathRel (bs : List Nat) (k : Nat) (p : JPath (List ℝ) (Img ℝ)) (q : JPath (Nd ℝ) (Nd ℝ)) : Prop :=
  CoefRel bs k p.coef q.coef ∧ p.j = q.j ∧ p.n = q.n ∧ p.order = q.order ∧ p.fr = q.fr ∧ p.n1 = q.n1

/-- The output of one signal and of a batch. -/
def OutRel (bs : List Nat) (k : Nat) : JOut (List ℝ) (Img ℝ) → Out → Prop
  | .arrayJoint rows, .array S => ∃ h w, (∀ y ∈ rows, y.h = h ∧ y.w = w) ∧
      Blk S bs [rows.length, h, w] k (rows.map Img.flat).flatten
  | .arrayTime rows, .array S => ∃ n, (∀ y ∈ rows, y.length = n) ∧ Blk S bs [rows.length, n] k rows.flatten
  | .list l, .list m => List.Forall₂ (PathRel bs k) l m
  | .dict l, .dict m => List.Forall₂ (fun a b => a.1 = b.1 ∧ CoefRel bs k a.2 b.2) l m
  | _, _ => False

theorem unpad_stk {X : Nd ℝ} {bs : List Nat} {k : Nat} {x : Img ℝ} (h : Stk X bs k x) (i0 i1 : Nat) :
    Stk (NdFront.unpad X i0 i1) bs k (npFrontJ.unpadS x i0 i1) := by
  unfold NdFront.unpad
  rw [h.last_eq]
  refine h.mapLast (c := npFrontJ.unpadS x i0 i1) _ rfl (fun z hz => ?_) fun r hr => ?_
  · rw [npUnpad, List.length_drop, List.length_take, hz]
    rfl
  · refine Eq.trans ?_ (Img.row_tab (h := x.h) (w := min i1 x.w - i0) hr).symm
    apply list_ext_getD 0
    · rw [npUnpad, List.length_drop, List.length_take, Img.length_row, length_tab]
    · intro t ht
      rw [npUnpad, List.length_drop, List.length_take, Img.length_row] at ht
      rw [getD_tab_lt ht, npUnpad, List.getD_eq_getElem?_getD, List.getElem?_drop, List.getElem?_take,
        if_pos (by omega), ← List.getD_eq_getElem?_getD, Img.getD_row (by omega)]

/-- `pad` and `unpad`, one signal and a batch. -/
noncomputable def frontRel (b k : Nat) : FrontRelJ (NdJ.rel b k) npFrontJ ndFrontJ where
  rIn x X := Row X [b, 1] k x
  rO _ x X := ∃ s : List Nat, s.prod = b ∧ Row X s k x
  rOS _ x X := Stk X [b, 1] k x
  pad x X l r h := by
    intro u hu
    obtain ⟨U, hU, hr⟩ := NdFront.pad_row h l r u hu
    have hu : npPad x l r = .ok u := hu
    refine ⟨U, hU, ?_, [b, 1], by simp, fun _ => rfl, hr⟩
    unfold npPad at hu
    split at hu
    · cases hu
    · obtain rfl := Except.ok.inj hu
      rw [length_tab]
      omega
  unpad i x X i0 i1 h := by
    obtain ⟨-, s, h1, -, h3⟩ := h
    exact ⟨s, h1, NdFront.unpad_row h3 i0 i1⟩
  unpadS i x X i0 i1 h := unpad_stk h.1 i0 i1
  keep i x X h := by
    obtain ⟨-, s, h1, -, h3⟩ := h
    exact ⟨s, h1, h3⟩
  keepS i x X h := h.1

noncomputable def frontRelRev (b k : Nat) (hk : k < b) : FrontRelJ (NdJ.relRev b k hk) ndFrontJ npFrontJ where
  rIn X x := Row X [b, 1] k x
  rO _ X x := ∃ s : List Nat, s.prod = b ∧ Row X s k x
  rOS _ X x := Stk X [b, 1] k x
  pad X x l r h := by
    intro U hU
    obtain ⟨u, hu, hr⟩ := NdFront.pad_row_rev h l r U hU
    have hu : npPad x l r = .ok u := hu
    refine ⟨u, hu, ?_, [b, 1], by simp, fun _ => rfl, hr⟩
    unfold npPad at hu
    split at hu
    · cases hu
    · obtain rfl := Except.ok.inj hu
      rw [length_tab]
      omega
  unpad i X x i0 i1 h := by
    obtain ⟨-, s, h1, -, h3⟩ := h
    exact ⟨s, h1, NdFront.unpad_row h3 i0 i1⟩
  unpadS i X x i0 i1 h := unpad_stk h.1 i0 i1
  keep i X x h := by
    obtain ⟨-, s, h1, -, h3⟩ := h
    exact ⟨s, h1, h3⟩
  keepS i X x h := h.1

theorem forall₂_refl {α : Type} {R : α → α → Prop} (hR : ∀ a, R a a) (l : List α) : List.Forall₂ R l l :=
  List.forall₂_same.2 fun a _ => hR a

theorem obj_rel (b k : Nat) (o : JObj (List ℝ)) : ObjRelJ (NdJ.rel b k) o o := by
  have hF : ∀ l : List (List ℝ), List.Forall₂ (NdJ.rel b k).rF l l :=
    fun l => forall₂_refl (R := (NdJ.rel b k).rF) (fun _ => rfl) l
  exact ⟨rfl, rfl, rfl, rfl, ⟨rfl, hF _⟩, forall₂_refl (fun _ => ⟨rfl, hF _⟩) _,
    forall₂_refl (fun _ => ⟨rfl, hF _⟩) _, rfl, rfl, ⟨rfl, rfl, hF _⟩,
    forall₂_refl (fun _ => ⟨rfl, rfl, hF _⟩) _, rfl, rfl, rfl, rfl, fun _ _ => trivial⟩

theorem obj_relRev (b k : Nat) (hk : k < b) (o : JObj (List ℝ)) : ObjRelJ (NdJ.relRev b k hk) o o := by
  have hF : ∀ l : List (List ℝ), List.Forall₂ (NdJ.relRev b k hk).rF l l :=
    fun l => forall₂_refl (R := (NdJ.relRev b k hk).rF) (fun _ => rfl) l
  exact ⟨rfl, rfl, rfl, rfl, ⟨rfl, hF _⟩, forall₂_refl (fun _ => ⟨rfl, hF _⟩) _,
    forall₂_refl (fun _ => ⟨rfl, hF _⟩) _, rfl, rfl, ⟨rfl, rfl, hF _⟩,
    forall₂_refl (fun _ => ⟨rfl, rfl, hF _⟩) _, rfl, rfl, rfl, rfl, fun _ _ => trivial⟩

/-- Unpadding keeps signals signals and stacks stacks. -/
theorem post_kind {R RS : Type} {ops : JFrontOps R RS} {o : JObj (List ℝ)} {ls : Nat} {p q : JPath R RS}
    (h : FrontJ.post ops o ls p = .ok q) : q.n = p.n ∧ ((∃ r, p.coef = .sig r) → ∃ r, q.coef = .sig r) ∧
      ((∃ X, p.coef = .stk X) → ∃ X, q.coef = .stk X) := by
  unfold FrontJ.post at h
  split at h
  · obtain rfl := Except.ok.inj h
    exact ⟨rfl, id, id⟩
  · obtain ⟨_, -, h⟩ := bind_eq_ok.1 h
    obtain ⟨i0, -, h⟩ := bind_eq_ok.1 h
    obtain ⟨i1, -, h⟩ := bind_eq_ok.1 h
    obtain rfl := Except.ok.inj h
    refine ⟨rfl, ?_, ?_⟩
    · rintro ⟨r, hr⟩
      exact ⟨_, by simp only [hr, FrontJ.unpadCoef]; rfl⟩
    · rintro ⟨X, hX⟩
      exact ⟨_, by simp only [hX, FrontJ.unpadCoef]; rfl⟩

theorem Kind.post {R RS : Type} {ops : JFrontOps R RS} {o : JObj (List ℝ)} {ls : Nat} {p q : JPath R RS}
    {fmt : Format} (hp : Kind fmt p) (h : FrontJ.post ops o ls p = .ok q) : Kind fmt q := by
  obtain ⟨h1, h2, h3⟩ := post_kind h
  unfold Kind at hp ⊢
  rw [h1]
  exact hp.imp (fun hp => ⟨hp.1, h2 hp.2⟩) fun hp => ⟨hp.1, fun hf => h3 (hp.2.1 hf), fun hf => h2 (hp.2.2 hf)⟩

/-- `reshape_output` of a stack. -/
theorem reshapeOutput_stk {X : Nd ℝ} {bs cs : List Nat} {k : Nat} {x : Img ℝ} (h : Stk X bs k x)
    (hp : cs.prod = bs.prod) : ∃ Y, NdFront.reshapeOutput X cs 2 = .ok Y ∧ Stk Y cs k x := by
  refine ⟨⟨cs ++ [x.h, x.w], X.data⟩, ?_, rfl, by rw [hp]; exact h.2.1, fun hk => h.2.2 (by omega)⟩
  unfold NdFront.reshapeOutput
  have : X.shape.drop (X.shape.length - 2) = [x.h, x.w] := by
    rw [h.1, List.length_append, show ([x.h, x.w] : List Nat).length = 2 from rfl, Nat.add_sub_cancel]
    exact List.drop_left' rfl
  rw [this]
  apply Nd.reshape_some
  rw [Nd.size, h.1, List.prod_append, List.prod_append, hp]

/-- `reshape_output` of a coefficient. -/
theorem reshape_rel {b k : Nat} {bs : List Nat} (hb : bs.prod = b) {fmt : Format} {p : JPath (List ℝ) (Img ℝ)}
    (hp : Kind fmt p) {c : JCoef (Nd ℝ) (Nd ℝ)} {i : Nat} (hc : coefOut (frontRel b k) i p.coef c) :
    ∃ c', reshapeCoef bs (if p.n.length = 0 then 1 else if fmt = .joint then 2 else 1) c = .ok c' ∧
      CoefRel bs k p.coef c' := by
  have hsig : ∀ x X, (∃ s : List Nat, s.prod = b ∧ Row X s k x) → ∃ c',
      reshapeCoef bs 1 (.sig X) = .ok c' ∧ CoefRel bs k (.sig x) c' := by
    rintro x X ⟨s, hs, hr⟩
    obtain ⟨Y, hY, hYr⟩ := NdFront.reshapeOutput_row (cs := bs) hr (by rw [hb, hs])
    exact ⟨.sig Y, by simp only [reshapeCoef, hY, bind, Except.bind], hYr⟩
  rcases hp with ⟨hn, r, hr⟩ | ⟨hn, h1, h2⟩
  · rw [hn, if_pos (by rfl)]
    rw [hr] at hc ⊢
    cases c with
    | stk => exact hc.elim
    | sig X => exact hsig _ _ hc
  · rw [if_neg (by rw [List.length_eq_zero_iff]; exact hn)]
    by_cases hf : fmt = .joint
    · obtain ⟨x, hx⟩ := h1 hf
      rw [if_pos hf]
      rw [hx] at hc ⊢
      cases c with
      | sig => exact hc.elim
      | stk X =>
        have hc : Stk X [b, 1] k x := hc
        obtain ⟨Y, hY, hYr⟩ := reshapeOutput_stk (cs := bs) hc (by rw [hb]; simp)
        exact ⟨.stk Y, by simp only [reshapeCoef, hY, bind, Except.bind], hYr⟩
    · obtain ⟨r, hr⟩ := h2 hf
      rw [if_neg hf]
      rw [hr] at hc ⊢
      cases c with
      | stk => exact hc.elim
      | sig X => exact hsig _ _ hc

theorem post_rel {b k : Nat} {bs : List Nat} (hb : bs.prod = b) (o : JObj (List ℝ)) (ls : Nat)
    {p : JPath (List ℝ) (Img ℝ)} {q : JPath (Nd ℝ) (Nd ℝ)} (hpq : (NdJ.rel b k).path p q ∧ Kind o.fmt p) :
    Sim (fun p q => PathRel bs k p q ∧ Kind o.fmt p) (FrontJ.post npFrontJ o ls p) (post o ls bs q) := by
  intro p' hp'
  obtain ⟨q', hq', hc, h1, h2, h3, h4, h5⟩ := FrontJ.sim_postJ (frontRel b k) (obj_rel b k o) ls hpq.1 p' hp'
  have hk := hpq.2.post hp'
  obtain ⟨c, hcc, hr⟩ := reshape_rel hb hk hc
  refine ⟨{ q' with coef := c }, ?_, ⟨hr, h1, h2, h3, h4, h5⟩, hk⟩
  unfold post
  simp only [hq', bind, Except.bind]
  rw [h2] at hcc
  rw [hcc]

theorem post_relRev {b k : Nat} (hk : k < b) {bs : List Nat} (hb : bs.prod = b) (o : JObj (List ℝ)) (ls : Nat)
    {p : JPath (List ℝ) (Img ℝ)} {q : JPath (Nd ℝ) (Nd ℝ)} (hpq : (NdJ.relRev b k hk).path q p ∧ Kind o.fmt q) :
    Sim (fun q p => PathRel bs k p q) (post o ls bs q) (FrontJ.post npFrontJ o ls p) := by
  intro z hz
  unfold post at hz
  obtain ⟨q', hq', hz⟩ := bind_eq_ok.1 hz
  obtain ⟨c, hc, hz⟩ := bind_eq_ok.1 hz
  obtain rfl := Except.ok.inj hz
  obtain ⟨p', hp', hcc, h1, h2, h3, h4, h5⟩ :=
    FrontJ.sim_postJ (frontRelRev b k hk) (obj_relRev b k hk o) ls hpq.1 q' hq'
  have hkq := hpq.2.post hq'
  have hcoef : coefOut (frontRel b k) 0 p'.coef q'.coef := by
    cases e1 : q'.coef <;> cases e2 : p'.coef <;> rw [e1, e2] at hcc
    · exact hcc
    · exact hcc.elim
    · exact hcc.elim
    · exact hcc
  have hkp : Kind o.fmt p' := by
    unfold Kind at hkq ⊢
    rw [← h2]
    cases e1 : q'.coef <;> cases e2 : p'.coef <;> rw [e1, e2] at hcoef <;> rw [e1] at hkq <;>
      first
      | exact hcoef.elim
      | simpa using hkq
  obtain ⟨c', hc', hr⟩ := reshape_rel hb hkp hcoef
  rw [← h2] at hc'
  rw [hc'] at hc
  obtain rfl := Except.ok.inj hc
  exact ⟨p', hp', hr, h1.symm, h2.symm, h3.symm, h4.symm, h5.symm⟩

theorem dictInsertI_rel {α β : Type} {R : α → β → Prop} {d : List (List Int × α)} {d' : List (List Int × β)}
    (h : List.Forall₂ (fun a b => a.1 = b.1 ∧ R a.2 b.2) d d') (k : List Int) {v : α} {v' : β} (hv : R v v') :
    List.Forall₂ (fun a b => a.1 = b.1 ∧ R a.2 b.2) (FrontJ.dictInsertI d k v) (FrontJ.dictInsertI d' k v') := by
  have hany : d.any (fun e => e.1 == k) = d'.any (fun e => e.1 == k) := by
    induction h with
    | nil => rfl
    | cons hab _ ih => simp only [List.any_cons, hab.1, ih]
  unfold FrontJ.dictInsertI
  rw [hany]
  split
  · rw [List.forall₂_map_left_iff, List.forall₂_map_right_iff]
    refine h.imp fun a b hab => ?_
    rw [hab.1]
    split
    · exact ⟨rfl, hv⟩
    · exact hab
  · exact List.rel_append h (List.Forall₂.cons ⟨rfl, hv⟩ List.Forall₂.nil)

theorem foldl_dictI_rel {bs : List Nat} {k : Nat} {l : List (JPath (List ℝ) (Img ℝ))}
    {m : List (JPath (Nd ℝ) (Nd ℝ))} (h : List.Forall₂ (PathRel bs k) l m)
    {d : List (List Int × JCoef (List ℝ) (Img ℝ))} {d' : List (List Int × JCoef (Nd ℝ) (Nd ℝ))}
    (hd : List.Forall₂ (fun a b => a.1 = b.1 ∧ CoefRel bs k a.2 b.2) d d') :
    List.Forall₂ (fun a b => a.1 = b.1 ∧ CoefRel bs k a.2 b.2)
      (l.foldl (fun d p => FrontJ.dictInsertI d p.n p.coef) d)
      (m.foldl (fun d p => FrontJ.dictInsertI d p.n p.coef) d') := by
  induction h generalizing d d' with
  | nil => exact hd
  | @cons a b _ _ hab _ ih =>
    simp only [List.foldl_cons]
    refine ih ?_
    rw [hab.2.2.1]
    exact dictInsertI_rel (R := CoefRel bs k) hd b.n hab.1

theorem stks_rel {bs : List Nat} {k : Nat} {l : List (JPath (List ℝ) (Img ℝ))} {m : List (JPath (Nd ℝ) (Nd ℝ))}
    (h : List.Forall₂ (PathRel bs k) l m) (hl : ∀ p ∈ l, ∃ X, p.coef = .stk X) :
    List.Forall₂ (fun x X => Stk X bs k x) (FrontJ.stks l) (m.map fun p => arr p.coef) := by
  induction h with
  | nil => exact List.Forall₂.nil
  | @cons a b l m hab _ ih =>
    obtain ⟨x, hx⟩ := hl a (by simp)
    have hc := hab.1
    rw [hx] at hc
    have ih := ih fun p hp => hl p (by simp [hp])
    unfold FrontJ.stks at ih ⊢
    rw [List.filterMap_cons, hx, List.map_cons]
    refine List.Forall₂.cons ?_ ih
    cases hb : b.coef with
    | sig => rw [hb] at hc; exact hc.elim
    | stk X => rw [hb] at hc; exact hc

theorem sigs_rel {bs : List Nat} {k : Nat} {l : List (JPath (List ℝ) (Img ℝ))} {m : List (JPath (Nd ℝ) (Nd ℝ))}
    (h : List.Forall₂ (PathRel bs k) l m) (hl : ∀ p ∈ l, ∃ r, p.coef = .sig r) :
    List.Forall₂ (fun x X => Row X bs k x) (FrontJ.sigs l) (m.map fun p => arr p.coef) := by
  induction h with
  | nil => exact List.Forall₂.nil
  | @cons a b l m hab _ ih =>
    obtain ⟨x, hx⟩ := hl a (by simp)
    have hc := hab.1
    rw [hx] at hc
    have ih := ih fun p hp => hl p (by simp [hp])
    unfold FrontJ.sigs at ih ⊢
    rw [List.filterMap_cons, hx, List.map_cons]
    refine List.Forall₂.cons ?_ ih
    cases hb : b.coef with
    | stk => rw [hb] at hc; exact hc.elim
    | sig X => rw [hb] at hc; exact hc

theorem forall₂_mem_and {α β : Type} {R : α → β → Prop} {l : List α} {m : List β} (h : List.Forall₂ R l m) :
    List.Forall₂ (fun a b => R a b ∧ a ∈ l) l m := by
  rw [List.forall₂_iff_get] at h ⊢
  exact ⟨h.1, fun i h1 h2 => ⟨h.2 i h1 h2, List.getElem_mem _⟩⟩

/-- The paths after the zeroth order, and all paths in format `'time'`. -/
def Kinds {R RS : Type} (fmt : Format) (l : List (JPath R RS)) : Prop :=
  (fmt = .joint → ∀ p ∈ l.tail, ∃ X, p.coef = .stk X) ∧ (fmt ≠ .joint → ∀ p ∈ l, ∃ r, p.coef = .sig r)

theorem assemble_rel {bs : List Nat} {k : Nat} (o : JObj (List ℝ)) {l : List (JPath (List ℝ) (Img ℝ))}
    {m : List (JPath (Nd ℝ) (Nd ℝ))} (h : List.Forall₂ (PathRel bs k) l m) (hl : Kinds o.fmt l) :
    Sim (OutRel bs k) (FrontJ.assemble npFrontJ o l) (assemble o m) := by
  have harr : o.fmt ≠ .joint → Sim (OutRel bs k)
      (FrontJ.stackEq npFrontJ.size (FrontJ.sigs l) >>= fun rows => .ok (.arrayTime rows))
      (Nd.stack (m.map fun p => arr p.coef) (-2) >>= fun A => .ok (.array A)) := by
    intro hf z hz
    obtain ⟨rows, hr, hz⟩ := bind_eq_ok.1 hz
    obtain rfl := Except.ok.inj hz
    obtain ⟨rfl, hne, hs⟩ := _root_.Verif.stackEq_eq_ok hr
    have hrel := sigs_rel h (hl.2 hf)
    obtain ⟨a, ha⟩ := List.exists_mem_of_ne_nil _ hne
    have hlen : ∀ y ∈ FrontJ.sigs l, y.length = a.length := fun y hy => hs y hy a ha
    have hB : List.Forall₂ (fun y Y => Blk Y bs [a.length] k y) (FrontJ.sigs l) (m.map fun p => arr p.coef) :=
      (forall₂_mem_and hrel).imp fun y Y hy => by
        have := Nd.row_iff_blk.1 hy.1
        rwa [hlen y hy.2] at this
    obtain ⟨Z, hZ, hZb⟩ := Blk.stack (axis := -2) hB hne (Or.inr rfl)
    exact ⟨.array Z, by rw [hZ]; rfl, a.length, hlen, hZb⟩
  unfold FrontJ.assemble assemble
  cases o.outType with
  | dict => exact Sim.ok (foldl_dictI_rel h List.Forall₂.nil)
  | list => exact Sim.ok h
  | other => exact Sim.ok h
  | array =>
    cases hfmt : o.fmt with
    | time => exact harr (by rw [hfmt]; simp)
    | other => exact harr (by rw [hfmt]; simp)
    | joint =>
      intro z hz
      obtain ⟨rows, hr, hz⟩ := bind_eq_ok.1 hz
      obtain rfl := Except.ok.inj hz
      obtain ⟨rfl, hne, hs⟩ := _root_.Verif.stackEq_eq_ok hr
      have ht : List.Forall₂ (PathRel bs k) l.tail m.tail := by
        cases h with
        | nil => exact List.Forall₂.nil
        | cons _ h => exact h
      have hrel := stks_rel ht (hl.1 hfmt)
      obtain ⟨a, ha⟩ := List.exists_mem_of_ne_nil _ hne
      have hlen : ∀ y ∈ FrontJ.stks l.tail, y.h = a.h ∧ y.w = a.w := fun y hy => by
        have := hs y hy a ha
        simpa [npFrontJ] using this
      have hB : List.Forall₂ (fun y Y => Blk Y bs [a.h, a.w] k y) ((FrontJ.stks l.tail).map Img.flat)
          (m.tail.map fun p => arr p.coef) := by
        rw [List.forall₂_map_left_iff]
        refine (forall₂_mem_and hrel).imp fun y Y hy => ?_
        have h1 := hy.1
        unfold Stk at h1
        rwa [(hlen y hy.2).1, (hlen y hy.2).2] at h1
      obtain ⟨Z, hZ, hZb⟩ := Blk.stack (axis := -3) hB (by simpa using hne) (Or.inr rfl)
      rw [List.length_map] at hZb
      exact ⟨.array Z, by rw [hZ]; rfl, a.h, a.w, hlen, hZb⟩

theorem kinds_of {R RS : Type} {fmt : Format} {p0 : JPath R RS} {l : List (JPath R RS)} (h0 : Kind fmt p0)
    (hn : p0.n = []) (hl : ∀ p ∈ l, Kind fmt p ∧ p.n ≠ []) : Kinds fmt (p0 :: l) := by
  have ht : ∀ p ∈ l, (fmt = .joint → ∃ X, p.coef = .stk X) ∧ (fmt ≠ .joint → ∃ r, p.coef = .sig r) := by
    intro p hp
    obtain ⟨hk, hpn⟩ := hl p hp
    rcases hk with hk | hk
    · exact absurd hk.1 hpn
    · exact hk.2
  refine ⟨fun hf p hp => (ht p hp).1 hf, fun hf p hp => ?_⟩
  rcases List.mem_cons.1 hp with rfl | hp
  · rcases h0 with h0 | h0
    · exact h0.2
    · exact absurd hn h0.1
  · exact (ht p hp).2 hf

theorem kinds_post {o : JObj (List ℝ)} {R RS : Type} {ops : JFrontOps R RS} {ls : Nat} {S P : List (JPath R RS)}
    (hS : ∃ p0 S', S = p0 :: S' ∧ p0.n = [] ∧ (∃ r, p0.coef = .sig r) ∧ ∀ p ∈ S', p.n ≠ [] ∧
      (o.fmt = .joint → ∃ X, p.coef = .stk X) ∧ (o.fmt ≠ .joint → ∃ r, p.coef = .sig r))
    (h : S.mapM (FrontJ.post ops o ls) = .ok P) : Kinds o.fmt P := by
  obtain ⟨p0, S', rfl, h0, h1, h2⟩ := hS
  have h := mapM_eq_ok.1 h
  cases h with
  | @cons _ q0 _ Q hq hQ =>
    have hk0 : Kind o.fmt p0 := Or.inl ⟨h0, h1⟩
    refine kinds_of (hk0.post hq) (by rw [(post_kind hq).1, h0]) fun q hqm => ?_
    obtain ⟨p, hp, hpq⟩ := forall₂_mem_right hQ hqm
    have hkp : Kind o.fmt p := Or.inr (h2 p hp)
    exact ⟨hkp.post hpq, by rw [(post_kind hpq).1]; exact (h2 p hp).1⟩

theorem kind_mem {R RS : Type} {fmt : Format} {S : List (JPath R RS)}
    (hS : ∃ p0 S', S = p0 :: S' ∧ p0.n = [] ∧ (∃ r, p0.coef = .sig r) ∧ ∀ p ∈ S', p.n ≠ [] ∧
      (fmt = .joint → ∃ X, p.coef = .stk X) ∧ (fmt ≠ .joint → ∃ r, p.coef = .sig r)) : ∀ p ∈ S, Kind fmt p := by
  obtain ⟨p0, S', rfl, h0, h1, h2⟩ := hS
  intro p hp
  rcases List.mem_cons.1 hp with rfl | hp
  · exact Or.inl ⟨h0, h1⟩
  · exact Or.inr (h2 p hp)

/-- One signal and a batch, all output types. -/
theorem scattering_rel (o : JObj (List ℝ)) {X : Nd ℝ} {bs : List Nat} {k : Nat} {x : List ℝ} (h : Row X bs k x) :
    Sim (OutRel bs k) (FrontJ.scattering npJ npFrontJ o x) (scattering o X) := by
  intro z hz
  unfold FrontJ.scattering at hz
  obtain ⟨_, hchk, hz⟩ := bind_eq_ok.1 hz
  obtain ⟨U, hU, hz⟩ := bind_eq_ok.1 hz
  obtain ⟨ls, hls, hz⟩ := bind_eq_ok.1 hz
  obtain ⟨lsFr, hlsFr, hz⟩ := bind_eq_ok.1 hz
  obtain ⟨S, hS, hz⟩ := bind_eq_ok.1 hz
  obtain ⟨P, hP, hz⟩ := bind_eq_ok.1 hz
  have hx : 0 < x.length := by
    have hU : npPad x o.padLeft o.padRight = .ok U := hU
    unfold npPad at hU
    split at hU
    · cases hU
    · omega
  obtain ⟨Y, hY, hYr⟩ := NdFront.reshapeInput_row h hx
  obtain ⟨V, hV, hUV⟩ := (frontRel bs.prod k).pad x Y o.padLeft o.padRight hYr U hU
  obtain ⟨S', hS', hSS⟩ := FrontJ.sim_paths (obj_rel bs.prod k o) ls.toNat lsFr.toNat hUV S hS
  have hkind := FrontJ.paths_kind hS
  have hSS' : List.Forall₂ (fun p q => (NdJ.rel bs.prod k).path p q ∧ Kind o.fmt p) S S' :=
    (forall₂_mem_and hSS).imp fun p q hpq => ⟨hpq.1, kind_mem hkind p hpq.2⟩
  obtain ⟨P', hP', hPP⟩ := Front1D.sim_mapM (fun p q hpq => post_rel (bs := bs) rfl o ls.toNat hpq) hSS' P hP
  obtain ⟨r, hr, hrel⟩ := assemble_rel o (hPP.imp fun _ _ h => h.1) (kinds_post hkind hP) z hz
  refine ⟨r, ?_, hrel⟩
  have hV : NdFront.pad Y o.padLeft o.padRight = .ok V := hV
  unfold scattering
  rw [hchk]
  simp only [bind, Except.bind]
  rw [if_neg (by rw [h.1]; simp), hY]
  simp only [hV, hls, hlsFr, hS', h.dropLast_eq]
  rw [hP']
  exact hr

/-- If the batch can be scattered, so can each of its signals. -/
theorem scattering_rel_ok (o : JObj (List ℝ)) {X : Nd ℝ} {bs : List Nat} {k : Nat} {x : List ℝ} (h : Row X bs k x)
    (hk : k < bs.prod) (hx : 0 < x.length) {r : Out} (hr : scattering o X = .ok r) :
    ∃ w, FrontJ.scattering npJ npFrontJ o x = .ok w := by
  unfold scattering at hr
  obtain ⟨_, hchk, hr⟩ := bind_eq_ok.1 hr
  rw [if_neg (by rw [h.1]; simp)] at hr
  obtain ⟨Y, hY, hYr⟩ := NdFront.reshapeInput_row h hx
  obtain ⟨Y', hY', hr⟩ := bind_eq_ok.1 hr
  rw [hY] at hY'
  obtain rfl := Except.ok.inj hY'
  obtain ⟨V, hV, hr⟩ := bind_eq_ok.1 hr
  obtain ⟨ls, hls, hr⟩ := bind_eq_ok.1 hr
  obtain ⟨lsFr, hlsFr, hr⟩ := bind_eq_ok.1 hr
  obtain ⟨S', hS', hr⟩ := bind_eq_ok.1 hr
  obtain ⟨P', hP', hr⟩ := bind_eq_ok.1 hr
  rw [h.dropLast_eq] at hP'
  obtain ⟨U, hU, hVU⟩ := (frontRelRev bs.prod k hk).pad Y x o.padLeft o.padRight hYr V hV
  obtain ⟨S, hS, hSS⟩ := FrontJ.sim_paths (obj_relRev bs.prod k hk o) ls.toNat lsFr.toNat hVU S' hS'
  have hkind := FrontJ.paths_kind hS'
  have hSS' : List.Forall₂ (fun q p => (NdJ.relRev bs.prod k hk).path q p ∧ Kind o.fmt q) S' S :=
    (forall₂_mem_and hSS).imp fun p q hpq => ⟨hpq.1, kind_mem hkind p hpq.2⟩
  obtain ⟨P, hP, hPP⟩ := Front1D.sim_mapM (fun q p hpq => post_relRev hk (bs := bs) rfl o ls.toNat hpq) hSS' P' hP'
  have hPP : List.Forall₂ (PathRel bs k) P P' := hPP.flip
  have hks := kinds_post (FrontJ.paths_kind hS) hP
  have hU : npPad x o.padLeft o.padRight = .ok U := hU
  have hgo : ∀ w, FrontJ.assemble npFrontJ o P = .ok w → ∃ w, FrontJ.scattering npJ npFrontJ o x = .ok w := by
    intro w hw
    refine ⟨w, ?_⟩
    unfold FrontJ.scattering
    rw [hchk]
    simp only [bind, Except.bind, npFrontJ, hU, hls, hlsFr, hS]
    have hP : S.mapM (FrontJ.post npFrontJ o ls.toNat) = .ok P := hP
    unfold npFrontJ at hP
    rw [hP]
    exact hw
  have hstack : ∀ {α β : Type} [DecidableEq β] {size : α → β} {l : List α}, l ≠ [] →
      (∀ a ∈ l, ∀ b ∈ l, size a = size b) → FrontJ.stackEq size l = .ok l := by
    intro α β _ size l hne hs
    cases l with
    | nil => exact absurd rfl hne
    | cons a l =>
      unfold FrontJ.stackEq
      simp only
      rw [if_pos]
      rw [List.all_eq_true]
      intro b hb
      rw [beq_iff_eq]
      exact hs b hb a (by simp)
  have harr : o.fmt ≠ .joint → ∀ A, Nd.stack (P'.map fun p => arr p.coef) (-2) = .ok A →
      FrontJ.stackEq npFrontJ.size (FrontJ.sigs P) = .ok (FrontJ.sigs P) := by
    intro hf A hA
    obtain ⟨hne, hs⟩ := Nd.stack_ok_shape hA
    have hrel := sigs_rel hPP (hks.2 hf)
    refine hstack (fun h0 => hne ?_) fun y hy z hz => ?_
    · rw [h0, List.forall₂_nil_left_iff] at hrel
      exact hrel
    · obtain ⟨Y, hY, hyY⟩ := forall₂_mem_left hrel hy
      obtain ⟨Z, hZ, hzZ⟩ := forall₂_mem_left hrel hz
      have := hs Y hY Z hZ
      rw [hyY.1, hzZ.1] at this
      simpa [npFrontJ] using this
  unfold FrontJ.assemble at hgo
  unfold assemble at hr
  cases hot : o.outType with
  | dict => rw [hot] at hgo; exact hgo _ rfl
  | list => rw [hot] at hgo; exact hgo _ rfl
  | other => rw [hot] at hgo; exact hgo _ rfl
  | array =>
    rw [hot] at hgo hr
    cases hfmt : o.fmt with
    | time =>
      rw [hfmt] at hgo hr
      obtain ⟨A, hA, -⟩ := bind_eq_ok.1 hr
      exact hgo _ (by rw [harr (by rw [hfmt]; simp) A hA]; rfl)
    | other =>
      rw [hfmt] at hgo hr
      obtain ⟨A, hA, -⟩ := bind_eq_ok.1 hr
      exact hgo _ (by rw [harr (by rw [hfmt]; simp) A hA]; rfl)
    | joint =>
      rw [hfmt] at hgo hr
      obtain ⟨A, hA, -⟩ := bind_eq_ok.1 hr
      obtain ⟨hne, hs⟩ := Nd.stack_ok_shape hA
      have ht : List.Forall₂ (PathRel bs k) P.tail P'.tail := by
        cases hPP with
        | nil => exact List.Forall₂.nil
        | cons _ h => exact h
      have hrel := stks_rel ht (hks.1 hfmt)
      refine hgo (.arrayJoint (FrontJ.stks P.tail)) ?_
      rw [hstack (fun h0 => hne ?_) fun y hy z hz => ?_]
      · rfl
      · rw [h0, List.forall₂_nil_left_iff] at hrel
        exact hrel
      · obtain ⟨Y, hY, hyY⟩ := forall₂_mem_left hrel hy
        obtain ⟨Z, hZ, hzZ⟩ := forall₂_mem_left hrel hz
        have := hs Y hY Z hZ
        rw [hyY.1, hzZ.1] at this
        simpa [npFrontJ] using this

end NdFrontJ

namespace Spec

/-- The shapes of the result for a batch of shape `bs`, when the result for one signal is `w`. -/
def ShapeJ (bs : List Nat) : JOut (List ℝ) (Img ℝ) → NdFrontJ.Out → Prop
  | .arrayJoint rows, .array S => ∃ h w, (∀ y ∈ rows, y.h = h ∧ y.w = w) ∧ S.shape = bs ++ [rows.length, h, w]
  | .arrayTime rows, .array S => ∃ n, (∀ y ∈ rows, y.length = n) ∧ S.shape = bs ++ [rows.length, n]
  | .list l, .list m => List.Forall₂ (fun p q => p.n = q.n ∧ p.j = q.j ∧ p.order = q.order ∧ p.fr = q.fr ∧
      p.n1 = q.n1 ∧ coef p.coef q.coef) l m
  | .dict l, .dict m => List.Forall₂ (fun p q => p.1 = q.1 ∧ coef p.2 q.2) l m
  | _, _ => False
where
  /-- The shape of one coefficient. -/
  coef : JCoef (List ℝ) (Img ℝ) → JCoef (Nd ℝ) (Nd ℝ) → Prop
    | .sig x, .sig X => X.shape = bs ++ [x.length]
    | .stk x, .stk X => X.shape = bs ++ [x.h, x.w]
    | _, _ => False

/-- The entries of the result at index `b` of the batch are those of the result `w` for one signal. -/
def SliceJ (b : List Nat) : JOut (List ℝ) (Img ℝ) → NdFrontJ.Out → Prop
  | .arrayJoint rows, .array S => ∀ c r t, entry S (b ++ [c, r, t]) = rows[c]?.bind fun y => pixel y r t
  | .arrayTime rows, .array S => ∀ c t, entry S (b ++ [c, t]) = rows[c]?.bind (·[t]?)
  | .list l, .list m => List.Forall₂ (fun p q => coef p.coef q.coef) l m
  | .dict l, .dict m => List.Forall₂ (fun p q => coef p.2 q.2) l m
  | _, _ => False
where
  /-- The entries of one coefficient. -/
  coef : JCoef (List ℝ) (Img ℝ) → JCoef (Nd ℝ) (Nd ℝ) → Prop
    | .sig x, .sig X => ∀ t, entry X (b ++ [t]) = x[t]?
    | .stk x, .stk X => ∀ r t, entry X (b ++ [r, t]) = pixel x r t
    | _, _ => False

/-- The entries of an array of coefficients: path by path, row by row. -/
def flatJ : JOut (List ℝ) (Img ℝ) → Option (List ℝ)
  | .arrayJoint rows => some (flatten rows)
  | .arrayTime rows => some rows.flatten
  | _ => none

end Spec

namespace NdFrontJ

open Nd (Row Stk Blk block)
open Spec (position entry signal pixel)

theorem entry_blk {X : Nd ℝ} {bs ss : List Nat} {i : Nat} {y : List ℝ} (h : Blk X bs ss i y) {b : List Nat}
    (hb : position bs b = some i) (ix : List Nat) : entry X (b ++ ix) = (position ss ix).bind (y[·]?) := by
  unfold entry
  rw [h.1, NdFront.position_append hb]
  cases hp : position ss ix with
  | none => rfl
  | some k =>
    simp only [Option.map_some, Option.bind_some]
    rw [← h.2.2 (NdFront.position_lt hb), Nd.getElem?_block, if_pos (NdFront.position_lt hp)]

theorem position_three (l m n c r t : Nat) : position [l, m, n] [c, r, t] =
    if c < l ∧ r < m ∧ t < n then some (c * (m * n) + (r * n + t)) else none := by
  unfold position
  rw [NdFront.position_two]
  by_cases hc : c < l
  · by_cases hr : r < m ∧ t < n
    · rw [if_pos hc, if_pos hr, if_pos ⟨hc, hr⟩]
      simp
    · rw [if_pos hc, if_neg hr, if_neg fun h => hr h.2]
      rfl
  · rw [if_neg hc, if_neg fun h => hc h.1]

theorem flat_flatten (rows : List (Img ℝ)) : (rows.map Img.flat).flatten = Spec.flatten rows := by
  rw [← List.flatMap_def]
  rfl

theorem entry_stk {X : Nd ℝ} {bs : List Nat} {i : Nat} {y : Img ℝ} (h : Stk X bs i y) {b : List Nat}
    (hb : position bs b = some i) (r t : Nat) : entry X (b ++ [r, t]) = pixel y r t := by
  rw [entry_blk h hb, NdFront.position_two]
  unfold pixel
  split
  · rename_i hrt
    have := getElem?_flatten_img (rows := [y]) (h := y.h) (w := y.w) (by simp) (c := 0) hrt.1 hrt.2
    rw [← flat_flatten] at this
    simpa using this
  · rfl

theorem CoefRel.slice {bs b : List Nat} {k : Nat} (hb : position bs b = some k) {c : JCoef (List ℝ) (Img ℝ)}
    {d : JCoef (Nd ℝ) (Nd ℝ)} (h : CoefRel bs k c d) : Spec.SliceJ.coef b c d := by
  cases c <;> cases d
  · intro t
    rw [NdFront.entry_row h.1 hb, h.2.2 (NdFront.position_lt hb)]
  · exact h.elim
  · exact h.elim
  · exact fun r t => entry_stk h hb r t

theorem CoefRel.shape {bs : List Nat} {k : Nat} {c : JCoef (List ℝ) (Img ℝ)}
    {d : JCoef (Nd ℝ) (Nd ℝ)} (h : CoefRel bs k c d) : Spec.ShapeJ.coef bs c d := by
  cases c <;> cases d
  · exact h.1
  · exact h.elim
  · exact h.elim
  · exact h.1

theorem OutRel.shape {bs : List Nat} {k : Nat} {w : JOut (List ℝ) (Img ℝ)} {r : Out} (h : OutRel bs k w r) :
    Spec.ShapeJ bs w r := by
  cases w <;> cases r <;> try exact h.elim
  · obtain ⟨p, q, h1, h2⟩ := h
    exact ⟨p, q, h1, h2.1⟩
  · obtain ⟨n, h1, h2⟩ := h
    exact ⟨n, h1, h2.1⟩
  · exact List.Forall₂.imp (fun p q hpq => ⟨hpq.2.2.1, hpq.2.1, hpq.2.2.2.1, hpq.2.2.2.2.1, hpq.2.2.2.2.2,
      hpq.1.shape⟩) h
  · exact List.Forall₂.imp (fun p q hpq => ⟨hpq.1, hpq.2.shape⟩) h

theorem OutRel.slice {bs b : List Nat} {k : Nat} (hb : position bs b = some k) {w : JOut (List ℝ) (Img ℝ)} {r : Out}
    (h : OutRel bs k w r) : Spec.SliceJ b w r := by
  cases w with
  | list l =>
    cases r <;> try exact h.elim
    exact List.Forall₂.imp (fun p q hpq => hpq.1.slice hb) h
  | dict l =>
    cases r <;> try exact h.elim
    exact List.Forall₂.imp (fun p q hpq => hpq.2.slice hb) h
  | arrayTime rows =>
    cases r <;> try exact h.elim
    obtain ⟨n, hn, h⟩ := h
    intro c t
    rw [entry_blk h hb, NdFront.position_two]
    by_cases ht : t < n
    · by_cases hc : c < rows.length
      · rw [if_pos ⟨hc, ht⟩, Option.bind_some, NdFront.getElem?_flatten_unif hn ht]
      · rw [if_neg fun h => hc h.1, List.getElem?_eq_none (by omega)]
        rfl
    · rw [if_neg fun h => ht h.2]
      by_cases hc : c < rows.length
      · rw [List.getElem?_eq_getElem hc, Option.bind_some, List.getElem?_eq_none]
        · rfl
        · rw [hn _ (List.getElem_mem hc)]
          omega
      · rw [List.getElem?_eq_none (by omega)]
        rfl
  | arrayJoint rows =>
    cases r <;> try exact h.elim
    obtain ⟨p, q, hpq, h⟩ := h
    intro c r t
    rw [entry_blk h hb, position_three]
    by_cases hrt : r < p ∧ t < q
    · by_cases hc : c < rows.length
      · rw [if_pos ⟨hc, hrt⟩, Option.bind_some, flat_flatten, getElem?_flatten_img hpq hrt.1 hrt.2,
          List.getElem?_eq_getElem hc, Option.map_some, Option.bind_some]
        obtain ⟨e1, e2⟩ := hpq _ (List.getElem_mem hc)
        rw [pixel, e1, e2, if_pos hrt]
      · rw [if_neg fun h => hc h.1, List.getElem?_eq_none (by omega)]
        rfl
    · rw [if_neg fun h => hrt h.2]
      by_cases hc : c < rows.length
      · rw [List.getElem?_eq_getElem hc, Option.bind_some]
        obtain ⟨e1, e2⟩ := hpq _ (List.getElem_mem hc)
        rw [pixel, e1, e2, if_neg hrt]
        rfl
      · rw [List.getElem?_eq_none (by omega)]
        rfl

end NdFrontJ

open Spec (position entry signal)
open NdFrontJ Nd

/-! ### C88 -/

/-- **Batch independence for arrays of any shape.**  Let `X` have shape `bs + (N,)` with any leading axes `bs`, and
suppose the joint time-frequency scattering of `X` returns.  Then for every index `b` of the leading axes, the
scattering of the lone signal `X[b]` returns; the result for `X` has the same kind and the same paths; its
arrays have the shapes of those of the lone signal preceded by `bs`; and their entries at `b + ix` are the
entries at `ix` for the lone signal.  All formats and all output types. -/
theorem C88_batch (a : JArgs) (bs : List Nat) (N : Nat) (hN : 0 < N) (X : Nd ℝ) (hs : X.shape = bs ++ [N])
    (hd : X.data.length = bs.prod * N) (r : NdFrontJ.Out) (hr : a.runNd X = .ok r) (b : List Nat) (i : Nat)
    (hb : position bs b = some i) :
    ∃ w, a.run (signal X N b) = .ok w ∧ Spec.ShapeJ bs w r ∧ Spec.SliceJ b w r := by
  unfold JArgs.runNd at hr
  obtain ⟨s, hmake, hr⟩ := bind_eq_ok.1 hr
  obtain ⟨Q, hQ, hr⟩ := bind_eq_ok.1 hr
  have hrow := NdFront.row_signal hs hd hb
  have hi := NdFront.position_lt hb
  obtain ⟨w, hw⟩ := scattering_rel_ok _ hrow hi (by rw [signal, length_tab]; exact hN) hr
  obtain ⟨r', hr', hrel⟩ := scattering_rel _ hrow w hw
  rw [hr] at hr'
  obtain rfl := Except.ok.inj hr'
  exact ⟨w, bind_eq_ok.2 ⟨s, hmake, bind_eq_ok.2 ⟨Q, hQ, hw⟩⟩, hrel.shape, hrel.slice hb⟩

/-- If the scattering of one signal of length `N` returns then so does that of every array whose last axis has
length `N`, including arrays without any signal, and the leading axes are kept. -/
theorem C88_returns (a : JArgs) (z : List ℝ) (w : JOut (List ℝ) (Img ℝ)) (hz : a.run z = .ok w) (bs : List Nat)
    (X : Nd ℝ) (hs : X.shape = bs ++ [z.length]) (hd : X.data.length = bs.prod * z.length) :
    ∃ r, a.runNd X = .ok r ∧ Spec.ShapeJ bs w r := by
  unfold JArgs.run at hz
  obtain ⟨s, hmake, hz⟩ := bind_eq_ok.1 hz
  obtain ⟨Q, hQ, hz⟩ := bind_eq_ok.1 hz
  have hrow : Row X bs bs.prod z := ⟨hs, hd, fun h => absurd h (lt_irrefl _)⟩
  obtain ⟨r, hr, hrel⟩ := scattering_rel _ hrow _ hz
  exact ⟨r, bind_eq_ok.2 ⟨s, hmake, bind_eq_ok.2 ⟨Q, hQ, hr⟩⟩, hrel.shape⟩

/-- **Flattened interface.**  Let the samples be the rows of an array of shape `bs + (N,)`, not empty.  If `predict`
of the scikit-learn object returns then the scattering of each sample returns an array, and the row `b` of the
result consists of the entries of the scattering of the sample `b`, in order. -/
theorem C88_predict_partial (a : JArgs) (s : ScJ) (hmake : a.make = .ok s) (hN : 0 < s.base.built.Ninput)
    (bs : List Nat) (hbs : 0 < bs.prod) (X : Nd ℝ) (hs : X.shape = bs ++ [s.base.built.Ninput])
    (hd : X.data.length = bs.prod * s.base.built.Ninput) (P : Nd ℝ) (hP : a.predict X = .ok P) (b : List Nat)
    (i : Nat) (hb : position bs b = some i) :
    ∃ w l, a.run (signal X s.base.built.Ninput b) = .ok w ∧ Spec.flatJ w = some l ∧
      P.shape = bs ++ [l.length] ∧ ∀ k, entry P (b ++ [k]) = l[k]? := by
  generalize hNe : s.base.built.Ninput = N at *
  unfold JArgs.predict at hP
  rw [hmake] at hP
  simp only [bind, Except.bind] at hP
  cases hQ : parseQ a.Q with
  | error e => rw [hQ] at hP; cases hP
  | ok Q =>
  rw [hQ] at hP
  simp only at hP
  rw [hNe] at hP
  unfold sklearnPredict at hP
  rw [reshape_samples (shape := [N]) (by simpa using hs) (by simpa using hN)] at hP
  simp only [bind, Except.bind] at hP
  have hX' : (⟨[bs.prod, N], X.data⟩ : Nd ℝ).shape = [bs.prod] ++ [N] := rfl
  have hi := NdFront.position_lt hb
  have hdrop : X.shape.dropLast = bs := by rw [hs, List.dropLast_concat]
  rw [hdrop] at hP
  unfold NdFrontJ.scatterArray at hP
  simp only [bind, Except.bind] at hP
  cases hr : NdFrontJ.scattering (a.obj s Q.1.toNat) ⟨[bs.prod, N], X.data⟩ with
  | error e => rw [hr] at hP; cases hP
  | ok r =>
    have hpos : position [bs.prod] [i] = some i := by rw [NdFront.position_one, if_pos hi]
    have hrow := NdFront.row_signal (X := ⟨[bs.prod, N], X.data⟩) hX' (by simpa using hd) hpos
    have hsig : signal ⟨[bs.prod, N], X.data⟩ N [i] = signal X N b := by
      unfold signal tab
      apply List.map_congr_left
      intro t _
      rw [NdFront.entry_row hs hb, NdFront.entry_row hX' hpos]
    obtain ⟨w, hw⟩ := scattering_rel_ok (a.obj s Q.1.toNat) hrow (by simpa using hi)
      (by rw [signal, length_tab]; exact hN) hr
    obtain ⟨r', hr', hrel⟩ := scattering_rel (a.obj s Q.1.toNat) hrow w hw
    rw [hr] at hr'
    obtain rfl := Except.ok.inj hr'
    rw [hr] at hP
    have hrun : a.run (signal X N b) = .ok w := by
      rw [← hsig]
      exact bind_eq_ok.2 ⟨s, hmake, bind_eq_ok.2 ⟨Q, hQ, hw⟩⟩
    cases r with
    | list => cases hP
    | dict => cases hP
    | array S =>
      simp only at hP
      have hgo : ∀ (ss : List Nat) (y : List ℝ), Blk S [bs.prod] ss i y → y.length = ss.prod →
          P.shape = bs ++ [y.length] ∧ ∀ k, entry P (b ++ [k]) = y[k]? := by
        intro ss y hB hy
        rw [reshape_flat hB.1 hbs] at hP
        obtain rfl := Except.ok.inj hP
        refine ⟨by simp [hy], fun k => ?_⟩
        rw [NdFront.entry_row (n := ss.prod) (by simp) hb]
        simp only
        rw [hB.2.2 (by simpa using hi)]
      cases w with
      | list => exact hrel.elim
      | dict => exact hrel.elim
      | arrayTime rows =>
        obtain ⟨n, hn, hB⟩ := hrel
        refine ⟨_, rows.flatten, hrun, rfl, hgo _ _ hB ?_⟩
        rw [← List.flatMap_id, Nd.length_flatMap_unif (f := id) (m := n) (fun y hy => hn y hy)]
        simp
      | arrayJoint rows =>
        obtain ⟨h, w, hh, hB⟩ := hrel
        rw [flat_flatten] at hB
        refine ⟨_, Spec.flatten rows, hrun, rfl, hgo _ _ hB ?_⟩
        rw [length_flatten_img hh]
        simp

/-- If the scattering of one signal returns an array then every non-empty batch of flattened samples is
transformed. -/
theorem C88_predict_returns (a : JArgs) (s : ScJ) (hmake : a.make = .ok s)
    (z : List ℝ) (hz : z.length = s.base.built.Ninput) (w : JOut (List ℝ) (Img ℝ)) (hrun : a.run z = .ok w)
    (hw : (Spec.flatJ w).isSome) (hN : 0 < s.base.built.Ninput) (bs : List Nat) (hbs : 0 < bs.prod) (X : Nd ℝ)
    (hs : X.shape = bs ++ [s.base.built.Ninput]) (hd : X.data.length = bs.prod * s.base.built.Ninput) :
    ∃ P, a.predict X = .ok P := by
  obtain ⟨r, hr, hsh⟩ := C88_returns a z w hrun [bs.prod] ⟨[bs.prod, z.length], X.data⟩ rfl (by simpa [hz] using hd)
  unfold JArgs.runNd at hr
  obtain ⟨s', hmake', hr⟩ := bind_eq_ok.1 hr
  obtain rfl := Except.ok.inj (hmake.symm.trans hmake')
  obtain ⟨Q, hQ, hr⟩ := bind_eq_ok.1 hr
  have hgo : ∀ (S : Nd ℝ) (ss : List Nat), r = .array S → S.shape = bs.prod :: ss → ∃ P, a.predict X = .ok P := by
    intro S ss hrS hS
    refine ⟨⟨bs ++ [ss.prod], S.data⟩, ?_⟩
    unfold JArgs.predict
    rw [hmake]
    simp only [bind, Except.bind, hQ]
    unfold sklearnPredict
    rw [reshape_samples (shape := [s.base.built.Ninput]) (by simpa using hs) (by simpa using hN)]
    simp only [bind, Except.bind]
    rw [hz, hrS] at hr
    have : NdFrontJ.scatterArray (a.obj s Q.1.toNat) ⟨[bs.prod, s.base.built.Ninput], X.data⟩ = .ok S := by
      unfold NdFrontJ.scatterArray
      rw [hr]
      rfl
    rw [this]
    simp only
    rw [hs, List.dropLast_concat, reshape_flat hS hbs]
  cases w with
  | list => simp [Spec.flatJ] at hw
  | dict => simp [Spec.flatJ] at hw
  | arrayTime rows =>
    cases r with
    | list => exact hsh.elim
    | dict => exact hsh.elim
    | array S =>
      obtain ⟨n, -, hS⟩ := hsh
      exact hgo S _ rfl hS
  | arrayJoint rows =>
    cases r with
    | list => exact hsh.elim
    | dict => exact hsh.elim
    | array S =>
      obtain ⟨h, v, -, hS⟩ := hsh
      exact hgo S _ rfl hS

/-- **The code disagrees for an empty batch**: `predict` never returns on an array without samples, although
`scattering` does (`C88_returns`). -/
theorem C88_predict_empty_violated (a : JArgs) (X : Nd ℝ) (bs : List Nat) (N : Nat) (hs : X.shape = bs ++ [N])
    (hbs : bs.prod = 0) (P : Nd ℝ) : a.predict X ≠ .ok P := by
  intro h
  unfold JArgs.predict at h
  obtain ⟨s, -, h⟩ := bind_eq_ok.1 h
  obtain ⟨Q, -, h⟩ := bind_eq_ok.1 h
  unfold sklearnPredict at h
  obtain ⟨Y, -, h⟩ := bind_eq_ok.1 h
  obtain ⟨Z, -, h⟩ := bind_eq_ok.1 h
  rw [hs, List.dropLast_concat, reshape_flat_empty hbs] at h
  cases h

/-- What kind of result `out_type='array'` gives. -/
theorem run_array {a : JArgs} (ha : a.outType = .array) {x : List ℝ} {w : JOut (List ℝ) (Img ℝ)}
    (h : a.run x = .ok w) : (a.fmt = .joint ∧ ∃ rows, w = .arrayJoint rows) ∨
      (a.fmt ≠ .joint ∧ ∃ rows, w = .arrayTime rows) := by
  unfold JArgs.run at h
  obtain ⟨s, hmake, h⟩ := bind_eq_ok.1 h
  obtain ⟨Q, hQ, h⟩ := bind_eq_ok.1 h
  unfold FrontJ.scattering at h
  obtain ⟨_, _, h⟩ := bind_eq_ok.1 h
  obtain ⟨_, _, h⟩ := bind_eq_ok.1 h
  obtain ⟨_, _, h⟩ := bind_eq_ok.1 h
  obtain ⟨_, _, h⟩ := bind_eq_ok.1 h
  obtain ⟨_, _, h⟩ := bind_eq_ok.1 h
  obtain ⟨_, _, h⟩ := bind_eq_ok.1 h
  unfold FrontJ.assemble at h
  rw [show (a.obj s Q.1.toNat).outType = .array from ha, show (a.obj s Q.1.toNat).fmt = a.fmt from rfl] at h
  cases hf : a.fmt <;> rw [hf] at h <;> simp only at h <;> obtain ⟨rows, -, h⟩ := bind_eq_ok.1 h <;>
    obtain rfl := Except.ok.inj h
  all_goals simp

/-- `TimeFrequencyScattering(J=3, J_fr=2, shape=1000, Q=8)`, format 'joint', on an array of shape `(2, 5, 1000)`:
returned, and the signal `(1, 3)` is found at its place. -/
example (d : List ℝ) (hd : d.length = 10000) : ∃ S rows h w,
    (⟨3, 2, .int 8, .int 1000, .none, none, .int 1, .none, none, .array, .joint⟩ : JArgs).runNd ⟨[2, 5, 1000], d⟩ =
      .ok (.array S) ∧ S.shape = [2, 5, rows.length, h, w] ∧
    (⟨3, 2, .int 8, .int 1000, .none, none, .int 1, .none, none, .array, .joint⟩ : JArgs).run
      (signal ⟨[2, 5, 1000], d⟩ 1000 [1, 3]) = .ok (.arrayJoint rows) ∧
    ∀ c r t, entry S [1, 3, c, r, t] = rows[c]?.bind fun y => Spec.pixel y r t := by
  have hl : (signal ⟨[2, 5, 1000], d⟩ 1000 [1, 3]).length = 1000 := length_tab _ _
  obtain ⟨w, hw⟩ := C76_defaults 3 2 1000 8 1 (by norm_num) (by norm_num) (by norm_num) .array (by simp) .joint
    (by simp) _ hl
  obtain ⟨r, hr, -⟩ := C88_returns _ _ _ hw [2, 5] ⟨[2, 5, 1000], d⟩ (by rw [hl]; rfl) (by rw [hl, hd]; rfl)
  obtain ⟨w, hw, hsh, hsl⟩ := C88_batch _ [2, 5] 1000 (by norm_num) ⟨[2, 5, 1000], d⟩ rfl (by rw [hd]; rfl) r hr
    [1, 3] 8 rfl
  rcases run_array rfl hw with ⟨-, rows, rfl⟩ | ⟨h, -⟩
  · cases r with
    | list => exact hsh.elim
    | dict => exact hsh.elim
    | array S =>
      obtain ⟨h, v, -, hS⟩ := hsh
      exact ⟨S, rows, h, v, hr, hS, hw, hsl⟩
  · exact absurd rfl h

/-- A batch of six flattened samples, arranged as `(2, 3)`, format 'time'. -/
example (d : List ℝ) (hd : d.length = 6000) : ∃ P, (⟨3, 2, .int 8, .int 1000, .none, none, .int 1, .none, none,
    .array, .time⟩ : JArgs).predict ⟨[2, 3, 1000], d⟩ = .ok P := by
  obtain ⟨w, hw⟩ := C76_defaults 3 2 1000 8 1 (by norm_num) (by norm_num) (by norm_num) .array (by simp) .time
    (by simp) (tab 1000 fun _ => 0) (length_tab _ _)
  obtain ⟨s, hmake, -⟩ := bind_eq_ok.1 hw
  have hNin : s.base.built.Ninput = 1000 := by
    obtain ⟨b, hb, h⟩ := bind_eq_ok.1 hmake
    obtain ⟨Q, -, h⟩ := bind_eq_ok.1 h
    obtain ⟨q, -, h⟩ := bind_eq_ok.1 h
    obtain ⟨F, -, h⟩ := bind_eq_ok.1 h
    obtain ⟨f, -, h⟩ := bind_eq_ok.1 h
    obtain rfl := Except.ok.inj h
    obtain ⟨_, _, h, -⟩ := make_sizes hb
    exact (Except.ok.inj h).symm
  refine C88_predict_returns _ s hmake _ (by rw [hNin]; exact length_tab _ _) w hw ?_ (by rw [hNin]; norm_num) [2, 3]
    (by norm_num) _ (by rw [hNin]; rfl) (by rw [hNin]; exact hd)
  rcases run_array rfl hw with ⟨h, -⟩ | ⟨-, rows, rfl⟩
  · cases h
  · rfl

end Verif
