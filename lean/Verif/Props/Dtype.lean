import Verif.Lemmas.Dtype
import Verif.Props.Laws1D
import Verif.Props.Torch2D
import Verif.Props.Scattering3D
import Verif.Lemmas.Example1D
import Verif.Props.NoError1D

/-!
# C77, C78: TensorFlow frontends and dtype checks
-/

namespace Verif

open Finset

/-- The output with every coefficient replaced by its image. -/
def Out1D.map {R R' : Type} (f : R → R') : Out1D R → Out1D R'
  | .array l => .array (l.map f)
  | .list l => .list (l.map fun p => ⟨f p.coef, p.j, p.n⟩)
  | .dict l => .dict (l.map fun p => (p.1, f p.2))

/-- The same in two dimensions. -/
def Out2D.map {R R' : Type} (f : R → R') : Out2D R → Out2D R'
  | .array l => .array (l.map f)
  | .list l => .list (l.map fun p => ⟨f p.coef, p.j, p.n, p.theta⟩)

theorem forall₂_eq_map {α β : Type} {f : α → β} {l : List α} {m : List β}
    (h : List.Forall₂ (fun a b => b = f a) l m) : m = l.map f := by
  induction h with
  | nil => rfl
  | cons hab _ ih => rw [List.map_cons, hab, ih]

/-! ## One dimension -/

/-- Frontend operations on tagged tensors that act on real tensors as the numpy ones. -/
structure RealFront (fo : FrontOps Tens1) : Prop where
  pad : ∀ x l r y, fo.pad (.real x) l r = .ok y ↔ ∃ z, npPad x l r = .ok z ∧ y = .real z
  unpad : ∀ x i j, fo.unpad (.real x) i j = .real (npUnpad x i j)
  averageGlobal : ∀ x, fo.averageGlobal (.real x) = .real (npAverageGlobal x)
  size : ∀ x, fo.size (.real x) = x.length

theorem objRel_self {A B : Backend1D} (S : BackendRel A B) (hF : A.F = B.F)
    (h : ∀ k (a : A.F), S.rF k a (hF ▸ a)) (o : Obj1D A.F) : Front1D.ObjRel S o (hF ▸ o) := by
  obtain ⟨R, C, F, r1, r2, r3, r4, r5, r6⟩ := A
  obtain ⟨R', C', F', s1, s2, s3, s4, s5, s6⟩ := B
  simp only at hF
  subst hF
  have h0 : ∀ f : Filt F, S.filt f f := fun f =>
    ⟨rfl, rfl, fun k a b ha hb => by rw [ha] at hb; cases hb; exact h k a⟩
  have h1 : ∀ l : List (Filt F), List.Forall₂ S.filt l l := fun l => by
    induction l with
    | nil => exact List.Forall₂.nil
    | cons a l ih => exact List.Forall₂.cons (h0 a) ih
  exact ⟨rfl, rfl, rfl, rfl, h0 _, h1 _, h1 _, rfl, rfl, rfl, rfl, rfl⟩

/-- On a real signal the tagged transform returns exactly when the typed one does, and then the same values, all
real. -/
theorem dtype1_real {fo : FrontOps Tens1} (hf : RealFront fo) (o : Obj1D (List ℝ)) (x : List ℝ) (out : Out1D Tens1) :
    Front1D.scattering npDtype fo o (.real x) = .ok out ↔
      ∃ w, Front1D.scattering npBackend npFront o x = .ok w ∧ out = w.map .real := by
  have key : ∀ {w : Out1D (List ℝ)} {F : Front1D.FrontRel (toDtype npBackend (List ℤ) (List.map fun v => |v|)
      (List.map fun v => |v|)) npFront fo} (_ : F.rOut = fun _ x t => t = .real x) {out : Out1D Tens1},
      Front1D.OutRel F w out → out = w.map .real := by
    rintro w F hF out h
    cases w with
    | array l =>
      cases out with
      | array m =>
        have h : List.Forall₂ (fun x y => ∃ i, F.rOut i x y) l m := h
        rw [hF] at h
        have h : List.Forall₂ (fun (x : List ℝ) (y : Tens1) => y = .real x) l m := h.imp fun _ _ ⟨_, h⟩ => h
        rw [forall₂_eq_map h]; rfl
      | list => exact h.elim
      | dict => exact h.elim
    | list l =>
      cases out with
      | list m =>
        have h : List.Forall₂ (Front1D.PathRel F) l m := h
        have h : List.Forall₂ (fun (p : Path (List ℝ)) (q : Path Tens1) => q = ⟨.real p.coef, p.j, p.n⟩) l m :=
          h.imp fun p q ⟨h1, h2, h3⟩ => by
            rw [hF] at h3
            cases q
            simp only at h1 h2 h3
            rw [h1, h2, h3]
        rw [forall₂_eq_map h]; rfl
      | array => exact h.elim
      | dict => exact h.elim
    | dict l =>
      cases out with
      | dict m =>
        have h : List.Forall₂ (fun a b => a.1 = b.1 ∧ ∃ i, F.rOut i a.2 b.2) l m := h
        rw [hF] at h
        have h : List.Forall₂ (fun (p : List Nat × List ℝ) (q : List Nat × Tens1) => q = (p.1, .real p.2)) l m :=
          h.imp fun p q ⟨h1, _, h2⟩ => by
            cases q
            simp only at h1 h2
            rw [h1, h2]
        rw [forall₂_eq_map h]; rfl
      | array => exact h.elim
      | list => exact h.elim
  let F : Front1D.FrontRel (toDtype npBackend (List ℤ) (List.map fun v => |v|) (List.map fun v => |v|)) npFront fo :=
    { rIn := fun x t => t = .real x
      rOut := fun _ x t => t = .real x
      pad := fun x t l r h => by
        subst h
        intro a ha
        exact ⟨_, (hf.pad x l r _).2 ⟨a, ha, rfl⟩, rfl⟩
      unpad := fun _ _ x t i j h => by
        have h : t = Tens.real x := h
        subst h
        exact hf.unpad x i j
      averageGlobal := fun _ _ x t h => by
        have h : t = Tens.real x := h
        subst h
        exact hf.averageGlobal x }
  let G : Front1D.FrontRel (fromDtype npBackend (List ℤ) (List.map fun v => |v|) (List.map fun v => |v|)) fo npFront :=
    { rIn := fun t x => t = .real x
      rOut := fun _ t x => t = .real x
      pad := fun t x l r h => by
        subst h
        intro a ha
        obtain ⟨z, hz, rfl⟩ := (hf.pad x l r a).1 ha
        exact ⟨z, hz, rfl⟩
      unpad := fun _ _ t x i j h => by
        have h : t = Tens.real x := h
        subst h
        exact hf.unpad x i j
      averageGlobal := fun _ _ t x h => by
        have h : t = Tens.real x := h
        subst h
        exact hf.averageGlobal x }
  have forward : ∀ {w}, Front1D.scattering npBackend npFront o x = .ok w →
      Front1D.scattering npDtype fo o (.real x) = .ok (w.map .real) := by
    intro w hw
    obtain ⟨out, hout, hrel⟩ := Front1D.sim_out F (fun _ x y h => by
      have h : y = Tens.real x := h
      subst h
      exact (hf.size x).symm)
      (objRel_self (toDtype npBackend (List ℤ) (List.map fun v => |v|) (List.map fun v => |v|)) rfl (fun _ _ => rfl) o)
      (x := x) (y := .real x) rfl _ hw
    exact hout.trans (congrArg Except.ok (key rfl hrel))
  constructor
  · intro h
    obtain ⟨w, hw, -⟩ := Front1D.sim_out G (fun _ x y h => by
      have h : x = Tens.real y := h
      subst h
      exact hf.size y)
      (objRel_self (fromDtype npBackend (List ℤ) (List.map fun v => |v|) (List.map fun v => |v|)) rfl (fun _ _ => rfl) o)
      (x := .real x) (y := x) rfl _ h
    exact ⟨w, hw, Except.ok.inj (h.symm.trans (forward hw))⟩
  · rintro ⟨w, hw, rfl⟩
    exact forward hw

theorem npDtypeFront_real : RealFront npDtypeFront where
  pad x l r y := by
    show (npPad x l r >>= _) = _ ↔ _
    rw [bind_eq_ok]
    exact ⟨fun ⟨z, h1, h2⟩ => ⟨z, h1, (Except.ok.inj h2).symm⟩, fun ⟨z, h1, h2⟩ => ⟨z, h1, by rw [h2]⟩⟩
  unpad _ _ _ := rfl
  averageGlobal _ := rfl
  size _ := rfl

/-- `tf.pad` in reflect mode is numpy's. -/
theorem tfPad_eq {α : Type} [Zero α] (x : List α) (l r : Nat) : tfPad x l r = npPad x l r := by
  unfold tfPad npPad
  split
  · rfl
  · rename_i hc
    push Not at hc
    congr 1
    apply List.ext_getElem?
    intro i
    have hl : ((x.drop 1).take l).reverse.length = l := by simp; omega
    have hr : ((x.dropLast).drop (x.length - 1 - r)).reverse.length = r := by simp; omega
    have ht : (tab (l + x.length + r) fun i => x.getD (reflectIndex x.length l i) 0)[i]? =
        if i < l + x.length + r then some (x.getD (reflectIndex x.length l i) 0) else none := by
      unfold tab
      by_cases hi : i < l + x.length + r
      · rw [if_pos hi, List.getElem?_map, List.getElem?_range hi]; rfl
      · rw [if_neg hi, List.getElem?_eq_none (by simp; omega)]
    rw [ht]
    have some_getD : ∀ k, k < x.length → some (x.getD k 0) = x[k]? := by
      intro k hk
      rw [List.getD_eq_getElem?_getD, List.getElem?_eq_getElem hk]; rfl
    by_cases h1 : i < l
    · rw [if_pos (by omega), List.append_assoc, List.getElem?_append_left (by rw [hl]; exact h1),
        List.getElem?_reverse (by simp; omega), reflectIndex, if_pos h1, some_getD _ (by omega)]
      have : ((x.drop 1).take l).length - 1 - i = l - 1 - i := by simp; omega
      rw [this, List.getElem?_take, if_pos (by omega), List.getElem?_drop]
      congr 1
      omega
    · by_cases h2 : i < l + x.length
      · rw [if_pos (by omega), List.append_assoc, List.getElem?_append_right (by rw [hl]; omega), hl,
          List.getElem?_append_left (by omega), reflectIndex, if_neg h1, if_pos (by omega), some_getD _ (by omega)]
      · by_cases h3 : i < l + x.length + r
        · rw [if_pos h3, List.append_assoc, List.getElem?_append_right (by rw [hl]; omega), hl,
            List.getElem?_append_right (by omega), List.getElem?_reverse (by simp; omega), reflectIndex, if_neg h1,
            if_neg (by omega), some_getD _ (by omega), List.getElem?_drop, List.dropLast_eq_take, List.getElem?_take]
          simp only [List.length_drop, List.length_take]
          rw [if_pos (by omega)]
          congr 1
          omega
        · rw [if_neg h3, List.getElem?_eq_none]
          simp only [List.length_append, hl, hr]
          omega

theorem tfFront_real : RealFront tfFront where
  pad x l r y := by
    show (tfPad x l r >>= _) = _ ↔ _
    rw [tfPad_eq, bind_eq_ok]
    exact ⟨fun ⟨z, h1, h2⟩ => ⟨z, h1, (Except.ok.inj h2).symm⟩, fun ⟨z, h1, h2⟩ => ⟨z, h1, by rw [h2]⟩⟩
  unpad _ _ _ := rfl
  averageGlobal _ := rfl
  size _ := rfl

/-- **TensorFlow = numpy, 1-D.**  On a real signal, for all parameters and every `out_type`, the TensorFlow transform
returns exactly when the numpy one does, and then the same coefficients, as real tensors. -/
theorem C77_tf_1d (a : Args1D) (x : List ℝ) (out : Out1D Tens1) :
    a.runTf (.real x) = .ok out ↔ ∃ w, a.run x = .ok w ∧ out = w.map .real := by
  unfold Args1D.runTf Args1D.run
  simp only [bind_eq_ok]
  constructor
  · rintro ⟨s, hs, h⟩
    obtain ⟨w, hw, h⟩ := (dtype1_real tfFront_real _ _ _).1 h
    exact ⟨w, ⟨s, hs, hw⟩, h⟩
  · rintro ⟨w, ⟨s, hs, hw⟩, h⟩
    exact ⟨s, hs, (dtype1_real tfFront_real _ _ _).2 ⟨w, hw, h⟩⟩

/-- **Dtype checks never fire on real input, 1-D numpy.** -/
theorem C78_np_1d_real (a : Args1D) (x : List ℝ) (out : Out1D Tens1) :
    a.runDtype (.real x) = .ok out ↔ ∃ w, a.run x = .ok w ∧ out = w.map .real := by
  unfold Args1D.runDtype Args1D.run
  simp only [bind_eq_ok]
  constructor
  · rintro ⟨s, hs, h⟩
    obtain ⟨w, hw, h⟩ := (dtype1_real npDtypeFront_real _ _ _).1 h
    exact ⟨w, ⟨s, hs, hw⟩, h⟩
  · rintro ⟨w, ⟨s, hs, hw⟩, h⟩
    exact ⟨s, hs, (dtype1_real npDtypeFront_real _ _ _).2 ⟨w, hw, h⟩⟩

/-- The tensor is not of a floating-point dtype. -/
def Tens.NotReal {R C I : Type} : Tens R C I → Prop
  | .real _ => False
  | _ => True

/-- The length of a one-dimensional tensor. -/
def Tens1.length : Tens1 → Nat
  | .real x => x.length
  | .complex x => x.length
  | .int x => x.length

/-- Frontend operations whose `pad` keeps the dtype and depends on the length only for its errors. -/
structure KeepFront (fo : FrontOps Tens1) : Prop where
  keep : ∀ (t : Tens1), t.NotReal → ∀ l r y, fo.pad t l r = .ok y → y.NotReal
  total : ∀ (t : Tens1) (x : List ℝ) l r, x.length = t.length → (∃ z, npPad x l r = .ok z) → ∃ y, fo.pad t l r = .ok y

theorem npPad_same {α β : Type} [Zero α] [Zero β] {x : List α} {y : List β} (h : x.length = y.length) {l r : Nat}
    (hx : ∃ z, npPad x l r = .ok z) : ∃ z, npPad y l r = .ok z := by
  obtain ⟨z, hz⟩ := hx
  unfold npPad at hz ⊢
  split at hz
  · cases hz
  · rename_i hc
    rw [h] at hc
    rw [if_neg hc]
    exact ⟨_, rfl⟩

theorem npDtypeFront_keep : KeepFront npDtypeFront where
  keep t ht l r y h := by
    cases t with
    | real => exact ht.elim
    | complex x => obtain ⟨z, -, h⟩ := bind_eq_ok.1 h; cases h; trivial
    | int x => obtain ⟨z, -, h⟩ := bind_eq_ok.1 h; cases h; trivial
  total t x l r hx hp := by
    cases t with
    | real y => obtain ⟨z, hz⟩ := npPad_same (y := y) hx hp; exact ⟨_, bind_eq_ok.2 ⟨z, hz, rfl⟩⟩
    | complex y => obtain ⟨z, hz⟩ := npPad_same (y := y) hx hp; exact ⟨_, bind_eq_ok.2 ⟨z, hz, rfl⟩⟩
    | int y => obtain ⟨z, hz⟩ := npPad_same (y := y) hx hp; exact ⟨_, bind_eq_ok.2 ⟨z, hz, rfl⟩⟩

theorem tfFront_keep : KeepFront tfFront where
  keep t ht l r y h := by
    cases t with
    | real => exact ht.elim
    | complex x => obtain ⟨z, -, h⟩ := bind_eq_ok.1 h; cases h; trivial
    | int x => obtain ⟨z, -, h⟩ := bind_eq_ok.1 h; cases h; trivial
  total t x l r hx hp := by
    cases t with
    | real y =>
      obtain ⟨z, hz⟩ := npPad_same (y := y) hx hp; exact ⟨_, bind_eq_ok.2 ⟨z, (tfPad_eq y l r).trans hz, rfl⟩⟩
    | complex y =>
      obtain ⟨z, hz⟩ := npPad_same (y := y) hx hp; exact ⟨_, bind_eq_ok.2 ⟨z, (tfPad_eq y l r).trans hz, rfl⟩⟩
    | int y =>
      obtain ⟨z, hz⟩ := npPad_same (y := y) hx hp; exact ⟨_, bind_eq_ok.2 ⟨z, (tfPad_eq y l r).trans hz, rfl⟩⟩

theorem rfft_notReal {B : Backend1D} {I : Type} {f : B.R → B.R} {g : I → I} {t : Tens B.R B.C I} (ht : t.NotReal) :
    (dtypeBackend B I f g).rfft t = .error .type := by
  cases t with
  | real => exact ht.elim
  | complex => rfl
  | int => rfl

theorem dtype1_never {fo : FrontOps Tens1} (hf : KeepFront fo) (o : Obj1D (List ℝ)) {t : Tens1} (ht : t.NotReal)
    (out : Out1D Tens1) : Front1D.scattering npDtype fo o t ≠ .ok out := by
  intro h
  obtain ⟨-, -, h⟩ := bind_eq_ok.1 h
  obtain ⟨U, hU, h⟩ := bind_eq_ok.1 h
  obtain ⟨ls, -, h⟩ := bind_eq_ok.1 h
  obtain ⟨p, h, -⟩ := bind_eq_ok.1 h
  obtain ⟨c, hc, -⟩ := bind_eq_ok.1 h
  have e := rfft_notReal (B := npBackend) (f := List.map fun v => |v|) (g := List.map fun v => |v|)
    (hf.keep t ht _ _ _ hU)
  cases hc.symm.trans e

theorem dtype1_type {fo : FrontOps Tens1} (hf : KeepFront fo) (o : Obj1D (List ℝ)) {t : Tens1} (ht : t.NotReal)
    {x : List ℝ} (hx : x.length = t.length) {w : Out1D (List ℝ)}
    (h : Front1D.scattering npBackend npFront o x = .ok w) : Front1D.scattering npDtype fo o t = .error .type := by
  obtain ⟨⟨⟩, h1, h⟩ := bind_eq_ok.1 h
  obtain ⟨U, hU, h⟩ := bind_eq_ok.1 h
  obtain ⟨ls, hls, -⟩ := bind_eq_ok.1 h
  obtain ⟨y, hy⟩ := hf.total t x _ _ hx ⟨U, hU⟩
  have e := rfft_notReal (B := npBackend) (f := List.map fun v => |v|) (g := List.map fun v => |v|)
    (hf.keep t ht _ _ _ hy)
  unfold Front1D.scattering
  rw [h1, hls]
  show (fo.pad t o.padLeft o.padRight >>= _) = _
  rw [hy]
  show (Core1D.scattering1d npDtype y o.phi (Front1D.psis o) ls.toNat (decide (o.average = .loc)) >>= _) = _
  unfold Core1D.scattering1d
  rw [e]
  rfl

/-- **Dtype checks, 1-D numpy.**  A complex or integer signal is never transformed; it raises `TypeError` whenever a
real signal of the same length would be accepted. -/
theorem C78_np_1d_rejects (a : Args1D) (t : Tens1) (ht : t.NotReal) :
    (∀ out, a.runDtype t ≠ .ok out) ∧
    ∀ x : List ℝ, x.length = t.length → (∃ w, a.run x = .ok w) → a.runDtype t = .error .type := by
  constructor
  · intro out h
    obtain ⟨s, -, h⟩ := bind_eq_ok.1 h
    exact dtype1_never npDtypeFront_keep _ ht out h
  · rintro x hx ⟨w, hw⟩
    obtain ⟨s, hs, hw⟩ := bind_eq_ok.1 hw
    unfold Args1D.runDtype
    rw [hs]
    exact dtype1_type npDtypeFront_keep _ ht hx hw

/-- **Dtype checks, 1-D TensorFlow.** -/
theorem C78_tf_1d_rejects (a : Args1D) (t : Tens1) (ht : t.NotReal) :
    (∀ out, a.runTf t ≠ .ok out) ∧
    ∀ x : List ℝ, x.length = t.length → (∃ w, a.run x = .ok w) → a.runTf t = .error .type := by
  constructor
  · intro out h
    obtain ⟨s, -, h⟩ := bind_eq_ok.1 h
    exact dtype1_never tfFront_keep _ ht out h
  · rintro x hx ⟨w, hw⟩
    obtain ⟨s, hs, hw⟩ := bind_eq_ok.1 hw
    unfold Args1D.runTf
    rw [hs]
    exact dtype1_type tfFront_keep _ ht hx hw

/-- A real signal is accepted by the TensorFlow object. -/
example (x : List ℝ) (hx : x.length = 1000) : ∃ w, (exArgs .none .dict).runTf (.real x) = .ok w := by
  obtain ⟨s, -, -, -, hrun⟩ := exArgs_run (T := .none) (av := .loc) .dict (Or.inl ⟨rfl, rfl⟩) (Or.inr (Or.inl rfl))
  obtain ⟨r, hr⟩ := hrun x hx
  exact ⟨_, (C77_tf_1d _ _ _).2 ⟨r, hr, rfl⟩⟩

/-- An integer signal of the right length raises `TypeError`. -/
example : (exArgs .none .dict).runDtype (.int (List.replicate 1000 3)) = .error .type := by
  obtain ⟨s, -, -, -, hrun⟩ := exArgs_run (T := .none) (av := .loc) .dict (Or.inl ⟨rfl, rfl⟩) (Or.inr (Or.inl rfl))
  exact (C78_np_1d_rejects _ (.int (List.replicate 1000 3)) True.intro).2 (List.replicate 1000 0)
    (List.length_replicate.trans List.length_replicate.symm) (hrun _ List.length_replicate)

/-! ## C23 for every `out_type` -/

theorem outRel_eq {A B : Backend1D} {S : BackendRel A B} {R : Type} (hA : A.R = R) (hB : B.R = R)
    {fa : FrontOps A.R} {fb : FrontOps B.R} (F : Front1D.FrontRel S fa fb)
    (hF : ∀ i x y, F.rOut i x y → (hB ▸ y : R) = (hA ▸ x : R)) {w : Out1D A.R} {v : Out1D B.R}
    (h : Front1D.OutRel F w v) : (hB ▸ v : Out1D R) = (hA ▸ w : Out1D R) := by
  obtain ⟨RA, C, F0, r1, r2, r3, r4, r5, r6⟩ := A
  obtain ⟨RB, C', F', s1, s2, s3, s4, s5, s6⟩ := B
  simp only at hA hB
  subst hA
  subst hB
  show v = w
  have hid : ∀ {α : Type} {l m : List α}, List.Forall₂ (fun a b => b = id a) l m → m = l := fun h => by
    rw [forall₂_eq_map h, List.map_id]
  cases w with
  | array l =>
    cases v with
    | array m =>
      have h : List.Forall₂ (fun x y => ∃ i, F.rOut i x y) l m := h
      exact congrArg Out1D.array (hid (h.imp fun a b ⟨i, hi⟩ => hF i _ _ hi))
    | list => exact h.elim
    | dict => exact h.elim
  | list l =>
    cases v with
    | list m =>
      have h : List.Forall₂ (Front1D.PathRel F) l m := h
      refine congrArg Out1D.list (hid (h.imp fun p q ⟨h1, h2, h3⟩ => ?_))
      cases p; cases q
      have := hF _ _ _ h3
      simp only at h1 h2 this
      subst h1
      subst h2
      rw [this]; rfl
    | array => exact h.elim
    | dict => exact h.elim
  | dict l =>
    cases v with
    | dict m =>
      have h : List.Forall₂ (fun a b => a.1 = b.1 ∧ ∃ i, F.rOut i a.2 b.2) l m := h
      refine congrArg Out1D.dict (hid (h.imp fun p q ⟨h1, i, h2⟩ => ?_))
      exact Prod.ext h1.symm (hF _ _ _ h2)
    | array => exact h.elim
    | list => exact h.elim

/-- **Torch = numpy for every `out_type`.**  For every object and signal the torch run returns exactly when the numpy run
does, and then the same array, list or dictionary. -/
theorem C23_every_out_type (o : Obj1D (List ℝ)) (x : List ℝ) (w : Out1D (List ℝ)) :
    Front1D.scattering torchBackend torchFront o x = .ok w ↔ Front1D.scattering npBackend npFront o x = .ok w := by
  constructor
  · intro h
    obtain ⟨r, hr, hrel⟩ := Front1D.sim_out torchToNpFront (fun _ x y (h : y = x) => by rw [h]; rfl) (obj_torch o)
      (x := x) (y := x) rfl _ h
    rw [hr]
    exact congrArg Except.ok (outRel_eq (R := List ℝ) rfl rfl torchToNpFront (fun _ x y (h : y = x) => h) hrel)
  · intro h
    obtain ⟨r, hr, hrel⟩ := Front1D.sim_out npToTorchFront (fun _ x y (h : y = x) => by rw [h]; rfl) (obj_torch' o)
      (x := x) (y := x) rfl _ h
    rw [hr]
    exact congrArg Except.ok (outRel_eq (R := List ℝ) rfl rfl npToTorchFront (fun _ x y (h : y = x) => h) hrel)

example (x : List ℝ) (hx : x.length = 1000) : ∃ s rows,
    Front1D.scattering torchBackend torchFront ((exArgs .none .array).obj s) x = .ok (.array rows) := by
  obtain ⟨s, hs, -, -, hrun⟩ := exArgs_run (T := .none) (av := .loc) .array (Or.inl ⟨rfl, rfl⟩)
    (Or.inr (Or.inr ⟨rfl, by simp⟩))
  obtain ⟨r, hr⟩ := hrun x hx
  obtain ⟨s', hs', hr⟩ := bind_eq_ok.1 hr
  have hr0 := hr
  obtain ⟨_, _, hr⟩ := bind_eq_ok.1 hr
  obtain ⟨_, _, hr⟩ := bind_eq_ok.1 hr
  obtain ⟨_, _, hr⟩ := bind_eq_ok.1 hr
  obtain ⟨_, _, hr⟩ := bind_eq_ok.1 hr
  obtain ⟨_, _, hr⟩ := bind_eq_ok.1 hr
  obtain ⟨rows, _, hr⟩ := bind_eq_ok.1 hr
  obtain rfl := Except.ok.inj hr
  exact ⟨s', rows, (C23_every_out_type _ _ _).2 hr0⟩

/-! ## Two dimensions -/

theorem path2_map {l : List (Path2 (Img ℝ))} {m : List (Path2 Tens2)}
    (h : List.Forall₂ (Core2D.path2 (A := np2Backend) (B := npDtype2) fun _ (x : Img ℝ) (t : Tens2) => t = .real x) l m) :
    m = l.map fun p => ⟨.real p.coef, p.j, p.n, p.theta⟩ := by
  apply forall₂_eq_map
  refine h.imp ?_
  rintro p q ⟨h1, h2, h3, h4⟩
  cases q
  simp only at h1 h2 h3 h4
  rw [h1, h2, h3, h4]

theorem filt2_refl {A B : Backend1D} (S : BackendRel A B) (hF : A.F = B.F) (h : ∀ k (a : A.F), S.rF k a (hF ▸ a))
    (l : List (Filt2 A.F)) : List.Forall₂ (Core2D.filt2 S) l (hF ▸ l) := by
  obtain ⟨R, C, F, r1, r2, r3, r4, r5, r6⟩ := A
  obtain ⟨R', C', F', s1, s2, s3, s4, s5, s6⟩ := B
  simp only at hF
  subst hF
  show List.Forall₂ (Core2D.filt2 S) l l
  induction l with
  | nil => exact List.Forall₂.nil
  | cons f q ih =>
    exact List.Forall₂.cons ⟨rfl, rfl, rfl, fun k a b ha hb => by rw [ha] at hb; cases hb; exact h k a⟩ ih

theorem stack_dtype (padA : Img ℝ → Py (Img ℝ)) (padB : Tens2 → Py Tens2) (l : List (Img ℝ)) :
    Core2D.stack npDtype2 ⟨padB, Tens2.unpad, Tens2.size⟩ (l.map Tens.real) =
      (Core2D.stack np2Backend ⟨padA, np2Unpad, fun x => (x.h, x.w)⟩ l).map fun r => r.map Tens.real := by
  unfold Core2D.stack
  cases l with
  | nil => rfl
  | cons a l =>
    simp only [List.map_cons]
    have : ((Tens.real a :: l.map Tens.real : List Tens2).all fun b => Tens2.size b == Tens2.size (.real a)) =
        ((a :: l).all fun b => (b.h, b.w) == (a.h, a.w)) := by
      rw [← List.map_cons (f := (Tens.real : Img ℝ → Tens2)), List.all_map]; rfl
    rw [this]
    split
    · rfl
    · rfl

/-- On a real image the tagged core returns exactly when the typed one does. -/
theorem dtype2_real {padA : Img ℝ → Py (Img ℝ)} {padB : Tens2 → Py Tens2} {x : Img ℝ}
    (hp : padB (.real x) = (padA x).map .real) (J : Nat) (phi : List (Img ℝ)) (psi : List (Filt2 (Img ℝ))) (mo : Int)
    (arr : Bool) (out : Out2D Tens2) :
    Core2D.scattering2d npDtype2 ⟨padB, Tens2.unpad, Tens2.size⟩ (.real x) J phi psi mo arr = .ok out ↔
      ∃ w, Core2D.scattering2d np2Backend ⟨padA, np2Unpad, fun x => (x.h, x.w)⟩ x J phi psi mo arr = .ok w ∧
        out = w.map .real := by
  have fwd : ∀ {l}, Core2D.paths np2Backend ⟨padA, np2Unpad, fun x => (x.h, x.w)⟩ x J phi psi mo = .ok l →
      Core2D.paths npDtype2 ⟨padB, Tens2.unpad, Tens2.size⟩ (.real x) J phi psi mo =
        .ok (l.map fun p => ⟨.real p.coef, p.j, p.n, p.theta⟩) := by
    intro l hl
    obtain ⟨m, hm, hrel⟩ := Core2D.sim_paths
      (toDtype np2Backend (Img ℤ) (fun x => x.map fun v => |v|) (fun x => x.map fun v => |v|))
      (opsA := ⟨padA, np2Unpad, fun x => (x.h, x.w)⟩) (opsB := ⟨padB, Tens2.unpad, Tens2.size⟩)
      (P := fun _ x t => t = .real x) (J := J)
      (fun i r t (h : t = Tens.real r) => by subst h; rfl)
      (phi := phi) (phi' := phi) ⟨rfl, fun k a b ha hb => by rw [ha] at hb; cases hb; rfl⟩
      (psi := psi) (psi' := psi) (filt2_refl (toDtype np2Backend (Img ℤ) (fun x => x.map fun v => |v|)
        (fun x => x.map fun v => |v|)) rfl (fun _ _ => rfl) psi) mo (x := x) (y := .real x)
      (by
        intro u hu
        have hu : padA x = .ok u := hu
        refine ⟨.real u, ?_, rfl⟩
        show padB (.real x) = _
        rw [hp, hu]; rfl) _ hl
    rw [hm, path2_map hrel]
  have bwd : ∀ {m}, Core2D.paths npDtype2 ⟨padB, Tens2.unpad, Tens2.size⟩ (.real x) J phi psi mo = .ok m →
      ∃ l, Core2D.paths np2Backend ⟨padA, np2Unpad, fun x => (x.h, x.w)⟩ x J phi psi mo = .ok l := by
    intro m hm
    obtain ⟨l, hl, -⟩ := Core2D.sim_paths
      (fromDtype np2Backend (Img ℤ) (fun x => x.map fun v => |v|) (fun x => x.map fun v => |v|))
      (opsA := ⟨padB, Tens2.unpad, Tens2.size⟩) (opsB := ⟨padA, np2Unpad, fun x => (x.h, x.w)⟩)
      (P := fun _ t x => t = .real x) (J := J)
      (fun i t r (h : t = Tens.real r) => by subst h; rfl)
      (phi := phi) (phi' := phi) ⟨rfl, fun k a b ha hb => by rw [ha] at hb; cases hb; rfl⟩
      (psi := psi) (psi' := psi) (filt2_refl (fromDtype np2Backend (Img ℤ) (fun x => x.map fun v => |v|)
        (fun x => x.map fun v => |v|)) rfl (fun _ _ => rfl) psi) mo (x := .real x) (y := x)
      (by
        intro u hu
        have hu : padB (.real x) = .ok u := hu
        rw [hp] at hu
        cases hq : padA x with
        | error e => rw [hq] at hu; cases hu
        | ok z =>
          rw [hq] at hu
          cases hu
          exact ⟨z, hq, rfl⟩) _ hm
    exact ⟨l, hl⟩
  have fwd' : ∀ {w}, Core2D.scattering2d np2Backend ⟨padA, np2Unpad, fun x => (x.h, x.w)⟩ x J phi psi mo arr = .ok w →
      Core2D.scattering2d npDtype2 ⟨padB, Tens2.unpad, Tens2.size⟩ (.real x) J phi psi mo arr = .ok (w.map .real) := by
    intro w hw
    obtain ⟨l, hl, hw⟩ := bind_eq_ok.1 hw
    refine bind_eq_ok.2 ⟨_, fwd hl, ?_⟩
    cases arr with
    | false => cases hw; rfl
    | true =>
      obtain ⟨rows, hr, hw⟩ := bind_eq_ok.1 hw
      cases hw
      refine bind_eq_ok.2 ⟨rows.map .real, ?_, rfl⟩
      have := stack_dtype padA padB (l.map fun p => p.coef)
      rw [hr, List.map_map] at this
      rw [List.map_map]
      exact this
  constructor
  · intro h
    obtain ⟨m, hm, h'⟩ := bind_eq_ok.1 h
    obtain ⟨l, hl⟩ := bwd hm
    have hml : m = _ := Except.ok.inj (hm.symm.trans (fwd hl))
    have : ∃ w, Core2D.scattering2d np2Backend ⟨padA, np2Unpad, fun x => (x.h, x.w)⟩ x J phi psi mo arr = .ok w := by
      cases arr with
      | false => exact ⟨_, bind_eq_ok.2 ⟨l, hl, rfl⟩⟩
      | true =>
        obtain ⟨rows, hr, -⟩ := bind_eq_ok.1 h'
        have e := stack_dtype padA padB (l.map fun p => p.coef)
        rw [hml, List.map_map] at hr
        rw [List.map_map] at e
        have hr := e.symm.trans hr
        cases hq : Core2D.stack np2Backend ⟨padA, np2Unpad, fun x => (x.h, x.w)⟩ (l.map fun p => p.coef) with
        | error e => rw [hq] at hr; cases hr
        | ok z => exact ⟨_, bind_eq_ok.2 ⟨l, hl, bind_eq_ok.2 ⟨z, hq, rfl⟩⟩⟩
    obtain ⟨w, hw⟩ := this
    exact ⟨w, hw, Except.ok.inj (h.symm.trans (fwd' hw))⟩
  · rintro ⟨w, hw, rfl⟩
    exact fwd' hw

theorem bind_ok_map {α β : Type} (x : Py α) (f : α → β) : (x >>= fun y => .ok (f y)) = x.map f := by
  cases x <;> rfl

/-- **Dtype checks never fire on real images, 2-D numpy.** -/
theorem C78_np_2d_real (a : Args2D) (x : Img ℝ) (out : Out2D Tens2) :
    a.runDtype (.real x) = .ok out ↔ ∃ w, a.run x = .ok w ∧ out = w.map .real := by
  have hp : ∀ s, a.padDtype s (.real x) = (a.pad s x).map .real := by
    intro s
    unfold Args2D.padDtype Args2D.pad
    split
    · rfl
    · exact bind_ok_map _ _
  unfold Args2D.runDtype Args2D.run
  simp only [bind_eq_ok]
  constructor
  · rintro ⟨s, hs, u, hu, h⟩
    obtain ⟨w, hw, h⟩ := (dtype2_real (hp s) _ _ _ _ _ _).1 h
    exact ⟨w, ⟨s, hs, u, hu, hw⟩, h⟩
  · rintro ⟨w, ⟨s, hs, u, hu, hw⟩, h⟩
    exact ⟨s, hs, u, hu, (dtype2_real (hp s) _ _ _ _ _ _).2 ⟨w, hw, h⟩⟩

/-- **TensorFlow = numpy, 2-D.**  Without `pre_pad`, the TensorFlow transform of a real
image returns exactly when the numpy one does, and then the same coefficients. -/
theorem C77_tf_2d_partial (a : Args2D) (hp : a.prePad = false) (x : Img ℝ)
    (out : Out2D Tens2) : a.runTf (.real x) = .ok out ↔ ∃ w, a.run x = .ok w ∧ out = w.map .real := by
  have hpad : ∀ s, a.make = .ok s → s.phi ≠ [] → a.check s x.h x.w = .ok () →
      a.padTf s (.real x) = (a.pad s x).map .real := by
    intro s hs hphi hc
    rw [← torch2_pad hs (two_le_sides hs hphi).1 (two_le_sides hs hphi).2 hc]
    unfold Args2D.padTf Args2D.torchPad
    rw [if_neg (by simp [hp]), if_neg (by simp [hp])]
    exact bind_ok_map _ _
  unfold Args2D.runTf Args2D.run
  simp only [bind_eq_ok]
  constructor
  · rintro ⟨s, hs, ⟨⟩, hu, h⟩
    obtain ⟨l, hl, -⟩ := bind_eq_ok.1 h
    obtain ⟨w, hw, h⟩ := (dtype2_real (hpad s hs (paths_phi_ne hl) hu) _ _ _ _ _ _).1 h
    exact ⟨w, ⟨s, hs, (), hu, hw⟩, h⟩
  · rintro ⟨w, ⟨s, hs, ⟨⟩, hu, hw⟩, h⟩
    obtain ⟨l, hl, -⟩ := bind_eq_ok.1 hw
    exact ⟨s, hs, (), hu, (dtype2_real (hpad s hs (paths_phi_ne hl) hu) _ _ _ _ _ _).2 ⟨w, hw, h⟩⟩

theorem dtype2_rejects {padB : Tens2 → Py Tens2} {t y : Tens2} (hy : padB t = .ok y) (h : y.NotReal) (J : Nat)
    (phi : List (Img ℝ)) (psi : List (Filt2 (Img ℝ))) (mo : Int) (arr : Bool) :
    Core2D.scattering2d npDtype2 ⟨padB, Tens2.unpad, Tens2.size⟩ t J phi psi mo arr = .error .type := by
  unfold Core2D.scattering2d Core2D.paths
  show ((padB t >>= _) >>= _) = _
  rw [hy]
  show (((npDtype2.rfft y) >>= _) >>= _) = _
  rw [rfft_notReal h]
  rfl

/-- **The TensorFlow 2-D frontend cannot be used with `pre_pad`.**  Its `pad` casts to complex, which `rfft` refuses:
whatever the dtype of the image, nothing is ever returned, and an image of the right shape raises `TypeError`. -/
theorem C77_tf_2d_prepad_violated (a : Args2D) (hp : a.prePad = true) (t : Tens2) :
    (∀ out, a.runTf t ≠ .ok out) ∧ ∀ s, a.make = .ok s → a.check s t.size.1 t.size.2 = .ok () →
      a.runTf t = .error .type := by
  have hpad : ∀ s, a.padTf s t = .ok t.castComplex := by
    intro s; unfold Args2D.padTf; rw [if_pos hp]
  have hnr : t.castComplex.NotReal := by cases t <;> trivial
  constructor
  · intro out h
    unfold Args2D.runTf at h
    obtain ⟨s, hs, h⟩ := bind_eq_ok.1 h
    obtain ⟨-, -, h⟩ := bind_eq_ok.1 h
    rw [dtype2_rejects (hpad s) hnr] at h
    cases h
  · intro s hs hc
    unfold Args2D.runTf
    rw [hs]
    show (a.check s t.size.1 t.size.2 >>= _) = _
    rw [hc]
    exact dtype2_rejects (hpad s) hnr _ _ _ _ _

/-- The numpy frontend transforms the image the TensorFlow one refuses. -/
example : ∃ w, exArgs2p.run (Img.tab 16 20 fun i j => (i * j : ℝ)) = .ok w ∧
    exArgs2p.runTf (.real (Img.tab 16 20 fun i j => (i * j : ℝ))) = .error .type := by
  obtain ⟨out, h⟩ := C40_no_error exArgs2p (by decide) (by decide) (by decide) (by decide)
    (Img.tab 16 20 fun i j => (i * j : ℝ)) ⟨by decide, by decide⟩
  obtain ⟨s, l, hs, hc, -⟩ := run_eq_ok h
  exact ⟨out, h, (C77_tf_2d_prepad_violated exArgs2p rfl _).2 s hs hc⟩

example : ∃ w, exArgs2.runTf (.real (Img.tab 9 14 fun i j => (i * j : ℝ))) = .ok w := by
  obtain ⟨l, h⟩ := exArgs2_run (Img.tab 9 14 fun i j => (i * j : ℝ)) rfl rfl
  exact ⟨_, (C77_tf_2d_partial exArgs2 rfl _ _).2 ⟨_, h, rfl⟩⟩

theorem np2Pad_ok {α β : Type} [Zero α] [Zero β] {t b l r : Nat} {x : Img α} {y : Img β} (hh : x.h = y.h)
    (hw : x.w = y.w) (h : ∃ z, np2Pad t b l r x = .ok z) : ∃ z, np2Pad t b l r y = .ok z := by
  obtain ⟨z, hz⟩ := h
  unfold np2Pad at hz ⊢
  split at hz
  · cases hz
  · rename_i hc
    rw [hh, hw] at hc
    rw [if_neg hc]
    exact ⟨_, rfl⟩

theorem torch2Pad_ok {α β : Type} [Zero α] [Zero β] {t b l r H W : Nat} {x : Img α} {y : Img β} (hh : x.h = y.h)
    (hw : x.w = y.w) (h : ∃ z, torch2Pad t b l r H W x = .ok z) : ∃ z, torch2Pad t b l r H W y = .ok z := by
  obtain ⟨z, hz⟩ := h
  unfold torch2Pad at hz ⊢
  simp only at hz ⊢
  generalize (if t = H then (t - 1, b - 1) else (t, b)) = tb at hz ⊢
  generalize (if l = W then (l - 1, r - 1) else (l, r)) = lr at hz ⊢
  split at hz
  · cases hz
  · rename_i hc
    rw [if_neg hc]
    obtain ⟨y1, h1, hz⟩ := bind_eq_ok.1 hz
    obtain ⟨z1, h2, hcol⟩ := bind_eq_ok.1 hz
    unfold reflectionPad2d at h1 ⊢
    split at h1
    · cases h1
    · rename_i hc1
      rw [hh, hw] at hc1
      rw [if_neg hc1]
      cases h1
      have key : ∃ z2, condPy (t = H) catRows (Img.tab (tb.1 + y.h + tb.2) (lr.1 + y.w + lr.2) fun i j =>
          y.px (reflectIndex y.h tb.1 i) (reflectIndex y.w lr.1 j)) = .ok z2 ∧ z2.w = z1.w := by
        unfold condPy catRows at h2 ⊢
        by_cases hH : t = H
        · rw [if_pos hH] at h2 ⊢
          split at h2
          · cases h2
          · rename_i hc2
            cases h2
            have hc2 : ¬ (tb.1 + x.h + tb.2 < 2) := hc2
            rw [hh] at hc2
            refine ⟨_, if_neg hc2, by show lr.1 + y.w + lr.2 = lr.1 + x.w + lr.2; rw [hw]⟩
        · rw [if_neg hH] at h2 ⊢
          cases h2
          exact ⟨_, rfl, by show lr.1 + y.w + lr.2 = lr.1 + x.w + lr.2; rw [hw]⟩
      obtain ⟨z2, hz2, hzw⟩ := key
      have : ∃ z3, condPy (l = W) catCols z2 = .ok z3 := by
        unfold condPy catCols at hcol ⊢
        by_cases hW : l = W
        · rw [if_pos hW] at hcol ⊢
          split at hcol
          · cases hcol
          · rename_i hc3
            rw [← hzw] at hc3
            exact ⟨_, if_neg hc3⟩
        · rw [if_neg hW]; exact ⟨_, rfl⟩
      obtain ⟨z3, hz3⟩ := this
      exact ⟨z3, bind_eq_ok.2 ⟨_, rfl, bind_eq_ok.2 ⟨z2, hz2, hz3⟩⟩⟩

/-- **Dtype checks, 2-D numpy.**  A complex or integer image is never transformed; it raises `TypeError` whenever a real
image of the same shape would be accepted. -/
theorem C78_np_2d_rejects (a : Args2D) (t : Tens2) (ht : t.NotReal) :
    (∀ out, a.runDtype t ≠ .ok out) ∧
    ∀ x : Img ℝ, (x.h, x.w) = t.size → (∃ w, a.run x = .ok w) → a.runDtype t = .error .type := by
  have keep : ∀ s y, a.padDtype s t = .ok y → y.NotReal := by
    intro s y h
    unfold Args2D.padDtype at h
    split at h
    · cases h; exact ht
    · cases t with
      | real => exact ht.elim
      | complex x => obtain ⟨z, -, h⟩ := bind_eq_ok.1 h; cases h; trivial
      | int x => obtain ⟨z, -, h⟩ := bind_eq_ok.1 h; cases h; trivial
  constructor
  · intro out h
    have h0 := h
    obtain ⟨s, hs, h⟩ := bind_eq_ok.1 h
    obtain ⟨-, -, h⟩ := bind_eq_ok.1 h
    obtain ⟨m, hm, -⟩ := bind_eq_ok.1 h
    obtain ⟨y, hy, -⟩ := bind_eq_ok.1 hm
    rw [dtype2_rejects hy (keep s y hy)] at h
    cases h
  · rintro x hx ⟨w, hw⟩
    obtain ⟨s, hs, hw⟩ := bind_eq_ok.1 hw
    obtain ⟨⟨⟩, hc, hw⟩ := bind_eq_ok.1 hw
    obtain ⟨m, hm, -⟩ := bind_eq_ok.1 hw
    obtain ⟨y, hy, -⟩ := bind_eq_ok.1 hm
    have hy : a.pad s x = .ok y := hy
    have : ∃ y, a.padDtype s t = .ok y := by
      unfold Args2D.padDtype
      unfold Args2D.pad at hy
      split
      · exact ⟨_, rfl⟩
      · rename_i hpp
        rw [if_neg hpp] at hy
        cases t with
        | real => exact ht.elim
        | complex z =>
          obtain ⟨u, hu⟩ := np2Pad_ok (y := z) (Prod.mk.inj hx).1 (Prod.mk.inj hx).2 ⟨y, hy⟩
          exact ⟨_, bind_eq_ok.2 ⟨u, hu, rfl⟩⟩
        | int z =>
          obtain ⟨u, hu⟩ := np2Pad_ok (y := z) (Prod.mk.inj hx).1 (Prod.mk.inj hx).2 ⟨y, hy⟩
          exact ⟨_, bind_eq_ok.2 ⟨u, hu, rfl⟩⟩
    obtain ⟨y', hy'⟩ := this
    unfold Args2D.runDtype
    rw [hs]
    show (a.check s t.size.1 t.size.2 >>= _) = _
    rw [← hx, hc]
    exact dtype2_rejects hy' (keep s y' hy') _ _ _ _ _

/-- **Dtype checks, 2-D TensorFlow.** -/
theorem C78_tf_2d_rejects (a : Args2D) (t : Tens2) (ht : t.NotReal) :
    (∀ out, a.runTf t ≠ .ok out) ∧
    ∀ x : Img ℝ, (x.h, x.w) = t.size → (∃ w, a.run x = .ok w) → a.runTf t = .error .type := by
  have keep : ∀ s y, a.padTf s t = .ok y → y.NotReal := by
    intro s y h
    unfold Args2D.padTf at h
    split at h
    · cases h; cases t <;> trivial
    · cases t with
      | real => exact ht.elim
      | complex x => obtain ⟨z, -, h⟩ := bind_eq_ok.1 h; cases h; trivial
      | int x => obtain ⟨z, -, h⟩ := bind_eq_ok.1 h; cases h; trivial
  constructor
  · intro out h
    have h0 := h
    obtain ⟨s, hs, h⟩ := bind_eq_ok.1 h
    obtain ⟨-, -, h⟩ := bind_eq_ok.1 h
    obtain ⟨m, hm, -⟩ := bind_eq_ok.1 h
    obtain ⟨y, hy, -⟩ := bind_eq_ok.1 hm
    rw [dtype2_rejects hy (keep s y hy)] at h
    cases h
  · rintro x hx ⟨w, hw⟩
    obtain ⟨s, hs, hw⟩ := bind_eq_ok.1 hw
    obtain ⟨⟨⟩, hc, hw⟩ := bind_eq_ok.1 hw
    obtain ⟨m, hm, -⟩ := bind_eq_ok.1 hw
    obtain ⟨hM, hN⟩ := two_le_sides hs (paths_phi_ne hm)
    obtain ⟨y, hy, -⟩ := bind_eq_ok.1 hm
    have hy : a.torchPad s x = .ok y := (torch2_pad hs hM hN hc).trans hy
    have : ∃ y, a.padTf s t = .ok y := by
      unfold Args2D.padTf
      unfold Args2D.torchPad at hy
      split
      · exact ⟨_, rfl⟩
      · rename_i hpp
        rw [if_neg hpp] at hy
        cases t with
        | real => exact ht.elim
        | complex z =>
          obtain ⟨u, hu⟩ := torch2Pad_ok (y := z) (Prod.mk.inj hx).1 (Prod.mk.inj hx).2 ⟨y, hy⟩
          exact ⟨_, bind_eq_ok.2 ⟨u, hu, rfl⟩⟩
        | int z =>
          obtain ⟨u, hu⟩ := torch2Pad_ok (y := z) (Prod.mk.inj hx).1 (Prod.mk.inj hx).2 ⟨y, hy⟩
          exact ⟨_, bind_eq_ok.2 ⟨u, hu, rfl⟩⟩
    obtain ⟨y', hy'⟩ := this
    unfold Args2D.runTf
    rw [hs]
    show (a.check s t.size.1 t.size.2 >>= _) = _
    rw [← hx, hc]
    exact dtype2_rejects hy' (keep s y' hy') _ _ _ _ _

example : exArgs2.runTf (.int (Img.tab 9 14 fun i j => (i * j : ℤ))) = .error .type := by
  obtain ⟨l, h⟩ := exArgs2_run (Img.tab 9 14 fun i j => (i * j : ℝ)) rfl rfl
  exact (C78_tf_2d_rejects exArgs2 (.int (Img.tab 9 14 fun i j => (i * j : ℤ))) True.intro).2 _ rfl ⟨_, h⟩

/-! ## Three dimensions -/

/-- The two tagged 3-D backends differ in `cdgmm3d` and `modulus_rotation` only. -/
noncomputable abbrev tag3 (qs : List ℝ) (cd : Tens3 → Vol ℂ → Py Tens3) (mr : Tens3 → Option Tens3 → Py Tens3) :
    Backend3D where
  R := Tens3
  C := Tens3
  F := Vol ℂ
  A := List ℝ
  rfft t := match t with
    | .real x => .ok (.complex (dft3 (x.map fun r : ℝ => (r : ℂ))))
    | _ => .error .type
  ifft t := match t with
    | .complex z => .ok (.complex (idft3 z))
    | _ => .error .type
  cdgmm3d := cd
  modulus t := .ok t.abs
  modulusRotation := mr
  averaging := averagingDtype qs

section tag3

variable {qs : List ℝ} {cd : Tens3 → Vol ℂ → Py Tens3} {mr : Tens3 → Option Tens3 → Py Tens3}
  (hcd : ∀ z f, cd (.complex z) f = (np3Cdgmm z f).map .complex)
  (hmr : ∀ z m, mr (.complex z) (m.map .real) = .ok (.real (np3ModRot z m)))

include hcd hmr

theorem tag3_rotLoop (z : Vol ℂ) (fs : List (Vol ℂ)) : ∀ m : Option (Vol ℝ),
    Core3D.rotLoop (tag3 qs cd mr) (.complex z) fs (m.map .real) =
      (Core3D.rotLoop (np3Backend qs) z fs m).map fun m => m.map .real := by
  induction fs with
  | nil => intro m; rfl
  | cons f fs ih =>
    intro m
    unfold Core3D.rotLoop
    show (cd (.complex z) f >>= _) = _
    rw [hcd]
    show _ = Except.map _ (np3Cdgmm z f >>= _)
    cases np3Cdgmm z f with
    | error e => rfl
    | ok c =>
      show (mr (.complex (idft3 c)) (m.map .real) >>= _) = _
      rw [hmr]
      exact ih (some _)

theorem tag3_wave (rot : Bool) (z : Vol ℂ) (fs : List (Vol ℂ)) :
    Core3D.wave (tag3 qs cd mr) rot (.complex z) fs = (Core3D.wave (np3Backend qs) rot z fs).map .real := by
  unfold Core3D.wave
  cases rot with
  | true =>
    simp only [if_true]
    have := tag3_rotLoop (qs := qs) hcd hmr z fs none
    rw [show (Option.map (Tens.real : Vol ℝ → Tens3) none) = none from rfl] at this
    rw [this]
    cases Core3D.rotLoop (np3Backend qs) z fs none with
    | error e => rfl
    | ok m => cases m <;> rfl
  | false =>
    simp only [Bool.false_eq_true, if_false]
    show (listGet fs 0 >>= _) = Except.map _ (listGet fs 0 >>= _)
    cases listGet fs 0 with
    | error e => rfl
    | ok f =>
      show (cd (.complex z) f >>= _) = Except.map _ (np3Cdgmm z f >>= _)
      rw [hcd]
      cases np3Cdgmm z f with
      | error e => rfl
      | ok c => rfl

theorem tag3_coef2 (rot : Bool) (fl : List (List (Vol ℂ))) (z : Vol ℂ) (j : Nat) :
    Core3D.coef2 (tag3 qs cd mr) rot fl (.complex z) j = Core3D.coef2 (np3Backend qs) rot fl z j := by
  unfold Core3D.coef2
  cases listGet fl j with
  | error e => rfl
  | ok fs =>
    show (Core3D.wave (tag3 qs cd mr) rot (.complex z) fs >>= _) = (Core3D.wave (np3Backend qs) rot z fs >>= _)
    rw [tag3_wave hcd hmr]
    cases Core3D.wave (np3Backend qs) rot z fs <;> rfl

theorem tag3_order2 (rot : Bool) (J : Nat) (mo : Int) (fl : List (List (Vol ℂ))) (x : Vol ℝ) (j : Nat) :
    Core3D.order2 (tag3 qs cd mr) rot J mo fl (.real x) j = Core3D.order2 (np3Backend qs) rot J mo fl x j := by
  unfold Core3D.order2
  split
  · show List.mapM (Core3D.coef2 (tag3 qs cd mr) rot fl (.complex _)) _ = List.mapM (Core3D.coef2 (np3Backend qs) rot fl _) _
    congr 1
    funext j
    exact tag3_coef2 hcd hmr _ _ _ _
  · rfl

theorem tag3_order1 (rot : Bool) (J : Nat) (mo : Int) (fl : List (List (Vol ℂ))) (z : Vol ℂ) (j : Nat) :
    Core3D.order1 (tag3 qs cd mr) rot J mo fl (.complex z) j = Core3D.order1 (np3Backend qs) rot J mo fl z j := by
  unfold Core3D.order1
  cases listGet fl j with
  | error e => rfl
  | ok fs =>
    show (Core3D.wave (tag3 qs cd mr) rot (.complex z) fs >>= _) = (Core3D.wave (np3Backend qs) rot z fs >>= _)
    rw [tag3_wave hcd hmr]
    cases Core3D.wave (np3Backend qs) rot z fs with
    | error e => rfl
    | ok r =>
      show (np3Averaging qs r >>= fun S1 => Core3D.order2 (tag3 qs cd mr) rot J mo fl (.real r) j >>= _) = _
      rw [tag3_order2 hcd hmr]
      rfl

theorem tag3_scattering (x : Vol ℝ) (filters : List (List (List (Vol ℂ)))) (rot : Bool) (L J : Nat) (mo : Int) :
    Core3D.scattering3d (tag3 qs cd mr) (.real x) filters rot L J mo =
      Core3D.scattering3d (np3Backend qs) x filters rot L J mo := by
  unfold Core3D.scattering3d
  have : ∀ z : Vol ℂ, Core3D.perL (tag3 qs cd mr) rot J mo filters (.complex z) =
      Core3D.perL (np3Backend qs) rot J mo filters z := by
    intro z
    funext l
    unfold Core3D.perL
    have e : Core3D.order1 (tag3 qs cd mr) rot J mo = fun fl (t : Tens3) => Core3D.order1 (tag3 qs cd mr) rot J mo fl t :=
      rfl
    cases listGet filters l with
    | error e => rfl
    | ok fl =>
      show (List.mapM (Core3D.order1 (tag3 qs cd mr) rot J mo fl (.complex z)) _ >>= _) =
        (List.mapM (Core3D.order1 (np3Backend qs) rot J mo fl z) _ >>= _)
      have : Core3D.order1 (tag3 qs cd mr) rot J mo fl (.complex z) = Core3D.order1 (np3Backend qs) rot J mo fl z := by
        funext j; exact tag3_order1 hcd hmr _ _ _ _ _ _
      rw [this]
  show (List.mapM (Core3D.perL (tag3 qs cd mr) rot J mo filters (.complex _)) _ >>= _) = _
  rw [this]
  rfl

end tag3

/-- **Dtype checks never fire on real volumes, 3-D numpy.** -/
theorem C78_np_3d_real (a : Args3D) (Y : ℤ → ℕ → ℝ → ℝ → ℂ) (x : Vol ℝ) : a.runDtype Y (.real x) = a.run Y x := by
  unfold Args3D.runDtype Args3D.run
  show (if x.shape ≠ a.shape then _ else _) = _
  split
  · rfl
  · exact tag3_scattering (qs := a.powers) (fun z f => bind_ok_map _ _) (fun z m => by cases m <;> rfl) _ _ _ _ _ _

theorem tf3Cdgmm_eq (A f : Vol ℂ) : tf3Cdgmm A f = np3Cdgmm A f := by
  unfold tf3Cdgmm np3Cdgmm
  split
  · rfl
  · simp only [Vol.tab]
    refine congrArg (fun v => Except.ok (Vol.mk A.shape v)) ?_
    funext i
    by_cases hi : i ∈ box A.shape
    · simp only [if_pos hi]
      apply Complex.ext <;> simp
    · simp only [if_neg hi]

/-- **TensorFlow = numpy, 3-D.**  With `method='integral'` the TensorFlow transform of a real volume is the numpy one:
same result, same error. -/
theorem C77_tf_3d (a : Args3D) (Y : ℤ → ℕ → ℝ → ℝ → ℂ) (hm : a.methodOk = true) (x : Vol ℝ) :
    a.runTf Y (.real x) = a.run Y x := by
  unfold Args3D.runTf Args3D.run
  by_cases hx : x.shape = a.shape
  · rw [if_neg (not_not.2 (show Tens3.shape (.real x) = a.shape from hx)), if_neg (not_not.2 hx), if_neg (by simp [hm])]
    exact tag3_scattering (qs := a.powers) (fun z f => (by
      show (tf3Cdgmm z f >>= _) = _
      rw [tf3Cdgmm_eq]; exact bind_ok_map _ _)) (fun z m => by cases m <;> rfl) _ _ _ _ _ _
  · rw [if_pos (show Tens3.shape (.real x) ≠ a.shape from hx), if_pos hx]

example (Y : ℤ → ℕ → ℝ → ℝ → ℂ) : ∃ out, ex3.runTf Y (.real exVol) = .ok out := by
  obtain ⟨out, h, -⟩ := C45_layout_partial ex3 Y (by simp [ex3]) exVol rfl
  exact ⟨out, (C77_tf_3d ex3 Y rfl exVol).trans h⟩

/-- **The frontends disagree on `method`.**  TensorFlow (as torch) refuses another `method` with `ValueError`; the numpy
frontend ignores the argument and returns. -/
theorem C77_tf_3d_method_violated (a : Args3D) (Y : ℤ → ℕ → ℝ → ℝ → ℂ) (hm : a.methodOk = false) (hq : a.powers ≠ [])
    (x : Vol ℝ) (hx : x.shape = a.shape) :
    a.runTf Y (.real x) = .error .value ∧ ∃ out, a.run Y x = .ok out := by
  constructor
  · unfold Args3D.runTf
    rw [if_neg (not_not.2 (show Tens3.shape (.real x) = a.shape from hx)), if_pos (by simp [hm])]
  · obtain ⟨out, h, -⟩ := C45_layout_partial a Y hq x hx
    exact ⟨out, h⟩

/-- **Dtype checks, 3-D.**  A complex or integer volume of the right shape raises `TypeError` in both frontends
(TensorFlow: after the check of `method`). -/
theorem C78_3d_rejects (a : Args3D) (Y : ℤ → ℕ → ℝ → ℝ → ℂ) (t : Tens3) (ht : t.NotReal) :
    a.runDtype Y t = (if t.shape ≠ a.shape then .error .runtime else .error .type) ∧
    a.runTf Y t = (if t.shape ≠ a.shape then .error .runtime else if a.methodOk then .error .type else .error .value) := by
  constructor
  · unfold Args3D.runDtype
    split
    · rfl
    · cases t with
      | real => exact ht.elim
      | complex => rfl
      | int => rfl
  · unfold Args3D.runTf
    split
    · rfl
    · cases hm : a.methodOk with
      | false => rfl
      | true =>
        cases t with
        | real => exact ht.elim
        | complex => rfl
        | int => rfl

/-- The two sides of the disagreement on `method`. -/
example : (Args3D.runTf ⟨1, (4, 4, 4), 1, 1, 2, true, false, [1]⟩ (fun _ _ _ _ => 1)
    (.real (Vol.tab (4, 4, 4) fun _ => 1))) = .error .value :=
  (C77_tf_3d_method_violated _ _ rfl (by simp) _ rfl).1

/-! ## C78: each operation by itself -/

/-- The tensor is not complex. -/
def Tens.NotComplex {R C I : Type} : Tens R C I → Prop
  | .complex _ => False
  | _ => True

/-- **C78.** Each checked operation by itself refuses a tensor of the wrong dtype with `TypeError`, whatever its
shape, in one and two dimensions with numpy and TensorFlow (`B` is the backend without dtypes). -/
theorem C78_operations (B : Backend1D) (I : Type) (absR : B.R → B.R) (absI : I → I) (t : Tens B.R B.C I) :
    (t.NotReal → (dtypeBackend B I absR absI).rfft t = .error .type) ∧
    (t.NotComplex → (dtypeBackend B I absR absI).ifft t = .error .type ∧
      (dtypeBackend B I absR absI).irfft t = .error .type ∧
      (∀ f, (dtypeBackend B I absR absI).cdgmm t f = .error .type) ∧
      ∀ e, (dtypeBackend B I absR absI).subsample t e = .error .type) := by
  cases t with
  | real x => exact ⟨fun h => h.elim, fun _ => ⟨rfl, rfl, fun _ => rfl, fun _ => rfl⟩⟩
  | complex z => exact ⟨fun _ => rfl, fun h => h.elim⟩
  | int n => exact ⟨fun _ => rfl, fun _ => ⟨rfl, rfl, fun _ => rfl, fun _ => rfl⟩⟩

/-- **C78.** The same in three dimensions with numpy. -/
theorem C78_operations_3d (qs : List ℝ) (t : Tens3) :
    (t.NotReal → (npDtype3 qs).rfft t = .error .type) ∧
    (t.NotComplex → (npDtype3 qs).ifft t = .error .type ∧ ∀ f, (npDtype3 qs).cdgmm3d t f = .error .type) := by
  cases t with
  | real x => exact ⟨fun h => h.elim, fun _ => ⟨rfl, fun _ => rfl⟩⟩
  | complex z => exact ⟨fun _ => rfl, fun h => h.elim⟩
  | int n => exact ⟨fun _ => rfl, fun _ => ⟨rfl, fun _ => rfl⟩⟩

/-- **C78.** `cdgmm3d` of the TensorFlow backend checks nothing: a real volume is multiplied and becomes complex. -/
theorem C78_tf_cdgmm3d_unchecked (qs : List ℝ) (x : Vol ℝ) (f : Vol ℂ) (h : x.shape = f.shape) :
    ∃ c, (tfDtype3 qs).cdgmm3d (.real x) f = .ok (.complex c) := by
  have : (x.map fun v : ℝ => (v : ℂ)).shape = f.shape := h
  exact ⟨_, bind_eq_ok.2 ⟨_, if_neg (not_not.2 this), rfl⟩⟩

example : ∃ c, (tfDtype3 [1]).cdgmm3d (.real (Vol.tab (2, 2, 2) fun _ => 1)) (Vol.tab (2, 2, 2) fun _ => 1) =
    .ok (.complex c) := C78_tf_cdgmm3d_unchecked _ _ _ rfl

example : npDtype.cdgmm (.real [1, 2]) [1, 2] = .error .type :=
  ((C78_operations npBackend _ _ _ (.real [1, 2])).2 trivial).2.2.1 _

end Verif
