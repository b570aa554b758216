import Verif.Model.DtypeJTFS
import Verif.Props.Dtype
import Verif.Props.LawsJTFS

/-!
# C90: dtypes in joint time-frequency scattering, and its TensorFlow frontend
-/

namespace Verif

open JTFS FrontJ

/-! ## Specification -/

/-- The coefficient with its entries wrapped. -/
def JCoef.map {R RS R' RS' : Type} (f : R → R') (g : RS → RS') : JCoef R RS → JCoef R' RS'
  | .sig r => .sig (f r)
  | .stk s => .stk (g s)

/-- The path with its coefficient wrapped. -/
def JPath.map {R RS R' RS' : Type} (f : R → R') (g : RS → RS') (p : JPath R RS) : JPath R' RS' :=
  ⟨p.coef.map f g, p.j, p.n, p.order, p.fr, p.n1⟩

/-- The output with every coefficient wrapped. -/
def JOut.map {R RS R' RS' : Type} (f : R → R') (g : RS → RS') : JOut R RS → JOut R' RS'
  | .arrayJoint l => .arrayJoint (l.map g)
  | .arrayTime l => .arrayTime (l.map f)
  | .list l => .list (l.map (JPath.map f g))
  | .dict l => .dict (l.map fun e => (e.1, e.2.map f g))

/-! ## Assembly -/

theorem stackEq_wrap {α α' β : Type} [DecidableEq β] {size : α → β} {size' : α' → β} {f : α → α'}
    (hf : ∀ a, size' (f a) = size a) (l : List α) : stackEq size' (l.map f) = (stackEq size l).map (List.map f) := by
  cases l with
  | nil => rfl
  | cons a l =>
    unfold stackEq
    have : ((a :: l).map f).all (fun b => size' b == size' (f a)) = (a :: l).all fun b => size b == size a := by
      rw [List.all_map]
      congr 1
      funext b
      simp [hf]
    show (if ((a :: l).map f).all (fun b => size' b == size' (f a)) = true then _ else _) = _
    rw [this]
    simp only
    split <;> rfl

theorem assemble_wrap {F R RS R' RS' : Type} {ops : JFrontOps R RS} {ops' : JFrontOps R' RS'} {f : R → R'}
    {g : RS → RS'} (hf : ∀ x, ops'.size (f x) = ops.size x) (hg : ∀ x, ops'.sizeS (g x) = ops.sizeS x) (o : JObj F)
    (S : List (JPath R RS)) :
    assemble ops' o (S.map (JPath.map f g)) = (assemble ops o S).map (JOut.map f g) := by
  have hst : ∀ l : List (JPath R RS), stks (l.map (JPath.map f g)) = (stks l).map g := fun l => by
    unfold stks
    rw [List.filterMap_map, List.map_filterMap]
    refine List.filterMap_congr fun p _ => ?_
    obtain ⟨c, _, _, _, _, _⟩ := p
    cases c <;> rfl
  have hsi : ∀ l : List (JPath R RS), sigs (l.map (JPath.map f g)) = (sigs l).map f := fun l => by
    unfold sigs
    rw [List.filterMap_map, List.map_filterMap]
    refine List.filterMap_congr fun p _ => ?_
    obtain ⟨c, _, _, _, _, _⟩ := p
    cases c <;> rfl
  unfold assemble
  split
  · rw [← List.map_tail, hst, stackEq_wrap hg]
    cases stackEq ops.sizeS (stks S.tail) <;> rfl
  · rw [hsi, stackEq_wrap hf]
    cases stackEq ops.size (sigs S) <;> rfl
  · show Except.ok (JOut.dict _) = Except.ok (JOut.dict _)
    congr 2
    have h2 := dict_foldl_map (fun _ (v : JCoef R RS) => v.map f g) (S.map fun p => (p.n, p.coef)) []
    rw [List.foldl_map, List.foldl_map] at h2
    rw [List.foldl_map]
    exact h2
  · rfl

/-! ## Stacks of tagged signals -/

/-- `stack` on lists of one dtype. -/
structure StackT (stack : List Tens1 → Py TensS) : Prop where
  real : ∀ l y, stack (l.map .real) = .ok y ↔ ∃ z, stackImg l = .ok z ∧ y = .real z
  complex : ∀ l y, stack (l.map .complex) = .ok y ↔ ∃ z, stackImg l = .ok z ∧ y = .complex z

theorem wrap_ok {α β : Type} {f : α → β} {x : Py α} {y : β} :
    (x >>= fun z => Except.ok (f z)) = .ok y ↔ ∃ z, x = .ok z ∧ y = f z := by
  rw [bind_eq_ok]
  exact ⟨fun ⟨z, h1, h2⟩ => ⟨z, h1, (Except.ok.inj h2).symm⟩, fun ⟨z, h1, h2⟩ => ⟨z, h1, by rw [h2]⟩⟩

theorem toR_real (l : List (List ℝ)) : (l.map Tens.real : List Tens1).map Tens1.toR = l := by
  rw [List.map_map]
  exact List.map_id l

theorem toC_complex (l : List (List ℂ)) : (l.map Tens.complex : List Tens1).map Tens1.toC = l := by
  rw [List.map_map]
  exact List.map_id l

theorem npStackT_spec : StackT npStackT where
  real l y := by
    cases l with
    | nil =>
      refine ⟨fun h => ?_, fun ⟨z, h, _⟩ => by cases h⟩
      obtain ⟨z, hz, -⟩ := bind_eq_ok.1 h
      cases hz
    | cons a l =>
      have h1 : ((a :: l).map Tens.real : List Tens1).all Tens.isInt = false := rfl
      have h2 : ((a :: l).map Tens.real : List Tens1).all (fun t => !t.isComplex) = true := by
        rw [List.all_map, List.all_eq_true]
        intro _ _
        rfl
      unfold npStackT
      rw [h1, h2, if_neg (by simp), if_pos rfl, toR_real]
      exact wrap_ok
  complex l y := by
    cases l with
    | nil =>
      refine ⟨fun h => ?_, fun ⟨z, h, _⟩ => by cases h⟩
      obtain ⟨z, hz, -⟩ := bind_eq_ok.1 h
      cases hz
    | cons a l =>
      have h1 : ((a :: l).map Tens.complex : List Tens1).all Tens.isInt = false := rfl
      have h2 : ((a :: l).map Tens.complex : List Tens1).all (fun t => !t.isComplex) = false := rfl
      unfold npStackT
      rw [h1, h2, if_neg (by simp), if_neg (by simp), toC_complex]
      exact wrap_ok

theorem tfStackT_spec : StackT tfStackT where
  real l y := by
    cases l with
    | nil =>
      refine ⟨fun h => ?_, fun ⟨z, h, _⟩ => by cases h⟩
      obtain ⟨z, hz, -⟩ := bind_eq_ok.1 h
      cases hz
    | cons a l =>
      have h1 : ((a :: l).map Tens.real : List Tens1).all Tens.isInt = false := rfl
      have h2 : ((a :: l).map Tens.real : List Tens1).all Tens.isReal = true := by
        rw [List.all_map, List.all_eq_true]
        intro _ _
        rfl
      unfold tfStackT
      rw [h1, h2, if_neg (by simp), if_pos rfl, toR_real]
      exact wrap_ok
  complex l y := by
    cases l with
    | nil =>
      refine ⟨fun h => ?_, fun ⟨z, h, _⟩ => by cases h⟩
      obtain ⟨z, hz, -⟩ := bind_eq_ok.1 h
      cases hz
    | cons a l =>
      have h1 : ((a :: l).map Tens.complex : List Tens1).all Tens.isInt = false := rfl
      have h2 : ((a :: l).map Tens.complex : List Tens1).all Tens.isReal = false := rfl
      have h3 : ((a :: l).map Tens.complex : List Tens1).all Tens.isComplex = true := by
        rw [List.all_map, List.all_eq_true]
        intro _ _
        rfl
      unfold tfStackT
      rw [h1, h2, h3, if_neg (by simp), if_neg (by simp), if_pos rfl, toC_complex]
      exact wrap_ok

/-! ## Simulations -/

theorem sim_wrap {α β : Type} {f : α → β} (x : Py α) :
    Sim (fun a b => b = f a) x (x >>= fun z => Except.ok (f z)) := by
  intro a ha
  exact ⟨f a, bind_eq_ok.2 ⟨a, ha, rfl⟩, rfl⟩

theorem sim_unwrap {α β : Type} {f : α → β} (x : Py α) :
    Sim (fun b a => b = f a) (x >>= fun z => Except.ok (f z)) x := by
  intro b hb
  obtain ⟨a, ha, h⟩ := bind_eq_ok.1 hb
  exact ⟨a, ha, (Except.ok.inj h).symm⟩

/-- From typed to tagged arrays. -/
noncomputable def toDtypeJ {stack : List Tens1 → Py TensS} (hs : StackT stack) : JRel npJ (dtypeJ stack) where
  rR _ x t := t = .real x
  rC _ x t := t = .complex x
  rT _ x t := t = .complex x
  rRS _ _ x t := t = .real x
  rCS _ _ _ x t := t = .complex x
  rF f g := f = g
  padOk _ := True
  rfft _ x y h := by subst h; exact Sim.ok rfl
  ifft _ x y h := by subst h; exact Sim.ok rfl
  irfft _ x y h := by subst h; exact Sim.ok rfl
  modulus _ x y h := by subst h; exact Sim.ok rfl
  cdgmm _ x y f g h hf := by subst h; subst hf; exact sim_wrap _
  subsample _ x y e h := by subst h; exact sim_wrap _
  averageGlobal _ x y h := by subst h; exact Sim.ok rfl
  stackR l m h := by
    intro a ha
    rw [_root_.Verif.forall₂_eq_map h]
    exact ⟨_, (hs.real l _).2 ⟨a, ha, rfl⟩, rfl⟩
  stackC l m h := by
    intro a ha
    rw [_root_.Verif.forall₂_eq_map h]
    exact ⟨_, (hs.complex l _).2 ⟨a, ha, rfl⟩, rfl⟩
  swapR _ _ x y h := by subst h; exact Sim.ok rfl
  swapC _ _ x y h := by subst h; exact Sim.ok rfl
  padFrequencyR _ x y p _ h := by subst h; exact sim_wrap _
  padFrequencyC _ x y p _ h := by subst h; exact sim_wrap _
  rfftS _ _ x y h := by subst h; exact Sim.ok rfl
  cfftS _ _ x y h := by subst h; exact Sim.ok rfl
  ifftS _ _ x y h := by subst h; exact Sim.ok rfl
  irfftS _ _ x y h := by subst h; exact Sim.ok rfl
  modulusS _ x y h := by subst h; exact Sim.ok rfl
  cdgmmS _ _ x y f g h hf := by subst h; subst hf; exact sim_wrap _
  subsampleS _ _ x y e h := by subst h; exact sim_wrap _
  averageGlobalS _ _ x y h := by subst h; exact Sim.ok rfl
  unpadFrequency _ x y n s h := by subst h; exact sim_wrap _
  split x y n s h := by
    subst h
    refine Sim.ok ?_
    rw [List.forall₂_map_right_iff]
    exact forall₂_refl_of (R := fun x z => Tens.real z = Tens.real x) (fun _ => rfl) _

/-- From tagged to typed arrays. -/
noncomputable def fromDtypeJ {stack : List Tens1 → Py TensS} (hs : StackT stack) : JRel (dtypeJ stack) npJ where
  rR _ t x := t = .real x
  rC _ t x := t = .complex x
  rT _ t x := t = .complex x
  rRS _ _ t x := t = .real x
  rCS _ _ _ t x := t = .complex x
  rF f g := f = g
  padOk _ := True
  rfft _ x y h := by subst h; exact Sim.ok rfl
  ifft _ x y h := by subst h; exact Sim.ok rfl
  irfft _ x y h := by subst h; exact Sim.ok rfl
  modulus _ x y h := by subst h; exact Sim.ok rfl
  cdgmm _ x y f g h hf := by subst h; subst hf; exact sim_unwrap _
  subsample _ x y e h := by subst h; exact sim_unwrap _
  averageGlobal _ x y h := by subst h; exact Sim.ok rfl
  stackR l m h := by
    intro a ha
    rw [_root_.Verif.forall₂_eq_map h.flip] at ha
    obtain ⟨z, hz, rfl⟩ := (hs.real m a).1 ha
    exact ⟨z, hz, rfl⟩
  stackC l m h := by
    intro a ha
    rw [_root_.Verif.forall₂_eq_map h.flip] at ha
    obtain ⟨z, hz, rfl⟩ := (hs.complex m a).1 ha
    exact ⟨z, hz, rfl⟩
  swapR _ _ x y h := by subst h; exact Sim.ok rfl
  swapC _ _ x y h := by subst h; exact Sim.ok rfl
  padFrequencyR _ x y p _ h := by subst h; exact sim_unwrap _
  padFrequencyC _ x y p _ h := by subst h; exact sim_unwrap _
  rfftS _ _ x y h := by subst h; exact Sim.ok rfl
  cfftS _ _ x y h := by subst h; exact Sim.ok rfl
  ifftS _ _ x y h := by subst h; exact Sim.ok rfl
  irfftS _ _ x y h := by subst h; exact Sim.ok rfl
  modulusS _ x y h := by subst h; exact Sim.ok rfl
  cdgmmS _ _ x y f g h hf := by subst h; subst hf; exact sim_unwrap _
  subsampleS _ _ x y e h := by subst h; exact sim_unwrap _
  averageGlobalS _ _ x y h := by subst h; exact Sim.ok rfl
  unpadFrequency _ x y n s h := by subst h; exact sim_unwrap _
  split x y n s h := by
    subst h
    refine Sim.ok ?_
    rw [List.forall₂_map_left_iff]
    exact forall₂_refl_of (R := fun x z => Tens.real x = Tens.real z) (fun _ => rfl) _

theorem objJ_self {A B : JBackend} (S : JRel A B) (hF : A.F = B.F) (h : ∀ a : A.F, S.rF a (hF ▸ a))
    (hp : ∀ p, S.padOk p) (o : JObj A.F) : ObjRelJ S o (hF ▸ o) := by
  obtain ⟨R, C, F, RS, CS⟩ := A
  obtain ⟨R', C', F', RS', CS'⟩ := B
  simp only at hF
  subst hF
  have hl : ∀ l : List F, List.Forall₂ S.rF l l := fun l => forall₂_refl_of h l
  have h0 : ∀ f : Filt F, S.filt f f := fun f => ⟨rfl, hl _⟩
  have h1 : ∀ f : FiltFr F, S.filtFr f f := fun f => ⟨rfl, rfl, hl _⟩
  exact ⟨rfl, rfl, rfl, rfl, h0 _, forall₂_refl_of h0 _, forall₂_refl_of h0 _, rfl, rfl, ⟨rfl, rfl, hl _⟩,
    forall₂_refl_of h1 _, rfl, rfl, rfl, rfl, fun _ _ => hp _⟩

/-! ## Real signals -/

/-- On a real signal the tagged transform returns exactly when the typed one does, and then the same values, all
real. -/
theorem dtypeJ_real {stack : List Tens1 → Py TensS} (hs : StackT stack) {fo : FrontOps Tens1} (hf : RealFront fo)
    (o : JObj (List ℝ)) (x : List ℝ) (out : JOut Tens1 TensS) :
    scattering (dtypeJ stack) (dtypeFrontJ fo) o (.real x) = .ok out ↔
      ∃ w, scattering npJ npFrontJ o x = .ok w ∧ out = w.map .real .real := by
  let F : FrontRelJ (toDtypeJ hs) npFrontJ (dtypeFrontJ fo) :=
    { rIn := fun x t => t = .real x
      rO := fun _ x t => t = .real x
      rOS := fun _ x t => t = .real x
      pad := fun x t l r h => by
        subst h
        intro a ha
        exact ⟨_, (hf.pad x l r _).2 ⟨a, ha, rfl⟩, rfl⟩
      unpad := fun _ x t i j h => by
        have h : t = Tens.real x := h
        subst h
        exact hf.unpad x i j
      unpadS := fun _ x t i j h => by
        have h : t = Tens.real x := h
        subst h
        rfl
      keep := fun _ _ _ h => h
      keepS := fun _ _ _ h => h }
  let G : FrontRelJ (fromDtypeJ hs) (dtypeFrontJ fo) npFrontJ :=
    { rIn := fun t x => t = .real x
      rO := fun _ t x => t = .real x
      rOS := fun _ t x => t = .real x
      pad := fun t x l r h => by
        subst h
        intro a ha
        obtain ⟨z, hz, rfl⟩ := (hf.pad x l r a).1 ha
        exact ⟨z, hz, rfl⟩
      unpad := fun _ t x i j h => by
        have h : t = Tens.real x := h
        subst h
        exact hf.unpad x i j
      unpadS := fun _ t x i j h => by
        have h : t = Tens.real x := h
        subst h
        rfl
      keep := fun _ _ _ h => h
      keepS := fun _ _ _ h => h }
  have hsz : ∀ y, (dtypeFrontJ fo).size (.real y) = npFrontJ.size y := hf.size
  have hszS : ∀ y, (dtypeFrontJ fo).sizeS (.real y) = npFrontJ.sizeS y := fun _ => rfl
  have forward : ∀ {P}, unassembled npJ npFrontJ o x = .ok P →
      unassembled (dtypeJ stack) (dtypeFrontJ fo) o (.real x) = .ok (P.map (JPath.map .real .real)) := by
    intro P hP
    obtain ⟨P', hP', hr⟩ := sim_unassembled F (objJ_self (toDtypeJ hs) rfl (fun _ => rfl) (fun _ => trivial) o)
      (x := x) (y := .real x) rfl P hP
    refine hP'.trans (congrArg Except.ok (_root_.Verif.forall₂_eq_map (hr.imp fun p q hpq => ?_)))
    obtain ⟨hc, h1, h2, h3, h4, h5⟩ := hpq
    obtain ⟨c, _, _, _, _, _⟩ := p
    obtain ⟨d, _, _, _, _, _⟩ := q
    simp only at h1 h2 h3 h4 h5
    subst h1; subst h2; subst h3; subst h4; subst h5
    cases c <;> cases d
    · have hc : _ = _ := hc
      subst hc
      rfl
    · exact hc.elim
    · exact hc.elim
    · have hc : _ = _ := hc
      subst hc
      rfl
  rw [scattering_eq, scattering_eq]
  constructor
  · intro h
    obtain ⟨P, hP, h⟩ := bind_eq_ok.1 h
    obtain ⟨P', hP', -⟩ := sim_unassembled G (objJ_self (fromDtypeJ hs) rfl (fun _ => rfl) (fun _ => trivial) o)
      (x := .real x) (y := x) rfl P hP
    have e := Except.ok.inj (hP.symm.trans (forward hP'))
    subst e
    rw [assemble_wrap hsz hszS] at h
    cases hw : assemble npFrontJ o P' with
    | error e => rw [hw] at h; cases h
    | ok w =>
      rw [hw] at h
      exact ⟨w, bind_eq_ok.2 ⟨P', hP', hw⟩, (Except.ok.inj h).symm⟩
  · rintro ⟨w, h, rfl⟩
    obtain ⟨P, hP, h⟩ := bind_eq_ok.1 h
    refine bind_eq_ok.2 ⟨_, forward hP, ?_⟩
    rw [assemble_wrap hsz hszS, h]
    rfl

/-- **Dtype checks never fire on real input, joint time-frequency scattering with numpy.**  For all parameters, both
formats and every output type. -/
theorem C90_np_real (a : JArgs) (x : List ℝ) (out : JOut Tens1 TensS) :
    a.runDtype (.real x) = .ok out ↔ ∃ w, a.run x = .ok w ∧ out = w.map .real .real := by
  unfold JArgs.runDtype JArgs.run
  simp only [bind_eq_ok]
  constructor
  · rintro ⟨s, hs, Q, hQ, h⟩
    obtain ⟨w, hw, h⟩ := (dtypeJ_real npStackT_spec npDtypeFront_real _ _ _).1 h
    exact ⟨w, ⟨s, hs, Q, hQ, hw⟩, h⟩
  · rintro ⟨w, ⟨s, hs, Q, hQ, hw⟩, h⟩
    exact ⟨s, hs, Q, hQ, (dtypeJ_real npStackT_spec npDtypeFront_real _ _ _).2 ⟨w, hw, h⟩⟩

/-- **TensorFlow = numpy, joint time-frequency scattering.**  On a real signal, for all parameters, both formats and
every output type, the TensorFlow transform returns exactly when the numpy one does, and then the same paths and
coefficients, as real tensors. -/
theorem C90_tf (a : JArgs) (x : List ℝ) (out : JOut Tens1 TensS) :
    a.runTf (.real x) = .ok out ↔ ∃ w, a.run x = .ok w ∧ out = w.map .real .real := by
  unfold JArgs.runTf JArgs.run
  simp only [bind_eq_ok]
  constructor
  · rintro ⟨s, hs, Q, hQ, h⟩
    obtain ⟨w, hw, h⟩ := (dtypeJ_real tfStackT_spec tfFront_real _ _ _).1 h
    exact ⟨w, ⟨s, hs, Q, hQ, hw⟩, h⟩
  · rintro ⟨w, ⟨s, hs, Q, hQ, hw⟩, h⟩
    exact ⟨s, hs, Q, hQ, (dtypeJ_real tfStackT_spec tfFront_real _ _ _).2 ⟨w, hw, h⟩⟩

/-! ## Other dtypes -/

theorem rfftJ_notReal {stack : List Tens1 → Py TensS} {t : Tens1} (ht : t.NotReal) :
    (dtypeJ stack).rfft t = .error .type := by
  cases t with
  | real => exact ht.elim
  | complex => rfl
  | int => rfl

theorem dtypeJ_paths {stack : List Tens1 → Py TensS} (o : JObj (List ℝ)) (ls lsFr : Nat) {t : Tens1} (ht : t.NotReal) :
    paths (dtypeJ stack) o ls lsFr t = .error .type := by
  unfold paths joint widthFirst
  rw [rfftJ_notReal ht]
  rfl

theorem dtypeJ_never {stack : List Tens1 → Py TensS} {fo : FrontOps Tens1} (hf : KeepFront fo) (o : JObj (List ℝ))
    {t : Tens1} (ht : t.NotReal) (out : JOut Tens1 TensS) :
    scattering (dtypeJ stack) (dtypeFrontJ fo) o t ≠ .ok out := by
  intro h
  obtain ⟨-, -, h⟩ := bind_eq_ok.1 h
  obtain ⟨U, hU, h⟩ := bind_eq_ok.1 h
  obtain ⟨ls, -, h⟩ := bind_eq_ok.1 h
  obtain ⟨lsFr, -, h⟩ := bind_eq_ok.1 h
  obtain ⟨P, h, -⟩ := bind_eq_ok.1 h
  rw [dtypeJ_paths o _ _ (hf.keep t ht _ _ _ hU)] at h
  cases h

theorem dtypeJ_type {stack : List Tens1 → Py TensS} {fo : FrontOps Tens1} (hf : KeepFront fo) (o : JObj (List ℝ))
    {t : Tens1} (ht : t.NotReal) {x : List ℝ} (hx : x.length = t.length) {w : JOut (List ℝ) (Img ℝ)}
    (h : scattering npJ npFrontJ o x = .ok w) : scattering (dtypeJ stack) (dtypeFrontJ fo) o t = .error .type := by
  obtain ⟨⟨⟩, h1, h⟩ := bind_eq_ok.1 h
  obtain ⟨U, hU, h⟩ := bind_eq_ok.1 h
  obtain ⟨ls, hls, h⟩ := bind_eq_ok.1 h
  obtain ⟨lsFr, hlsFr, -⟩ := bind_eq_ok.1 h
  obtain ⟨y, hy⟩ := hf.total t x _ _ hx ⟨U, hU⟩
  unfold scattering
  rw [h1, hls, hlsFr]
  show (fo.pad t o.padLeft o.padRight >>= _) = _
  rw [hy]
  show (paths (dtypeJ stack) o ls.toNat lsFr.toNat y >>= _) = _
  rw [dtypeJ_paths o _ _ (hf.keep t ht _ _ _ hy)]
  rfl

/-- **Other dtypes, numpy.**  A complex or integer signal is never transformed; it raises `TypeError` whenever a real
signal of the same length would be accepted. -/
theorem C90_np_rejects (a : JArgs) (t : Tens1) (ht : t.NotReal) :
    (∀ out, a.runDtype t ≠ .ok out) ∧
    ∀ x : List ℝ, x.length = t.length → (∃ w, a.run x = .ok w) → a.runDtype t = .error .type := by
  constructor
  · intro out h
    obtain ⟨s, -, h⟩ := bind_eq_ok.1 h
    obtain ⟨Q, -, h⟩ := bind_eq_ok.1 h
    exact dtypeJ_never npDtypeFront_keep _ ht out h
  · rintro x hx ⟨w, hw⟩
    obtain ⟨s, hs, hw⟩ := bind_eq_ok.1 hw
    obtain ⟨Q, hQ, hw⟩ := bind_eq_ok.1 hw
    unfold JArgs.runDtype
    rw [hs, hQ]
    exact dtypeJ_type npDtypeFront_keep _ ht hx hw

/-- **Other dtypes, TensorFlow.** -/
theorem C90_tf_rejects (a : JArgs) (t : Tens1) (ht : t.NotReal) :
    (∀ out, a.runTf t ≠ .ok out) ∧
    ∀ x : List ℝ, x.length = t.length → (∃ w, a.run x = .ok w) → a.runTf t = .error .type := by
  constructor
  · intro out h
    obtain ⟨s, -, h⟩ := bind_eq_ok.1 h
    obtain ⟨Q, -, h⟩ := bind_eq_ok.1 h
    exact dtypeJ_never tfFront_keep _ ht out h
  · rintro x hx ⟨w, hw⟩
    obtain ⟨s, hs, hw⟩ := bind_eq_ok.1 hw
    obtain ⟨Q, hQ, hw⟩ := bind_eq_ok.1 hw
    unfold JArgs.runTf
    rw [hs, hQ]
    exact dtypeJ_type tfFront_keep _ ht hx hw

/-- **Each check by itself.**  `rfft` and `average_global` refuse what is not real, `cfft`, `ifft`, `irfft`, `cdgmm`
and `subsample_fourier` what is not complex, on signals and on stacks, with `TypeError`. -/
theorem C90_checks (stack : List Tens1 → Py TensS) :
    (∀ t : Tens1, t.NotReal → (dtypeJ stack).rfft t = .error .type ∧ (dtypeJ stack).averageGlobal t = .error .type) ∧
    (∀ t : TensS, t.NotReal → (dtypeJ stack).rfftS t = .error .type ∧ (dtypeJ stack).averageGlobalS t = .error .type) ∧
    (∀ t : Tens1, t.NotComplex → (dtypeJ stack).ifft t = .error .type ∧ (dtypeJ stack).irfft t = .error .type ∧
      (∀ f, (dtypeJ stack).cdgmm t f = .error .type) ∧ ∀ e, (dtypeJ stack).subsample t e = .error .type) ∧
    ∀ t : TensS, t.NotComplex → (dtypeJ stack).cfftS t = .error .type ∧ (dtypeJ stack).ifftS t = .error .type ∧
      (dtypeJ stack).irfftS t = .error .type ∧ (∀ f, (dtypeJ stack).cdgmmS t f = .error .type) ∧
      ∀ e, (dtypeJ stack).subsampleS t e = .error .type := by
  refine ⟨fun t ht => ?_, fun t ht => ?_, fun t ht => ?_, fun t ht => ?_⟩ <;> cases t
  · exact ht.elim
  · exact ⟨rfl, rfl⟩
  · exact ⟨rfl, rfl⟩
  · exact ht.elim
  · exact ⟨rfl, rfl⟩
  · exact ⟨rfl, rfl⟩
  · exact ⟨rfl, rfl, fun _ => rfl, fun _ => rfl⟩
  · exact ht.elim
  · exact ⟨rfl, rfl, fun _ => rfl, fun _ => rfl⟩
  · exact ⟨rfl, rfl, rfl, fun _ => rfl, fun _ => rfl⟩
  · exact ht.elim
  · exact ⟨rfl, rfl, rfl, fun _ => rfl, fun _ => rfl⟩

/-- A real signal is accepted by the TensorFlow object, for every scale, quality factor, format and output type. -/
example (J Jfr N : Nat) (Q q : Int) (hQ : 1 ≤ Q) (hq : 1 ≤ q) (hN : 2 ^ J ≤ N) (o : OutType) (ho : o ≠ .other)
    (f : Format) (hf : f ≠ .other) (x : List ℝ) (hx : x.length = N) :
    ∃ w, (⟨J, Jfr, .int Q, .int N, .none, none, .int q, .none, none, o, f⟩ : JArgs).runTf (.real x) = .ok w := by
  obtain ⟨r, hr⟩ := C76_defaults J Jfr N Q q hQ hq hN o ho f hf x hx
  exact ⟨_, (C90_tf _ _ _).2 ⟨r, hr, rfl⟩⟩

/-- An integer signal of the right length raises `TypeError`. -/
example : (⟨6, 2, .int 8, .int 1000, .none, none, .int 1, .none, none, .array, .joint⟩ : JArgs).runDtype
    (.int (List.replicate 1000 3)) = .error .type :=
  (C90_np_rejects _ (.int (List.replicate 1000 3)) True.intro).2 (List.replicate 1000 0)
    (List.length_replicate.trans List.length_replicate.symm)
    (C76_defaults 6 2 1000 8 1 (by norm_num) (by norm_num) (by norm_num) .array (by decide) .joint (by decide) _
      List.length_replicate)

end Verif
