import Verif.Lemmas.Hom
import Verif.Props.InstancesJTFS
import Verif.Props.Instances3D
import Verif.Props.Instances2D
import Verif.Props.Torch2D

/-!
# C103: dtype and device of torch tensors
-/

namespace Verif

/-- **The check.**  `cdgmm` accepts two tensors exactly if dtype and device agree, and raises `TypeError` otherwise. -/
theorem C103_check (A B : Kind) : kindCheck A B = if A = B then .ok () else .error .type := by
  obtain ⟨d, v⟩ := A
  obtain ⟨d', v'⟩ := B
  unfold kindCheck
  by_cases h : d = d'
  · subst h
    cases v with
    | cpu => cases v' <;> simp
    | cuda i =>
      cases v' with
      | cpu => simp
      | cuda j =>
        by_cases hij : i = j
        · simp [hij]
        · simp [hij]
  · simp [h]

theorem kindMul_same {α β : Type} (f : α → β → Py α) (k : Kind) (A : α) (b : β) :
    kindMul f (A, k) (b, k) = (fun y => (y, k)) <$> f A b := by
  unfold kindMul
  rw [C103_check, if_pos rfl]
  cases f A b <;> rfl

theorem kindMul_differ {α β : Type} (f : α → β → Py α) {k k' : Kind} (hk : k' ≠ k) (A : α) (b : β) {y : α}
    (h : f A b = .ok y) : kindMul f (A, k') (b, k) = .error .type := by
  unfold kindMul
  rw [C103_check, if_neg hk, h]
  rfl

theorem keepKind_pair {α β : Type} (f : α → Py β) (k : Kind) (x : α) :
    keepKind f (x, k) = (fun y => (y, k)) <$> f x := by
  unfold keepKind
  cases f x <;> rfl

/-- Tensors of one kind form a copy of the backend. -/
def kindHom (B : Backend1D) (k : Kind) : Hom1 (kindBackend B) B where
  hR x := (x, k)
  hC x := (x, k)
  hF x := (x, k)
  rfft := keepKind_pair B.rfft k
  ifft := keepKind_pair B.ifft k
  irfft := keepKind_pair B.irfft k
  modulus := keepKind_pair B.modulus k
  cdgmm := kindMul_same B.cdgmm k
  subsample x e := keepKind_pair (fun y => B.subsample y e) k x

/-- The same in three dimensions, except that averages are `float32`. -/
def kindHom3 (B : Backend3D) (k : Kind) : Hom3 (kindBackend3 B) B where
  hR x := (x, k)
  hC x := (x, k)
  hF x := (x, k)
  hA x := (x, ⟨.f32, k.dev⟩)
  rfft := keepKind_pair B.rfft k
  ifft := keepKind_pair B.ifft k
  cdgmm3d := kindMul_same B.cdgmm3d k
  modulus := keepKind_pair B.modulus k
  modulusRotation x m := by
    cases m <;> exact keepKind_pair (fun y => B.modulusRotation y _) k x
  averaging x := by
    show (B.averaging x >>= _ : Py _) = _
    cases B.averaging x <;> rfl

theorem kindStack_same {α β : Type} (f : List α → Py β) (h0 : f [] = .error .runtime) (k : Kind) (l : List α) :
    kindStack f (l.map fun x => (x, k)) = (fun y => (y, k)) <$> f l := by
  cases l with
  | nil => rw [h0]; rfl
  | cons p l =>
    unfold kindStack
    simp only [List.map_cons, List.map_map]
    have e : ((Prod.fst : α × Kind → α) ∘ fun x => (x, k)) = id := rfl
    rw [e, List.map_id]
    cases f (p :: l) <;> rfl

/-- The same for joint time-frequency scattering. -/
def kindHomJ (B : JBackend) (hR0 : B.stackR [] = .error .runtime) (hC0 : B.stackC [] = .error .runtime) (k : Kind) :
    HomJ (kindJ B) B where
  hR x := (x, k)
  hC x := (x, k)
  hF x := (x, k)
  hRS x := (x, k)
  hCS x := (x, k)
  rfft := keepKind_pair B.rfft k
  ifft := keepKind_pair B.ifft k
  irfft := keepKind_pair B.irfft k
  modulus := keepKind_pair B.modulus k
  cdgmm := kindMul_same B.cdgmm k
  subsample x e := keepKind_pair (fun y => B.subsample y e) k x
  averageGlobal := keepKind_pair B.averageGlobal k
  stackR := kindStack_same B.stackR hR0 k
  stackC := kindStack_same B.stackC hC0 k
  swapR := keepKind_pair B.swapR k
  swapC := keepKind_pair B.swapC k
  padFrequencyR x p := keepKind_pair (fun y => B.padFrequencyR y p) k x
  padFrequencyC x p := keepKind_pair (fun y => B.padFrequencyC y p) k x
  rfftS := keepKind_pair B.rfftS k
  cfftS := keepKind_pair B.cfftS k
  ifftS := keepKind_pair B.ifftS k
  irfftS := keepKind_pair B.irfftS k
  modulusS := keepKind_pair B.modulusS k
  cdgmmS := kindMul_same B.cdgmmS k
  subsampleS x e := keepKind_pair (fun y => B.subsampleS y e) k x
  averageGlobalS := keepKind_pair B.averageGlobalS k
  unpadFrequency x m s := keepKind_pair (fun y => B.unpadFrequency y m s) k x
  split x m s := by
    show (B.split x m s >>= _ : Py _) = _
    cases B.split x m s <;> rfl

/-! ## Equal kinds -/

/-- **1-D.**  On a signal of the dtype and on the device of the filters the transform does what it does without dtypes
and devices, and every coefficient has that dtype and device. -/
theorem C103_1d (B : Backend1D) (ops : FrontOps B.R) (o : Obj1D B.F) (k : Kind) (x : B.R) :
    scatteringKind B ops o k (x, k) = (Out1D.map fun c => (c, k)) <$> Front1D.scattering B ops o x :=
  Front1D.hom_scattering (kindHom B k) (fa := kindFront ops) (fb := ops)
    ⟨fun x l r => keepKind_pair (fun y => ops.pad y l r) k x, fun _ _ _ => rfl, fun _ => rfl, fun _ => rfl⟩ o x

/-- **2-D.** -/
theorem C103_2d (a : Args2D) (k : Kind) (x : Img ℝ) :
    a.runTorchKind k (x, k) = (Out2D.map fun c => (c, k)) <$> a.runTorch x := by
  unfold Args2D.runTorchKind Args2D.runTorch
  rw [map_bind']
  congr 1
  funext s
  show (a.check s x.h x.w >>= _ : Py _) = (Out2D.map fun c => (c, k)) <$> (a.check s x.h x.w >>= _ : Py _)
  rw [map_bind']
  congr 1
  funext _
  exact Core2D.hom_scattering2d (kindHom torch2Backend k) (oa := kindOps2 (a.torchOps s)) (ob := a.torchOps s)
    (keepKind_pair _ k) (fun _ => rfl) (fun _ => rfl) x a.J s.phi s.psi a.maxOrder _

/-- **3-D.**  The same, but the coefficients are `float32` whatever the dtype. -/
theorem C103_3d_partial (a : Args3D) (Y : ℤ → ℕ → ℝ → ℝ → ℂ) (k : Kind) (x : Vol ℝ) :
    a.runTorchKind Y k (x, k) = (List.map (List.map fun c => (c, ⟨.f32, k.dev⟩))) <$> a.runTorch Y x := by
  unfold Args3D.runTorchKind Args3D.runTorch
  split
  · rfl
  · split
    · rfl
    · have e : ((a.filters Y).map fun fl => fl.map fun fs => fs.map fun f => (view3R f, k)) =
          ((a.filters Y).map fun fl => fl.map fun fs => fs.map view3R).map (List.map (List.map fun f => (f, k))) := by
        simp [List.map_map, Function.comp_def]
      rw [e]
      exact Core3D.hom_scattering3d (kindHom3 (torch3Backend a.powers) k) x _ a.rot a.L a.J a.maxOrder

/-- **Joint time-frequency scattering.** -/
theorem C103_jtfs (a : JArgs) (k : Kind) (x : List ℝ) :
    a.pathsTorchKind k (x, k) = (List.map (JPath.map (fun c => (c, k)) fun c => (c, k))) <$> a.pathsTorch x := by
  unfold JArgs.pathsTorchKind JArgs.pathsTorch
  rw [map_bind']
  congr 1
  funext s
  rw [map_bind']
  congr 1
  funext Q
  exact FrontJ.hom_unassembled (kindHomJ torchJ rfl rfl k) (fa := kindFrontJ torchFrontJ) (fb := torchFrontJ)
    ⟨fun x l r => keepKind_pair (fun y => torchFrontJ.pad y l r) k x, fun _ _ _ => rfl, fun _ _ _ => rfl⟩ _ x

/-! ## Different kinds -/

theorem forEnum_first_error {α β : Type} (f : α → Nat → Py (List β)) (a : α) (l : List α) (i : Nat) {e : PyErr}
    (h : f a i = .error e) : Core1D.forEnum f (a :: l) i = .error e := by
  unfold Core1D.forEnum
  rw [h]
  rfl

/-- `keepKind` of an operation that returns. -/
theorem keepKind_ok {α β : Type} {f : α → Py β} {x : α} {y : β} (h : f x = .ok y) (k : Kind) :
    keepKind f (x, k) = .ok (y, k) := by
  rw [keepKind_pair, h]
  rfl

theorem bind_error {α β : Type} {x : Py α} {e : PyErr} (h : x = .error e) (f : α → Py β) : (x >>= f) = .error e := by
  rw [h]
  rfl

theorem bind_of_ok {α β : Type} {x : Py α} {a : α} (h : x = .ok a) (f : α → Py β) : (x >>= f) = f a := by
  rw [h]
  rfl

section
variable {k k' : Kind} (hk : k' ≠ k)

include hk

/-- The first product of a chain raises. -/
theorem chain_differ {α β γ δ : Type} (f : α → β → Py α) (l : List β) (n : Nat) (A : α) (g : α → Py γ)
    (g' : Knd α → Py δ) {r : γ} (h : (do let b ← listGet l n; let c ← f A b; g c) = .ok r) :
    (do let b ← listGet (l.map fun b => (b, k)) n; let c ← kindMul f (A, k') b; g' c) = .error .type := by
  obtain ⟨b, hb, h⟩ := bind_eq_ok.1 h
  obtain ⟨c, hc, -⟩ := bind_eq_ok.1 h
  rw [listGet_hom, hb]
  show (kindMul f (A, k') (b, k) >>= _ : Py _) = _
  rw [kindMul_differ f hk A b hc]
  rfl

theorem Core1D.differ_scattering1d (B : Backend1D) (U0 : B.R) (phi : Filt B.F) (psis : List (List (Filt B.F)))
    (ls : Nat) (avg : Bool) {l : List (Path B.R)} (h : scattering1d B U0 phi psis ls avg = .ok l)
    (hp : avg = true ∨ ∃ p ps pss, psis = (p :: ps) :: pss) :
    scattering1d (kindBackend B) (U0, k') (phi.mapF fun f => (f, k))
      (psis.map (List.map (Filt.mapF fun f => (f, k)))) ls avg = .error .type := by
  unfold scattering1d at h ⊢
  obtain ⟨U, hU, h⟩ := bind_eq_ok.1 h
  obtain ⟨S0, hS, h⟩ := bind_eq_ok.1 h
  obtain ⟨psi1, h1, h⟩ := bind_eq_ok.1 h
  obtain ⟨rest, hr, -⟩ := bind_eq_ok.1 h
  show (keepKind B.rfft (U0, k') >>= _ : Py _) = _
  rw [keepKind_ok hU]
  show (zeroth (kindBackend B) _ ls avg (U0, k') (U, k') >>= _ : Py _) = _
  unfold zeroth at hS ⊢
  cases avg with
  | true =>
    rw [if_pos rfl] at hS ⊢
    unfold lowpass at hS ⊢
    have := chain_differ hk B.cdgmm phi.levels 0 U _
      (fun c => (kindBackend B).subsample c ls >>= (kindBackend B).irfft) hS
    exact bind_error this _
  | false =>
    obtain ⟨p, ps, pss, rfl⟩ := hp.resolve_left (by simp)
    cases h1
    unfold forEnum at hr
    obtain ⟨q, hq, -⟩ := bind_eq_ok.1 hr
    unfold firstOrder at hq
    obtain ⟨U1, hb, -⟩ := bind_eq_ok.1 hq
    unfold bandpass at hb
    rw [if_neg (by simp)]
    have hbk : bandpass (kindBackend B) (p.mapF fun f => (f, k)) (U, k') 0 p.j = .error .type :=
      chain_differ hk B.cdgmm p.levels 0 U _
        (fun c => (kindBackend B).subsample c p.j >>= fun h => (kindBackend B).ifft h >>= (kindBackend B).modulus) hb
    show (forEnum _ (p.mapF (fun f => (f, k)) :: ps.map (Filt.mapF fun f => (f, k))) 0 >>= _ : Py _) = _
    rw [forEnum_first_error (e := .type)]
    · rfl
    · unfold firstOrder
      show (bandpass (kindBackend B) (p.mapF fun f => (f, k)) (U, k') 0 p.j >>= _ : Py _) = _
      rw [hbk]
      rfl

/-- **1-D, different kinds.**  On a signal of another dtype or on another device `TypeError` is raised, as soon as the
transform multiplies at all: with local averaging, or with at least one first-order wavelet. -/
theorem C103_1d_refused (B : Backend1D) (ops : FrontOps B.R) (o : Obj1D B.F) (x : B.R) {r : Out1D B.R}
    (h : Front1D.scattering B ops o x = .ok r) (hp : o.average = .loc ∨ o.psi1 ≠ []) :
    scatteringKind B ops o k (x, k') = .error .type := by
  unfold scatteringKind
  unfold Front1D.scattering at h ⊢
  obtain ⟨u, hu, h⟩ := bind_eq_ok.1 h
  obtain ⟨U0, hU, h⟩ := bind_eq_ok.1 h
  obtain ⟨ls, hls, h⟩ := bind_eq_ok.1 h
  obtain ⟨l, hl, -⟩ := bind_eq_ok.1 h
  show (Front1D.checkRuntimeArgs o >>= _ : Py _) = _
  rw [hu]
  show (keepKind (fun y => ops.pad y o.padLeft o.padRight) (x, k') >>= _ : Py _) = _
  rw [keepKind_ok (f := fun y => ops.pad y o.padLeft o.padRight) hU]
  show (o.log2Stride >>= _ : Py _) = _
  rw [hls, Front1D.psis_mapF]
  refine bind_error
    (Core1D.differ_scattering1d hk B U0 o.phi (Front1D.psis o) ls.toNat (decide (o.average = .loc)) hl ?_) _
  rcases hp with hp | hp
  · exact Or.inl (by simp [hp])
  · refine Or.inr ?_
    unfold Core1D.scattering1d at hl
    obtain ⟨_, -, hl⟩ := bind_eq_ok.1 hl
    obtain ⟨_, -, hl⟩ := bind_eq_ok.1 hl
    obtain ⟨p1, h1, -⟩ := bind_eq_ok.1 hl
    have h2 : ∃ n, Front1D.psis o = [o.psi1, o.psi2].take n := by
      unfold Front1D.psis sliceTo
      have key : ∀ n, ∃ m, ([[], o.psi1, o.psi2].take n).drop 1 = [o.psi1, o.psi2].take m := by
        intro n
        cases n with
        | zero => exact ⟨0, rfl⟩
        | succ n => exact ⟨n, rfl⟩
      split <;> exact key _
    obtain ⟨n, h2⟩ := h2
    obtain ⟨p, ps, e⟩ := List.exists_cons_of_ne_nil hp
    rw [h2, e] at h1 ⊢
    cases n with
    | zero => cases h1
    | succ n => exact ⟨p, ps, _, rfl⟩

/-- **2-D, different kinds.** -/
theorem C103_2d_refused (a : Args2D) (x : Img ℝ) {r : Out2D (Img ℝ)} (h : a.runTorch x = .ok r) :
    a.runTorchKind k (x, k') = .error .type := by
  unfold Args2D.runTorch at h
  unfold Args2D.runTorchKind
  obtain ⟨s, hs, h⟩ := bind_eq_ok.1 h
  obtain ⟨u, hu, h⟩ := bind_eq_ok.1 h
  rw [hs]
  show (a.check s x.h x.w >>= _ : Py _) = _
  rw [hu]
  show Core2D.scattering2d _ _ _ _ _ _ _ _ = _
  unfold Core2D.scattering2d at h ⊢
  obtain ⟨l, hl, -⟩ := bind_eq_ok.1 h
  unfold Core2D.paths at hl ⊢
  obtain ⟨Ur, hp, hl⟩ := bind_eq_ok.1 hl
  obtain ⟨U, hU, hl⟩ := bind_eq_ok.1 hl
  obtain ⟨S0, hS, -⟩ := bind_eq_ok.1 hl
  unfold Core2D.lowpass at hS
  have hS' : Core2D.lowpass (kindBackend torch2Backend) (kindOps2 (a.torchOps s)) a.J (s.phi.map fun f => (f, k)) (U, k')
      0 = .error .type := by
    unfold Core2D.lowpass
    exact chain_differ hk torch2Backend.cdgmm s.phi 0 U _ _ hS
  refine bind_error (e := .type) ?_ _
  refine (bind_of_ok (keepKind_ok hp k') _).trans ?_
  refine (bind_of_ok (keepKind_ok hU k') _).trans ?_
  exact bind_error hS' _

theorem Core3D.differ_wave (B : Backend3D) (rot : Bool) (U : B.C) (fs : List B.F) {r : B.R}
    (h : wave B rot U fs = .ok r) :
    wave (kindBackend3 B) rot (U, k') (fs.map fun f => (f, k)) = .error .type := by
  unfold wave at h ⊢
  cases rot with
  | false =>
    rw [if_neg (by simp)] at h ⊢
    exact chain_differ hk B.cdgmm3d fs 0 U _ _ h
  | true =>
    rw [if_pos rfl] at h ⊢
    obtain ⟨Um, h1, h2⟩ := bind_eq_ok.1 h
    cases fs with
    | nil => cases h1; cases h2
    | cons f fs =>
      unfold rotLoop at h1
      obtain ⟨c, hc, -⟩ := bind_eq_ok.1 h1
      rw [List.map_cons]
      unfold rotLoop
      show ((kindMul B.cdgmm3d (U, k') (f, k) >>= _ : Py _) >>= _ : Py _) = _
      rw [kindMul_differ B.cdgmm3d hk U f hc]
      rfl

/-- **3-D, different kinds.** -/
theorem C103_3d_refused (a : Args3D) (Y : ℤ → ℕ → ℝ → ℝ → ℂ) (x : Vol ℝ) {r : List (List (List ℝ))}
    (h : a.runTorch Y x = .ok r) : a.runTorchKind Y k (x, k') = .error .type := by
  unfold Args3D.runTorch at h
  unfold Args3D.runTorchKind
  by_cases h1 : x.shape ≠ a.shape
  · rw [if_pos h1] at h; cases h
  rw [if_neg h1] at h
  rw [if_neg (show ¬ (x, k').1.shape ≠ a.shape from h1)]
  by_cases h2 : ¬ a.methodOk
  · rw [if_pos h2] at h; cases h
  rw [if_neg h2] at h ⊢
  unfold Core3D.scattering3d at h ⊢
  obtain ⟨U, hU, h⟩ := bind_eq_ok.1 h
  obtain ⟨s, hs, -⟩ := bind_eq_ok.1 h
  show (keepKind (torch3Backend a.powers).rfft (x, k') >>= _ : Py _) = _
  rw [keepKind_ok hU]
  rw [List.range_succ_eq_map, List.mapM_cons] at hs
  obtain ⟨q, hq, -⟩ := bind_eq_ok.1 hs
  show (List.mapM _ (List.range (a.L + 1)) >>= _ : Py _) = _
  rw [List.range_succ_eq_map, List.mapM_cons]
  unfold Core3D.perL at hq
  obtain ⟨fl, hfl, hq⟩ := bind_eq_ok.1 hq
  obtain ⟨q', hq', -⟩ := bind_eq_ok.1 hq
  rw [List.range_succ_eq_map, List.mapM_cons] at hq'
  obtain ⟨w, hw, -⟩ := bind_eq_ok.1 hq'
  unfold Core3D.order1 at hw
  obtain ⟨fs, hfs, hw⟩ := bind_eq_ok.1 hw
  obtain ⟨U1, hU1, -⟩ := bind_eq_ok.1 hw
  have e : ((a.filters Y).map fun fl => fl.map fun fs => fs.map fun f => (view3R f, k)) =
      ((a.filters Y).map fun fl => fl.map fun fs => fs.map view3R).map (List.map (List.map fun f => (f, k))) := by
    simp [List.map_map, Function.comp_def]
  have ho : Core3D.order1 (kindBackend3 (torch3Backend a.powers)) a.rot a.J a.maxOrder
      (fl.map (List.map fun f => (f, k))) (U, k') 0 = .error .type := by
    unfold Core3D.order1
    rw [listGet_hom, hfs]
    show (Core3D.wave (kindBackend3 (torch3Backend a.powers)) a.rot (U, k') (fs.map fun f => (f, k)) >>= _ : Py _) = _
    rw [Core3D.differ_wave hk _ _ _ _ hU1]
    rfl
  have hl : Core3D.perL (kindBackend3 (torch3Backend a.powers)) a.rot a.J a.maxOrder
      (((a.filters Y).map fun fl => fl.map fun fs => fs.map view3R).map (List.map (List.map fun f => (f, k)))) (U, k') 0
      = .error .type := by
    unfold Core3D.perL
    rw [listGet_hom, hfl]
    show (List.mapM _ (List.range (a.J + 1)) >>= _ : Py _) = _
    rw [List.range_succ_eq_map, List.mapM_cons, ho]
    rfl
  rw [e, hl]
  rfl

/-- **Joint time-frequency scattering, different kinds.** -/
theorem C103_jtfs_refused (a : JArgs) (x : List ℝ) {r : List (JPath (List ℝ) (Img ℝ))}
    (h : a.pathsTorch x = .ok r) : a.pathsTorchKind k (x, k') = .error .type := by
  unfold JArgs.pathsTorch at h
  unfold JArgs.pathsTorchKind
  obtain ⟨s, hs, h⟩ := bind_eq_ok.1 h
  obtain ⟨Q, hQ, h⟩ := bind_eq_ok.1 h
  rw [hs]
  show (parseQ a.Q >>= _ : Py _) = _
  rw [hQ]
  show FrontJ.unassembled _ _ _ _ = _
  generalize a.obj s Q.1.toNat = o at h ⊢
  unfold FrontJ.unassembled at h ⊢
  obtain ⟨u, hu, h⟩ := bind_eq_ok.1 h
  obtain ⟨U0, hU, h⟩ := bind_eq_ok.1 h
  obtain ⟨ls, hls, h⟩ := bind_eq_ok.1 h
  obtain ⟨lsFr, hlf, h⟩ := bind_eq_ok.1 h
  obtain ⟨S, hS, -⟩ := bind_eq_ok.1 h
  unfold FrontJ.paths at hS
  obtain ⟨t, ht, -⟩ := bind_eq_ok.1 hS
  unfold JTFS.joint at ht
  obtain ⟨w, hw, -⟩ := bind_eq_ok.1 ht
  have key : JTFS.widthFirst (kindJ torchJ) (U0, k') (o.phi.mapF fun f => (f, k)) (o.psi1.map (Filt.mapF fun f => (f, k)))
      (o.psi2.map (Filt.mapF fun f => (f, k))) ls.toNat (decide (o.average = .loc)) = .error .type := by
    unfold JTFS.widthFirst at hw ⊢
    obtain ⟨U, hU, hw⟩ := bind_eq_ok.1 hw
    obtain ⟨S0, hS0, hw⟩ := bind_eq_ok.1 hw
    obtain ⟨l, hl, hw⟩ := bind_eq_ok.1 hw
    obtain ⟨S1, hS1, -⟩ := bind_eq_ok.1 hw
    show (keepKind torchJ.rfft (U0, k') >>= _ : Py _) = _
    rw [keepKind_ok hU]
    show (JTFS.zeroth (kindJ torchJ) _ _ _ (U0, k') (U, k') >>= _ : Py _) = _
    unfold JTFS.zeroth at hS0 ⊢
    cases hav : decide (o.average = .loc) with
    | true =>
      rw [hav, if_pos rfl] at hS0
      rw [if_pos rfl]
      have := chain_differ hk torchJ.cdgmm o.phi.levels 0 U _
        (fun c => (kindJ torchJ).subsample c ls.toNat >>= (kindJ torchJ).irfft) hS0
      exact bind_error this _
    | false =>
      rw [if_neg (by simp)]
      cases hp : o.psi1 with
      | nil =>
        rw [hp] at hl
        cases hl
        cases hS1
      | cons p ps =>
        rw [hp, List.mapM_cons] at hl
        obtain ⟨q, hq, -⟩ := bind_eq_ok.1 hl
        show (List.mapM _ (p.mapF (fun f => (f, k)) :: ps.map (Filt.mapF fun f => (f, k))) >>= _ : Py _) = _
        rw [List.mapM_cons]
        unfold JTFS.first at hq
        have hf : JTFS.first (kindJ torchJ) (o.phi.mapF fun f => (f, k)) ls.toNat false (U, k')
            (p.mapF fun f => (f, k)) = .error .type := by
          unfold JTFS.first
          exact chain_differ hk torchJ.cdgmm p.levels 0 U _ _ hq
        rw [hf]
        rfl
  show (FrontJ.checkRuntimeArgs o >>= _ : Py _) = _
  rw [hu]
  show (keepKind (fun y => torchFrontJ.pad y o.padLeft o.padRight) (x, k') >>= _ : Py _) = _
  rw [keepKind_ok (f := fun y => torchFrontJ.pad y o.padLeft o.padRight) hU]
  show (o.log2Stride >>= _ : Py _) = _
  rw [hls]
  show (o.log2StrideFr >>= _ : Py _) = _
  rw [hlf]
  show (FrontJ.paths (kindJ torchJ) (o.mapF fun f => (f, k)) ls.toNat lsFr.toNat (U0, k') >>= _ : Py _) = _
  unfold FrontJ.paths JTFS.joint
  exact bind_error (bind_error (bind_error key _) _) _

end

/-! ## What the 3-D transform does not keep -/

/-- The kind of the buffers after construction: `torch.from_numpy(...)` of `float32` arrays. -/
def freshKind : Kind := ⟨.f32, .cpu⟩

/-- The kind after `S.double()`. -/
def doubleKind : Kind := ⟨.f64, .cpu⟩

theorem Core3D.scattering3d_nonempty (B : Backend3D) (x : B.R) (filters : List (List (List B.F))) (rot : Bool) (L J : Nat)
    (mo : Int) {r : List (List B.A)} (h : scattering3d B x filters rot L J mo = .ok r) : ∃ row ∈ r, row ≠ [] := by
  unfold scattering3d at h
  obtain ⟨U, -, h⟩ := bind_eq_ok.1 h
  obtain ⟨s, -, h⟩ := bind_eq_ok.1 h
  dsimp only at h
  generalize (zipStar _).flatten = S at h
  unfold stackRows at h
  split at h
  · cases h
  · rename_i hS
    push Not at hS
    cases h
    have hq : 0 < S.length / (L + 1) := by
      rcases Nat.eq_zero_or_pos (S.length / (L + 1)) with h0 | h0
      · rw [h0, Nat.zero_mul] at hS
        exact absurd hS.2.symm hS.1
      · exact h0
    refine ⟨_, List.mem_map_of_mem (List.mem_range.2 hq), ?_⟩
    cases S with
    | nil => exact absurd rfl hS.1
    | cons a S => simp

/-- **A `DoubleTensor` is refused.**  The message of `scattering` of the torch 3-D frontend lists `torch.DoubleTensor`
among the accepted types; every object as constructed raises `TypeError` on it when it returns on a `FloatTensor`. -/
theorem C103_double_violated (Y : ℤ → ℕ → ℝ → ℝ → ℂ) : ∃ (a : Args3D) (x : Vol ℝ),
    (∃ r, a.runTorchKind Y freshKind (x, freshKind) = .ok r) ∧
    a.runTorchKind Y freshKind (x, doubleKind) = .error .type := by
  obtain ⟨out, h, -⟩ := C48_homogeneous ex3 Y (by simp [ex3]) rfl rfl (-2) (x := exVol)
    (y := Vol.tab ex3.shape fun v => -2 * exVol.vx v) fun _ hv => Vol.vx_tab hv
  have h' : ex3.runTorch Y exVol = .ok out := by rw [C65_torch_eq_numpy_partial ex3 Y (by simp [ex3]) rfl exVol, h]
  refine ⟨ex3, exVol, ?_, C103_3d_refused (by decide) ex3 Y exVol h'⟩
  rw [C103_3d_partial, h']
  exact ⟨_, rfl⟩

/-- **Double precision is lost.**  After `S.double()`, on a `float64` volume, the coefficients are `float32`. -/
theorem C103_3d_dtype_violated (Y : ℤ → ℕ → ℝ → ℝ → ℂ) : ∃ (a : Args3D) (x : Vol ℝ) (r : List (List (Knd (List ℝ)))),
    a.runTorchKind Y doubleKind (x, doubleKind) = .ok r ∧ (∃ row ∈ r, row ≠ []) ∧
      ∀ row ∈ r, ∀ c ∈ row, c.2.dty = .f32 := by
  obtain ⟨out, h, -⟩ := C48_homogeneous ex3 Y (by simp [ex3]) rfl rfl (-2) (x := exVol)
    (y := Vol.tab ex3.shape fun v => -2 * exVol.vx v) fun _ hv => Vol.vx_tab hv
  have h' : ex3.runTorch Y exVol = .ok out := by rw [C65_torch_eq_numpy_partial ex3 Y (by simp [ex3]) rfl exVol, h]
  have h3 : Core3D.scattering3d (torch3Backend ex3.powers) exVol
      ((ex3.filters Y).map fun fl => fl.map fun fs => fs.map view3R) ex3.rot ex3.L ex3.J ex3.maxOrder = .ok out := by
    unfold Args3D.runTorch at h'
    split at h'
    · cases h'
    · split at h'
      · cases h'
      · exact h'
  refine ⟨ex3, exVol, _, by rw [C103_3d_partial, h']; rfl, ?_, ?_⟩
  · obtain ⟨row, hr, h0⟩ := Core3D.scattering3d_nonempty _ _ _ _ _ _ _ h3
    exact ⟨_, List.mem_map_of_mem hr, by simpa using h0⟩
  · intro row hr c hc
    obtain ⟨row', -, rfl⟩ := List.mem_map.1 hr
    obtain ⟨c', -, rfl⟩ := List.mem_map.1 hc
    rfl

/-! ## Concrete cases -/

/-- A constructed 1-D object: `float32` in, `float32` out; after `S.cuda()` a signal left on the CPU is refused. -/
example (x : List ℝ) (hx : x.length = 1000) : ∃ s out, (exArgs .none .array).make = .ok s ∧
    scatteringKind torchBackend torchFront ((exArgs .none .array).obj s) freshKind (x, freshKind) = .ok out ∧
    scatteringKind torchBackend torchFront ((exArgs .none .array).obj s) ⟨.f32, .cuda 0⟩ (x, freshKind) =
      .error .type := by
  obtain ⟨s, hs, -, hav, hrun⟩ := exArgs_run (T := .none) (av := .loc) .array (Or.inl ⟨rfl, rfl⟩)
    (Or.inr (Or.inr ⟨rfl, by simp⟩))
  obtain ⟨r, hr⟩ := hrun x hx
  obtain ⟨s', hs', hr⟩ := bind_eq_ok.1 hr
  cases (hs.symm.trans hs' : Except.ok s = .ok s')
  have h := (C23_every_out_type ((exArgs .none .array).obj s) x r).2 hr
  refine ⟨s, Out1D.map (fun c => (c, freshKind)) r, hs, ?_, ?_⟩
  · rw [C103_1d, h]; rfl
  · exact C103_1d_refused (by decide) _ _ _ _ h (Or.inl hav)

/-- A constructed 2-D object. -/
example : (∃ out, exArgs2.runTorchKind doubleKind (Img.tab 9 14 fun i j => (i * j : ℝ), doubleKind) = .ok out) ∧
    exArgs2.runTorchKind freshKind (Img.tab 9 14 fun i j => (i * j : ℝ), doubleKind) = .error .type := by
  obtain ⟨l, h⟩ := exArgs2_run (Img.tab 9 14 fun i j => (i * j : ℝ)) rfl rfl
  have h := (C59_torch_eq_numpy exArgs2 _ _).2 h
  refine ⟨?_, C103_2d_refused (by decide) exArgs2 _ h⟩
  rw [C103_2d, h]
  exact ⟨_, rfl⟩

/-- A constructed time-frequency object. -/
example (x : List ℝ) (hx : x.length = 1000) :
    (∃ r, (exJ .dict .time).pathsTorchKind doubleKind (x, doubleKind) = .ok r) ∧
    (exJ .dict .time).pathsTorchKind freshKind (x, doubleKind) = .error .type := by
  obtain ⟨r, -, h⟩ := C80_defaults_partial 3 2 1000 8 1 (by norm_num) (by norm_num) (by norm_num) .dict (by simp) .time
    (by simp) x hx
  have h' : ∃ l, (exJ .dict .time).pathsTorch x = .ok l := by
    unfold JArgs.runTorch at h
    obtain ⟨s, hs, h⟩ := bind_eq_ok.1 h
    obtain ⟨Q, hQ, h⟩ := bind_eq_ok.1 h
    obtain ⟨l, hl, -⟩ := bind_eq_ok.1 h
    refine ⟨l, ?_⟩
    unfold JArgs.pathsTorch
    exact bind_eq_ok.2 ⟨s, hs, bind_eq_ok.2 ⟨Q, hQ, hl⟩⟩
  obtain ⟨l, h'⟩ := h'
  refine ⟨?_, C103_jtfs_refused (by decide) _ x h'⟩
  rw [C103_jtfs, h']
  exact ⟨_, rfl⟩

end Verif
