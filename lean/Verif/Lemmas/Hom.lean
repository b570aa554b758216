import Verif.Model.Kind
import Verif.Lemmas.Layout
import Verif.Props.Dtype
import Verif.Props.DtypeJTFS

/-!
# Homomorphisms of backends

If one backend maps into another so that all operations commute with the maps, every transform does.  Exceptions are
included: both runs raise the same.
-/

namespace Verif

variable {α β γ : Type}

/-- A map of one backend into another. -/
structure Hom1 (A B : Backend1D) where
  hR : B.R → A.R
  hC : B.C → A.C
  hF : B.F → A.F
  rfft : ∀ x, A.rfft (hR x) = hC <$> B.rfft x
  ifft : ∀ x, A.ifft (hC x) = hC <$> B.ifft x
  irfft : ∀ x, A.irfft (hC x) = hR <$> B.irfft x
  modulus : ∀ x, A.modulus (hC x) = hR <$> B.modulus x
  cdgmm : ∀ x f, A.cdgmm (hC x) (hF f) = hC <$> B.cdgmm x f
  subsample : ∀ x e, A.subsample (hC x) e = hC <$> B.subsample x e

/-- A path with its coefficient replaced. -/
def Path.mapR {R R' : Type} (h : R → R') (p : Path R) : Path R' := ⟨h p.coef, p.j, p.n⟩

theorem listGet_hom (g : α → β) (l : List α) (k : Nat) : listGet (l.map g) k = g <$> listGet l k :=
  Core3D.listGet_map g l k

namespace Core1D

variable {A B : Backend1D} (H : Hom1 A B)

theorem hom_lowpass (phi : Filt B.F) (U : B.C) (k e : Nat) :
    lowpass A (phi.mapF H.hF) (H.hC U) k e = H.hR <$> lowpass B phi U k e := by
  unfold lowpass Filt.mapF
  simp only [listGet_hom, bind_map, H.cdgmm, H.subsample, H.irfft, map_bind']

theorem hom_bandpass (psi : Filt B.F) (U : B.C) (k e : Nat) :
    bandpass A (psi.mapF H.hF) (H.hC U) k e = H.hR <$> bandpass B psi U k e := by
  unfold bandpass Filt.mapF
  simp only [listGet_hom, bind_map, H.cdgmm, H.subsample, H.ifft, H.modulus, map_bind']

theorem hom_secondOrder (phi : Filt B.F) (ls : Nat) (avg : Bool) (j1 n1 k1 : Nat) (U : B.C) (psi : Filt B.F) (n2 : Nat) :
    secondOrder A (phi.mapF H.hF) ls avg j1 n1 k1 (H.hC U) (psi.mapF H.hF) n2 =
      (List.map (Path.mapR H.hR)) <$> secondOrder B phi ls avg j1 n1 k1 U psi n2 := by
  unfold secondOrder
  have hj : (psi.mapF H.hF).j = psi.j := rfl
  rw [hj]
  by_cases h : psi.j > j1
  · rw [if_pos h, if_pos h]
    cases avg <;>
      simp [H.rfft, hom_bandpass, hom_lowpass, Path.mapR]
  · rw [if_neg h, if_neg h]; rfl

theorem hom_firstPath (phi : Filt B.F) (ls : Nat) (avg : Bool) (j1 n1 k1 : Nat) (U1 : B.R) (U : B.C) :
    firstPath A (phi.mapF H.hF) ls avg j1 n1 k1 (H.hR U1) (H.hC U) =
      (Path.mapR H.hR) <$> firstPath B phi ls avg j1 n1 k1 U1 U := by
  unfold firstPath
  cases avg <;> simp [hom_lowpass, Path.mapR]

theorem hom_firstOrder (phi : Filt B.F) (psis : List (List (Filt B.F))) (ls : Nat) (avg : Bool) (U : B.C)
    (psi : Filt B.F) (n1 : Nat) :
    firstOrder A (phi.mapF H.hF) (psis.map (List.map (Filt.mapF H.hF))) ls avg (H.hC U) (psi.mapF H.hF) n1 =
      (List.map (Path.mapR H.hR)) <$> firstOrder B phi psis ls avg U psi n1 := by
  unfold firstOrder
  have hj : (psi.mapF H.hF).j = psi.j := rfl
  simp only [hj, hom_bandpass, bind_map, map_bind', List.getElem?_map]
  congr 1
  funext U1
  cases avg with
  | false =>
    cases h : psis[1]? with
    | none => rfl
    | some p2 =>
      simp only [Option.map_some, H.rfft, bind_map, map_bind', hom_firstPath]
      congr 1
      funext c
      congr 1
      funext p
      rw [lay_forEnum (Filt.mapF H.hF) (Path.mapR H.hR) _ _ (hom_secondOrder H phi ls false psi.j n1 _ c)]
      simp only [bind_map, map_ok, List.map_cons]
  | true =>
    cases h : psis[1]? with
    | none =>
      simp only [Option.map_none, H.rfft, bind_map, map_bind', hom_firstPath]
      rfl
    | some p2 =>
      simp only [Option.map_some, H.rfft, bind_map, map_bind', hom_firstPath]
      congr 1
      funext c
      congr 1
      funext p
      rw [lay_forEnum (Filt.mapF H.hF) (Path.mapR H.hR) _ _ (hom_secondOrder H phi ls true psi.j n1 _ c)]
      simp only [bind_map, map_ok, List.map_cons]

theorem hom_scattering1d (U0 : B.R) (phi : Filt B.F) (psis : List (List (Filt B.F))) (ls : Nat) (avg : Bool) :
    scattering1d A (H.hR U0) (phi.mapF H.hF) (psis.map (List.map (Filt.mapF H.hF))) ls avg =
      (List.map (Path.mapR H.hR)) <$> scattering1d B U0 phi psis ls avg := by
  unfold scattering1d
  simp only [H.rfft, bind_map, map_bind']
  congr 1
  funext Uh
  have hz : zeroth A (phi.mapF H.hF) ls avg (H.hR U0) (H.hC Uh) = H.hR <$> zeroth B phi ls avg U0 Uh := by
    unfold zeroth
    cases avg
    · rfl
    · exact hom_lowpass H phi Uh 0 ls
  rw [hz, listGet_hom]
  simp only [bind_map]
  congr 1
  funext S0
  congr 1
  funext psi1
  rw [lay_forEnum (Filt.mapF H.hF) (Path.mapR H.hR) _ _ (hom_firstOrder H phi psis ls avg Uh)]
  simp only [bind_map, map_ok, List.map_cons]
  rfl

end Core1D

/-- Frontend operations that commute with a map of backends. -/
structure HomFront {A B : Backend1D} (H : Hom1 A B) (fa : FrontOps A.R) (fb : FrontOps B.R) : Prop where
  pad : ∀ x l r, fa.pad (H.hR x) l r = H.hR <$> fb.pad x l r
  unpad : ∀ x i j, fa.unpad (H.hR x) i j = H.hR (fb.unpad x i j)
  averageGlobal : ∀ x, fa.averageGlobal (H.hR x) = H.hR (fb.averageGlobal x)
  size : ∀ x, fa.size (H.hR x) = fb.size x

namespace Front1D

theorem psis_mapF {F G : Type} (h : F → G) (o : Obj1D F) : psis (o.mapF h) = (psis o).map (List.map (Filt.mapF h)) := by
  unfold psis sliceTo Obj1D.mapF
  split <;> simp [List.map_take]

theorem dict_mapR {R R' : Type} (h : R → R') (l : List (Path R)) (d : List (List Nat × R)) :
    (l.map (Path.mapR h)).foldl (fun d p => dictInsert d p.n p.coef) (d.map fun e => (e.1, h e.2)) =
      (l.foldl (fun d p => dictInsert d p.n p.coef) d).map fun e => (e.1, h e.2) := by
  induction l generalizing d with
  | nil => rfl
  | cons p l ih =>
    rw [List.foldl_cons, ← ih, List.map_cons, List.foldl_cons]
    congr 1
    rw [show (p.mapR h).n = p.n from rfl, show (p.mapR h).coef = h p.coef from rfl]
    unfold dictInsert
    rw [List.any_map]
    split
    · rename_i h'
      rw [if_pos (by simpa [Function.comp_def] using h'), List.map_map, List.map_map]
      apply List.map_congr_left
      intro e _
      simp only [Function.comp]
      split <;> simp_all
    · rename_i h'
      rw [if_neg (by simpa [Function.comp_def] using h')]
      simp

theorem stackRows_map {R R' : Type} (h : R → R') (fa : FrontOps R') (fb : FrontOps R)
    (hs : ∀ x, fa.size (h x) = fb.size x) (l : List R) :
    stackRows fa (l.map h) = (List.map h) <$> stackRows fb l := by
  unfold stackRows
  cases l with
  | nil => rfl
  | cons p m =>
    simp only [List.map_cons]
    rw [← List.map_cons (f := h), List.all_map]
    have e : ((p :: m).all ((fun b => fa.size b == fa.size (h p)) ∘ h)) =
        (p :: m).all fun b => fb.size b == fb.size p := by
      congr 1
      funext b
      simp [hs]
    rw [e]
    split <;> rfl

variable {A B : Backend1D} (H : Hom1 A B) {fa : FrontOps A.R} {fb : FrontOps B.R} (hf : HomFront H fa fb)

include hf

theorem hom_assemble (o : Obj1D B.F) (l : List (Path B.R)) :
    assemble fa (o.mapF H.hF) (l.map (Path.mapR H.hR)) = (Out1D.map H.hR) <$> assemble fb o l := by
  unfold assemble
  rw [show (o.mapF H.hF).outType = o.outType from rfl]
  split
  · have := dict_mapR H.hR l []
    rw [List.map_nil] at this
    rw [map_ok, this]
    rfl
  · rw [map_ok, sortPaths_map (Path.mapR H.hR) fun _ => rfl]
    rfl
  · rw [sortPaths_map (Path.mapR H.hR) fun _ => rfl, map_bind', List.map_map]
    have := stackRows_map H.hR fa fb hf.size ((sortPaths l).map fun p => p.coef)
    rw [List.map_map] at this
    show stackRows fa (List.map (H.hR ∘ fun p => p.coef) (sortPaths l)) >>= _ = _
    rw [this, bind_map]
    rfl

theorem hom_post (o : Obj1D B.F) (ls : Nat) (p : Path B.R) :
    post fa (o.mapF H.hF) ls (p.mapR H.hR) = (Path.mapR H.hR) <$> post fb o ls p := by
  unfold post
  have hr : resolution (o.mapF H.hF) ls (p.mapR H.hR) = resolution o ls p := rfl
  rw [hr, map_bind', show (o.mapF H.hF).average = o.average from rfl]
  congr 1
  funext r
  by_cases h : o.average = .glob
  · rw [if_pos h, if_pos h, map_ok]
    show Except.ok (⟨fa.averageGlobal (H.hR p.coef), p.j, p.n⟩ : Path A.R) = _
    rw [hf.averageGlobal]
    rfl
  · rw [if_neg h, if_neg h]
    show (dictGet o.indStart r >>= _ : Py _) = _
    rw [map_bind']
    congr 1
    funext i0
    show (dictGet o.indEnd r >>= _ : Py _) = _
    rw [map_bind']
    congr 1
    funext i1
    rw [map_ok]
    show Except.ok (⟨fa.unpad (H.hR p.coef) i0 i1, p.j, p.n⟩ : Path A.R) = _
    rw [hf.unpad]
    rfl

/-- **1-D.**  The run of the image object on the image of a signal is the image of the run. -/
theorem hom_scattering (o : Obj1D B.F) (x : B.R) :
    scattering A fa (o.mapF H.hF) (H.hR x) = (Out1D.map H.hR) <$> scattering B fb o x := by
  unfold scattering
  rw [map_bind']
  show (checkRuntimeArgs o >>= _ : Py _) = _
  congr 1
  funext _
  show (fa.pad (H.hR x) o.padLeft o.padRight >>= _ : Py _) = _
  rw [hf.pad, bind_map, map_bind']
  congr 1
  funext U0
  show (o.log2Stride >>= _ : Py _) = _
  rw [map_bind']
  congr 1
  funext ls
  rw [psis_mapF]
  show (Core1D.scattering1d A (H.hR U0) (o.phi.mapF H.hF) _ ls.toNat (decide (o.average = .loc)) >>= _ : Py _) = _
  rw [Core1D.hom_scattering1d, bind_map, map_bind']
  congr 1
  funext out
  rw [lay_mapM (Path.mapR H.hR) (Path.mapR H.hR) _ _ out fun p _ => hom_post H hf o ls.toNat p, bind_map, map_bind']
  congr 1
  funext l
  exact hom_assemble H hf o l

end Front1D

/-! ## 2-D -/

/-- A 2-D path with its coefficient replaced. -/
def Path2.mapR {R R' : Type} (h : R → R') (p : Path2 R) : Path2 R' := ⟨h p.coef, p.j, p.n, p.theta⟩

namespace Core2D

variable {A B : Backend1D} (H : Hom1 A B) {oa : Ops2D A.R} {ob : Ops2D B.R}
  (hpad : ∀ x, oa.pad (H.hR x) = H.hR <$> ob.pad x) (hunpad : ∀ x, oa.unpad (H.hR x) = H.hR (ob.unpad x))
  (hsize : ∀ x, oa.size (H.hR x) = ob.size x)

include hunpad in
theorem hom_lowpass (J : Nat) (phi : List B.F) (U : B.C) (lev : Nat) :
    lowpass A oa J (phi.map H.hF) (H.hC U) lev = H.hR <$> lowpass B ob J phi U lev := by
  unfold lowpass
  simp only [listGet_hom, bind_map, H.cdgmm, H.subsample, H.irfft, map_bind', hunpad]
  rfl

theorem hom_subIfPos (c : B.C) (j : Nat) : subIfPos A (H.hC c) j = H.hC <$> subIfPos B c j := by
  unfold subIfPos
  split
  · exact H.subsample _ _
  · rfl

theorem hom_first (psi : Filt2 B.F) (U : B.C) : first A (psi.mapF H.hF) (H.hC U) = H.hC <$> first B psi U := by
  unfold first Filt2.mapF
  simp only [listGet_hom, bind_map, H.cdgmm, H.ifft, H.modulus, H.rfft, map_bind', hom_subIfPos]

theorem hom_second (psi : Filt2 B.F) (j1 : Nat) (U : B.C) :
    second A (psi.mapF H.hF) j1 (H.hC U) = H.hC <$> second B psi j1 U := by
  unfold second Filt2.mapF
  simp only [listGet_hom, bind_map, H.cdgmm, H.subsample, H.ifft, H.modulus, H.rfft, map_bind']

include hunpad in
theorem hom_secondOrder (J : Nat) (phi : List B.F) (psi1 : Filt2 B.F) (n1 : Nat) (U : B.C) (psi2 : Filt2 B.F)
    (n2 : Nat) :
    secondOrder A oa J (phi.map H.hF) (psi1.mapF H.hF) n1 (H.hC U) (psi2.mapF H.hF) n2 =
      (List.map (Path2.mapR H.hR)) <$> secondOrder B ob J phi psi1 n1 U psi2 n2 := by
  unfold secondOrder
  simp only [show (psi1.mapF H.hF).j = psi1.j from rfl, show (psi2.mapF H.hF).j = psi2.j from rfl,
    show (psi1.mapF H.hF).theta = psi1.theta from rfl, show (psi2.mapF H.hF).theta = psi2.theta from rfl]
  split
  · rfl
  · simp only [hom_second, bind_map, map_bind', hom_lowpass H hunpad]
    rfl

include hunpad in
theorem hom_firstOrder (J : Nat) (phi : List B.F) (psi : List (Filt2 B.F)) (mo : Int) (U : B.C) (psi1 : Filt2 B.F)
    (n1 : Nat) :
    firstOrder A oa J (phi.map H.hF) (psi.map (Filt2.mapF H.hF)) mo (H.hC U) (psi1.mapF H.hF) n1 =
      (List.map fun q : Path2 B.R × List (Path2 B.R) => (q.1.mapR H.hR, q.2.map (Path2.mapR H.hR))) <$>
        firstOrder B ob J phi psi mo U psi1 n1 := by
  unfold firstOrder
  simp only [show (psi1.mapF H.hF).j = psi1.j from rfl, show (psi1.mapF H.hF).theta = psi1.theta from rfl, hom_first,
    bind_map, map_bind', hom_lowpass H hunpad]
  congr 1
  funext c
  congr 1
  funext S
  split
  · rfl
  · rw [Core1D.lay_forEnum (Filt2.mapF H.hF) (Path2.mapR H.hR) _ _ (hom_secondOrder H hunpad J phi psi1 n1 c), bind_map,
      map_bind']
    rfl

include hpad hunpad in
theorem hom_paths (x : B.R) (J : Nat) (phi : List B.F) (psi : List (Filt2 B.F)) (mo : Int) :
    paths A oa (H.hR x) J (phi.map H.hF) (psi.map (Filt2.mapF H.hF)) mo =
      (List.map (Path2.mapR H.hR)) <$> paths B ob x J phi psi mo := by
  unfold paths
  simp only [hpad, bind_map, map_bind', H.rfft, hom_lowpass H hunpad]
  congr 1
  funext Ur
  congr 1
  funext Uc
  congr 1
  funext S0
  rw [Core1D.lay_forEnum (Filt2.mapF H.hF) _ _ _ (hom_firstOrder H hunpad J phi psi mo Uc), bind_map]
  congr 1
  funext l
  rw [map_ok]
  simp only [List.map_cons, List.map_append, List.map_map, List.map_flatten]
  rfl

include hsize in
theorem hom_stack (l : List B.R) : stack A oa (l.map H.hR) = (List.map H.hR) <$> stack B ob l := by
  unfold stack
  cases l with
  | nil => rfl
  | cons p m =>
    simp only [List.map_cons]
    rw [← List.map_cons (f := H.hR), List.all_map]
    have e : ((p :: m).all ((fun b => oa.size b == oa.size (H.hR p)) ∘ H.hR)) =
        (p :: m).all fun b => ob.size b == ob.size p := by
      congr 1
      funext b
      simp [hsize]
    rw [e]
    split <;> rfl

include hpad hunpad hsize in
/-- **2-D.** -/
theorem hom_scattering2d (x : B.R) (J : Nat) (phi : List B.F) (psi : List (Filt2 B.F)) (mo : Int) (array : Bool) :
    scattering2d A oa (H.hR x) J (phi.map H.hF) (psi.map (Filt2.mapF H.hF)) mo array =
      (Out2D.map H.hR) <$> scattering2d B ob x J phi psi mo array := by
  unfold scattering2d
  rw [hom_paths H hpad hunpad, bind_map, map_bind']
  congr 1
  funext l
  cases array with
  | true =>
    rw [if_pos rfl, if_pos rfl, map_bind']
    have h := hom_stack H hsize (l.map fun p => p.coef)
    rw [List.map_map] at h
    rw [List.map_map]
    show stack A oa (List.map (H.hR ∘ fun p => p.coef) l) >>= _ = _
    rw [h, bind_map]
    rfl
  | false =>
    rw [if_neg (by simp), if_neg (by simp), map_ok]
    rfl

end Core2D

/-! ## 3-D -/

/-- A map of one 3-D backend into another. -/
structure Hom3 (A B : Backend3D) where
  hR : B.R → A.R
  hC : B.C → A.C
  hF : B.F → A.F
  hA : B.A → A.A
  rfft : ∀ x, A.rfft (hR x) = hC <$> B.rfft x
  ifft : ∀ x, A.ifft (hC x) = hC <$> B.ifft x
  cdgmm3d : ∀ x f, A.cdgmm3d (hC x) (hF f) = hC <$> B.cdgmm3d x f
  modulus : ∀ x, A.modulus (hC x) = hR <$> B.modulus x
  modulusRotation : ∀ x m, A.modulusRotation (hC x) (m.map hR) = hR <$> B.modulusRotation x m
  averaging : ∀ x, A.averaging (hR x) = hA <$> B.averaging x

namespace Core3D

variable {A B : Backend3D} (H : Hom3 A B)

theorem hom_rotLoop (U : B.C) (fs : List B.F) (Um : Option B.R) :
    rotLoop A (H.hC U) (fs.map H.hF) (Um.map H.hR) = (Option.map H.hR) <$> rotLoop B U fs Um := by
  induction fs generalizing Um with
  | nil => rfl
  | cons f fs ih =>
    rw [List.map_cons]
    unfold rotLoop
    simp only [H.cdgmm3d, bind_map, H.ifft, H.modulusRotation, map_bind']
    congr 1
    funext c
    congr 1
    funext u
    congr 1
    funext r
    exact ih (some r)

theorem hom_wave (rot : Bool) (U : B.C) (fs : List B.F) :
    wave A rot (H.hC U) (fs.map H.hF) = H.hR <$> wave B rot U fs := by
  unfold wave
  cases rot with
  | true =>
    rw [if_pos rfl, if_pos rfl, map_bind']
    have := hom_rotLoop H U fs none
    rw [Option.map_none] at this
    rw [this, bind_map]
    congr 1
    funext Um
    cases Um <;> rfl
  | false =>
    rw [if_neg (by simp), if_neg (by simp)]
    simp only [listGet_map, bind_map, H.cdgmm3d, H.ifft, H.modulus, map_bind']

theorem hom_coef2 (rot : Bool) (fl : List (List B.F)) (U : B.C) (j2 : Nat) :
    coef2 A rot (fl.map (List.map H.hF)) (H.hC U) j2 = H.hA <$> coef2 B rot fl U j2 := by
  unfold coef2
  simp only [listGet_map, bind_map, hom_wave, H.averaging, map_bind']

theorem hom_order2 (rot : Bool) (J : Nat) (mo : Int) (fl : List (List B.F)) (U1 : B.R) (j1 : Nat) :
    order2 A rot J mo (fl.map (List.map H.hF)) (H.hR U1) j1 = (List.map H.hA) <$> order2 B rot J mo fl U1 j1 := by
  unfold order2
  split
  · simp only [H.rfft, bind_map, map_bind']
    congr 1
    funext c
    have := lay_mapM (id : Nat → Nat) H.hA _ _ (List.range' (j1 + 1) (J - j1)) fun j2 _ => hom_coef2 H rot fl c j2
    rw [List.map_id] at this
    exact this
  · rfl

theorem hom_order1 (rot : Bool) (J : Nat) (mo : Int) (fl : List (List B.F)) (U : B.C) (j1 : Nat) :
    order1 A rot J mo (fl.map (List.map H.hF)) (H.hC U) j1 =
      (fun q => (H.hA q.1, q.2.map H.hA)) <$> order1 B rot J mo fl U j1 := by
  unfold order1
  simp only [listGet_map, bind_map, hom_wave, H.averaging, hom_order2, map_bind', map_ok]

theorem hom_perL (rot : Bool) (J : Nat) (mo : Int) (filters : List (List (List B.F))) (U : B.C) (l : Nat) :
    perL A rot J mo (filters.map (List.map (List.map H.hF))) (H.hC U) l =
      (fun q => (q.1.map H.hA, q.2.map H.hA)) <$> perL B rot J mo filters U l := by
  unfold perL
  simp only [listGet_map, bind_map, map_bind']
  congr 1
  funext fl
  have := lay_mapM (id : Nat → Nat) (fun q : B.A × List B.A => (H.hA q.1, q.2.map H.hA)) _ _ (List.range (J + 1))
    fun j1 _ => hom_order1 H rot J mo fl U j1
  rw [List.map_id] at this
  rw [this, bind_map]
  congr 1
  funext r
  rw [map_ok]
  simp only [List.map_map, List.map_flatten]
  rfl

theorem zipStar_map (g : α → β) (S : List (List α)) : zipStar (S.map (List.map g)) = (zipStar S).map (List.map g) := by
  unfold zipStar
  rw [List.map_map, List.map_map]
  have e : (List.length ∘ List.map g) = (List.length : List α → Nat) := by funext l; simp
  rw [e]
  apply List.map_congr_left
  intro i _
  simp only [Function.comp, List.filterMap_map, List.map_filterMap]
  congr 1
  funext l
  simp

theorem stackRows_map (g : α → β) (S : List α) (L : Nat) :
    stackRows (S.map g) L = (List.map (List.map g)) <$> stackRows S L := by
  unfold stackRows
  rw [List.length_map]
  split
  · rfl
  · rw [map_ok, List.map_map]
    congr 1
    apply List.map_congr_left
    intro i _
    simp [List.map_take, List.map_drop]

/-- **3-D.** -/
theorem hom_scattering3d (x : B.R) (filters : List (List (List B.F))) (rot : Bool) (L J : Nat) (mo : Int) :
    scattering3d A (H.hR x) (filters.map (List.map (List.map H.hF))) rot L J mo =
      (List.map (List.map H.hA)) <$> scattering3d B x filters rot L J mo := by
  unfold scattering3d
  simp only [H.rfft, bind_map, map_bind']
  congr 1
  funext c
  have := lay_mapM (id : Nat → Nat) (fun q : List B.A × List B.A => (q.1.map H.hA, q.2.map H.hA)) _ _
    (List.range (L + 1)) fun l _ => hom_perL H rot J mo filters c l
  rw [List.map_id] at this
  rw [this, bind_map]
  congr 1
  funext s
  rw [← stackRows_map, List.map_flatten, ← zipStar_map]
  congr 3
  simp only [List.map_map]
  split
  · rw [List.map_zipWith, List.zipWith_map, List.zipWith_map]
    simp [List.map_append]
  · rw [List.map_map]; rfl

end Core3D

/-! ## JTFS -/

/-- A map of one time-frequency backend into another. -/
structure HomJ (A B : JBackend) where
  hR : B.R → A.R
  hC : B.C → A.C
  hF : B.F → A.F
  hRS : B.RS → A.RS
  hCS : B.CS → A.CS
  rfft : ∀ x, A.rfft (hR x) = hC <$> B.rfft x
  ifft : ∀ x, A.ifft (hC x) = hC <$> B.ifft x
  irfft : ∀ x, A.irfft (hC x) = hR <$> B.irfft x
  modulus : ∀ x, A.modulus (hC x) = hR <$> B.modulus x
  cdgmm : ∀ x f, A.cdgmm (hC x) (hF f) = hC <$> B.cdgmm x f
  subsample : ∀ x e, A.subsample (hC x) e = hC <$> B.subsample x e
  averageGlobal : ∀ x, A.averageGlobal (hR x) = hR <$> B.averageGlobal x
  stackR : ∀ l, A.stackR (l.map hR) = hRS <$> B.stackR l
  stackC : ∀ l, A.stackC (l.map hC) = hCS <$> B.stackC l
  swapR : ∀ x, A.swapR (hRS x) = hRS <$> B.swapR x
  swapC : ∀ x, A.swapC (hCS x) = hCS <$> B.swapC x
  padFrequencyR : ∀ x p, A.padFrequencyR (hRS x) p = hRS <$> B.padFrequencyR x p
  padFrequencyC : ∀ x p, A.padFrequencyC (hCS x) p = hCS <$> B.padFrequencyC x p
  rfftS : ∀ x, A.rfftS (hRS x) = hCS <$> B.rfftS x
  cfftS : ∀ x, A.cfftS (hCS x) = hCS <$> B.cfftS x
  ifftS : ∀ x, A.ifftS (hCS x) = hCS <$> B.ifftS x
  irfftS : ∀ x, A.irfftS (hCS x) = hRS <$> B.irfftS x
  modulusS : ∀ x, A.modulusS (hCS x) = hRS <$> B.modulusS x
  cdgmmS : ∀ x f, A.cdgmmS (hCS x) (hF f) = hCS <$> B.cdgmmS x f
  subsampleS : ∀ x e, A.subsampleS (hCS x) e = hCS <$> B.subsampleS x e
  averageGlobalS : ∀ x, A.averageGlobalS (hRS x) = hRS <$> B.averageGlobalS x
  unpadFrequency : ∀ x m s, A.unpadFrequency (hRS x) m s = hRS <$> B.unpadFrequency x m s
  split : ∀ x m s, A.split (hRS x) m s = (List.map hR) <$> B.split x m s

/-- Paths with their coefficients replaced. -/
def TPath.mapR {X Y : Type} (h : X → Y) (p : TPath X) : TPath Y := ⟨h p.coef, p.j, p.n, p.n1Max⟩

@[inherit_doc TPath.mapR]
def FPath.mapR {X Y : Type} (h : X → Y) (p : FPath X) : FPath Y :=
  ⟨h p.coef, p.j, p.n, p.n1Max, p.jFr, p.nFr, p.n1Stride, p.spin⟩

namespace JTFS

theorem listGetI_hom (g : α → β) (l : List α) (k : Int) : listGetI (l.map g) k = g <$> listGetI l k := by
  unfold listGetI
  rw [List.length_map]
  split
  · exact listGet_hom g l _
  · split
    · exact listGet_hom g l _
    · rfl

variable {A B : JBackend} (H : HomJ A B)

theorem hom_zeroth (phi : Filt B.F) (ls : Nat) (avg : Bool) (U0 : B.R) (U : B.C) :
    zeroth A (phi.mapF H.hF) ls avg (H.hR U0) (H.hC U) = H.hR <$> zeroth B phi ls avg U0 U := by
  unfold zeroth Filt.mapF
  cases avg with
  | false => rfl
  | true => simp only [if_true, listGet_hom, bind_map, H.cdgmm, H.subsample, H.irfft, map_bind']

theorem hom_first (phi : Filt B.F) (ls : Nat) (avg : Bool) (U : B.C) (psi : Filt B.F) :
    first A (phi.mapF H.hF) ls avg (H.hC U) (psi.mapF H.hF) =
      (fun q => (H.hC q.1, H.hR q.2)) <$> first B phi ls avg U psi := by
  unfold first Filt.mapF
  simp only [listGet_hom, bind_map, H.cdgmm, H.subsample, H.irfft, H.ifft, H.modulus, H.rfft, map_bind']
  rfl

theorem hom_second (ls : Nat) (avg : Bool) (psi : Filt B.F) (u : Nat × B.C) :
    second A ls avg (psi.mapF H.hF) (u.1, H.hC u.2) = H.hC <$> second B ls avg psi u := by
  unfold second Filt.mapF
  simp only [listGet_hom, bind_map, H.cdgmm, H.subsample, H.ifft, map_bind']

theorem hom_stack2 (ls : Nat) (avg : Bool) (us : List (Nat × B.C)) (psi : Filt B.F) (n2 : Nat) :
    stack2 A ls avg (us.map fun u => (u.1, H.hC u.2)) (psi.mapF H.hF) n2 =
      (List.map (TPath.mapR H.hCS)) <$> stack2 B ls avg us psi n2 := by
  unfold stack2
  rw [List.filter_map]
  have hf : ((fun u : Nat × A.C => decide ((psi.mapF H.hF).j > u.1)) ∘ fun u : Nat × B.C => (u.1, H.hC u.2)) =
      fun u => decide (psi.j > u.1) := rfl
  rw [hf, lay_mapM _ H.hC _ _ _ fun u _ => hom_second H ls avg psi u, bind_map, map_bind']
  congr 1
  funext ys
  rw [List.length_map]
  split
  · rw [H.stackC, bind_map, map_bind']
    rfl
  · rfl

theorem hom_widthFirst (U0 : B.R) (phi : Filt B.F) (psi1 psi2 : List (Filt B.F)) (ls : Nat) (avg : Bool) :
    widthFirst A (H.hR U0) (phi.mapF H.hF) (psi1.map (Filt.mapF H.hF)) (psi2.map (Filt.mapF H.hF)) ls avg =
      (fun t => (H.hR t.1, t.2.1.mapR H.hRS, t.2.2.map (TPath.mapR H.hCS))) <$>
        widthFirst B U0 phi psi1 psi2 ls avg := by
  unfold widthFirst
  simp only [H.rfft, bind_map, map_bind']
  congr 1
  funext U
  rw [hom_zeroth, bind_map]
  congr 1
  funext S0
  rw [lay_mapM (Filt.mapF H.hF) _ _ _ _ fun p _ => hom_first H phi ls avg U p, bind_map]
  congr 1
  funext l
  have e1 : (l.map fun q : B.C × B.R => (H.hC q.1, H.hR q.2)).map Prod.snd = (l.map Prod.snd).map H.hR := by
    rw [List.map_map, List.map_map]; rfl
  have e2 : List.zip ((psi1.map (Filt.mapF H.hF)).map fun p => p.j)
      ((l.map fun q : B.C × B.R => (H.hC q.1, H.hR q.2)).map Prod.fst) =
      (List.zip (psi1.map fun p => p.j) (l.map Prod.fst)).map fun u => (u.1, H.hC u.2) := by
    rw [List.map_map, List.map_map, List.zip_map, List.zip_map, List.map_map]
    rfl
  rw [e1, e2, H.stackR, bind_map]
  congr 1
  funext S1
  rw [Core1D.lay_forEnum (Filt.mapF H.hF) (TPath.mapR H.hCS) _ _ (hom_stack2 H ls avg _), bind_map, List.length_map]
  rfl

theorem hom_frBody (lsFr : Nat) (avgFr : Bool) (j n : List Int) (m : Nat) (X : B.CS) (psi : FiltFr B.F) (nFr : Nat) :
    frBody A lsFr avgFr j n m (H.hCS X) (psi.mapF H.hF) nFr =
      (List.map (FPath.mapR H.hCS)) <$> frBody B lsFr avgFr j n m X psi nFr := by
  unfold frBody FiltFr.mapF
  simp only [listGet_hom, bind_map, H.cdgmmS, H.subsampleS, H.ifftS, H.swapC, map_bind']
  rfl

theorem hom_frequencyReal (phi : PhiFr B.F) (psis : List (FiltFr B.F)) (lsFr : Nat) (avgFr : Bool) (X : TPath B.RS) :
    frequencyReal A (phi.mapF H.hF) (psis.map (FiltFr.mapF H.hF)) lsFr avgFr (X.mapR H.hRS) =
      (List.map (FPath.mapR H.hCS)) <$> frequencyReal B phi psis lsFr avgFr X := by
  unfold frequencyReal TPath.mapR PhiFr.mapF
  simp only [H.swapR, H.padFrequencyR, H.rfftS, bind_map, map_bind']
  congr 1
  funext XT
  congr 1
  funext Xp
  congr 1
  funext Xh
  rw [List.filter_map]
  exact Core1D.lay_forEnum (FiltFr.mapF H.hF) (FPath.mapR H.hCS) _ _ (hom_frBody H lsFr avgFr X.j X.n X.n1Max Xh) _ _

theorem hom_frequencyComplex (phi : PhiFr B.F) (psis : List (FiltFr B.F)) (lsFr : Nat) (avgFr : Bool) (X : TPath B.CS) :
    frequencyComplex A (phi.mapF H.hF) (psis.map (FiltFr.mapF H.hF)) lsFr avgFr (X.mapR H.hCS) =
      (List.map (FPath.mapR H.hCS)) <$> frequencyComplex B phi psis lsFr avgFr X := by
  unfold frequencyComplex TPath.mapR PhiFr.mapF
  simp only [H.swapC, H.padFrequencyC, H.cfftS, bind_map, map_bind']
  congr 1
  funext XT
  congr 1
  funext Xp
  congr 1
  funext Xh
  exact Core1D.lay_forEnum (FiltFr.mapF H.hF) (FPath.mapR H.hCS) _ _ (hom_frBody H lsFr avgFr X.j X.n X.n1Max Xh) _ _

theorem hom_joint (U0 : B.R) (phi : Filt B.F) (psi1 psi2 : List (Filt B.F)) (ls : Nat) (avg : Bool)
    (phiFr : PhiFr B.F) (psisFr : List (FiltFr B.F)) (lsFr : Nat) (avgFr : Bool) :
    joint A (H.hR U0) (phi.mapF H.hF) (psi1.map (Filt.mapF H.hF)) (psi2.map (Filt.mapF H.hF)) ls avg
      (phiFr.mapF H.hF) (psisFr.map (FiltFr.mapF H.hF)) lsFr avgFr =
      (fun t => (H.hR t.1, t.2.map (FPath.mapR H.hCS))) <$>
        joint B U0 phi psi1 psi2 ls avg phiFr psisFr lsFr avgFr := by
  unfold joint
  rw [hom_widthFirst, bind_map, map_bind']
  congr 1
  funext t
  rw [hom_frequencyReal, bind_map, map_bind']
  congr 1
  funext y1
  rw [lay_mapM (TPath.mapR H.hCS) _ _ _ _ fun X _ => hom_frequencyComplex H phiFr psisFr lsFr avgFr X, bind_map,
    map_bind']
  congr 1
  funext y2
  rw [map_ok, List.map_append, List.map_flatten]

theorem hom_timeAveraging (phi : Filt B.F) (ls : Nat) (j : List Int) (U : B.RS) :
    timeAveraging A (phi.mapF H.hF) ls j (H.hRS U) = H.hRS <$> timeAveraging B phi ls j U := by
  unfold timeAveraging Filt.mapF
  cases j.getLast? with
  | none => rfl
  | some k => simp only [listGetI_hom, bind_map, H.cdgmmS, H.subsampleS, H.irfftS, H.rfftS, map_bind']

theorem hom_frequencyAveraging (phi : PhiFr B.F) (lsFr : Nat) (glob : Bool) (m jFr : Nat) (U : B.RS) :
    frequencyAveraging A (phi.mapF H.hF) lsFr glob m jFr (H.hRS U) =
      (fun q => (H.hRS q.1, q.2)) <$> frequencyAveraging B phi lsFr glob m jFr U := by
  unfold frequencyAveraging PhiFr.mapF
  cases glob with
  | true =>
    simp only [if_true, H.swapR, H.averageGlobalS, bind_map, map_bind']
    rfl
  | false =>
    simp only [Bool.false_eq_true, if_false, H.swapR, listGet_hom, bind_map, H.cdgmmS, H.subsampleS, H.irfftS, H.rfftS,
      map_bind']
    rfl

theorem hom_averageTime (phi : Filt B.F) (ls : Nat) (av : Average) (p : FPath B.CS) (U : B.RS) :
    averageTime A (phi.mapF H.hF) ls av (p.mapR H.hCS) (H.hRS U) = H.hRS <$> averageTime B phi ls av p U := by
  unfold averageTime
  by_cases h : av = .glob
  · rw [if_pos h, if_pos h]
    exact H.averageGlobalS U
  · by_cases h' : av = .loc ∧ p.n.length > 1
    · rw [if_neg h, if_neg h, if_pos h', if_pos (show av = .loc ∧ (p.mapR H.hCS).n.length > 1 from h')]
      exact hom_timeAveraging H phi ls p.j U
    · rw [if_neg h, if_neg h, if_neg h', if_neg (show ¬ (av = .loc ∧ (p.mapR H.hCS).n.length > 1) from h')]
      rfl

theorem hom_averageFreq (phi : PhiFr B.F) (lsFr : Nat) (av : Average) (p : FPath B.CS) (U : B.RS) :
    averageFreq A (phi.mapF H.hF) lsFr av (p.mapR H.hCS) (H.hRS U) =
      (fun q => (H.hRS q.1, q.2)) <$> averageFreq B phi lsFr av p U := by
  unfold averageFreq
  by_cases h : av ≠ .no ∧ p.spin ≠ 0
  · rw [if_pos h, if_pos (show av ≠ .no ∧ (p.mapR H.hCS).spin ≠ 0 from h)]
    exact hom_frequencyAveraging H phi lsFr _ _ _ U
  · rw [if_neg h, if_neg (show ¬ (av ≠ .no ∧ (p.mapR H.hCS).spin ≠ 0) from h)]
    rfl

theorem hom_unpadFr (ao : Bool) (fmt : Format) (m s : Nat) (U : B.RS) :
    unpadFr A ao fmt m s (H.hRS U) = H.hRS <$> unpadFr B ao fmt m s U := by
  unfold unpadFr
  split
  · exact H.unpadFrequency U m s
  · rfl

theorem hom_formatPath (fmt : Format) (p : FPath B.RS) :
    formatPath A fmt (p.mapR H.hRS) = (List.map (JPath.map H.hR H.hRS)) <$> formatPath B fmt p := by
  unfold formatPath
  cases fmt with
  | joint => rfl
  | other => rfl
  | time =>
    show timeFormatting A (p.mapR H.hRS) = _ <$> timeFormatting B p
    unfold timeFormatting
    show (A.split (H.hRS p.coef) p.n1Max p.n1Stride >>= _ : Py _) = _
    rw [H.split, bind_map, map_bind']
    congr 1
    funext l
    have e := Core1D.lay_forEnum (id : Nat → Nat) (JPath.map H.hR H.hRS)
      (fun (n1 : Nat) i => do
        let r ← listGet (l.map H.hR) i
        .ok [(⟨.sig r, p.j, (n1 : Int) :: p.n, p.n.length - 1, some (p.jFr, p.nFr, p.spin), none⟩ :
          JPath A.R A.RS)])
      (fun (n1 : Nat) i => do
        let r ← listGet l i
        .ok [(⟨.sig r, p.j, (n1 : Int) :: p.n, p.n.length - 1, some (p.jFr, p.nFr, p.spin), none⟩ :
          JPath B.R B.RS)])
      (fun n1 i => by
        show (listGet (l.map H.hR) i >>= _ : Py _) = _
        rw [listGet_hom, bind_map, map_bind']
        rfl) (n1Range p.n1Max p.n1Stride) 0
    rw [List.map_id] at e
    exact e

theorem hom_averageBody (phi : Filt B.F) (ls : Nat) (av : Average) (phiFr : PhiFr B.F) (lsFr : Nat) (avFr : Average)
    (ao : Bool) (fmt : Format) (p : FPath B.CS) :
    averageBody A (phi.mapF H.hF) ls av (phiFr.mapF H.hF) lsFr avFr ao fmt (p.mapR H.hCS) =
      (List.map (JPath.map H.hR H.hRS)) <$> averageBody B phi ls av phiFr lsFr avFr ao fmt p := by
  unfold averageBody
  show (A.modulusS (H.hCS p.coef) >>= _ : Py _) = _
  rw [H.modulusS, bind_map, map_bind']
  congr 1
  funext U
  rw [hom_averageTime, bind_map, map_bind']
  congr 1
  funext U'
  rw [hom_averageFreq, bind_map, map_bind']
  congr 1
  funext S
  show (unpadFr A ao fmt p.n1Max S.2 (H.hRS S.1) >>= _ : Py _) = _
  rw [hom_unpadFr, bind_map, map_bind']
  congr 1
  funext S'
  exact hom_formatPath H fmt ⟨S', p.j, p.n, p.n1Max, p.jFr, p.nFr, S.2, p.spin⟩

theorem hom_averageAndFormat (t : B.R × List (FPath B.CS)) (phi : Filt B.F) (ls : Nat) (av : Average)
    (phiFr : PhiFr B.F) (lsFr : Nat) (avFr : Average) (ao : Bool) (fmt : Format) :
    averageAndFormat A (H.hR t.1, t.2.map (FPath.mapR H.hCS)) (phi.mapF H.hF) ls av (phiFr.mapF H.hF) lsFr avFr ao fmt =
      (List.map (JPath.map H.hR H.hRS)) <$> averageAndFormat B t phi ls av phiFr lsFr avFr ao fmt := by
  unfold averageAndFormat
  have hz : averageZeroth A av (H.hR t.1) = H.hR <$> averageZeroth B av t.1 := by
    unfold averageZeroth
    split
    · exact H.averageGlobal _
    · rfl
  rw [hz, bind_map, map_bind']
  congr 1
  funext z
  rw [lay_mapM (FPath.mapR H.hCS) (List.map (JPath.map H.hR H.hRS)) _ _ t.2
    fun p _ => hom_averageBody H phi ls av phiFr lsFr avFr ao fmt p, bind_map, map_bind']
  congr 1
  funext l
  rw [map_ok, List.map_cons, List.map_flatten]
  rfl

end JTFS

/-- Frontend operations that commute with a map of time-frequency backends. -/
structure HomFrontJ {A B : JBackend} (H : HomJ A B) (fa : JFrontOps A.R A.RS) (fb : JFrontOps B.R B.RS) : Prop where
  pad : ∀ x l r, fa.pad (H.hR x) l r = H.hR <$> fb.pad x l r
  unpad : ∀ x i j, fa.unpad (H.hR x) i j = H.hR (fb.unpad x i j)
  unpadS : ∀ x i j, fa.unpadS (H.hRS x) i j = H.hRS (fb.unpadS x i j)

namespace FrontJ

variable {A B : JBackend} (H : HomJ A B) {fa : JFrontOps A.R A.RS} {fb : JFrontOps B.R B.RS} (hf : HomFrontJ H fa fb)

theorem hom_paths (o : JObj B.F) (ls lsFr : Nat) (U0 : B.R) :
    paths A (o.mapF H.hF) ls lsFr (H.hR U0) = (List.map (JPath.map H.hR H.hRS)) <$> paths B o ls lsFr U0 := by
  unfold paths
  show (JTFS.joint A (H.hR U0) (o.phi.mapF H.hF) (o.psi1.map (Filt.mapF H.hF)) (o.psi2.map (Filt.mapF H.hF)) ls
    (decide (o.average = .loc)) (o.phiFr.mapF H.hF) (o.psisFr.map (FiltFr.mapF H.hF)) lsFr
    (decide (o.averageFr = .loc)) >>= _ : Py _) = _
  rw [JTFS.hom_joint, bind_map, map_bind']
  congr 1
  funext t
  exact JTFS.hom_averageAndFormat H t o.phi ls o.average o.phiFr lsFr o.averageFr _ o.fmt

include hf in
theorem hom_post (o : JObj B.F) (ls : Nat) (p : JPath B.R B.RS) :
    post fa (o.mapF H.hF) ls (p.map H.hR H.hRS) = (JPath.map H.hR H.hRS) <$> post fb o ls p := by
  unfold post
  show (if o.average = .glob then Except.ok (p.map H.hR H.hRS) else _) = _
  by_cases h : o.average = .glob
  · rw [if_pos h, if_pos h]; rfl
  · rw [if_neg h, if_neg h]
    show (resolution o ls p >>= _ : Py _) = _
    rw [map_bind']
    congr 1
    funext r
    show (dictGet o.indStart r >>= _ : Py _) = _
    rw [map_bind']
    congr 1
    funext i0
    show (dictGet o.indEnd r >>= _ : Py _) = _
    rw [map_bind']
    congr 1
    funext i1
    obtain ⟨co, j, n, or, fr, n1⟩ := p
    cases co with
    | sig a =>
      show Except.ok (⟨.sig (fa.unpad (H.hR a) i0 i1), _, _, _, _, _⟩ : JPath A.R A.RS) = _
      rw [hf.unpad]
      rfl
    | stk a =>
      show Except.ok (⟨.stk (fa.unpadS (H.hRS a) i0 i1), _, _, _, _, _⟩ : JPath A.R A.RS) = _
      rw [hf.unpadS]
      rfl

include hf in
/-- **JTFS.** -/
theorem hom_unassembled (o : JObj B.F) (x : B.R) :
    unassembled A fa (o.mapF H.hF) (H.hR x) = (List.map (JPath.map H.hR H.hRS)) <$> unassembled B fb o x := by
  unfold unassembled
  rw [map_bind']
  show (checkRuntimeArgs o >>= _ : Py _) = _
  congr 1
  funext _
  show (fa.pad (H.hR x) o.padLeft o.padRight >>= _ : Py _) = _
  rw [hf.pad, bind_map, map_bind']
  congr 1
  funext U0
  show (o.log2Stride >>= _ : Py _) = _
  rw [map_bind']
  congr 1
  funext ls
  show (o.log2StrideFr >>= _ : Py _) = _
  rw [map_bind']
  congr 1
  funext lsFr
  rw [hom_paths, bind_map, map_bind']
  congr 1
  funext S
  exact lay_mapM (JPath.map H.hR H.hRS) (JPath.map H.hR H.hRS) _ _ S fun p _ => hom_post H hf o ls.toNat p

end FrontJ

end Verif
