import Verif.Model.Layout
import Verif.Lemmas.Sim
import Mathlib.Data.List.Basic

/-!
# Lemmas on runs with layout flags

Every function of `Model/Layout` on tensors flagged `true` is the function without flags, with the flag of its result.
-/

namespace Verif

variable {α β γ : Type}

theorem checked_true (f : α → Py β) (c : Bool) (x : α) : checked f c (x, true) = (fun y => (y, c)) <$> f x := by
  unfold checked contiguousCheck
  cases f x <;> rfl

theorem checkedMul_true (f : α → β → Py α) (x : α) (y : β) :
    checkedMul f (x, true) (y, true) = (fun z => (z, true)) <$> f x y := by
  unfold checkedMul contiguousCheck
  cases f x y <;> rfl

theorem listGet_lay (l : List α) (k : Nat) : listGet (layLevels l) k = (fun f => (f, true)) <$> listGet l k := by
  unfold listGet layLevels
  rw [List.getElem?_map]
  cases l[k]? <;> rfl

theorem bind_map {m : α → β} (a : Py α) (f : β → Py γ) : (m <$> a) >>= f = a >>= fun x => f (m x) := by
  cases a <;> rfl

theorem map_bind' {m : β → γ} (a : Py α) (f : α → Py β) : m <$> (a >>= f) = a >>= fun x => m <$> f x := by
  cases a <;> rfl

theorem map_ok {m : α → β} (x : α) : m <$> (.ok x : Py α) = .ok (m x) := rfl

theorem map_error {m : α → β} (e : PyErr) : m <$> (.error e : Py α) = .error e := rfl

/-- A path with a flag. -/
def Path.flag {R : Type} (c : Bool) (p : Path R) : Path (Lay R) := { p with coef := (p.coef, c) }

namespace Core1D

variable (B : Backend1D)

theorem lay_lowpass (phi : Filt B.F) (U : B.C) (k e : Nat) :
    lowpass (layBackend B) phi.lay (U, true) k e = (fun r => (r, false)) <$> lowpass B phi U k e := by
  unfold lowpass Filt.lay
  simp only [listGet_lay, bind_map, checkedMul_true, checked_true, map_bind']

theorem lay_bandpass (psi : Filt B.F) (U : B.C) (k e : Nat) :
    bandpass (layBackend B) psi.lay (U, true) k e = (fun r => (r, true)) <$> bandpass B psi U k e := by
  unfold bandpass Filt.lay
  simp only [listGet_lay, bind_map, checkedMul_true, checked_true, map_bind']

theorem lay_forEnum {δ : Type} (g : α → β) (m : γ → δ) (f : β → Nat → Py (List δ)) (f' : α → Nat → Py (List γ))
    (h : ∀ a n, f (g a) n = (List.map m) <$> f' a n) (l : List α) (n : Nat) :
    forEnum f (l.map g) n = (List.map m) <$> forEnum f' l n := by
  induction l generalizing n with
  | nil => rfl
  | cons a l ih =>
    rw [List.map_cons]
    unfold forEnum
    simp only [h, ih, bind_map, map_bind', map_ok, List.map_append]

theorem lay_secondOrder (phi : Filt B.F) (ls : Nat) (avg : Bool) (j1 n1 k1 : Nat) (U : B.C) (psi : Filt B.F) (n2 : Nat) :
    secondOrder (layBackend B) phi.lay ls avg j1 n1 k1 (U, true) psi.lay n2 =
      (List.map (Path.flag (!avg))) <$> secondOrder B phi ls avg j1 n1 k1 U psi n2 := by
  unfold secondOrder
  have hj : psi.lay.j = psi.j := rfl
  rw [hj]
  by_cases h : psi.j > j1
  · rw [if_pos h, if_pos h]
    cases avg <;>
      simp [checked_true, lay_bandpass, lay_lowpass, Path.flag]
  · rw [if_neg h, if_neg h]; rfl

theorem lay_firstPath (phi : Filt B.F) (ls : Nat) (avg : Bool) (j1 n1 k1 : Nat) (U1 : B.R) (U : B.C) :
    firstPath (layBackend B) phi.lay ls avg j1 n1 k1 (U1, true) (U, true) =
      (Path.flag (!avg)) <$> firstPath B phi ls avg j1 n1 k1 U1 U := by
  unfold firstPath
  cases avg <;> simp [lay_lowpass, Path.flag]

theorem lay_firstOrder (phi : Filt B.F) (psis : List (List (Filt B.F))) (ls : Nat) (avg : Bool) (U : B.C)
    (psi : Filt B.F) (n1 : Nat) :
    firstOrder (layBackend B) phi.lay (psis.map (List.map Filt.lay)) ls avg (U, true) psi.lay n1 =
      (List.map (Path.flag (!avg))) <$> firstOrder B phi psis ls avg U psi n1 := by
  unfold firstOrder
  have hj : psi.lay.j = psi.j := rfl
  simp only [hj, lay_bandpass, bind_map, map_bind', List.getElem?_map]
  congr 1
  funext U1
  cases avg with
  | false =>
    cases h : psis[1]? with
    | none => rfl
    | some p2 =>
      simp only [Option.map_some, checked_true, bind_map, map_bind', lay_firstPath]
      congr 1
      funext c
      congr 1
      funext p
      rw [lay_forEnum Filt.lay (Path.flag (!false)) _ _ (lay_secondOrder B phi ls false psi.j n1 _ c)]
      simp only [bind_map, map_ok, List.map_cons]
  | true =>
    cases h : psis[1]? with
    | none =>
      simp only [Option.map_none, checked_true, bind_map, map_bind', lay_firstPath]
      rfl
    | some p2 =>
      simp only [Option.map_some, checked_true, bind_map, map_bind', lay_firstPath]
      congr 1
      funext c
      congr 1
      funext p
      rw [lay_forEnum Filt.lay (Path.flag (!true)) _ _ (lay_secondOrder B phi ls true psi.j n1 _ c)]
      simp only [bind_map, map_ok, List.map_cons]

/-- The core on a contiguous padded signal: the same values, contiguous without averaging. -/
theorem lay_scattering1d (U0 : B.R) (phi : Filt B.F) (psis : List (List (Filt B.F))) (ls : Nat) (avg : Bool) :
    scattering1d (layBackend B) (U0, true) phi.lay (psis.map (List.map Filt.lay)) ls avg =
      (List.map (Path.flag (!avg))) <$> scattering1d B U0 phi psis ls avg := by
  unfold scattering1d
  simp only [checked_true, bind_map, map_bind']
  congr 1
  funext Uh
  have hz : zeroth (layBackend B) phi.lay ls avg (U0, true) (Uh, true) =
      (fun r => (r, !avg)) <$> zeroth B phi ls avg U0 Uh := by
    unfold zeroth
    cases avg
    · rfl
    · exact lay_lowpass B phi Uh 0 ls
  have hg : listGet (psis.map (List.map Filt.lay)) 0 = (List.map Filt.lay) <$> listGet psis 0 := by
    unfold listGet
    rw [List.getElem?_map]
    cases psis[0]? <;> rfl
  rw [hz, hg]
  simp only [bind_map]
  congr 1
  funext S0
  congr 1
  funext psi1
  rw [lay_forEnum Filt.lay (Path.flag (!avg)) _ _ (lay_firstOrder B phi psis ls avg Uh)]
  simp only [bind_map, map_ok, List.map_cons]
  rfl

end Core1D

theorem lay_mapM {δ : Type} (g : α → β) (m : γ → δ) (f : β → Py δ) (f' : α → Py γ)
    (l : List α) (h : ∀ a ∈ l, f (g a) = m <$> f' a) : (l.map g).mapM f = (List.map m) <$> l.mapM f' := by
  induction l with
  | nil => rfl
  | cons a l ih =>
    rw [List.map_cons, List.mapM_cons, List.mapM_cons, h a (by simp), ih fun b hb => h b (by simp [hb])]
    simp only [bind_map, map_bind']
    rfl

namespace Front1D

theorem psis_lay {F : Type} (o : Obj1D F) : psis o.lay = (psis o).map (List.map Filt.lay) := by
  unfold psis sliceTo Obj1D.lay
  split <;> simp [List.map_take]

theorem sortPaths_map {R R' : Type} (g : Path R → Path R') (hg : ∀ p, (g p).n = p.n) (l : List (Path R)) :
    sortPaths (l.map g) = (sortPaths l).map g := by
  unfold sortPaths
  rw [List.map_mergeSort]
  intro p _ q _
  rw [hg, hg]

theorem dict_map {R : Type} (l : List (Path (Lay R))) (d : List (List Nat × Lay R)) :
    (l.foldl (fun d p => dictInsert d p.n p.coef) d).map (fun e => (e.1, e.2.1)) =
      (l.map Path.forget).foldl (fun d p => dictInsert d p.n p.coef)
        (d.map fun e => (e.1, e.2.1)) := by
  induction l generalizing d with
  | nil => rfl
  | cons p l ih =>
    rw [List.foldl_cons, ih, List.map_cons, List.foldl_cons]
    congr 1
    rw [show p.forget.n = p.n from rfl, show p.forget.coef = p.coef.1 from rfl]
    unfold dictInsert
    rw [List.any_map]
    split
    · rename_i h
      rw [if_pos (by simpa [Function.comp_def] using h), List.map_map, List.map_map]
      apply List.map_congr_left
      intro e _
      simp only [Function.comp]
      split <;> simp_all
    · rename_i h
      rw [if_neg (by simpa [Function.comp_def] using h)]
      simp

theorem stackRows_forget {R : Type} (ops : FrontOps R) (l : List (Lay R)) :
    (List.map Prod.fst) <$> stackRows (layFront ops) l = stackRows ops (l.map Prod.fst) := by
  unfold stackRows
  cases l with
  | nil => rfl
  | cons p m =>
    simp only [List.map_cons]
    rw [← List.map_cons (f := Prod.fst), List.all_map]
    show _ = if (p :: m).all (fun b => ops.size b.1 == ops.size p.1) then _ else _
    have e : ((p :: m).all fun b => (layFront ops).size b == (layFront ops).size p) =
      (p :: m).all fun b => ops.size b.1 == ops.size p.1 := rfl
    rw [e]
    split <;> rfl

theorem assemble_forget {F R : Type} (ops : FrontOps R) (o : Obj1D F) (l : List (Path (Lay R))) :
    Out1D.forget <$> assemble (layFront ops) o l = assemble ops o (l.map Path.forget) := by
  unfold assemble
  split
  · rw [map_ok]
    show Except.ok (Out1D.dict _) = _
    rw [dict_map]
    rfl
  · rw [map_ok, sortPaths_map Path.forget fun _ => rfl]
    rfl
  · rw [sortPaths_map Path.forget fun _ => rfl, map_bind', List.map_map]
    have := stackRows_forget ops ((sortPaths l).map fun p => p.coef)
    rw [List.map_map] at this
    show _ = stackRows ops (List.map (Prod.fst ∘ fun p => p.coef) (sortPaths l)) >>= _
    rw [← this, bind_map]
    rfl

theorem post_flag {F R : Type} (ops : FrontOps R) (o : Obj1D F) (ls : Nat) (p : Path R) (c : Bool)
    (hc : o.average = .glob → c = true) :
    Path.forget <$> postLay ops o ls (p.flag c) = post ops o ls p := by
  unfold postLay post
  have hr : resolution o ls (p.flag c) = resolution o ls p := rfl
  rw [hr]
  by_cases h : o.average = .glob
  · simp only [if_pos h, hc h]
    cases resolution o ls p <;> rfl
  · simp only [if_neg h]
    cases resolution o ls p with
    | error e => rfl
    | ok r =>
      show Path.forget <$> (dictGet o.indStart r >>= fun i0 => _) = (dictGet o.indStart r >>= fun i0 => _)
      cases dictGet o.indStart r with
      | error e => rfl
      | ok i0 =>
        show Path.forget <$> (dictGet o.indEnd r >>= fun i1 => _) = (dictGet o.indEnd r >>= fun i1 => _)
        cases dictGet o.indEnd r <;> rfl

theorem mapM_forget {F R : Type} (ops : FrontOps R) (o : Obj1D F) (ls : Nat) (c : Bool)
    (hc : o.average = .glob → c = true) (l : List (Path R)) :
    (List.map Path.forget) <$> (l.map (Path.flag c)).mapM (postLay ops o ls) = l.mapM (post ops o ls) := by
  induction l with
  | nil => rfl
  | cons a l ih =>
    rw [List.map_cons, List.mapM_cons, List.mapM_cons, ← ih, ← post_flag ops o ls a c hc]
    simp only [bind_map, map_bind']
    rfl

end Front1D

/-! ## 2-D -/

/-- A 2-D path with the flag of a view. -/
def Path2.view {R : Type} (p : Path2 R) : Path2 (Lay R) := { p with coef := (p.coef, false) }

namespace Core2D

variable (B : Backend1D) (ops : Ops2D B.R) (pp : Bool)

theorem lay_lowpass (J : Nat) (phi : List B.F) (U : B.C) (lev : Nat) :
    lowpass (layBackend B) (layOps2 ops pp) J (layLevels phi) (U, true) lev =
      (fun r => (r, false)) <$> lowpass B ops J phi U lev := by
  unfold lowpass
  simp only [listGet_lay, bind_map, checkedMul_true, checked_true, map_bind']
  rfl

theorem lay_subIfPos (c : B.C) (j : Nat) :
    subIfPos (layBackend B) (c, true) j = (fun y => (y, true)) <$> subIfPos B c j := by
  unfold subIfPos
  split
  · exact checked_true _ _ _
  · rfl

theorem lay_first (psi : Filt2 B.F) (U : B.C) :
    first (layBackend B) psi.lay (U, true) = (fun y => (y, true)) <$> first B psi U := by
  unfold first Filt2.lay
  simp only [listGet_lay, bind_map, checkedMul_true, checked_true, map_bind', lay_subIfPos]

theorem lay_second (psi : Filt2 B.F) (j1 : Nat) (U : B.C) :
    second (layBackend B) psi.lay j1 (U, true) = (fun y => (y, true)) <$> second B psi j1 U := by
  unfold second Filt2.lay
  simp only [listGet_lay, bind_map, checkedMul_true, checked_true, map_bind']

theorem lay_secondOrder (J : Nat) (phi : List B.F) (psi1 : Filt2 B.F) (n1 : Nat) (U : B.C) (psi2 : Filt2 B.F)
    (n2 : Nat) :
    secondOrder (layBackend B) (layOps2 ops pp) J (layLevels phi) psi1.lay n1 (U, true) psi2.lay n2 =
      (List.map Path2.view) <$> secondOrder B ops J phi psi1 n1 U psi2 n2 := by
  unfold secondOrder
  simp only [show psi1.lay.j = psi1.j from rfl, show psi2.lay.j = psi2.j from rfl,
    show psi1.lay.theta = psi1.theta from rfl, show psi2.lay.theta = psi2.theta from rfl]
  split
  · rfl
  · simp only [lay_second, bind_map, map_bind', lay_lowpass]
    rfl

theorem lay_firstOrder (J : Nat) (phi : List B.F) (psi : List (Filt2 B.F)) (mo : Int) (U : B.C) (psi1 : Filt2 B.F)
    (n1 : Nat) :
    firstOrder (layBackend B) (layOps2 ops pp) J (layLevels phi) (psi.map Filt2.lay) mo (U, true) psi1.lay n1 =
      (List.map fun q : Path2 B.R × List (Path2 B.R) => (q.1.view, q.2.map Path2.view)) <$>
        firstOrder B ops J phi psi mo U psi1 n1 := by
  unfold firstOrder
  simp only [show psi1.lay.j = psi1.j from rfl, show psi1.lay.theta = psi1.theta from rfl, lay_first, bind_map,
    map_bind', lay_lowpass]
  congr 1
  funext c
  congr 1
  funext S
  split
  · rfl
  · rw [Core1D.lay_forEnum Filt2.lay Path2.view _ _ (lay_secondOrder B ops pp J phi psi1 n1 c), bind_map, map_bind']
    rfl

theorem lay_paths (x : B.R) (c : Bool) (hc : pp = true → c = true) (J : Nat) (phi : List B.F)
    (psi : List (Filt2 B.F)) (mo : Int) :
    paths (layBackend B) (layOps2 ops pp) (x, c) J (layLevels phi) (psi.map Filt2.lay) mo =
      (List.map Path2.view) <$> paths B ops x J phi psi mo := by
  unfold paths
  have hp : (layOps2 ops pp).pad (x, c) = (fun y => (y, true)) <$> ops.pad x := by
    show (ops.pad x >>= fun y => .ok (y, if pp then c else true) : Py _) = _
    have : (if pp = true then c else true) = true := by
      cases pp
      · rfl
      · exact hc rfl
    rw [this]
    cases ops.pad x <;> rfl
  simp only [hp, bind_map, map_bind', checked_true, lay_lowpass]
  congr 1
  funext Ur
  congr 1
  funext Uc
  congr 1
  funext S0
  rw [Core1D.lay_forEnum Filt2.lay _ _ _ (lay_firstOrder B ops pp J phi psi mo Uc), bind_map]
  congr 1
  funext l
  rw [map_ok]
  simp only [List.map_cons, List.map_append, List.map_map, List.map_flatten]
  rfl

theorem stack_forget (l : List (Lay B.R)) :
    (List.map Prod.fst) <$> stack (layBackend B) (layOps2 ops pp) l = stack B ops (l.map Prod.fst) := by
  unfold stack
  cases l with
  | nil => rfl
  | cons p m =>
    simp only [List.map_cons]
    rw [← List.map_cons (f := Prod.fst), List.all_map]
    show _ = if (p :: m).all (fun b => ops.size b.1 == ops.size p.1) then _ else _
    have e : ((p :: m).all fun b => (layOps2 ops pp).size b == (layOps2 ops pp).size p) =
      (p :: m).all fun b => ops.size b.1 == ops.size p.1 := rfl
    rw [e]
    split <;> rfl

theorem lay_scattering2d (x : B.R) (c : Bool) (hc : pp = true → c = true) (J : Nat) (phi : List B.F)
    (psi : List (Filt2 B.F)) (mo : Int) (array : Bool) :
    Out2D.forget <$> scattering2d (layBackend B) (layOps2 ops pp) (x, c) J (layLevels phi) (psi.map Filt2.lay) mo array
      = scattering2d B ops x J phi psi mo array := by
  unfold scattering2d
  rw [lay_paths B ops pp x c hc, bind_map, map_bind']
  congr 1
  funext l
  cases array with
  | true =>
    rw [if_pos rfl, if_pos rfl, map_bind']
    have h := stack_forget B ops pp ((l.map Path2.view).map fun p => p.coef)
    have e : ((l.map Path2.view).map fun p => p.coef).map Prod.fst = l.map fun p => p.coef := by
      rw [List.map_map, List.map_map]; rfl
    rw [e] at h
    rw [← h, bind_map]
    rfl
  | false =>
    rw [if_neg (by simp), if_neg (by simp), map_ok]
    show Except.ok (Out2D.list _) = _
    rw [List.map_map]
    congr 2
    exact List.map_id l

end Core2D

/-! ## 3-D -/

namespace Core3D

variable (B : Backend3D)

theorem lay_rotLoop (U : B.C) (fs : List B.F) (Um : Option B.R) :
    rotLoop (layBackend3 B) (U, true) (fs.map fun f => (f, true)) (Um.map fun r => (r, true)) =
      (Option.map fun r => (r, true)) <$> rotLoop B U fs Um := by
  induction fs generalizing Um with
  | nil => rfl
  | cons f fs ih =>
    rw [List.map_cons]
    unfold rotLoop
    simp only [checkedMul_true, bind_map, checked_true, map_bind']
    congr 1
    funext c
    congr 1
    funext u
    have e1 : Option.map Prod.fst (Option.map (fun r => (r, true)) Um) = Um := by cases Um <;> rfl
    have e2 : (true && (Option.map Prod.snd (Option.map (fun r : B.R => (r, true)) Um)).getD true) = true := by
      cases Um <;> rfl
    simp only [e1, e2]
    cases B.modulusRotation u Um with
    | error e => rfl
    | ok r => exact ih (some r)

theorem lay_wave (rot : Bool) (U : B.C) (fs : List B.F) :
    wave (layBackend3 B) rot (U, true) (fs.map fun f => (f, true)) = (fun r => (r, true)) <$> wave B rot U fs := by
  unfold wave
  cases rot with
  | true =>
    rw [if_pos rfl, if_pos rfl, map_bind']
    have := lay_rotLoop B U fs none
    rw [Option.map_none] at this
    rw [this, bind_map]
    congr 1
    funext Um
    cases Um <;> rfl
  | false =>
    rw [if_neg (by simp), if_neg (by simp)]
    have := listGet_lay fs 0
    unfold layLevels at this
    simp only [this, bind_map, checkedMul_true, checked_true, map_bind']

theorem listGet_map (g : α → β) (l : List α) (k : Nat) : listGet (l.map g) k = g <$> listGet l k := by
  unfold listGet
  rw [List.getElem?_map]
  cases l[k]? <;> rfl

theorem lay_coef2 (rot : Bool) (fl : List (List B.F)) (U : B.C) (j2 : Nat) :
    coef2 (layBackend3 B) rot (fl.map (List.map fun f => (f, true))) (U, true) j2 = coef2 B rot fl U j2 := by
  unfold coef2
  simp only [listGet_map, bind_map]
  congr 1
  funext fs
  rw [lay_wave, bind_map]
  rfl

theorem lay_order2 (rot : Bool) (J : Nat) (mo : Int) (fl : List (List B.F)) (U1 : B.R) (j1 : Nat) :
    order2 (layBackend3 B) rot J mo (fl.map (List.map fun f => (f, true))) (U1, true) j1 =
      order2 B rot J mo fl U1 j1 := by
  unfold order2
  split
  · simp only [checked_true, bind_map]
    congr 1
    funext c
    congr 1
    funext j2
    exact lay_coef2 B rot fl c j2
  · rfl

theorem lay_order1 (rot : Bool) (J : Nat) (mo : Int) (fl : List (List B.F)) (U : B.C) (j1 : Nat) :
    order1 (layBackend3 B) rot J mo (fl.map (List.map fun f => (f, true))) (U, true) j1 =
      order1 B rot J mo fl U j1 := by
  unfold order1
  simp only [listGet_map, bind_map]
  congr 1
  funext fs
  rw [lay_wave, bind_map]
  congr 1
  funext U1
  rw [lay_order2]
  rfl

theorem lay_perL (rot : Bool) (J : Nat) (mo : Int) (filters : List (List (List B.F))) (U : B.C) (l : Nat) :
    perL (layBackend3 B) rot J mo (filters.map (List.map (List.map fun f => (f, true)))) (U, true) l =
      perL B rot J mo filters U l := by
  unfold perL
  simp only [listGet_map, bind_map]
  congr 1
  funext fl
  have : order1 (layBackend3 B) rot J mo (fl.map (List.map fun f => (f, true))) (U, true) =
      order1 B rot J mo fl U := by
    funext j1
    exact lay_order1 B rot J mo fl U j1
  rw [this]

theorem lay_scattering3d (x : B.R) (filters : List (List (List B.F))) (rot : Bool) (L J : Nat) (mo : Int) :
    scattering3d (layBackend3 B) (x, true) (filters.map (List.map (List.map fun f => (f, true)))) rot L J mo =
      scattering3d B x filters rot L J mo := by
  unfold scattering3d
  simp only [checked_true, bind_map]
  congr 1
  funext c
  have : perL (layBackend3 B) rot J mo (filters.map (List.map (List.map fun f => (f, true)))) (c, true) =
      perL B rot J mo filters c := by
    funext l
    exact lay_perL B rot J mo filters c l
  rw [this]

end Core3D

/-! ## Joint time-frequency scattering -/

/-- A flagged stack of `time_scattering_widthfirst`. -/
def TPath.flag (p : TPath α) : TPath (Lay α) := { p with coef := (p.coef, true) }

/-- A flagged path of `frequency_scattering`. -/
def FPath.flag (c : Bool) (p : FPath α) : FPath (Lay α) := { p with coef := (p.coef, c) }

theorem listGetI_lay (l : List α) (k : Int) : listGetI (layLevels l) k = (fun f => (f, true)) <$> listGetI l k := by
  unfold listGetI
  rw [show (layLevels l).length = l.length from List.length_map _, listGet_lay, listGet_lay]
  split
  · rfl
  · split <;> rfl

namespace JTFS

variable (B : JBackend)

theorem lay_zeroth (phi : Filt B.F) (ls : Nat) (avg : Bool) (U0 : B.R) (U : B.C) :
    zeroth (layJ B) phi.lay ls avg (U0, true) (U, true) = (fun r => (r, !avg)) <$> zeroth B phi ls avg U0 U := by
  unfold zeroth Filt.lay
  cases avg with
  | false => rfl
  | true =>
    simp only [if_true, listGet_lay, bind_map, checkedMul_true, checked_true, map_bind']
    rfl

theorem lay_first (phi : Filt B.F) (ls : Nat) (avg : Bool) (U : B.C) (psi : Filt B.F) :
    first (layJ B) phi.lay ls avg (U, true) psi.lay =
      (fun q => ((q.1, true), (q.2, false))) <$> first B phi ls avg U psi := by
  unfold first Filt.lay
  simp only [listGet_lay, bind_map, checkedMul_true, checked_true, map_bind']
  rfl

theorem lay_second (ls : Nat) (avg : Bool) (psi : Filt B.F) (u : Nat × B.C) :
    second (layJ B) ls avg psi.lay (u.1, (u.2, true)) = (fun y => (y, true)) <$> second B ls avg psi u := by
  unfold second Filt.lay
  simp only [listGet_lay, bind_map, checkedMul_true, checked_true, map_bind']

theorem lay_stack2 (ls : Nat) (avg : Bool) (us : List (Nat × B.C)) (psi : Filt B.F) (n2 : Nat) :
    stack2 (layJ B) ls avg (us.map fun u => (u.1, (u.2, true))) psi.lay n2 =
      (List.map TPath.flag) <$> stack2 B ls avg us psi n2 := by
  unfold stack2
  rw [List.filter_map]
  have hf : ((fun u : Nat × Lay B.C => decide (psi.lay.j > u.1)) ∘ fun u : Nat × B.C => (u.1, (u.2, true))) =
      fun u => decide (psi.j > u.1) := rfl
  rw [hf, lay_mapM _ (fun y => (y, true)) _ _ _ fun u _ => lay_second B ls avg psi u, bind_map, map_bind']
  congr 1
  funext ys
  rw [List.length_map]
  split
  · have e : (ys.map fun y => (y, true)).map Prod.fst = ys := by
      rw [List.map_map]; exact List.map_id ys
    show ((B.stackC ((ys.map fun y => (y, true)).map Prod.fst) >>= fun y => .ok (y, true)) >>= _ : Py _) = _
    rw [e]
    cases B.stackC ys <;> rfl
  · rfl

theorem lay_widthFirst (U0 : B.R) (phi : Filt B.F) (psi1 psi2 : List (Filt B.F)) (ls : Nat) (avg : Bool) :
    widthFirst (layJ B) (U0, true) phi.lay (psi1.map Filt.lay) (psi2.map Filt.lay) ls avg =
      (fun t => ((t.1, !avg), t.2.1.flag, t.2.2.map TPath.flag)) <$> widthFirst B U0 phi psi1 psi2 ls avg := by
  unfold widthFirst
  simp only [checked_true, bind_map, map_bind']
  congr 1
  funext U
  rw [lay_zeroth, bind_map]
  congr 1
  funext S0
  rw [lay_mapM Filt.lay _ _ _ _ fun p _ => lay_first B phi ls avg U p, bind_map]
  congr 1
  funext l
  have e1 : ((l.map fun q : B.C × B.R => ((q.1, true), (q.2, false))).map Prod.snd).map Prod.fst = l.map Prod.snd := by
    rw [List.map_map, List.map_map]; rfl
  have e2 : List.zip ((psi1.map Filt.lay).map fun p => p.j)
      ((l.map fun q : B.C × B.R => ((q.1, true), (q.2, false))).map Prod.fst) =
      (List.zip (psi1.map fun p => p.j) (l.map Prod.fst)).map fun u => (u.1, (u.2, true)) := by
    rw [List.map_map, List.map_map, List.zip_map, List.zip_map, List.map_map]
    rfl
  show ((B.stackR (((l.map fun q : B.C × B.R => ((q.1, true), (q.2, false))).map Prod.snd).map Prod.fst) >>=
    fun y => .ok (y, true)) >>= _ : Py _) = _
  rw [e1, e2]
  cases B.stackR (l.map Prod.snd) with
  | error e => rfl
  | ok S1 =>
    show (Core1D.forEnum _ _ _ >>= _ : Py _) = (Core1D.forEnum _ _ _ >>= _ : Py _)
    rw [Core1D.lay_forEnum Filt.lay TPath.flag _ _ (lay_stack2 B ls avg _), bind_map, List.length_map]
    rfl

theorem lay_frBody (lsFr : Nat) (avgFr : Bool) (j n : List Int) (m : Nat) (X : B.CS) (psi : FiltFr B.F) (nFr : Nat) :
    frBody (layJ B) lsFr avgFr j n m (X, true) psi.lay nFr =
      (List.map (FPath.flag true)) <$> frBody B lsFr avgFr j n m X psi nFr := by
  unfold frBody FiltFr.lay
  simp only [listGet_lay, bind_map, checkedMul_true, checked_true, map_bind']
  congr 1
  funext f
  congr 1
  funext c
  congr 1
  funext h
  congr 1
  funext y
  cases B.swapC y <;> rfl

theorem lay_frequencyReal (phi : PhiFr B.F) (psis : List (FiltFr B.F)) (lsFr : Nat) (avgFr : Bool) (X : TPath B.RS) :
    frequencyReal (layJ B) phi.lay (psis.map FiltFr.lay) lsFr avgFr X.flag =
      (List.map (FPath.flag true)) <$> frequencyReal B phi psis lsFr avgFr X := by
  unfold frequencyReal
  show ((B.swapR X.coef >>= fun y => .ok (y, true)) >>= _ : Py _) = _
  cases B.swapR X.coef with
  | error e => rfl
  | ok XT =>
    show ((B.padFrequencyR XT ((phi.N : Int) - X.n1Max) >>= fun y => .ok (y, true)) >>= _ : Py _) =
      (List.map (FPath.flag true)) <$> (B.padFrequencyR XT ((phi.N : Int) - X.n1Max) >>= _ : Py _)
    cases B.padFrequencyR XT ((phi.N : Int) - X.n1Max) with
    | error e => rfl
    | ok Xp =>
      show (checked B.rfftS true (Xp, true) >>= _ : Py _) = (List.map (FPath.flag true)) <$> (B.rfftS Xp >>= _ : Py _)
      rw [checked_true, bind_map, map_bind']
      congr 1
      funext Xh
      rw [List.filter_map]
      exact Core1D.lay_forEnum FiltFr.lay (FPath.flag true) _ _ (lay_frBody B lsFr avgFr X.j X.n X.n1Max Xh) _ _

theorem lay_frequencyComplex (phi : PhiFr B.F) (psis : List (FiltFr B.F)) (lsFr : Nat) (avgFr : Bool) (X : TPath B.CS) :
    frequencyComplex (layJ B) phi.lay (psis.map FiltFr.lay) lsFr avgFr X.flag =
      (List.map (FPath.flag true)) <$> frequencyComplex B phi psis lsFr avgFr X := by
  unfold frequencyComplex
  show ((B.swapC X.coef >>= fun y => .ok (y, true)) >>= _ : Py _) = _
  cases B.swapC X.coef with
  | error e => rfl
  | ok XT =>
    show ((B.padFrequencyC XT ((phi.N : Int) - X.n1Max) >>= fun y => .ok (y, true)) >>= _ : Py _) =
      (List.map (FPath.flag true)) <$> (B.padFrequencyC XT ((phi.N : Int) - X.n1Max) >>= _ : Py _)
    cases B.padFrequencyC XT ((phi.N : Int) - X.n1Max) with
    | error e => rfl
    | ok Xp =>
      show (checked B.cfftS true (Xp, true) >>= _ : Py _) = (List.map (FPath.flag true)) <$> (B.cfftS Xp >>= _ : Py _)
      rw [checked_true, bind_map, map_bind']
      congr 1
      funext Xh
      exact Core1D.lay_forEnum FiltFr.lay (FPath.flag true) _ _ (lay_frBody B lsFr avgFr X.j X.n X.n1Max Xh) _ _

theorem lay_joint (U0 : B.R) (phi : Filt B.F) (psi1 psi2 : List (Filt B.F)) (ls : Nat) (avg : Bool)
    (phiFr : PhiFr B.F) (psisFr : List (FiltFr B.F)) (lsFr : Nat) (avgFr : Bool) :
    joint (layJ B) (U0, true) phi.lay (psi1.map Filt.lay) (psi2.map Filt.lay) ls avg phiFr.lay
      (psisFr.map FiltFr.lay) lsFr avgFr =
      (fun t => ((t.1, !avg), t.2.map (FPath.flag true))) <$>
        joint B U0 phi psi1 psi2 ls avg phiFr psisFr lsFr avgFr := by
  unfold joint
  rw [lay_widthFirst, bind_map, map_bind']
  congr 1
  funext t
  rw [lay_frequencyReal, bind_map, map_bind']
  congr 1
  funext y1
  rw [lay_mapM TPath.flag _ _ _ _ fun X _ => lay_frequencyComplex B phiFr psisFr lsFr avgFr X, bind_map, map_bind']
  congr 1
  funext y2
  rw [map_ok, List.map_append, List.map_flatten]

theorem lay_timeAveraging (phi : Filt B.F) (ls : Nat) (j : List Int) (U : B.RS) :
    timeAveraging (layJ B) phi.lay ls j (U, true) = (fun r => (r, false)) <$> timeAveraging B phi ls j U := by
  unfold timeAveraging Filt.lay
  cases j.getLast? with
  | none => rfl
  | some k => simp only [listGetI_lay, bind_map, checkedMul_true, checked_true, map_bind']

theorem lay_frequencyAveraging (phi : PhiFr B.F) (lsFr : Nat) (glob : Bool) (m jFr : Nat) (U : B.RS) (c : Bool) :
    frequencyAveraging (layJ B) phi.lay lsFr glob m jFr (U, c) =
      (fun q => ((q.1, true), q.2)) <$> frequencyAveraging B phi lsFr glob m jFr U := by
  unfold frequencyAveraging PhiFr.lay
  show ((B.swapR U >>= fun y => .ok (y, true)) >>= _ : Py _) = _
  cases B.swapR U with
  | error e => rfl
  | ok UT =>
    cases glob with
    | true =>
      show (checked B.averageGlobalS true (UT, true) >>= _ : Py _) = _ <$> (B.averageGlobalS UT >>= _ : Py _)
      rw [checked_true, bind_map, map_bind']
      congr 1
      funext S
      show ((B.swapR S >>= fun y => .ok (y, true)) >>= _ : Py _) = _
      cases B.swapR S <;> rfl
    | false =>
      show (checked B.rfftS true (UT, true) >>= _ : Py _) = _ <$> (B.rfftS UT >>= _ : Py _)
      simp only [listGet_lay, bind_map, checkedMul_true, checked_true, map_bind']
      congr 1
      funext h
      congr 1
      funext f
      congr 1
      funext c
      congr 1
      funext s
      congr 1
      funext S
      cases B.swapR S <;> rfl

theorem lay_averageTime (phi : Filt B.F) (ls : Nat) (av : Average) (p : FPath B.CS) (U : B.RS) :
    ∃ c, averageTime (layJ B) phi.lay ls av (p.flag true) (U, true) =
      (fun r => (r, c)) <$> averageTime B phi ls av p U := by
  unfold averageTime
  by_cases h : av = .glob
  · exact ⟨true, by rw [if_pos h, if_pos h]; exact checked_true _ _ _⟩
  · by_cases h' : av = .loc ∧ p.n.length > 1
    · refine ⟨false, ?_⟩
      rw [if_neg h, if_neg h, if_pos h', if_pos (show av = .loc ∧ (p.flag true).n.length > 1 from h')]
      exact lay_timeAveraging B phi ls p.j U
    · refine ⟨true, ?_⟩
      rw [if_neg h, if_neg h, if_neg h', if_neg (show ¬ (av = .loc ∧ (p.flag true).n.length > 1) from h')]
      rfl

theorem lay_averageFreq (phi : PhiFr B.F) (lsFr : Nat) (av : Average) (p : FPath B.CS) (U : B.RS) (c : Bool) :
    ∃ c', averageFreq (layJ B) phi.lay lsFr av (p.flag true) (U, c) =
      (fun q => ((q.1, c'), q.2)) <$> averageFreq B phi lsFr av p U := by
  unfold averageFreq
  by_cases h : av ≠ .no ∧ p.spin ≠ 0
  · refine ⟨true, ?_⟩
    rw [if_pos h, if_pos (show av ≠ .no ∧ (p.flag true).spin ≠ 0 from h)]
    exact lay_frequencyAveraging B phi lsFr _ _ _ U c
  · refine ⟨c, ?_⟩
    rw [if_neg h, if_neg (show ¬ (av ≠ .no ∧ (p.flag true).spin ≠ 0) from h)]
    rfl

theorem lay_unpadFr (ao : Bool) (fmt : Format) (m s : Nat) (U : B.RS) (c : Bool) :
    ∃ c', unpadFr (layJ B) ao fmt m s (U, c) = (fun r => (r, c')) <$> unpadFr B ao fmt m s U := by
  unfold unpadFr
  by_cases h : ¬ (ao = true ∧ fmt = .joint)
  · refine ⟨false, ?_⟩
    rw [if_pos h, if_pos h]
    show (B.unpadFrequency U m s >>= fun y => .ok (y, false) : Py _) = _
    cases B.unpadFrequency U m s <;> rfl
  · exact ⟨c, by rw [if_neg h, if_neg h]; rfl⟩

theorem lay_formatPath (fmt : Format) (p : FPath B.RS) (c : Bool) :
    (List.map JPath.forget) <$> formatPath (layJ B) fmt (p.flag c) = formatPath B fmt p := by
  unfold formatPath
  cases fmt with
  | joint => rfl
  | other => rfl
  | time =>
    show _ <$> timeFormatting (layJ B) (p.flag c) = timeFormatting B p
    unfold timeFormatting
    show _ <$> ((B.split p.coef p.n1Max p.n1Stride >>= fun l => .ok (l.map fun r => (r, false))) >>= _ : Py _) = _
    cases B.split p.coef p.n1Max p.n1Stride with
    | error e => rfl
    | ok l =>
      show (List.map JPath.forget) <$> Core1D.forEnum _ (n1Range p.n1Max p.n1Stride) 0 =
        Core1D.forEnum _ (n1Range p.n1Max p.n1Stride) 0
      have key : ∀ (ns : List Nat) (i : Nat), (List.map JPath.forget) <$> Core1D.forEnum (fun (n1 : Nat) i => do
            let r ← listGet (l.map fun r => (r, false)) i
            .ok [(⟨.sig r, p.j, (n1 : Int) :: p.n, p.n.length - 1, some (p.jFr, p.nFr, p.spin), none⟩ :
              JPath (Lay B.R) (Lay B.RS))]) ns i =
          Core1D.forEnum (fun (n1 : Nat) i => do
            let r ← listGet l i
            .ok [(⟨.sig r, p.j, (n1 : Int) :: p.n, p.n.length - 1, some (p.jFr, p.nFr, p.spin), none⟩ :
              JPath B.R B.RS)]) ns i := by
        intro ns
        induction ns with
        | nil => intro i; rfl
        | cons n ns ih =>
          intro i
          unfold Core1D.forEnum
          rw [Core3D.listGet_map, ← ih]
          cases listGet l i with
          | error e => rfl
          | ok r =>
            show _ <$> (Core1D.forEnum _ ns (i + 1) >>= _ : Py _) = ((_ <$> Core1D.forEnum _ ns (i + 1)) >>= _ : Py _)
            rw [map_bind', bind_map]
            rfl
      exact key _ 0

theorem lay_averageBody (phi : Filt B.F) (ls : Nat) (av : Average) (phiFr : PhiFr B.F) (lsFr : Nat) (avFr : Average)
    (ao : Bool) (fmt : Format) (p : FPath B.CS) :
    (List.map JPath.forget) <$> averageBody (layJ B) phi.lay ls av phiFr.lay lsFr avFr ao fmt (p.flag true) =
      averageBody B phi ls av phiFr lsFr avFr ao fmt p := by
  unfold averageBody
  show _ <$> (checked B.modulusS true (p.coef, true) >>= _ : Py _) = _
  rw [checked_true, bind_map, map_bind']
  congr 1
  funext U
  obtain ⟨c1, h1⟩ := lay_averageTime B phi ls av p U
  rw [h1, bind_map, map_bind']
  congr 1
  funext U'
  obtain ⟨c2, h2⟩ := lay_averageFreq B phiFr lsFr avFr p U' c1
  rw [h2, bind_map, map_bind']
  congr 1
  funext S
  obtain ⟨c3, h3⟩ := lay_unpadFr B ao fmt p.n1Max S.2 S.1 c2
  show _ <$> (unpadFr (layJ B) ao fmt p.n1Max S.2 (S.1, c2) >>= _ : Py _) = _
  rw [h3, bind_map, map_bind']
  congr 1
  funext S'
  exact lay_formatPath B fmt ⟨S', p.j, p.n, p.n1Max, p.jFr, p.nFr, S.2, p.spin⟩ c3

theorem mapM_forget' {δ : Type} (g : α → β) (m : γ → δ) (f : β → Py γ) (f' : α → Py δ)
    (h : ∀ a, m <$> f (g a) = f' a) (l : List α) : (List.map m) <$> (l.map g).mapM f = l.mapM f' := by
  induction l with
  | nil => rfl
  | cons a l ih =>
    rw [List.map_cons, List.mapM_cons, List.mapM_cons, ← ih, ← h]
    simp only [bind_map, map_bind']
    rfl

theorem lay_averageAndFormat (t : B.R × List (FPath B.CS)) (avg : Bool) (phi : Filt B.F) (ls : Nat) (av : Average)
    (havg : av = .glob → avg = false) (phiFr : PhiFr B.F) (lsFr : Nat) (avFr : Average) (ao : Bool) (fmt : Format) :
    (List.map JPath.forget) <$> averageAndFormat (layJ B) ((t.1, !avg), t.2.map (FPath.flag true)) phi.lay ls av
      phiFr.lay lsFr avFr ao fmt = averageAndFormat B t phi ls av phiFr lsFr avFr ao fmt := by
  unfold averageAndFormat
  have hz : ∃ c, averageZeroth (layJ B) av (t.1, !avg) = (fun r => (r, c)) <$> averageZeroth B av t.1 := by
    unfold averageZeroth
    by_cases h : av = .glob
    · refine ⟨true, ?_⟩
      rw [if_pos h, if_pos h, havg h]
      exact checked_true _ _ _
    · exact ⟨!avg, by rw [if_neg h, if_neg h]; rfl⟩
  obtain ⟨c, hz⟩ := hz
  rw [hz, bind_map, map_bind']
  congr 1
  funext z
  rw [← mapM_forget' (FPath.flag true) (List.map JPath.forget) _ _
    (lay_averageBody B phi ls av phiFr lsFr avFr ao fmt) t.2, bind_map, map_bind']
  congr 1
  funext l
  rw [map_ok, List.map_cons, List.map_flatten]
  rfl

end JTFS

namespace FrontJ

theorem lay_paths (B : JBackend) (o : JObj B.F) (ls lsFr : Nat) (U0 : B.R) :
    (List.map JPath.forget) <$> paths (layJ B) o.lay ls lsFr (U0, true) = paths B o ls lsFr U0 := by
  unfold paths
  show _ <$> (JTFS.joint (layJ B) (U0, true) o.phi.lay (o.psi1.map Filt.lay) (o.psi2.map Filt.lay) ls
    (decide (o.average = .loc)) o.phiFr.lay (o.psisFr.map FiltFr.lay) lsFr (decide (o.averageFr = .loc)) >>= _ : Py _)
    = _
  rw [JTFS.lay_joint, bind_map, map_bind']
  congr 1
  funext t
  exact JTFS.lay_averageAndFormat B t _ o.phi ls o.average (by intro h; simp [h]) o.phiFr lsFr o.averageFr _ o.fmt

theorem post_forget {R RS F : Type} (ops : JFrontOps R RS) (o : JObj F) (ls : Nat) (p : JPath (Lay R) (Lay RS)) :
    JPath.forget <$> post (layFrontJ ops) o.lay ls p = post ops o ls p.forget := by
  unfold post
  show JPath.forget <$> (if o.average = .glob then Except.ok p else _) = _
  by_cases h : o.average = .glob
  · rw [if_pos h, if_pos h]; rfl
  · rw [if_neg h, if_neg h]
    show JPath.forget <$> (resolution o ls p.forget >>= _ : Py _) = _
    cases resolution o ls p.forget with
    | error e => rfl
    | ok r =>
      show JPath.forget <$> (dictGet o.indStart r >>= _ : Py _) = (dictGet o.indStart r >>= _ : Py _)
      cases dictGet o.indStart r with
      | error e => rfl
      | ok i0 =>
        show JPath.forget <$> (dictGet o.indEnd r >>= _ : Py _) = (dictGet o.indEnd r >>= _ : Py _)
        cases dictGet o.indEnd r with
        | error e => rfl
        | ok i1 =>
          obtain ⟨co, j, n, or, fr, n1⟩ := p
          cases co <;> rfl

theorem mapM_post_forget {R RS F : Type} (ops : JFrontOps R RS) (o : JObj F) (ls : Nat)
    (l : List (JPath (Lay R) (Lay RS))) :
    (List.map JPath.forget) <$> l.mapM (post (layFrontJ ops) o.lay ls) = (l.map JPath.forget).mapM (post ops o ls) := by
  induction l with
  | nil => rfl
  | cons a l ih =>
    rw [List.map_cons, List.mapM_cons, List.mapM_cons, ← ih, ← post_forget]
    simp only [bind_map, map_bind']
    rfl

/-- Up to the last reshape, a run on a tensor of any layout is the run without layouts. -/
theorem lay_unassembled (B : JBackend) (ops : JFrontOps B.R B.RS) (o : JObj B.F) (x : B.R) (c : Bool) :
    (List.map JPath.forget) <$> unassembled (layJ B) (layFrontJ ops) o.lay (x, c) = unassembled B ops o x := by
  unfold unassembled
  show _ <$> (checkRuntimeArgs o >>= _ : Py _) = _
  rw [map_bind']
  congr 1
  funext _
  show _ <$> ((ops.pad x o.padLeft o.padRight >>= fun y => .ok (y, true)) >>= _ : Py _) = _
  cases ops.pad x o.padLeft o.padRight with
  | error e => rfl
  | ok U0 =>
    show _ <$> (o.log2Stride >>= _ : Py _) = (o.log2Stride >>= _ : Py _)
    rw [map_bind']
    congr 1
    funext ls
    show _ <$> (o.log2StrideFr >>= _ : Py _) = (o.log2StrideFr >>= _ : Py _)
    rw [map_bind']
    congr 1
    funext lsFr
    rw [← lay_paths B o]
    cases paths (layJ B) o.lay ls.toNat lsFr.toNat (U0, true) with
    | error e => rfl
    | ok S => exact mapM_post_forget ops o ls.toNat S

end FrontJ

end Verif
