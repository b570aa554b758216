import Verif.Lemmas.Covariance1D
import Verif.Lemmas.Torch1D
import Verif.Lemmas.Front1D
import Verif.Lemmas.Example1D

/-!
# C18, C19, C22, C23: translation, amplitude, batches, torch = numpy
-/

namespace Verif

open Core1D

/-! ## C18 -/

theorem shift_run (x y : List ℝ) (s : ℤ) (hroll : Spec.IsRoll s x y) (phi : Filt (List ℝ))
    (psis : List (List (Filt (List ℝ)))) (ls : Nat) (avg : Bool) :
    Sim (List.Forall₂ ((rollRel s).path ls avg)) (scattering1d npBackend x phi psis ls avg)
      (scattering1d npBackend y phi psis ls avg) := by
  refine sim_scattering1d (rollRel s) (filt_refl _ (fun _ _ => rfl) phi)
    (filts_refl _ (fun _ _ => rfl) psis) ?_
  exact ⟨hroll.1, fun _ => by simpa using hroll⟩

/-- **Averaged scattering is translation covariant.**  If the padded signal is rolled by a multiple
`s` of the stride, the transform of the rolled signal also succeeds, has the same paths in the
same order, and every coefficient is rolled by `s / stride`. -/
theorem C18_averaged (x y : List ℝ) (s : ℤ) (hroll : Spec.IsRoll s x y) (phi : Filt (List ℝ))
    (psis : List (List (Filt (List ℝ)))) (ls : Nat) (hs : (2 : ℤ) ^ ls ∣ s)
    (out : List (Path (List ℝ))) (h : scattering1d npBackend x phi psis ls true = .ok out) :
    ∃ out', scattering1d npBackend y phi psis ls true = .ok out' ∧
      List.Forall₂ (fun p q => p.n = q.n ∧ p.j = q.j ∧ Spec.IsRoll (s / 2 ^ ls) p.coef q.coef)
        out out' := by
  obtain ⟨out', h', hr⟩ := shift_run x y s hroll phi psis ls true _ h
  refine ⟨out', h', hr.imp ?_⟩
  rintro p q ⟨hj, hn, -, hc⟩
  exact ⟨hn, hj, hc (by simpa using hs)⟩

/-- **Without averaging** the coefficient of a path with last scale `j` is rolled by `s / 2^j`
whenever `2^j` divides the shift (the order-zero coefficient is the signal and is rolled by `s`). -/
theorem C18_unaveraged (x y : List ℝ) (s : ℤ) (hroll : Spec.IsRoll s x y) (phi : Filt (List ℝ))
    (psis : List (List (Filt (List ℝ)))) (ls : Nat)
    (out : List (Path (List ℝ))) (h : scattering1d npBackend x phi psis ls false = .ok out) :
    ∃ out', scattering1d npBackend y phi psis ls false = .ok out' ∧
      List.Forall₂ (fun p q => p.n = q.n ∧ p.j = q.j ∧
        ((2 : ℤ) ^ (p.j.getLast?.getD 0) ∣ s →
          Spec.IsRoll (s / 2 ^ (p.j.getLast?.getD 0)) p.coef q.coef)) out out' := by
  obtain ⟨out', h', hr⟩ := shift_run x y s hroll phi psis ls false _ h
  refine ⟨out', h', hr.imp ?_⟩
  rintro p q ⟨hj, hn, -, hc⟩
  exact ⟨hn, hj, hc⟩

theorem getD_eq_fn (x : List ℝ) : x.sum = ∑ n ∈ Finset.range x.length, x.getD n 0 := by
  induction x using List.reverseRecOn with
  | nil => simp
  | append_singleton l a ih =>
    rw [List.sum_append, List.length_append, List.length_singleton, Finset.sum_range_succ, ih]
    congr 1
    · apply Finset.sum_congr rfl
      intro n hn
      have := Finset.mem_range.1 hn
      simp [List.getD_eq_getElem?_getD, List.getElem?_append_left this]
    · simp [List.getD_eq_getElem?_getD]

theorem roll_sum {x y : List ℝ} {s : ℤ} (h : Spec.IsRoll s x y) : y.sum = x.sum := by
  rw [getD_eq_fn, getD_eq_fn, h.1]
  rcases Nat.eq_zero_or_pos x.length with h0 | hpos
  · simp [h0]
  · refine Finset.sum_bij (fun n _ => (((n : ℤ) - s) % x.length).toNat) ?_ ?_ ?_ ?_
    · intro n _
      exact Finset.mem_range.2 (emod_toNat_lt _ hpos)
    · intro a ha b hb hab
      have ha := Finset.mem_range.1 ha
      have hb := Finset.mem_range.1 hb
      have h1 := Int.emod_nonneg ((a : ℤ) - s) (show (x.length : ℤ) ≠ 0 by omega)
      have h2 := Int.emod_nonneg ((b : ℤ) - s) (show (x.length : ℤ) ≠ 0 by omega)
      have h3 : ((a : ℤ) - s) % x.length = ((b : ℤ) - s) % x.length := by omega
      have h4 := Int.emod_emod_of_dvd ((a : ℤ) - s) (dvd_refl (x.length : ℤ))
      have h5 : (x.length : ℤ) ∣ (a : ℤ) - b := by
        have := Int.ModEq.dvd (n := (x.length : ℤ)) (a := (b : ℤ) - s) (b := (a : ℤ) - s) h3.symm
        simpa using this
      obtain ⟨c, hc⟩ := h5
      have hc0 : c = 0 := by
        by_contra hne
        rcases lt_or_gt_of_ne hne with hlt | hgt
        · nlinarith
        · nlinarith
      rw [hc0] at hc
      omega
    · intro b hb
      have hb := Finset.mem_range.1 hb
      refine ⟨(((b : ℤ) + s) % x.length).toNat, Finset.mem_range.2 (emod_toNat_lt _ hpos), ?_⟩
      have h1 := Int.emod_nonneg ((b : ℤ) + s) (show (x.length : ℤ) ≠ 0 by omega)
      rw [Int.toNat_of_nonneg h1, Int.emod_sub_emod]
      have : (b : ℤ) + s - s = b := by ring
      rw [this, Int.emod_eq_of_lt (by omega) (by omega)]
      simp
    · intro n hn
      exact h.2 n (Finset.mem_range.1 hn)

/-- **Global averaging is translation invariant**: the summed coefficients of a path do not change
under a roll by a multiple of its decimation. -/
theorem C18_global (x y : List ℝ) (s : ℤ) (hroll : Spec.IsRoll s x y) (phi : Filt (List ℝ))
    (psis : List (List (Filt (List ℝ)))) (ls : Nat)
    (out : List (Path (List ℝ))) (h : scattering1d npBackend x phi psis ls false = .ok out) :
    ∃ out', scattering1d npBackend y phi psis ls false = .ok out' ∧
      List.Forall₂ (fun p q => p.n = q.n ∧
        ((2 : ℤ) ^ (p.j.getLast?.getD 0) ∣ s →
          npAverageGlobal q.coef = npAverageGlobal p.coef)) out out' := by
  obtain ⟨out', h', hr⟩ := C18_unaveraged x y s hroll phi psis ls out h
  refine ⟨out', h', hr.imp ?_⟩
  rintro p q ⟨hn, hj, hc⟩
  refine ⟨hn, fun hd => ?_⟩
  unfold npAverageGlobal
  rw [roll_sum (hc hd)]

/-! ## C19 -/

theorem npPad_map (f : ℝ → ℝ) (hf : f 0 = 0) (x : List ℝ) (l r : Nat) :
    npPad (x.map f) l r = (npPad x l r).map (List.map f) := by
  unfold npPad
  rw [List.length_map]
  split
  · rfl
  · show Except.ok _ = Except.ok _
    congr 1
    rw [map_tab]
    apply tab_congr
    intro i _
    have := getD_map' x f (reflectIndex x.length l i) 0
    rw [hf] at this
    exact this

theorem sum_map_mul (a : ℝ) (x : List ℝ) : (x.map (a * ·)).sum = a * x.sum := by
  induction x with
  | nil => simp
  | cons b x ih => simp only [List.map_cons, List.sum_cons, ih]; ring

noncomputable def scaleFront (a : ℝ) : Front1D.FrontRel (scaleRel a) npFront npFront where
  rIn x y := y = List.map (a * ·) x
  rOut i x y := y = List.map (fun v : ℝ => ampl a i * v) x
  pad x y l r h := by
    intro u hu
    have hu : npPad x l r = .ok u := hu
    refine ⟨u.map (a * ·), ?_, ?_⟩
    · show npPad y l r = _
      rw [h, npPad_map _ (by simp), hu]
      rfl
    · show _ = List.map _ _
      simp [ampl]
  unpad i r x y i0 i1 h := by
    show npUnpad y i0 i1 = List.map _ (npUnpad x i0 i1)
    rw [h]
    unfold npUnpad
    rw [List.map_drop, List.map_take]
  averageGlobal i r x y h := by
    show npAverageGlobal y = List.map _ (npAverageGlobal x)
    rw [h]
    unfold npAverageGlobal
    rw [sum_map_mul]
    rfl

/-- An object is related to itself when filters are. -/
theorem obj_refl {A : Backend1D} (S : BackendRel A A) (hS : ∀ r f, S.rF r f f) (o : Obj1D A.F) :
    Front1D.ObjRel S o o := by
  have h1 : ∀ l : List (Filt A.F), List.Forall₂ S.filt l l := fun l => by
    induction l with
    | nil => exact List.Forall₂.nil
    | cons a l ih => exact List.Forall₂.cons (filt_refl S hS a) ih
  exact ⟨rfl, rfl, rfl, rfl, filt_refl S hS _, h1 _, h1 _, rfl, rfl, rfl, rfl, rfl⟩

/-- **Homogeneity.**  Whatever the object (with padding, unpadding, averaging mode), if scattering
`x` returns a list of paths then scattering `a x` returns the same paths, the order-zero
coefficient multiplied by `a`, the others by `|a|`. -/
theorem C19_homogeneous (o : Obj1D (List ℝ)) (ho : o.outType = .list) (a : ℝ) (x : List ℝ)
    (l : List (Path (List ℝ))) (h : Front1D.scattering npBackend npFront o x = .ok (.list l)) :
    ∃ m, Front1D.scattering npBackend npFront o (x.map (a * ·)) = .ok (.list m) ∧
      List.Forall₂ (fun p q => p.n = q.n ∧ p.j = q.j ∧
        q.coef = p.coef.map (fun v => (if p.n = [] then a else |a|) * v)) l m := by
  obtain ⟨r, hr, l', m, h1, rfl, hlm⟩ := Front1D.sim_list (scaleFront a)
    (obj_refl (scaleRel a) (fun _ _ => rfl) o) ho (x := x) rfl _ h
  injection h1 with h1
  subst h1
  refine ⟨m, hr, hlm.imp ?_⟩
  rintro p q ⟨hn, hj, hc⟩
  refine ⟨hn, hj, ?_⟩
  have hc : q.coef = List.map (fun v : ℝ => ampl a p.n.length * v) p.coef := hc
  rw [hc]
  unfold ampl
  simp only [List.length_eq_zero_iff]

/-- Changing the sign of the signal changes nothing above order zero. -/
theorem C19_sign (o : Obj1D (List ℝ)) (ho : o.outType = .list) (x : List ℝ)
    (l : List (Path (List ℝ))) (h : Front1D.scattering npBackend npFront o x = .ok (.list l)) :
    ∃ m, Front1D.scattering npBackend npFront o (x.map fun v => -v) = .ok (.list m) ∧
      List.Forall₂ (fun p q => p.n = q.n ∧ (p.n ≠ [] → q.coef = p.coef)) l m := by
  obtain ⟨m, hm, hlm⟩ := C19_homogeneous o ho (-1) x l h
  refine ⟨m, ?_, hlm.imp ?_⟩
  · rw [← hm]
    congr 1
    apply List.map_congr_left
    intro v _
    ring
  · rintro p q ⟨hn, -, hc⟩
    refine ⟨hn, fun hne => ?_⟩
    rw [hc, if_neg hne]
    simp

/-- The zero signal has zero coefficients. -/
theorem C19_zero (o : Obj1D (List ℝ)) (ho : o.outType = .list) (N : Nat)
    (l : List (Path (List ℝ)))
    (h : Front1D.scattering npBackend npFront o (List.replicate N 0) = .ok (.list l)) :
    ∀ p ∈ l, ∀ v ∈ p.coef, v = 0 := by
  obtain ⟨m, hm, hlm⟩ := C19_homogeneous o ho 0 _ l h
  have : (List.replicate N (0 : ℝ)).map ((0 : ℝ) * ·) = List.replicate N 0 := by simp
  rw [this, h] at hm
  have hlm' : l = m := by injection hm with hm; injection hm
  subst hlm'
  intro p hp v hv
  obtain ⟨q, hq, -, -, hc⟩ := forall₂_mem_right hlm hp
  rw [hc] at hv
  obtain ⟨w, -, rfl⟩ := List.mem_map.1 hv
  split <;> simp

/-! ## C22 -/

noncomputable def rowFront (i : Nat) : Front1D.FrontRel (rowRel npBackend i) npBatchFront npFront where
  rIn x y := (x : List (List ℝ))[i]? = some y
  rOut _ x y := (x : List (List ℝ))[i]? = some y
  pad x y l r h := by intro a ha; exact mapM_get ha h
  unpad _ r x y i0 i1 h := by
    show (List.map _ _)[i]? = some _
    rw [List.getElem?_map, h]
    rfl
  averageGlobal _ r x y h := by
    show (List.map _ _)[i]? = some _
    rw [List.getElem?_map, h]
    rfl

theorem filt_refl_row (i : Nat) (f : Filt (List ℝ)) : (rowRel npBackend i).filt f f :=
  ⟨rfl, rfl, fun k a b ha hb => by rw [ha] at hb; cases hb; rfl⟩

theorem obj_refl_row (i : Nat) (o : Obj1D (List ℝ)) :
    Front1D.ObjRel (rowRel npBackend i) o o := by
  have h1 : ∀ l : List (Filt (List ℝ)), List.Forall₂ (rowRel npBackend i).filt l l := fun l => by
    induction l with
    | nil => exact List.Forall₂.nil
    | cons a l ih => exact List.Forall₂.cons (filt_refl_row i a) ih
  exact ⟨rfl, rfl, rfl, rfl, filt_refl_row i _, h1 _, h1 _, rfl, rfl, rfl, rfl, rfl⟩

/-- **Batch independence.**  If scattering a batch returns, then scattering any of its signals alone
returns, with the same paths, and the coefficient of the lone signal is the corresponding row of
the batch coefficient. -/
theorem C22_rows (o : Obj1D (List ℝ)) (ho : o.outType = .list) (xs : List (List ℝ))
    (l : List (Path (List (List ℝ))))
    (h : Front1D.scattering (batchBackend npBackend) npBatchFront o xs = .ok (.list l))
    (i : Nat) (x : List ℝ) (hx : xs[i]? = some x) :
    ∃ m, Front1D.scattering npBackend npFront o x = .ok (.list m) ∧
      List.Forall₂ (fun p q => p.n = q.n ∧ p.j = q.j ∧ p.coef[i]? = some q.coef) l m := by
  obtain ⟨r, hr, l', m, h1, rfl, hlm⟩ := Front1D.sim_list (rowFront i)
    (obj_refl_row i o) ho (x := xs) hx _ h
  injection h1 with h1
  subst h1
  exact ⟨m, hr, hlm⟩

/-- Lengths of the rows of a batch. -/
noncomputable def npToBatch (B : Nat) : BackendRel npBackend (batchBackend npBackend) where
  rR _ _ x y := List.length (α := List ℝ) y = B ∧ ∀ a ∈ (y : List (List ℝ)), a.length = List.length x
  rC _ _ x y := List.length (α := List ℂ) y = B ∧ ∀ a ∈ (y : List (List ℂ)), a.length = List.length x
  rZ _ _ x y := List.length (α := List ℂ) y = B ∧ ∀ a ∈ (y : List (List ℂ)), a.length = List.length x
  rF _ f g := g = f
  rfft i r x y h := by
    intro u hu
    injection hu with hu
    obtain ⟨w, hw⟩ := mapM_ok_of_forall (l := y) (f := npBackend.rfft) fun a _ => ⟨_, rfl⟩
    have hf := mapM_eq_ok.1 hw
    refine ⟨w, hw, hf.length_eq.symm.trans h.1, fun a ha => ?_⟩
    obtain ⟨b, hb, hab⟩ := forall₂_mem_right hf ha
    injection hab with hab
    rw [← hab, ← hu, length_npRfft, length_npRfft, h.2 b hb]
  ifft i r x y h := by
    intro u hu
    injection hu with hu
    obtain ⟨w, hw⟩ := mapM_ok_of_forall (l := y) (f := npBackend.ifft) fun a _ => ⟨_, rfl⟩
    have hf := mapM_eq_ok.1 hw
    refine ⟨w, hw, hf.length_eq.symm.trans h.1, fun a ha => ?_⟩
    obtain ⟨b, hb, hab⟩ := forall₂_mem_right hf ha
    injection hab with hab
    rw [← hab, ← hu, length_idft, length_idft, h.2 b hb]
  irfft i r x y h := by
    intro u hu
    injection hu with hu
    obtain ⟨w, hw⟩ := mapM_ok_of_forall (l := y) (f := npBackend.irfft) fun a _ => ⟨_, rfl⟩
    have hf := mapM_eq_ok.1 hw
    refine ⟨w, hw, hf.length_eq.symm.trans h.1, fun a ha => ?_⟩
    obtain ⟨b, hb, hab⟩ := forall₂_mem_right hf ha
    injection hab with hab
    rw [← hab, ← hu, length_npIrfft, length_npIrfft, h.2 b hb]
  modulus i r x y h := by
    intro u hu
    injection hu with hu
    obtain ⟨w, hw⟩ := mapM_ok_of_forall (l := y) (f := npBackend.modulus) fun a _ => ⟨_, rfl⟩
    have hf := mapM_eq_ok.1 hw
    refine ⟨w, hw, hf.length_eq.symm.trans h.1, fun a ha => ?_⟩
    obtain ⟨b, hb, hab⟩ := forall₂_mem_right hf ha
    injection hab with hab
    rw [← hab, ← hu, length_npModulus, length_npModulus, h.2 b hb]
  cdgmm i r x y f g h hfg := by
    subst hfg
    intro u hu
    have hu : npCdgmm x g = .ok u := hu
    have hl := ((npCdgmm_eq _ _ _).1 hu).1
    obtain ⟨w, hw⟩ := mapM_ok_of_forall (l := y) (f := fun a => npBackend.cdgmm a g)
      fun a ha => ⟨_, (npCdgmm_eq a g _).2 ⟨by rw [h.2 a ha, hl], rfl⟩⟩
    have hf := mapM_eq_ok.1 hw
    refine ⟨w, hw, hf.length_eq.symm.trans h.1, fun a ha => ?_⟩
    obtain ⟨b, hb, hab⟩ := forall₂_mem_right hf ha
    rw [length_of_cdgmm hab, length_of_cdgmm hu, h.2 b hb]
  subsample i r x y e h := by
    intro u hu
    have hu : npSubsampleFourier x (2 ^ e) = .ok u := hu
    obtain ⟨hk, hd, -⟩ := (npSubsampleFourier_eq _ _ _).1 hu
    obtain ⟨w, hw⟩ := mapM_ok_of_forall (l := y) (f := fun a => npBackend.subsample a e)
      fun a ha => ⟨_, (npSubsampleFourier_eq a (2 ^ e) _).2 ⟨hk, by rw [h.2 a ha]; exact hd, rfl⟩⟩
    have hf := mapM_eq_ok.1 hw
    refine ⟨w, hw, hf.length_eq.symm.trans h.1, fun a ha => ?_⟩
    obtain ⟨b, hb, hab⟩ := forall₂_mem_right hf ha
    have hab : npSubsampleFourier b (2 ^ e) = .ok a := hab
    apply Nat.eq_of_mul_eq_mul_right (Nat.pos_of_ne_zero hk)
    rw [length_of_subsample hab, length_of_subsample hu, h.2 b hb]

noncomputable def npToBatchFront (B : Nat) :
    Front1D.FrontRel (npToBatch B) npFront npBatchFront where
  rIn x y := List.length (α := List ℝ) y = B ∧ ∀ a ∈ (y : List (List ℝ)), a.length = List.length x
  rOut _ _ y := List.length (α := List ℝ) y = B
  pad x y l r h := by
    intro u hu
    have hu : npPad x l r = .ok u := hu
    have hok : ∀ a ∈ (y : List (List ℝ)), ∃ b, npPad a l r = .ok b ∧ b.length = u.length := by
      intro a ha
      unfold npPad at hu ⊢
      rw [h.2 a ha]
      split at hu
      · cases hu
      · rename_i hc
        injection hu with hu
        rw [if_neg hc]
        exact ⟨_, rfl, by rw [← hu]; simp⟩
    obtain ⟨w, hw⟩ := mapM_ok_of_forall (l := (y : List (List ℝ))) (f := fun a => npPad a l r)
      fun a ha => by obtain ⟨b, hb, -⟩ := hok a ha; exact ⟨b, hb⟩
    have hf := mapM_eq_ok.1 hw
    refine ⟨w, hw, hf.length_eq.symm.trans h.1, fun a ha => ?_⟩
    obtain ⟨b, hb, hab⟩ := forall₂_mem_right hf ha
    obtain ⟨c, hc, hcl⟩ := hok b hb
    rw [hab] at hc
    cases hc
    exact hcl
  unpad _ r x y i0 i1 h := by
    show List.length (List.map _ _) = B
    rw [List.length_map]; exact h.1
  averageGlobal _ r x y h := by
    show List.length (List.map _ _) = B
    rw [List.length_map]; exact h.1

theorem obj_refl_batch (B : Nat) (o : Obj1D (List ℝ)) :
    Front1D.ObjRel (npToBatch B) o o := by
  have h0 : ∀ f : Filt (List ℝ), (npToBatch B).filt f f := fun f =>
    ⟨rfl, rfl, fun k a b ha hb => by rw [ha] at hb; cases hb; rfl⟩
  have h1 : ∀ l : List (Filt (List ℝ)), List.Forall₂ (npToBatch B).filt l l := fun l => by
    induction l with
    | nil => exact List.Forall₂.nil
    | cons a l ih => exact List.Forall₂.cons (h0 a) ih
  exact ⟨rfl, rfl, rfl, rfl, h0 _, h1 _, h1 _, rfl, rfl, rfl, rfl, rfl⟩

/-- Conversely, if one signal can be scattered then so can any batch of signals of the same
length, and every coefficient has one row per signal. -/
theorem C22_batch_succeeds (o : Obj1D (List ℝ)) (ho : o.outType = .list) (x : List ℝ)
    (l : List (Path (List ℝ))) (h : Front1D.scattering npBackend npFront o x = .ok (.list l))
    (xs : List (List ℝ)) (hxs : ∀ y ∈ xs, y.length = x.length) :
    ∃ m, Front1D.scattering (batchBackend npBackend) npBatchFront o xs = .ok (.list m) ∧
      List.Forall₂ (fun p q => p.n = q.n ∧ p.j = q.j ∧ q.coef.length = xs.length) l m := by
  obtain ⟨r, hr, l', m, h1, rfl, hlm⟩ := Front1D.sim_list (npToBatchFront xs.length)
    (obj_refl_batch _ o) ho (x := x) (y := xs) ⟨rfl, hxs⟩ _ h
  injection h1 with h1
  subst h1
  exact ⟨m, hr, hlm⟩

/-! ## C23 -/

theorem torchPad_eq (x : List ℝ) (l r : Nat) : torchFront.pad x l r = npPad x l r := by
  unfold torchFront npPad
  simp only
  split
  · rfl
  · rename_i hc
    push Not at hc
    congr 1
    apply list_ext_getD 0
    · simp [Nat.add_assoc]
    · intro i hi
      simp only [List.length_append, length_tab] at hi
      rw [getD_tab_lt hi]
      unfold reflectIndex
      rw [List.getD_eq_getElem?_getD]
      by_cases h1 : i < l
      · rw [if_pos h1, List.append_assoc, List.getElem?_append_left (by simpa using h1),
          ← List.getD_eq_getElem?_getD, getD_tab_lt h1]
      · rw [if_neg h1]
        by_cases h2 : i - l < x.length
        · rw [if_pos h2, List.append_assoc, List.getElem?_append_right (by simp; omega),
            List.getElem?_append_left (by simpa using h2), length_tab,
            List.getD_eq_getElem?_getD]
        · rw [if_neg h2, List.getElem?_append_right (by simp; omega),
            ← List.getD_eq_getElem?_getD, List.length_append, length_tab,
            getD_tab_lt (by omega)]
          congr 1
          omega

theorem torchUnpad_eq (x : List ℝ) (i0 i1 : Nat) : torchFront.unpad x i0 i1 = npUnpad x i0 i1 := by
  unfold torchFront npUnpad
  simp only
  rw [List.drop_take]

theorem torchAverage_eq (x : List ℝ) : torchFront.averageGlobal x = npAverageGlobal x := by
  unfold torchFront npAverageGlobal
  simp only
  rw [List.sum_eq_foldl]

noncomputable def torchToNpFront : Front1D.FrontRel torchToNp torchFront npFront where
  rIn x y := y = x
  rOut _ x y := y = x
  pad x y l r h := by
    subst h
    intro a ha
    refine ⟨a, ?_, rfl⟩
    rw [torchPad_eq] at ha
    exact ha
  unpad _ r x y i0 i1 h := by subst h; exact (torchUnpad_eq _ _ _).symm
  averageGlobal _ r x y h := by subst h; exact (torchAverage_eq _).symm

noncomputable def npToTorchFront : Front1D.FrontRel npToTorch npFront torchFront where
  rIn x y := y = x
  rOut _ x y := y = x
  pad x y l r h := by
    subst h
    intro a ha
    refine ⟨a, ?_, rfl⟩
    rw [torchPad_eq]
    exact ha
  unpad _ r x y i0 i1 h := by subst h; exact torchUnpad_eq _ _ _
  averageGlobal _ r x y h := by subst h; exact torchAverage_eq _

theorem obj_torch (o : Obj1D (List ℝ)) : Front1D.ObjRel torchToNp o o := by
  have h0 : ∀ f : Filt (List ℝ), torchToNp.filt f f := fun f =>
    ⟨rfl, rfl, fun k a b ha hb => by rw [ha] at hb; cases hb; rfl⟩
  have h1 : ∀ l : List (Filt (List ℝ)), List.Forall₂ torchToNp.filt l l := fun l => by
    induction l with
    | nil => exact List.Forall₂.nil
    | cons a l ih => exact List.Forall₂.cons (h0 a) ih
  exact ⟨rfl, rfl, rfl, rfl, h0 _, h1 _, h1 _, rfl, rfl, rfl, rfl, rfl⟩

theorem obj_torch' (o : Obj1D (List ℝ)) : Front1D.ObjRel npToTorch o o := by
  have h0 : ∀ f : Filt (List ℝ), npToTorch.filt f f := fun f =>
    ⟨rfl, rfl, fun k a b ha hb => by rw [ha] at hb; cases hb; rfl⟩
  have h1 : ∀ l : List (Filt (List ℝ)), List.Forall₂ npToTorch.filt l l := fun l => by
    induction l with
    | nil => exact List.Forall₂.nil
    | cons a l ih => exact List.Forall₂.cons (h0 a) ih
  exact ⟨rfl, rfl, rfl, rfl, h0 _, h1 _, h1 _, rfl, rfl, rfl, rfl, rfl⟩

theorem forall₂_path_eq {R : Type} {l m : List (Path R)}
    (h : List.Forall₂ (fun p q => p.n = q.n ∧ p.j = q.j ∧ q.coef = p.coef) l m) : l = m := by
  induction h with
  | nil => rfl
  | @cons a b _ _ hab _ ih =>
    obtain ⟨h1, h2, h3⟩ := hab
    rw [ih]
    congr 1
    cases a; cases b
    simp only at h1 h2 h3
    rw [h1, h2, h3]

/-- **The torch backend, which stores complex numbers as pairs of reals, computes the same transform
as the numpy backend**: for every object and signal, the torch run returns a list of paths if and
only if the numpy run returns that same list. -/
theorem C23_torch_eq_numpy (o : Obj1D (List ℝ)) (ho : o.outType = .list) (x : List ℝ)
    (l : List (Path (List ℝ))) :
    Front1D.scattering torchBackend torchFront o x = .ok (.list l) ↔
      Front1D.scattering npBackend npFront o x = .ok (.list l) := by
  constructor
  · intro h
    obtain ⟨r, hr, l', m, h1, rfl, hlm⟩ :=
      Front1D.sim_list torchToNpFront (obj_torch o) ho (x := x) rfl _ h
    injection h1 with h1
    subst h1
    rw [hr, forall₂_path_eq hlm]
  · intro h
    obtain ⟨r, hr, l', m, h1, rfl, hlm⟩ :=
      Front1D.sim_list npToTorchFront (obj_torch' o) ho (x := x) rfl _ h
    injection h1 with h1
    subst h1
    rw [hr, forall₂_path_eq hlm]

/-- With a complex filter the pair arithmetic of torch is complex multiplication. -/
theorem C23_complex_filter (A B y : List (ℝ × ℝ)) (h : torchCdgmmC A B = .ok y) :
    viewAsComplex y = List.zipWith (· * ·) (viewAsComplex A) (viewAsComplex B) := by
  unfold torchCdgmmC at h
  split at h
  · cases h
  · injection h with h
    rw [← h]
    unfold viewAsComplex
    rw [List.map_zipWith, List.zipWith_map]
    congr 1

/-! ## The hypotheses can be met -/

-- a successful run of the frontend in each averaging mode
example : ∃ l, Front1D.scattering npBackend npFront (exObj .loc) [3, 1, 2, 7] = .ok (.list l) :=
  exObj_run _ _ rfl

example : ∃ l, Front1D.scattering npBackend npFront (exObj .no) [0, 0, 0, 0] = .ok (.list l) :=
  exObj_run _ _ rfl

-- a run of the core, and a rolled signal
example : ∃ out, scattering1d npBackend [1, 2, 3, 4, 5, 6, 7, 8] (exFilt 3 2)
    [[exFilt 1 0, exFilt 1 1], [exFilt 2 1, exFilt 2 2]] 1 true = .ok out := by
  have hs : ∀ n j, npToShape.filt (exFilt n j) (exFilt n j).shape := fun n j => npToShape_filt _
  have h : ∃ out, scattering1d shapeBackend 8 (exFilt 3 2).shape
      [[(exFilt 1 0).shape, (exFilt 1 1).shape], [(exFilt 2 1).shape, (exFilt 2 2).shape]] 1 true =
      .ok out := by
    have e1 : (exFilt 3 2).shape = ⟨[8, 4, 2], 2⟩ := by
      simp [Filt.shape, exFilt, tab, List.range_succ]
    have e2 : ∀ j, (exFilt 1 j).shape = ⟨[8], j⟩ := by
      simp [Filt.shape, exFilt, tab, List.range_succ]
    have e3 : ∀ j, (exFilt 2 j).shape = ⟨[8, 4], j⟩ := by
      simp [Filt.shape, exFilt, tab, List.range_succ]
    rw [e1, e2, e2, e3, e3]
    exact ⟨_, rfl⟩
  obtain ⟨out, h⟩ := h
  obtain ⟨o, ho, -⟩ := sim_scattering1d shapeToNp (shapeToNp_filt _)
    (psis' := [[exFilt 1 0, exFilt 1 1], [exFilt 2 1, exFilt 2 2]])
    (by
      refine .cons (.cons (shapeToNp_filt _) (.cons (shapeToNp_filt _) .nil))
        (.cons (.cons (shapeToNp_filt _) (.cons (shapeToNp_filt _) .nil)) .nil))
    (y := [1, 2, 3, 4, 5, 6, 7, 8]) rfl out h
  exact ⟨o, ho⟩

example : Spec.IsRoll 2 ([1, 2, 3, 4] : List ℝ) [3, 4, 1, 2] := by
  refine ⟨rfl, fun n hn => ?_⟩
  have : n < 4 := hn
  interval_cases n <;> simp

end Verif
