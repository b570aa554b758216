import Verif.Lemmas.Vol3D

/-! # The 3-D torch backend and batches, reduced to the numpy backend on one volume -/

namespace Verif

open Finset Complex

theorem view3C_vx {x : Vol (ℝ × ℝ)} {i : Idx3} (h : i ∈ box x.shape) :
    (view3C x).vx i = ⟨(x.vx i).1, (x.vx i).2⟩ := Vol.vx_map h

theorem view3R_vx {x : Vol ℂ} {i : Idx3} (h : i ∈ box x.shape) :
    (view3R x).vx i = ((x.vx i).re, (x.vx i).im) := Vol.vx_map h

theorem view3C_view3R_tab (s : Idx3) (f : Idx3 → ℂ) : view3C (view3R (Vol.tab s f)) = Vol.tab s f := by
  have h : ∀ i ∈ box s, (fun p : ℝ × ℝ => (⟨p.1, p.2⟩ : ℂ)) ((view3R (Vol.tab s f)).vx i) = f i := by
    intro i hi
    have h1 : (view3R (Vol.tab s f)).vx i = ((f i).re, (f i).im) := by
      rw [← Vol.vx_tab (f := f) hi]
      exact view3R_vx (x := Vol.tab s f) hi
    rw [h1]
  exact Vol.tab_congr h

/-- `rfft` of the torch backend. -/
noncomputable def torchHat (x : Vol ℝ) : Vol (ℝ × ℝ) := view3R (dft3 (view3C (x.map fun r : ℝ => (r, (0 : ℝ)))))

theorem torchHat_eq (x : Vol ℝ) : torchHat x = view3R (dft3 (x.map fun r : ℝ => (r : ℂ))) := by
  unfold torchHat
  congr 2
  show Vol.tab x.shape _ = Vol.tab x.shape _
  apply Vol.tab_congr
  intro i hi
  rw [Vol.vx_map hi]
  rfl

theorem torch_mul {x : Vol ℝ} {f : Vol (ℝ × ℝ)} (h : f.shape = x.shape) :
    torch3Cdgmm (torchHat x) f = .ok (view3R (Vol.tab x.shape fun i =>
      (dft3 (x.map fun r : ℝ => (r : ℂ))).vx i * (view3C f).vx i)) := by
  unfold torch3Cdgmm
  rw [if_neg (not_not.2 (by rw [h]; rfl)), torchHat_eq]
  congr 1
  set D := dft3 (x.map fun r : ℝ => (r : ℂ)) with hD
  have hDs : D.shape = x.shape := rfl
  clear_value D
  have hv : (view3R D).shape = x.shape := hDs
  rw [hv]
  unfold view3R
  unfold Vol.map
  rw [Vol.shape_tab]
  apply Vol.tab_congr
  intro i hi
  have hi' : i ∈ box f.shape := by rw [h]; exact hi
  have hi'' : i ∈ box D.shape := by rw [hDs]; exact hi
  rw [Vol.vx_tab hi'', Vol.vx_tab hi, view3C_vx hi']
  simp only [Complex.mul_re, Complex.mul_im]

theorem torch_ifft {x : Vol ℝ} {f : Vol (ℝ × ℝ)} :
    view3R (idft3 (view3C (view3R (Vol.tab x.shape fun i =>
      (dft3 (x.map fun r : ℝ => (r : ℂ))).vx i * (view3C f).vx i)))) = view3R (npComp x (view3C f)) := by
  rw [view3C_view3R_tab]; rfl

theorem sq_add_sq_norm (z : ℂ) : z.re ^ 2 + z.im ^ 2 = ‖z‖ ^ 2 := by
  rw [Complex.sq_norm, Complex.normSq_apply]; ring

theorem torch_modRot (y : Vol ℂ) (m : Option (Vol ℝ)) : torch3ModRot (view3R y) m = np3ModRot y m := by
  cases m with
  | none =>
    show Vol.tab y.shape _ = Vol.tab y.shape _
    apply Vol.tab_congr
    intro i hi
    rw [view3R_vx hi, sq_add_sq_norm]
  | some m =>
    show Vol.tab y.shape _ = Vol.tab y.shape _
    apply Vol.tab_congr
    intro i hi
    rw [view3R_vx hi, sq_add_sq_norm]

theorem torch_rotLoop (qs : List ℝ) (x : Vol ℝ) : ∀ (fs : List (Vol (ℝ × ℝ))) (m : Option (Vol ℝ)),
    (∀ f ∈ fs, f.shape = x.shape) →
    Core3D.rotLoop (torch3Backend qs) (torchHat x) fs m =
      Core3D.rotLoop (np3Backend qs) (dft3 (x.map fun r : ℝ => (r : ℂ))) (fs.map view3C) m
  | [], m, _ => rfl
  | f :: fs, m, h => by
    rw [List.map_cons]
    unfold Core3D.rotLoop
    show (torch3Cdgmm _ _ >>= _) = (np3Cdgmm _ _ >>= _)
    rw [torch_mul (h f (by simp)), np3Cdgmm_dft (f := view3C f) (h f (by simp)), ok_bind, ok_bind, ok_bind,
      ok_bind, ok_bind, ok_bind]
    have e : torch3ModRot (view3R (idft3 (view3C (view3R (Vol.tab x.shape fun i =>
      (dft3 (x.map fun r : ℝ => (r : ℂ))).vx i * (view3C f).vx i))))) m = np3ModRot (npComp x (view3C f)) m := by
      rw [torch_ifft, torch_modRot]
    show Core3D.rotLoop (torch3Backend qs) (torchHat x) fs (some (torch3ModRot _ m)) =
      Core3D.rotLoop (np3Backend qs) _ (fs.map view3C) (some (np3ModRot (npComp x (view3C f)) m))
    rw [e]
    exact torch_rotLoop qs x fs _ fun g hg => h g (by simp [hg])

theorem torch_wave (qs : List ℝ) (rot : Bool) (x : Vol ℝ) (fs : List (Vol (ℝ × ℝ))) (h0 : fs ≠ [])
    (h : ∀ f ∈ fs, f.shape = x.shape) :
    Core3D.wave (torch3Backend qs) rot (torchHat x) fs = .ok (npWave x.shape rot (fs.map view3C) x) := by
  rw [← np_wave qs rot x (fs.map view3C) (by simpa using h0) (by
    intro f hf; obtain ⟨g, hg, rfl⟩ := List.mem_map.1 hf; exact h g hg)]
  unfold Core3D.wave
  cases rot with
  | true =>
    rw [if_pos rfl, if_pos rfl, torch_rotLoop qs x fs none h]
    congr 1
    funext o
    cases o <;> rfl
  | false =>
    obtain ⟨f, fs, rfl⟩ := List.exists_cons_of_ne_nil h0
    rw [if_neg (by simp), if_neg (by simp), listGet_ok (a := f) (by simp), listGet_ok (a := view3C f) (by simp),
      ok_bind, ok_bind]
    show (torch3Cdgmm _ _ >>= _) = (np3Cdgmm _ _ >>= _)
    rw [torch_mul (h f (by simp)), np3Cdgmm_dft (f := view3C f) (h f (by simp)), ok_bind, ok_bind]
    show Except.ok ((view3R (idft3 (view3C (view3R (Vol.tab x.shape fun i =>
      (dft3 (x.map fun r : ℝ => (r : ℂ))).vx i * (view3C f).vx i))))).map _) =
      Except.ok ((npComp x (view3C f)).map _)
    rw [torch_ifft]
    congr 1
    show Vol.tab x.shape _ = Vol.tab x.shape _
    apply Vol.tab_congr
    intro i hi
    rw [view3R_vx (x := npComp x (view3C f)) hi]
    show Real.sqrt _ = ‖(npComp x (view3C f)).vx i‖
    rw [Complex.norm_def, Complex.normSq_apply]

theorem torch_runs (s : Idx3) (qs : List ℝ) (rot : Bool) :
    Core3D.Runs (torch3Backend qs) rot (fun x => x.shape = s) (fun fs => fs ≠ [] ∧ ∀ f ∈ fs, f.shape = s)
      torchHat (fun fs => npWave s rot (fs.map view3C)) (np3Integrals qs) where
  rfft _ _ := rfl
  wave x fs hx h := by subst hx; exact torch_wave qs rot x fs h.1 h.2
  closed _ _ _ _ := rfl
  avg _ _ := rfl

theorem impulse3_congr {s : Idx3} {f g : Idx3 → ℂ} (h : ∀ k ∈ Spec.cells s, f k = g k) :
    Spec.impulse3 s f = Spec.impulse3 s g := by
  funext a b c
  unfold Spec.impulse3
  congr 1
  exact sum_congr rfl fun k hk => by rw [h k hk]

theorem npWave_views (s : Idx3) (rot : Bool) (fs : List (Vol ℂ)) (h : ∀ f ∈ fs, f.shape = s) :
    npWave s rot ((fs.map view3R).map view3C) = npWave s rot fs := by
  funext x
  unfold npWave
  congr 1
  funext u
  unfold Spec.rotMod3
  congr 2
  have : ∀ l : List (Vol ℂ), (∀ f ∈ l, f.shape = s) →
      (((l.map view3R).map view3C).map Vol.vx).map (fun f => ‖Spec.conv3 s x.vx f u‖ ^ 2) =
      (l.map Vol.vx).map fun f => ‖Spec.conv3 s x.vx f u‖ ^ 2 := by
    intro l hl
    rw [List.map_map, List.map_map, List.map_map, List.map_map]
    apply List.map_congr_left
    intro f hf
    simp only [Function.comp]
    unfold Spec.conv3
    rw [impulse3_congr (f := (view3C (view3R f)).vx) (g := f.vx)]
    intro k hk
    have hk' : k ∈ box f.shape := by rw [hl f hf]; exact hk
    rw [view3C_vx (x := view3R f) hk', view3R_vx hk']
  cases rot with
  | true => exact this fs h
  | false =>
    have := this (fs.take 1) fun f hf => h f (List.mem_of_mem_take hf)
    simpa [List.map_take] using this

theorem along_congr {R F F' : Type} {W : List F → R → R} {W' : List F' → R → R} {fam : ℕ → List F}
    {fam' : ℕ → List F'} (p : List ℕ) (h : ∀ j ∈ p, W (fam j) = W' (fam' j)) (x : R) :
    Core3D.along W fam p x = Core3D.along W' fam' p x := by
  induction p generalizing x with
  | nil => rfl
  | cons j p ih =>
    show Core3D.along W fam p _ = Core3D.along W' fam' p _
    rw [h j (by simp)]
    exact ih (fun k hk => h k (by simp [hk])) _

/-! ## Batches -/

/-- Value of the running modulus started at `m x`. -/
noncomputable def loopVal : List (Vol ℂ) → (Vol ℝ → Vol ℝ) → Vol ℝ → Vol ℝ
  | [], m => m
  | f :: fs, m => loopVal fs fun x => np3ModRot (npComp x f) (some (m x))

theorem np_loopVal (qs : List ℝ) (x : Vol ℝ) : ∀ (fs : List (Vol ℂ)) (m : Vol ℝ → Vol ℝ),
    (∀ f ∈ fs, f.shape = x.shape) →
    Core3D.rotLoop (np3Backend qs) (dft3 (x.map fun r : ℝ => (r : ℂ))) fs (some (m x)) =
      .ok (some (loopVal fs m x))
  | [], m, _ => rfl
  | f :: fs, m, h => by
    unfold Core3D.rotLoop
    show (np3Cdgmm _ _ >>= _) = _
    rw [np3Cdgmm_dft (h f (by simp)), ok_bind, ok_bind, ok_bind]
    exact np_loopVal qs x fs (fun x => np3ModRot (npComp x f) (some (m x))) fun g hg => h g (by simp [hg])

/-- `rfft` of the batch. -/
noncomputable def batchHat (xs : List (Vol ℝ)) : List (Vol ℂ) :=
  xs.map fun x => dft3 (x.map fun r : ℝ => (r : ℂ))

theorem batch_mul (xs : List (Vol ℝ)) (f : Vol ℂ) (h : ∀ x ∈ xs, f.shape = x.shape) :
    ((batchHat xs).mapM fun x => np3Cdgmm x f) = .ok (xs.map fun x => Vol.tab x.shape fun i =>
      (dft3 (x.map fun r : ℝ => (r : ℂ))).vx i * f.vx i) := by
  unfold batchHat
  induction xs with
  | nil => rfl
  | cons x xs ih =>
    rw [List.map_cons, List.mapM_cons, np3Cdgmm_dft (h x (by simp)), ih fun y hy => h y (by simp [hy])]
    rfl

theorem batch_rotLoop (qs : List ℝ) (xs : List (Vol ℝ)) : ∀ (fs : List (Vol ℂ)) (m : Vol ℝ → Vol ℝ),
    (∀ f ∈ fs, ∀ x ∈ xs, f.shape = x.shape) →
    Core3D.rotLoop (np3Batch qs) (batchHat xs) fs (some (xs.map m)) =
      .ok (some (xs.map (loopVal fs m)))
  | [], m, _ => rfl
  | f :: fs, m, h => by
    unfold Core3D.rotLoop
    show (List.mapM _ _ >>= _) = _
    rw [batch_mul xs f (h f (by simp)), ok_bind, ok_bind, ok_bind]
    have e : List.zipWith (fun x m => np3ModRot x (some m)) ((xs.map fun x => Vol.tab x.shape fun i =>
      (dft3 (x.map fun r : ℝ => (r : ℂ))).vx i * f.vx i).map idft3) (xs.map m) =
        xs.map fun x => np3ModRot (npComp x f) (some (m x)) := by
      rw [List.map_map, List.zipWith_map, List.zipWith_self]
      rfl
    show Core3D.rotLoop (np3Batch qs) _ fs (some (List.zipWith _ _ _)) = _
    rw [e]
    exact batch_rotLoop qs xs fs _ fun g hg => h g (by simp [hg])

theorem batch_wave (s : Idx3) (qs : List ℝ) (rot : Bool) (xs : List (Vol ℝ)) (hs : ∀ x ∈ xs, x.shape = s)
    (fs : List (Vol ℂ)) (h0 : fs ≠ []) (h : ∀ f ∈ fs, f.shape = s) :
    Core3D.wave (np3Batch qs) rot (batchHat xs) fs = .ok (xs.map (npWave s rot fs)) := by
  have hfx : ∀ f ∈ fs, ∀ x ∈ xs, f.shape = x.shape := fun f hf x hx => (h f hf).trans (hs x hx).symm
  have hone : ∀ x ∈ xs, Core3D.wave (np3Backend qs) rot (dft3 (x.map fun r : ℝ => (r : ℂ))) fs =
      .ok (npWave s rot fs x) := fun x hx => by
    have := np_wave qs rot x fs h0 fun f hf => hfx f hf x hx
    rwa [hs x hx] at this
  obtain ⟨f, fs, rfl⟩ := List.exists_cons_of_ne_nil h0
  cases rot with
  | true =>
    have e1 : ∀ x ∈ xs, loopVal fs (fun x => np3ModRot (npComp x f) none) x = npWave s true (f :: fs) x := by
      intro x hx
      have h1 := hone x hx
      unfold Core3D.wave at h1
      rw [if_pos rfl] at h1
      unfold Core3D.rotLoop at h1
      change ((np3Cdgmm _ _ >>= _) >>= _) = _ at h1
      rw [np3Cdgmm_dft (hfx f (by simp) x hx), ok_bind, ok_bind, ok_bind] at h1
      change (Core3D.rotLoop (np3Backend qs) _ fs (some ((fun x => np3ModRot (npComp x f) none) x)) >>= _) = _ at h1
      rw [np_loopVal qs x fs (fun x => np3ModRot (npComp x f) none) fun g hg => hfx g (by simp [hg]) x hx,
        ok_bind] at h1
      exact Except.ok.inj h1
    unfold Core3D.wave
    rw [if_pos rfl]
    unfold Core3D.rotLoop
    show ((List.mapM _ _ >>= _) >>= _) = _
    rw [batch_mul xs f (hfx f (by simp)), ok_bind, ok_bind, ok_bind]
    have e : ((xs.map fun x => Vol.tab x.shape fun i =>
      (dft3 (x.map fun r : ℝ => (r : ℂ))).vx i * f.vx i).map idft3).map (fun x => np3ModRot x none) =
        xs.map fun x => np3ModRot (npComp x f) none := by
      rw [List.map_map, List.map_map]
      rfl
    show (Core3D.rotLoop (np3Batch qs) _ fs (some (List.map _ _)) >>= _) = _
    rw [e, batch_rotLoop qs xs fs _ fun g hg => hfx g (by simp [hg]), ok_bind]
    show Except.ok _ = _
    rw [List.map_congr_left e1]
  | false =>
    unfold Core3D.wave
    rw [if_neg (by simp), listGet_ok (a := f) (by simp), ok_bind]
    show (List.mapM _ _ >>= _) = _
    rw [batch_mul xs f (hfx f (by simp)), ok_bind, ok_bind]
    show Except.ok (List.map _ (List.map _ _)) = _
    rw [List.map_map, List.map_map]
    congr 1
    apply List.map_congr_left
    intro x hx
    have h1 := hone x hx
    unfold Core3D.wave at h1
    rw [if_neg (by simp), listGet_ok (a := f) (by simp), ok_bind] at h1
    change (np3Cdgmm _ _ >>= _) = _ at h1
    rw [np3Cdgmm_dft (hfx f (by simp) x hx), ok_bind] at h1
    exact Except.ok.inj h1

theorem batch_runs (s : Idx3) (qs : List ℝ) (hq : qs ≠ []) (rot : Bool) :
    Core3D.Runs (np3Batch qs) rot (fun xs => xs ≠ [] ∧ ∀ x ∈ xs, x.shape = s)
      (fun fs => fs ≠ [] ∧ ∀ f ∈ fs, f.shape = s) batchHat (fun fs xs => xs.map (npWave s rot fs))
      (fun xs => xs.map (np3Integrals qs)) where
  rfft _ _ := rfl
  wave xs fs hx h := batch_wave s qs rot xs hx.2 fs h.1 h.2
  closed xs fs hx _ := by
    refine ⟨fun h => hx.1 (List.map_eq_nil_iff.1 h), fun y hy => ?_⟩
    obtain ⟨x, _, rfl⟩ := List.mem_map.1 hy
    rfl
  avg xs hx := by
    obtain ⟨x, xs, rfl⟩ := List.exists_cons_of_ne_nil hx.1
    exact mapM_eq_map (x :: xs) fun x _ => by rw [np3Averaging, if_neg hq]

theorem along_batch (s : Idx3) (rot : Bool) (fam : ℕ → List (Vol ℂ)) (p : List ℕ) (xs : List (Vol ℝ)) :
    Core3D.along (fun fs (xs : List (Vol ℝ)) => xs.map (npWave s rot fs)) fam p xs =
      xs.map (Core3D.along (npWave s rot) fam p) := by
  induction p generalizing xs with
  | nil =>
    show xs = xs.map fun x => x
    simp
  | cons j p ih =>
    show Core3D.along _ fam p (xs.map _) = _
    rw [ih, List.map_map]
    rfl

end Verif
