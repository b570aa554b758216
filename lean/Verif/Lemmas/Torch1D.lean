import Verif.Model.Torch1D
import Verif.Lemmas.Covariance1D

/-!
# Simulation instances: torch vs numpy, batches, shapes
-/

namespace Verif

open Finset

@[simp] theorem length_viewAsComplex (x : List (ℝ × ℝ)) : (viewAsComplex x).length = x.length := by
  simp [viewAsComplex]

theorem viewAsComplex_viewAsReal (x : List ℂ) : viewAsComplex (viewAsReal x) = x := by
  simp [viewAsComplex, viewAsReal, List.map_map, Function.comp_def]

theorem getD_viewAsComplex (x : List (ℝ × ℝ)) (i : Nat) :
    (viewAsComplex x).getD i 0 = ⟨(x.getD i (0, 0)).1, (x.getD i (0, 0)).2⟩ := by
  have := getD_map' x (fun p : ℝ × ℝ => (⟨p.1, p.2⟩ : ℂ)) i (0, 0)
  exact this

theorem torchModulus_eq (x : List (ℝ × ℝ)) : torchModulus x = npModulus (viewAsComplex x) := by
  unfold torchModulus npModulus viewAsComplex
  rw [List.map_map]
  apply List.map_congr_left
  intro p _
  simp only [Function.comp]
  rw [Complex.norm_def, Complex.normSq_mk]

theorem torchCdgmm_eq (A : List (ℝ × ℝ)) (f : List ℝ) (y : List (ℝ × ℝ)) :
    torchCdgmm A f = .ok y ↔ npCdgmm (viewAsComplex A) f = .ok (viewAsComplex y) := by
  unfold torchCdgmm npCdgmm
  have hinj : Function.Injective viewAsComplex := by
    unfold viewAsComplex
    apply List.map_injective_iff.2
    rintro ⟨a, b⟩ ⟨c, d⟩ h
    simpa [Complex.ext_iff] using h
  have hz : viewAsComplex (List.zipWith (fun a (b : ℝ) => (a.1 * b, a.2 * b)) A f) =
      List.zipWith (fun a (b : ℝ) => a * (b : ℂ)) (viewAsComplex A) f := by
    unfold viewAsComplex
    rw [List.map_zipWith, List.zipWith_map_left]
    congr 1
    funext a b
    apply Complex.ext <;> simp
  rw [length_viewAsComplex]
  by_cases h : A.length = f.length
  · simp only [h, ne_eq, not_true_eq_false, if_false]
    rw [← hz]
    constructor
    · intro h; injection h with h; rw [h]
    · intro h; injection h with h; rw [hinj h]
  · simp [h]

theorem torchSubsample_eq (x : List (ℝ × ℝ)) (k : Nat) (y : List (ℝ × ℝ)) :
    torchSubsample x k = .ok y ↔
      npSubsampleFourier (viewAsComplex x) k = .ok (viewAsComplex y) := by
  have hinj : Function.Injective viewAsComplex := by
    unfold viewAsComplex
    apply List.map_injective_iff.2
    rintro ⟨a, b⟩ ⟨c, d⟩ h
    simpa [Complex.ext_iff] using h
  unfold torchSubsample npSubsampleFourier
  rw [length_viewAsComplex]
  by_cases hk : k = 0
  · simp [hk]
  · simp only [hk, if_false]
    by_cases hd : k * (x.length / k) = x.length
    · simp only [hd, ne_eq, not_true_eq_false, if_false]
      have hz : viewAsComplex (tab (x.length / k) fun m =>
          ((∑ i ∈ range k, (x.getD (i * (x.length / k) + m) (0, 0)).1) / k,
           (∑ i ∈ range k, (x.getD (i * (x.length / k) + m) (0, 0)).2) / k)) =
          tab (x.length / k) fun m =>
            (∑ i ∈ range k, (viewAsComplex x).getD (i * (x.length / k) + m) 0) / (k : ℂ) := by
        conv_lhs => unfold viewAsComplex
        rw [map_tab]
        apply tab_congr
        intro m _
        have hk2 : (k : ℂ) = ((k : ℝ) : ℂ) := by simp
        apply Complex.ext
        · rw [hk2, Complex.div_ofReal_re, Complex.re_sum]
          simp only [getD_viewAsComplex]
        · rw [hk2, Complex.div_ofReal_im, Complex.im_sum]
          simp only [getD_viewAsComplex]
      rw [← hz]
      constructor
      · intro h; injection h with h; rw [h]
      · intro h; injection h with h; rw [hinj h]
    · simp [hd]

theorem torchRfft_eq (x : List ℝ) : viewAsComplex (torchRfft x) = npRfft x := by
  unfold torchRfft npRfft
  rw [viewAsComplex_viewAsReal]
  congr 1
  unfold viewAsComplex
  rw [List.map_map]
  apply List.map_congr_left
  intro v _
  rfl

/-- torch to numpy. -/
noncomputable def torchToNp : BackendRel torchBackend npBackend where
  rR _ _ x y := y = x
  rC _ _ x y := y = viewAsComplex x
  rZ _ _ x y := y = viewAsComplex x
  rF _ f g := g = f
  rfft i r x y h := Sim.ok (by rw [h, torchRfft_eq])
  ifft i r x y h := Sim.ok (by rw [h]; unfold torchIfft; rw [viewAsComplex_viewAsReal])
  irfft i r x y h := Sim.ok (by rw [h]; rfl)
  modulus i r x y h := Sim.ok (by rw [h, torchModulus_eq])
  cdgmm i r x y f g h hfg := by
    subst hfg; subst h
    intro a ha
    exact ⟨_, (torchCdgmm_eq _ _ _).1 ha, rfl⟩
  subsample i r x y e h := by
    subst h
    intro a ha
    exact ⟨_, (torchSubsample_eq _ _ _).1 ha, rfl⟩

/-- numpy to torch. -/
noncomputable def npToTorch : BackendRel npBackend torchBackend where
  rR _ _ x y := y = x
  rC _ _ x y := x = viewAsComplex y
  rZ _ _ x y := x = viewAsComplex y
  rF _ f g := g = f
  rfft i r x y h := Sim.ok (by rw [h, torchRfft_eq])
  ifft i r x y h := Sim.ok (by rw [h]; unfold torchIfft; rw [viewAsComplex_viewAsReal])
  irfft i r x y h := Sim.ok (by rw [h]; rfl)
  modulus i r x y h := Sim.ok (by rw [h, torchModulus_eq])
  cdgmm i r x y f g h hfg := by
    subst hfg; subst h
    intro a ha
    have : a = viewAsComplex (viewAsReal a) := (viewAsComplex_viewAsReal a).symm
    exact ⟨viewAsReal a, (torchCdgmm_eq _ _ _).2 (by rw [← this]; exact ha), this⟩
  subsample i r x y e h := by
    subst h
    intro a ha
    have : a = viewAsComplex (viewAsReal a) := (viewAsComplex_viewAsReal a).symm
    exact ⟨viewAsReal a, (torchSubsample_eq _ _ _).2 (by rw [← this]; exact ha), this⟩

/-! ## Batches -/

theorem mapM_get {α β : Type} {f : α → Py β} {l : List α} {r : List β} (h : l.mapM f = .ok r)
    {i : Nat} {a : α} (ha : l[i]? = some a) : ∃ b, f a = .ok b ∧ r[i]? = some b := by
  obtain ⟨b, hb, hab⟩ := forall₂_get' (mapM_eq_ok.1 h) ha
  exact ⟨b, hab, hb⟩

/-- Row `i` of a batched run behaves as a run on row `i`. -/
def rowRel (B : Backend1D) (i : Nat) : BackendRel (batchBackend B) B where
  rR _ _ x y := (x : List B.R)[i]? = some y
  rC _ _ x y := (x : List B.C)[i]? = some y
  rZ _ _ x y := (x : List B.C)[i]? = some y
  rF _ f g := g = f
  rfft _ r x y h := by intro a ha; exact mapM_get ha h
  ifft _ r x y h := by intro a ha; exact mapM_get ha h
  irfft _ r x y h := by intro a ha; exact mapM_get ha h
  modulus _ r x y h := by intro a ha; exact mapM_get ha h
  cdgmm _ r x y f g h hfg := by
    subst hfg
    intro a ha
    exact mapM_get ha h
  subsample _ r x y e h := by intro a ha; exact mapM_get ha h

/-! ## Shapes -/

/-- Lengths of a numpy run. -/
noncomputable def npToShape : BackendRel npBackend shapeBackend where
  rR _ _ x n := n = List.length x
  rC _ _ x n := n = List.length x
  rZ _ _ x n := n = List.length x
  rF _ f n := n = List.length f
  rfft i r x y h := Sim.ok (by rw [h]; simp)
  ifft i r x y h := Sim.ok (by rw [h]; simp)
  irfft i r x y h := Sim.ok (by rw [h]; simp)
  modulus i r x y h := Sim.ok (by rw [h]; simp)
  cdgmm i r x y f g h hfg := by
    subst hfg; subst h
    intro a ha
    have hl := ((npCdgmm_eq _ _ _).1 ha).1
    refine ⟨List.length x, ?_, (length_of_cdgmm ha).symm⟩
    simp [hl]
  subsample i r x y e h := by
    subst h
    intro a ha
    have ha : npSubsampleFourier x (2 ^ e) = .ok a := ha
    have hl := length_of_subsample ha
    obtain ⟨hk, hd, -⟩ := (npSubsampleFourier_eq _ _ _).1 ha
    refine ⟨List.length x / 2 ^ e, ?_, ?_⟩
    · simp [Nat.mul_div_cancel' hd]
    · rw [← hl, Nat.mul_div_cancel _ (Nat.pos_of_ne_zero hk)]

/-- A numpy run exists whenever the shapes fit. -/
noncomputable def shapeToNp : BackendRel shapeBackend npBackend where
  rR _ _ n x := n = List.length x
  rC _ _ n x := n = List.length x
  rZ _ _ n x := n = List.length x
  rF _ n f := n = List.length f
  rfft i r x y h := Sim.ok (by rw [h]; simp)
  ifft i r x y h := Sim.ok (by rw [h]; simp)
  irfft i r x y h := Sim.ok (by rw [h]; simp)
  modulus i r x y h := Sim.ok (by rw [h]; simp)
  cdgmm i r x y f g h hfg := by
    subst hfg; subst h
    intro a ha
    simp only at ha
    split at ha
    · cases ha
    · rename_i hl
      rw [not_not] at hl
      injection ha with ha
      subst ha
      have := (npCdgmm_eq y g _).2 ⟨hl, rfl⟩
      exact ⟨_, this, (length_of_cdgmm this).symm⟩
  subsample i r x y e h := by
    subst h
    intro a ha
    simp only at ha
    split at ha
    · cases ha
    · rename_i hl
      rw [not_not] at hl
      injection ha with ha
      subst ha
      have h2 : 2 ^ e ≠ 0 := by positivity
      have := (npSubsampleFourier_eq y (2 ^ e) _).2 ⟨h2, ⟨_, hl.symm⟩, rfl⟩
      refine ⟨_, this, ?_⟩
      have hl2 := length_of_subsample this
      apply Nat.eq_of_mul_eq_mul_right (Nat.pos_of_ne_zero h2)
      rw [hl2, mul_comm, hl]

end Verif
