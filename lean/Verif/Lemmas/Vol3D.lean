import Verif.Lemmas.Core3D
import Verif.Lemmas.DFT
import Verif.Lemmas.Covariance2D

/-! # The 3-D numpy backend computes convolutions -/

namespace Verif

open Finset Complex

theorem Vol.tab_congr {α : Type} [Zero α] {s : Idx3} {f g : Idx3 → α} (h : ∀ i ∈ box s, f i = g i) :
    Vol.tab s f = Vol.tab s g := by
  unfold Vol.tab
  congr 1
  funext i
  split
  · next hi => exact h i hi
  · rfl

@[simp] theorem Vol.shape_tab {α : Type} [Zero α] (s : Idx3) (f : Idx3 → α) : (Vol.tab s f).shape = s := rfl

theorem Vol.vx_tab {α : Type} [Zero α] {s : Idx3} {f : Idx3 → α} {i : Idx3} (h : i ∈ box s) :
    (Vol.tab s f).vx i = f i := if_pos h

@[simp] theorem Vol.shape_map {α β : Type} [Zero β] (g : α → β) (x : Vol α) : (x.map g).shape = x.shape := rfl

theorem Vol.vx_map {α β : Type} [Zero β] {g : α → β} {x : Vol α} {i : Idx3} (h : i ∈ box x.shape) :
    (x.map g).vx i = g (x.vx i) := if_pos h

theorem box_eq_cells (s : Idx3) : box s = Spec.cells s := rfl

theorem phase_sub (s : Idx3) (k u v : ℤ × ℤ × ℤ) :
    phase s k (-v) * phase s k u = phase s k (u - v) := by
  unfold phase
  have h : ∀ (N : ℕ) (a b c : ℤ), tw N (a * (b - c)) = tw N (a * -c) * tw N (a * b) := by
    intro N a b c; rw [← tw_add]; congr 1; ring
  simp only [Prod.fst_sub, Prod.snd_sub, Prod.fst_neg, Prod.snd_neg, h]
  ring

theorem phase_exp (s : Idx3) (k : Idx3) (a b c : ℤ) :
    phase s (z3 k) (a, b, c) = exp (2 * Real.pi * I *
      ((k.1 * a : ℤ) / s.1 + (k.2.1 * b : ℤ) / s.2.1 + (k.2.2 * c : ℤ) / s.2.2)) := by
  unfold phase tw z3
  rw [← exp_add, ← exp_add]
  congr 1
  ring

theorem impulse3_eq (s : Idx3) (f : Idx3 → ℂ) (a b c : ℤ) :
    Spec.impulse3 s f a b c = (∑ k ∈ box s, f k * phase s (z3 k) (a, b, c)) / vol3 s := by
  unfold Spec.impulse3 vol3
  rw [box_eq_cells]
  push_cast
  congr 1
  apply sum_congr rfl
  intro k _
  rw [phase_exp]
  push_cast
  ring_nf

/-- Multiplication in Fourier is circular convolution. -/
theorem idft3_mul (s : Idx3) (x : Vol ℝ) (f : Vol ℂ) (hx : x.shape = s) {u : Idx3} (hu : u ∈ box s) :
    (idft3 (Vol.tab s fun i => (dft3 (x.map fun r : ℝ => (r : ℂ))).vx i * f.vx i)).vx u =
      Spec.conv3 s x.vx f.vx u := by
  subst hx
  unfold idft3
  rw [Vol.shape_tab, Vol.vx_tab hu]
  unfold Spec.conv3
  rw [← box_eq_cells]
  have h1 : ∀ k ∈ box x.shape, (Vol.tab x.shape fun i => (dft3 (x.map fun r : ℝ => (r : ℂ))).vx i * f.vx i).vx k
      * phase x.shape (z3 k) (z3 u) =
      ∑ v ∈ box x.shape, (x.vx v : ℂ) * (f.vx k * phase x.shape (z3 k) (z3 u - z3 v)) := by
    intro k hk
    rw [Vol.vx_tab hk]
    unfold dft3
    rw [Vol.shape_map, Vol.vx_tab hk, sum_mul, sum_mul]
    apply sum_congr rfl
    intro v hv
    rw [Vol.vx_map hv, ← phase_sub]
    ring
  rw [sum_congr rfl h1, sum_comm, sum_div]
  apply sum_congr rfl
  intro v _
  rw [impulse3_eq, ← mul_sum, mul_div_assoc]
  rfl

/-- Value of a wavelet modulus on a volume of shape `s`. -/
noncomputable def npWave (s : Idx3) (rot : Bool) (fs : List (Vol ℂ)) (x : Vol ℝ) : Vol ℝ :=
  Vol.tab s (Spec.rotMod3 s ((if rot then fs else fs.take 1).map Vol.vx) x.vx)

theorem np3Cdgmm_eq {A f : Vol ℂ} (h : A.shape = f.shape) :
    np3Cdgmm A f = .ok (Vol.tab A.shape fun i => A.vx i * f.vx i) := by
  unfold np3Cdgmm; rw [if_neg (not_not.2 h)]

/-- One component: multiply by the filter and transform back. -/
noncomputable def npComp (x : Vol ℝ) (f : Vol ℂ) : Vol ℂ :=
  idft3 (Vol.tab x.shape fun i => (dft3 (x.map fun r : ℝ => (r : ℂ))).vx i * f.vx i)

theorem npComp_shape (x : Vol ℝ) (f : Vol ℂ) : (npComp x f).shape = x.shape := rfl

theorem npComp_vx (x : Vol ℝ) (f : Vol ℂ) {u : Idx3} (hu : u ∈ box x.shape) :
    (npComp x f).vx u = Spec.conv3 x.shape x.vx f.vx u := idft3_mul x.shape x f rfl hu

theorem np3Cdgmm_dft {x : Vol ℝ} {f : Vol ℂ} (h : f.shape = x.shape) :
    np3Cdgmm (dft3 (x.map fun r : ℝ => (r : ℂ))) f =
      .ok (Vol.tab x.shape fun i => (dft3 (x.map fun r : ℝ => (r : ℂ))).vx i * f.vx i) :=
  np3Cdgmm_eq (by rw [h]; rfl)

theorem np_rotLoop_some (qs : List ℝ) (x : Vol ℝ) : ∀ (fs : List (Vol ℂ)) (acc : Idx3 → ℝ),
    (∀ f ∈ fs, f.shape = x.shape) → (∀ i, 0 ≤ acc i) →
    Core3D.rotLoop (np3Backend qs) (dft3 (x.map fun r : ℝ => (r : ℂ))) fs
      (some (Vol.tab x.shape fun i => Real.sqrt (acc i))) =
    .ok (some (Vol.tab x.shape fun i => Real.sqrt (acc i +
      ((fs.map Vol.vx).map fun f => ‖Spec.conv3 x.shape x.vx f i‖ ^ 2).sum)))
  | [], acc, _, _ => by simp [Core3D.rotLoop]
  | f :: fs, acc, h, h0 => by
    unfold Core3D.rotLoop
    show (np3Cdgmm _ _ >>= _) = _
    rw [np3Cdgmm_dft (h f (by simp)), ok_bind, ok_bind, ok_bind]
    have h1 : np3ModRot (npComp x f) (some (Vol.tab x.shape fun i => Real.sqrt (acc i))) =
        Vol.tab x.shape fun i => Real.sqrt (acc i + ‖Spec.conv3 x.shape x.vx f.vx i‖ ^ 2) := by
      unfold np3ModRot
      apply Vol.tab_congr
      intro i hi
      rw [npComp_shape] at hi
      rw [npComp_vx x f hi, Vol.vx_tab hi, Real.sq_sqrt (h0 i)]
    show Core3D.rotLoop (np3Backend qs) _ fs (some (np3ModRot (npComp x f) _)) = _
    rw [h1, np_rotLoop_some qs x fs _ (fun g hg => h g (by simp [hg]))
      fun i => add_nonneg (h0 i) (sq_nonneg _)]
    simp only [List.map_cons, List.sum_cons, add_assoc]

theorem np_wave (qs : List ℝ) (rot : Bool) (x : Vol ℝ) (fs : List (Vol ℂ)) (h0 : fs ≠ [])
    (h : ∀ f ∈ fs, f.shape = x.shape) :
    Core3D.wave (np3Backend qs) rot (dft3 (x.map fun r : ℝ => (r : ℂ))) fs = .ok (npWave x.shape rot fs x) := by
  obtain ⟨f, fs, rfl⟩ := List.exists_cons_of_ne_nil h0
  unfold Core3D.wave
  cases rot with
  | true =>
    rw [if_pos rfl]
    unfold Core3D.rotLoop
    show ((np3Cdgmm _ _ >>= _) >>= _) = _
    rw [np3Cdgmm_dft (h f (by simp)), ok_bind, ok_bind, ok_bind]
    have h1 : np3ModRot (npComp x f) none =
        Vol.tab x.shape fun i => Real.sqrt (‖Spec.conv3 x.shape x.vx f.vx i‖ ^ 2) := by
      unfold np3ModRot
      apply Vol.tab_congr
      intro i hi
      rw [npComp_shape] at hi
      rw [npComp_vx x f hi]
    show (Core3D.rotLoop (np3Backend qs) _ fs (some (np3ModRot (npComp x f) none)) >>= _) = _
    rw [h1, np_rotLoop_some qs x fs _ (fun g hg => h g (by simp [hg])) fun i => sq_nonneg _, ok_bind]
    simp only [npWave, if_true]
    congr 2
  | false =>
    rw [if_neg (by simp), listGet_ok (a := f) (by simp), ok_bind]
    show (np3Cdgmm _ _ >>= _) = _
    rw [np3Cdgmm_dft (h f (by simp)), ok_bind]
    show Except.ok ((npComp x f).map fun z => ‖z‖) = _
    congr 1
    unfold Vol.map npWave
    rw [npComp_shape]
    apply Vol.tab_congr
    intro i hi
    rw [npComp_vx x f hi]
    simp [Spec.rotMod3]

/-- The numpy backend on volumes of shape `s`. -/
theorem np_runs (s : Idx3) (qs : List ℝ) (hq : qs ≠ []) (rot : Bool) :
    Core3D.Runs (np3Backend qs) rot (fun x => x.shape = s) (fun fs => fs ≠ [] ∧ ∀ f ∈ fs, f.shape = s)
      (fun x => dft3 (x.map fun r : ℝ => (r : ℂ))) (npWave s rot) (np3Integrals qs) where
  rfft _ _ := rfl
  wave x fs hx h := by subst hx; exact np_wave qs rot x fs h.1 h.2
  closed _ _ _ _ := rfl
  avg x _ := by
    show np3Averaging qs x = _
    rw [np3Averaging, if_neg hq]

theorem conv3_congr {s : Idx3} {x y : Idx3 → ℝ} (h : ∀ v ∈ Spec.cells s, x v = y v) (f : Idx3 → ℂ) (u : Idx3) :
    Spec.conv3 s x f u = Spec.conv3 s y f u := by
  unfold Spec.conv3
  exact sum_congr rfl fun v hv => by rw [h v hv]

theorem rotMod3_congr {s : Idx3} {x y : Idx3 → ℝ} (h : ∀ v ∈ Spec.cells s, x v = y v)
    (fs : List (Idx3 → ℂ)) (u : Idx3) : Spec.rotMod3 s fs x u = Spec.rotMod3 s fs y u := by
  unfold Spec.rotMod3
  simp only [conv3_congr h]

theorem cascade3_congr {s : Idx3} (fam : ℕ → List (Idx3 → ℂ)) (p : List ℕ) {x y : Idx3 → ℝ}
    (h : ∀ v ∈ Spec.cells s, x v = y v) : ∀ v ∈ Spec.cells s, Spec.cascade3 s fam p x v =
      Spec.cascade3 s fam p y v := by
  induction p generalizing x y with
  | nil => exact h
  | cons j p ih => exact ih fun v _ => rotMod3_congr h _ v

/-- The transfer functions used: all components, or the first one only. -/
def used (rot : Bool) (fs : List (Vol ℂ)) : List (Idx3 → ℂ) := (if rot then fs else fs.take 1).map Vol.vx

theorem along_np (s : Idx3) (rot : Bool) (fam : ℕ → List (Vol ℂ)) (p : List ℕ) (x : Vol ℝ) (hx : x.shape = s) :
    (Core3D.along (npWave s rot) fam p x).shape = s ∧
    ∀ v ∈ Spec.cells s, (Core3D.along (npWave s rot) fam p x).vx v =
      Spec.cascade3 s (fun j => used rot (fam j)) p x.vx v := by
  induction p generalizing x with
  | nil => exact ⟨hx, fun _ _ => rfl⟩
  | cons j p ih =>
    obtain ⟨h1, h2⟩ := ih (npWave s rot (fam j) x) rfl
    refine ⟨h1, fun v hv => ?_⟩
    show (Core3D.along (npWave s rot) fam p (npWave s rot (fam j) x)).vx v = _
    rw [h2 v hv]
    exact cascade3_congr _ p (fun v hv => Vol.vx_tab hv) v hv

theorem integrals_along (s : Idx3) (rot : Bool) (qs : List ℝ) (fam : ℕ → List (Vol ℂ)) (p : List ℕ) (x : Vol ℝ)
    (hx : x.shape = s) : np3Integrals qs (Core3D.along (npWave s rot) fam p x) =
      qs.map (Spec.integral3 s (Spec.cascade3 s (fun j => used rot (fam j)) p x.vx)) := by
  obtain ⟨h1, h2⟩ := along_np s rot fam p x hx
  unfold np3Integrals
  apply List.map_congr_left
  intro q _
  unfold Spec.integral3
  rw [h1, box_eq_cells]
  exact sum_congr rfl fun v hv => by rw [h2 v hv]

/-! ## Laws of the closed form -/

/-- The cell of a rolled index. -/
def rollIdx (s : Idx3) (t : ℤ × ℤ × ℤ) (u : Idx3) : Idx3 :=
  ((((u.1 : ℤ) - t.1) % s.1).toNat, (((u.2.1 : ℤ) - t.2.1) % s.2.1).toNat,
    (((u.2.2 : ℤ) - t.2.2) % s.2.2).toNat)

theorem toNat_cast_emod (a : ℤ) {N : ℕ} (h : 0 < N) : (((a % N).toNat : ℕ) : ℤ) = a % N :=
  Int.toNat_of_nonneg (Int.emod_nonneg a (by omega))

theorem rollIdx_mem {s : Idx3} {t : ℤ × ℤ × ℤ} {u : Idx3} (h : u ∈ Spec.cells s) : rollIdx s t u ∈ Spec.cells s := by
  simp only [Spec.cells, mem_product, mem_range] at h ⊢
  exact ⟨emod_toNat_lt _ (by omega), emod_toNat_lt _ (by omega), emod_toNat_lt _ (by omega)⟩

theorem roll1 {N u : ℕ} (h : u < N) (t : ℤ) :
    (((((((u : ℤ) - t) % N).toNat : ℕ) : ℤ) - -t) % N).toNat = u := by
  rw [toNat_cast_emod _ (by omega), sub_neg_eq_add, Int.emod_add_emod, sub_add_cancel,
    Int.emod_eq_of_lt (by omega) (by omega)]
  rfl

theorem rollIdx_neg {s : Idx3} {t : ℤ × ℤ × ℤ} {u : Idx3} (h : u ∈ Spec.cells s) :
    rollIdx s (-t) (rollIdx s t u) = u := by
  simp only [Spec.cells, mem_product, mem_range] at h
  obtain ⟨a, b, c⟩ := u
  obtain ⟨h1, h2, h3⟩ := h
  show (_, _, _) = _
  rw [Prod.mk.injEq, Prod.mk.injEq]
  exact ⟨roll1 h1 _, roll1 h2 _, roll1 h3 _⟩

/-- A sum over all cells is unchanged by a roll. -/
theorem sum_roll {β : Type} [AddCommMonoid β] (s : Idx3) (t : ℤ × ℤ × ℤ) (g : Idx3 → β) :
    ∑ u ∈ Spec.cells s, g (rollIdx s t u) = ∑ u ∈ Spec.cells s, g u := by
  refine sum_nbij' (rollIdx s t) (rollIdx s (-t)) (fun u hu => rollIdx_mem hu) (fun u hu => rollIdx_mem hu)
    (fun u hu => rollIdx_neg hu) (fun u hu => ?_) (fun u _ => rfl)
  conv_lhs => rw [← neg_neg t]
  rw [neg_neg, ← neg_neg t]
  simpa using rollIdx_neg (t := -t) hu

theorem impulse3_period (s : Idx3) (f : Idx3 → ℂ) {a b c a' b' c' : ℤ} (h1 : a % s.1 = a' % s.1)
    (h2 : b % s.2.1 = b' % s.2.1) (h3 : c % s.2.2 = c' % s.2.2) :
    Spec.impulse3 s f a b c = Spec.impulse3 s f a' b' c' := by
  rw [impulse3_eq, impulse3_eq]
  congr 1
  apply sum_congr rfl
  intro k _
  congr 1
  unfold phase
  have h : ∀ (N : ℕ) (k a b : ℤ), a % N = b % N → tw N (k * a) = tw N (k * b) := by
    intro N k a b h
    exact tw_congr N (Int.ModEq.mul_left k h)
  show tw _ _ * (tw _ _ * tw _ _) = tw _ _ * (tw _ _ * tw _ _)
  rw [h _ _ _ _ h1, h _ _ _ _ h2, h _ _ _ _ h3]

theorem conv3_roll {s : Idx3} {t : ℤ × ℤ × ℤ} {x y : Idx3 → ℝ} (h : Spec.IsRoll3 s t x y) (f : Idx3 → ℂ)
    {u : Idx3} (hu : u ∈ Spec.cells s) : Spec.conv3 s y f u = Spec.conv3 s x f (rollIdx s t u) := by
  have hu' := hu
  simp only [Spec.cells, mem_product, mem_range] at hu'
  unfold Spec.conv3
  rw [← sum_roll s t fun v => (x v : ℂ) * Spec.impulse3 s f (((rollIdx s t u).1 : ℤ) - v.1)
    (((rollIdx s t u).2.1 : ℤ) - v.2.1) (((rollIdx s t u).2.2 : ℤ) - v.2.2)]
  apply sum_congr rfl
  intro v hv
  rw [h v hv]
  congr 1
  have hv' := hv
  have e : ∀ (N a b : ℕ) (t : ℤ), 0 < N →
      ((a : ℤ) - b) % N = ((((((a : ℤ) - t) % N).toNat : ℕ) : ℤ) - (((((b : ℤ) - t) % N).toNat : ℕ) : ℤ)) % N := by
    intro N a b t hN
    rw [toNat_cast_emod _ hN, toNat_cast_emod _ hN, ← Int.sub_emod]
    congr 1; ring
  exact impulse3_period s f (e _ _ _ _ (by omega)) (e _ _ _ _ (by omega)) (e _ _ _ _ (by omega))

theorem rotMod3_roll {s : Idx3} {t : ℤ × ℤ × ℤ} {x y : Idx3 → ℝ} (h : Spec.IsRoll3 s t x y)
    (fs : List (Idx3 → ℂ)) : Spec.IsRoll3 s t (Spec.rotMod3 s fs x) (Spec.rotMod3 s fs y) := by
  intro u hu
  show _ = Spec.rotMod3 s fs x (rollIdx s t u)
  unfold Spec.rotMod3
  simp only [conv3_roll h _ hu]

theorem cascade3_roll {s : Idx3} {t : ℤ × ℤ × ℤ} (fam : ℕ → List (Idx3 → ℂ)) (p : List ℕ) {x y : Idx3 → ℝ}
    (h : Spec.IsRoll3 s t x y) : Spec.IsRoll3 s t (Spec.cascade3 s fam p x) (Spec.cascade3 s fam p y) := by
  induction p generalizing x y with
  | nil => exact h
  | cons j p ih => exact ih (rotMod3_roll h _)

theorem integral3_roll {s : Idx3} {t : ℤ × ℤ × ℤ} {x y : Idx3 → ℝ} (h : Spec.IsRoll3 s t x y) (q : ℝ) :
    Spec.integral3 s y q = Spec.integral3 s x q := by
  unfold Spec.integral3
  rw [← sum_roll s t fun u => x u ^ q]
  exact sum_congr rfl fun u hu => by rw [h u hu]; rfl

theorem conv3_smul (s : Idx3) (a : ℝ) (x : Idx3 → ℝ) (f : Idx3 → ℂ) (u : Idx3) :
    Spec.conv3 s (fun v => a * x v) f u = a * Spec.conv3 s x f u := by
  unfold Spec.conv3
  rw [mul_sum]
  apply sum_congr rfl
  intro v _
  push_cast
  ring

theorem rotMod3_smul (s : Idx3) (a : ℝ) (fs : List (Idx3 → ℂ)) (x : Idx3 → ℝ) :
    Spec.rotMod3 s fs (fun v => a * x v) = fun u => |a| * Spec.rotMod3 s fs x u := by
  funext u
  unfold Spec.rotMod3
  simp only [conv3_smul, norm_mul, mul_pow, norm_real, Real.norm_eq_abs]
  rw [List.sum_map_mul_left, Real.sqrt_mul (sq_nonneg _), Real.sqrt_sq (abs_nonneg _)]

theorem cascade3_smul (s : Idx3) (a : ℝ) (fam : ℕ → List (Idx3 → ℂ)) (p : List ℕ) (hp : p ≠ []) (x : Idx3 → ℝ) :
    Spec.cascade3 s fam p (fun v => a * x v) = fun u => |a| * Spec.cascade3 s fam p x u := by
  obtain ⟨j, p, rfl⟩ := List.exists_cons_of_ne_nil hp
  show Spec.cascade3 s fam p _ = _
  rw [rotMod3_smul]
  show _ = fun u => |a| * Spec.cascade3 s fam p (Spec.rotMod3 s (fam j) x) u
  generalize Spec.rotMod3 s (fam j) x = y
  clear hp
  induction p generalizing y with
  | nil => rfl
  | cons j p ih =>
    show Spec.cascade3 s fam p _ = _
    rw [rotMod3_smul, abs_abs, ih]
    rfl

theorem rotMod3_nonneg (s : Idx3) (fs : List (Idx3 → ℂ)) (x : Idx3 → ℝ) (u : Idx3) : 0 ≤ Spec.rotMod3 s fs x u :=
  Real.sqrt_nonneg _

theorem cascade3_nonneg (s : Idx3) (fam : ℕ → List (Idx3 → ℂ)) (p : List ℕ) (hp : p ≠ []) (x : Idx3 → ℝ)
    (u : Idx3) : 0 ≤ Spec.cascade3 s fam p x u := by
  obtain ⟨j, p, rfl⟩ := List.exists_cons_of_ne_nil hp
  induction p generalizing j x with
  | nil => exact rotMod3_nonneg _ _ _ _
  | cons k p ih => exact ih (Spec.rotMod3 s (fam j) x) k (by simp)

end Verif
