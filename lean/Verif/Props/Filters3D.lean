import Verif.Props.Scattering3D
import Verif.Lemmas.Norm3D

/-!
# 3-D filters: one mother wavelet, norm factors, axis symmetries; sums of Gaussians
-/

namespace Verif

open Finset Complex

/-! ## C67: dilations of one mother wavelet -/

/-- Scaling of a point. -/
def scale3 (r : ℝ) (w : ℝ × ℝ × ℝ) : ℝ × ℝ × ℝ := (r * w.1, r * w.2.1, r * w.2.2)

theorem sq3_scale (r : ℝ) (w : ℝ × ℝ × ℝ) : sq3 (scale3 r w) = r ^ 2 * sq3 w := by
  unfold sq3 scale3; ring

theorem sq3_nonneg (w : ℝ × ℝ × ℝ) : 0 ≤ sq3 w := by unfold sq3; positivity

theorem angles3_scale {r : ℝ} (hr : 0 < r) (w : ℝ × ℝ × ℝ) : angles3 (scale3 r w) = angles3 w := by
  unfold angles3 scale3
  have h1 : Real.sqrt ((r * w.2.2) ^ 2 + (r * w.2.1) ^ 2) = r * Real.sqrt (w.2.2 ^ 2 + w.2.1 ^ 2) := by
    rw [show (r * w.2.2) ^ 2 + (r * w.2.1) ^ 2 = r ^ 2 * (w.2.2 ^ 2 + w.2.1 ^ 2) by ring,
      Real.sqrt_mul (sq_nonneg r), Real.sqrt_sq hr.le]
  have h2 : ∀ a b : ℝ, Complex.arg ⟨r * a, r * b⟩ = Complex.arg ⟨a, b⟩ := by
    intro a b
    rw [← Complex.arg_real_mul ⟨a, b⟩ hr]
    congr 1
    apply Complex.ext <;> simp
  simp only [h1, h2]

theorem sq3_eq (w : ℝ × ℝ × ℝ) : sq3 w = Spec.sqLen w := rfl

/-- The polynomial times the Gaussian at width `σ`. -/
theorem poly3 {τ : ℝ} (hτ : 0 < τ) (l : ℕ) (w : ℝ × ℝ × ℝ) :
    Real.sqrt (sq3 w ^ l) * Real.exp (-0.5 * sq3 w / τ ^ 2) / τ ^ l =
      Real.sqrt (Spec.sqLen (scale3 τ⁻¹ w)) ^ l * Real.exp (-(Spec.sqLen (scale3 τ⁻¹ w)) / 2) := by
  rw [← sq3_eq, sq3_scale, Real.sqrt_mul (by positivity), Real.sqrt_sq (by positivity), mul_pow, inv_pow,
    Real.sqrt_eq_rpow, Real.sqrt_eq_rpow, ← Real.rpow_natCast (sq3 w ^ (1 / 2 : ℝ)),
    ← Real.rpow_mul (sq3_nonneg w), mul_comm (1 / 2 : ℝ), Real.rpow_mul (sq3_nonneg w), Real.rpow_natCast]
  rw [show -0.5 * sq3 w / τ ^ 2 = -(τ⁻¹ ^ 2 * sq3 w) / 2 by field_simp; norm_num; ring]
  field_simp

/-- One wavelet, with the normalisation pulled out. -/
theorem solid_aux (Y : ℤ → ℕ → ℝ → ℝ → ℂ) {τ : ℝ} (hτ : 0 < τ) (l m : ℕ) (w : ℝ × ℝ × ℝ) :
    Y ((m : ℤ) - l) l (angles3 w).2 (angles3 w).1 *
      ((Real.sqrt (sq3 w ^ l) * Real.exp (-0.5 * sq3 w / τ ^ 2) / τ ^ l : ℝ) : ℂ) *
      ((1 / (Real.sqrt (4 * Real.pi * (2 * l + 1)) * Spec.radial3 l) : ℝ) : ℂ) =
      Spec.solid3 Y l m (scale3 τ⁻¹ w) := by
  rw [poly3 hτ, ← angles3_scale (inv_pos.2 hτ) w, angles3_eq]
  unfold Spec.solid3
  rw [mul_assoc, ← Complex.ofReal_mul, mul_one_div]
  rfl

/-- **C67.** All wavelets are dilations of one function: for every shape, width `sigma > 0` and index,
the wavelet of orders `(l, m)`, `l >= 1`, at frequency `w` is
`(2 pi)^(3/2) (-i)^l Spec.solid3 Y l m (sigma w)`; for `l = 0` it is `exp(-|sigma w|^2 / 2)`. -/
theorem C67_mother (Y : ℤ → ℕ → ℝ → ℝ → ℂ) (s : Idx3) {sigma : ℝ} (hs : 0 < sigma) (l m : ℕ) (f : Vol ℂ)
    (hf : (solidHarmonic3d Y s sigma l true)[m]? = some f) (u : Idx3) (hu : u ∈ Spec.cells s) :
    f.vx u = if l = 0 then ((Real.exp (-(Spec.sqLen (scale3 sigma (gridF s u))) / 2) : ℝ) : ℂ) else
      (((2 * Real.pi) ^ (1.5 : ℝ) : ℝ) : ℂ) * (-I) ^ l * Spec.solid3 Y l m (scale3 sigma (gridF s u)) := by
  have hτ : 0 < 1 / sigma := by positivity
  have hinv : (1 / sigma)⁻¹ = sigma := by simp
  by_cases hl : l = 0
  · subst hl
    unfold solidHarmonic3d at hf
    simp only [if_true] at hf
    have : f = Vol.tab s fun i => (Real.exp (-0.5 * sq3 (gridF s i) / (1 / sigma) ^ 2) : ℂ) := by
      rcases m with _ | m
      · simpa using hf.symm
      · simp at hf
    rw [this, Vol.vx_tab hu, if_pos rfl]
    have h := poly3 hτ 0 (gridF s u)
    rw [hinv] at h
    simp only [pow_zero, Real.sqrt_one, one_mul, div_one] at h
    rw [h]
  · unfold solidHarmonic3d at hf
    simp only [hl, if_false, if_true, List.getElem?_map] at hf
    have hm : m < 2 * l + 1 := by
      by_contra hm
      rw [List.getElem?_eq_none (by simpa using hm)] at hf
      simp at hf
    rw [List.getElem?_range hm] at hf
    have hf' := (Option.some.inj hf).symm
    rw [hf', Vol.vx_tab hu, if_neg hl, normFactor3_fourier]
    have h := solid_aux Y hτ l m (gridF s u)
    rw [hinv] at h
    rw [← h]
    ring

/-- A wavelet of order one on a cube of side 8. -/
example (Y : ℤ → ℕ → ℝ → ℝ → ℂ) : ∃ f, (solidHarmonic3d Y (8, 8, 8) 2 1 true)[2]? = some f ∧
    f.vx (1, 2, 3) = (((2 * Real.pi) ^ (1.5 : ℝ) : ℝ) : ℂ) * (-I) ^ 1 *
      Spec.solid3 Y 1 2 (scale3 2 (gridF (8, 8, 8) (1, 2, 3))) := by
  have h : ∃ f, (solidHarmonic3d Y (8, 8, 8) 2 1 true)[2]? = some f :=
    ⟨_, List.getElem?_eq_getElem (by simp [solidHarmonic3d])⟩
  obtain ⟨f, hf⟩ := h
  refine ⟨f, hf, ?_⟩
  rw [C67_mother Y (8, 8, 8) (by norm_num : (0 : ℝ) < 2) 1 2 f hf (1, 2, 3) (by simp [Spec.cells]), if_neg one_ne_zero]

/-- **C67 (space).** With `fourier=False` the wavelet at the point `x` is
`sigma^(-3) Spec.solid3 Y l m (x / sigma)`; for `l = 0` the normalised Gaussian. -/
theorem C67_space (Y : ℤ → ℕ → ℝ → ℝ → ℂ) (s : Idx3) {sigma : ℝ} (hs : 0 < sigma) (l m : ℕ) (f : Vol ℂ)
    (hf : (solidHarmonic3d Y s sigma l false)[m]? = some f) (u : Idx3) (hu : u ∈ Spec.cells s) :
    f.vx u = if l = 0 then ((Real.exp (-(Spec.sqLen (scale3 sigma⁻¹ (gridS s u))) / 2) /
        ((2 * Real.pi) ^ (1.5 : ℝ) * sigma ^ 3) : ℝ) : ℂ) else
      Spec.solid3 Y l m (scale3 sigma⁻¹ (gridS s u)) / ((sigma ^ 3 : ℝ) : ℂ) := by
  by_cases hl : l = 0
  · subst hl
    unfold solidHarmonic3d at hf
    simp only [if_true, Bool.false_eq_true, if_false] at hf
    have : f = Vol.tab s fun i => ((Real.exp (-0.5 * sq3 (gridS s i) / sigma ^ 2) /
        ((2 * Real.pi) ^ (1.5 : ℝ) * sigma ^ 3) : ℝ) : ℂ) := by
      rcases m with _ | m
      · simpa using hf.symm
      · simp at hf
    rw [this, Vol.vx_tab hu, if_pos rfl]
    have h := poly3 hs 0 (gridS s u)
    simp only [pow_zero, Real.sqrt_one, one_mul, div_one] at h
    rw [h]
  · unfold solidHarmonic3d at hf
    simp only [hl, if_false, Bool.false_eq_true, List.getElem?_map] at hf
    have hm : m < 2 * l + 1 := by
      by_contra hm
      rw [List.getElem?_eq_none (by simpa using hm)] at hf
      simp at hf
    rw [List.getElem?_range hm] at hf
    have hf' := (Option.some.inj hf).symm
    rw [hf', Vol.vx_tab hu, if_neg hl, normFactor3_space, mul_div_assoc', solid_aux Y hs]

/-- **C67 (Gaussian).** The Gaussian low-pass of width `sigma` is `exp(-|sigma w|^2 / 2)` in Fourier. -/
theorem C67_gaussian (s : Idx3) {sigma : ℝ} (hs : 0 < sigma) (u : Idx3) (hu : u ∈ Spec.cells s) :
    (gaussian3d s sigma true).vx u = ((Real.exp (-(Spec.sqLen (scale3 sigma (gridF s u))) / 2) : ℝ) : ℂ) := by
  have hτ : 0 < 1 / sigma := by positivity
  have hinv : (1 / sigma)⁻¹ = sigma := by simp
  unfold gaussian3d
  rw [if_pos rfl, Vol.vx_tab hu]
  have h := poly3 hτ 0 (gridF s u)
  rw [hinv] at h
  simp only [pow_zero, Real.sqrt_one, one_mul, div_one] at h
  rw [h]

/-- **C67 (Gaussian bank).** `gaussian_filter_bank` holds the low-passes of widths `sigma_0 2^j`,
`j = 0, ..., J`. -/
theorem C67_gaussian_bank (s : Idx3) (J : ℕ) {sigma0 : ℝ} (hs : 0 < sigma0) :
    (gaussianBank s J sigma0).length = J + 1 ∧ ∀ j ≤ J, ∃ f, (gaussianBank s J sigma0)[j]? = some f ∧
      ∀ u ∈ Spec.cells s, f.vx u =
        ((Real.exp (-(Spec.sqLen (scale3 (sigma0 * 2 ^ j) (gridF s u))) / 2) : ℝ) : ℂ) := by
  refine ⟨by simp [gaussianBank], fun j hj => ⟨gaussian3d s (sigma0 * 2 ^ j) true, ?_, fun u hu => ?_⟩⟩
  · unfold gaussianBank
    rw [List.getElem?_map, List.getElem?_range (by omega)]
    rfl
  · exact C67_gaussian s (by positivity) u hu

/-- **C67 (Gaussian in space).** With `fourier=False` it is the Gaussian density of width `sigma`. -/
theorem C67_gaussian_space (s : Idx3) {sigma : ℝ} (hs : 0 < sigma) (u : Idx3) (hu : u ∈ Spec.cells s) :
    (gaussian3d s sigma false).vx u = ((Real.exp (-(Spec.sqLen (scale3 sigma⁻¹ (gridS s u))) / 2) /
      ((2 * Real.pi) ^ (1.5 : ℝ) * sigma ^ 3) : ℝ) : ℂ) := by
  unfold gaussian3d
  rw [if_neg (by simp), Vol.vx_tab hu]
  have h := poly3 hs 0 (gridS s u)
  simp only [pow_zero, Real.sqrt_one, one_mul, div_one] at h
  rw [h]

/-- **C67 (grid).** The coordinate at index `i` of a side `M`: the signed index if `M` is even, and the
signed index of `i - 1` if it is odd.  In Fourier it is multiplied by `2 pi / M`. -/
theorem C67_grid (s : Idx3) (u : Idx3) (hu : u ∈ Spec.cells s) :
    gridS s u = ((Spec.gridIndex s.1 u.1 : ℝ), (Spec.gridIndex s.2.1 u.2.1 : ℝ), (Spec.gridIndex s.2.2 u.2.2 : ℝ)) ∧
    gridF s u = (2 * Real.pi * Spec.gridIndex s.1 u.1 / s.1, 2 * Real.pi * Spec.gridIndex s.2.1 u.2.1 / s.2.1,
      2 * Real.pi * Spec.gridIndex s.2.2 u.2.2 / s.2.2) := by
  simp only [Spec.cells, mem_product, mem_range] at hu
  have e : ∀ {M i : ℕ}, i < M → gridCoord M i = Spec.gridIndex M i := by
    intro M i hi
    unfold Spec.gridIndex
    split
    · rename_i h
      exact gridCoord_even h hi
    · exact gridCoord_odd (by omega) hi
  constructor
  · unfold gridS
    rw [e hu.1, e hu.2.1, e hu.2.2]
  · unfold gridF
    rw [e hu.1, e hu.2.1, e hu.2.2]
    refine Prod.ext ?_ (Prod.ext ?_ ?_) <;> simp only <;> ring

/-- **C67 (frequencies).** The grid frequency at index `i` of an even side `M` is `2 pi` times the signed
index over `M`. -/
theorem C67_frequency (s : Idx3) (u : Idx3) (hu : u ∈ Spec.cells s) (h1 : s.1 % 2 = 0) (h2 : s.2.1 % 2 = 0)
    (h3 : s.2.2 % 2 = 0) :
    gridF s u = (2 * Real.pi * (if u.1 < s.1 / 2 then (u.1 : ℝ) else u.1 - s.1) / s.1,
      2 * Real.pi * (if u.2.1 < s.2.1 / 2 then (u.2.1 : ℝ) else u.2.1 - s.2.1) / s.2.1,
      2 * Real.pi * (if u.2.2 < s.2.2 / 2 then (u.2.2 : ℝ) else u.2.2 - s.2.2) / s.2.2) := by
  simp only [Spec.cells, mem_product, mem_range] at hu
  unfold gridF
  rw [gridCoord_even h1 hu.1, gridCoord_even h2 hu.2.1, gridCoord_even h3 hu.2.2]
  have e : ∀ (M i : ℕ), (((if i < M / 2 then (i : ℤ) else i - M) : ℤ) : ℝ) * (2 * Real.pi / M) =
      2 * Real.pi * (if i < M / 2 then (i : ℝ) else i - M) / M := by
    intro M i
    split <;> push_cast <;> ring
  rw [e, e, e]

/-- **C67 (bank).** The bank holds, for `l = 0..L` and `j = 0..J`, the `2 l + 1` wavelets of width
`sigma_0 2^j`. -/
theorem C67_bank (Y : ℤ → ℕ → ℝ → ℝ → ℂ) (a : Args3D) : (a.filters Y).length = a.L + 1 ∧
    ∀ l ≤ a.L, ∃ fl, (a.filters Y)[l]? = some fl ∧ fl.length = a.J + 1 ∧
      ∀ j ≤ a.J, fl[j]? = some (solidHarmonic3d Y a.shape (a.sigma0 * 2 ^ j) l true) ∧
        (solidHarmonic3d Y a.shape (a.sigma0 * 2 ^ j) l true).length = 2 * l + 1 := by
  refine ⟨by simp [Args3D.filters_eq], fun l hl => ⟨(List.range (a.J + 1)).map (a.fam Y l), ?_, by simp, ?_⟩⟩
  · rw [Args3D.filters_eq, List.getElem?_map, List.getElem?_range (by omega)]
    rfl
  · intro j hj
    refine ⟨?_, solidHarmonic3d_length _ _ _ _ _⟩
    rw [List.getElem?_map, List.getElem?_range (by omega)]
    rfl

/-- **C69.** `double_factorial` is the double factorial. -/
theorem C69_double_factorial (n : ℕ) : pyDoubleFactorial n = n.doubleFactorial := double_factorial_eq n

example : pyDoubleFactorial 7 = 105 := rfl

/-! ## C68: sums of Gaussians -/

/-- One Gaussian bump. -/
noncomputable def bump (g : ℝ × ℝ × ℝ) (sigma : ℝ) (pt : (ℝ × ℝ × ℝ) × ℝ) : ℝ :=
  pt.2 * Real.exp (-0.5 * ((g.1 - pt.1.1) ^ 2 + (g.2.1 - pt.1.2.1) ^ 2 + (g.2.2 - pt.1.2.2) ^ 2) / sigma ^ 2)

theorem gaussianSum_append (g : ℝ × ℝ × ℝ) (sigma : ℝ) (A Z : List ((ℝ × ℝ × ℝ) × ℝ))
    (hA : ∀ pt ∈ A, pt.2 ≠ 0) (acc : ℝ) :
    gaussianSum g sigma (A ++ Z) acc = gaussianSum g sigma Z (acc + (A.map (bump g sigma)).sum) := by
  induction A generalizing acc with
  | nil => simp
  | cons pt A ih =>
    obtain ⟨c, w⟩ := pt
    rw [List.cons_append, gaussianSum, if_neg (hA (c, w) (by simp)), ih fun p hp => hA p (by simp [hp])]
    rw [List.map_cons, List.sum_cons, ← add_assoc]
    rfl

/-- **C68.** The signal is the normalised sum of the bumps that come before the first zero weight. -/
theorem C68_prefix (g : ℝ × ℝ × ℝ) (sigma : ℝ) (A R : List ((ℝ × ℝ × ℝ) × ℝ)) (hA : ∀ pt ∈ A, pt.2 ≠ 0)
    (hR : ∀ pt, R.head? = some pt → pt.2 = 0) :
    weightedGaussians g sigma (A ++ R) =
      (A.map (bump g sigma)).sum / ((2 * Real.pi) ^ (1.5 : ℝ) * sigma ^ 3) := by
  unfold weightedGaussians
  rw [gaussianSum_append g sigma A R hA]
  cases R with
  | nil => simp [gaussianSum]
  | cons pt R =>
    obtain ⟨c, w⟩ := pt
    rw [gaussianSum, if_pos (hR (c, w) rfl)]
    simp

/-- **C68 (documented use).** When the zero weights are at the end, this is the sum over all points. -/
theorem C68_full (g : ℝ × ℝ × ℝ) (sigma : ℝ) (A Z : List ((ℝ × ℝ × ℝ) × ℝ)) (hA : ∀ pt ∈ A, pt.2 ≠ 0)
    (hZ : ∀ pt ∈ Z, pt.2 = 0) :
    weightedGaussians g sigma (A ++ Z) =
      ((A ++ Z).map (bump g sigma)).sum / ((2 * Real.pi) ^ (1.5 : ℝ) * sigma ^ 3) := by
  rw [C68_prefix g sigma A Z hA fun pt h => hZ pt (List.mem_of_head? h)]
  congr 1
  rw [List.map_append, List.sum_append]
  have : (Z.map (bump g sigma)).sum = 0 := by
    apply List.sum_eq_zero
    intro r hr
    obtain ⟨pt, hpt, rfl⟩ := List.mem_map.1 hr
    simp [bump, hZ pt hpt]
  rw [this, add_zero]

example : weightedGaussians (0, 0, 0) 1 [((0, 0, 0), 2), ((1, 0, 0), 0), ((0, 0, 0), 5)] =
    2 / ((2 * Real.pi) ^ (1.5 : ℝ)) := by
  have := C68_prefix (0, 0, 0) 1 [((0, 0, 0), 2)] [((1, 0, 0), 0), ((0, 0, 0), 5)] (by simp)
    (by intro pt h; simp at h; rw [← h])
  simpa [bump] using this

/-! ## C70: symmetries of the cube that permute the axes -/

/-- Cyclic permutation of the axes (a rotation by 120 degrees about the diagonal). -/
def cyc {α : Type} (u : α × α × α) : α × α × α := (u.2.1, u.2.2, u.1)

/-- Exchange of the last two axes (a reflection). -/
def swp {α : Type} (u : α × α × α) : α × α × α := (u.1, u.2.2, u.2.1)

/-- What is used of an axis permutation. -/
structure AxisPerm (e e' : ∀ {α : Type}, α × α × α → α × α × α) : Prop where
  left : ∀ {α : Type} (u : α × α × α), e' (e u) = u
  right : ∀ {α : Type} (u : α × α × α), e (e' u) = u
  map : ∀ {α β : Type} (f : α → β) (u : α × α × α), e (f u.1, f u.2.1, f u.2.2) = (f (e u).1, f (e u).2.1, f (e u).2.2)
  map' : ∀ {α β : Type} (f : α → β) (u : α × α × α), e' (f u.1, f u.2.1, f u.2.2) = (f (e' u).1, f (e' u).2.1, f (e' u).2.2)
  mem : ∀ {n : ℕ} {u : Idx3}, u ∈ Spec.cells (n, n, n) → e u ∈ Spec.cells (n, n, n)
  mem' : ∀ {n : ℕ} {u : Idx3}, u ∈ Spec.cells (n, n, n) → e' u ∈ Spec.cells (n, n, n)
  phase : ∀ (n : ℕ) (k u : ℤ × ℤ × ℤ), Verif.phase (n, n, n) (e k) (e u) = Verif.phase (n, n, n) k u
  sub : ∀ (u v : ℤ × ℤ × ℤ), e (u - v) = e u - e v
  sq : ∀ w : ℝ × ℝ × ℝ, sq3 (e w) = sq3 w

theorem axis_cyc : AxisPerm @cyc (fun u => cyc (cyc u)) where
  left _ := rfl
  right _ := rfl
  map _ _ := rfl
  map' _ _ := rfl
  mem h := by simp only [Spec.cells, mem_product, mem_range, cyc] at h ⊢; omega
  mem' h := by simp only [Spec.cells, mem_product, mem_range, cyc] at h ⊢; omega
  phase n k u := by unfold Verif.phase cyc; ring
  sub _ _ := rfl
  sq w := by unfold sq3 cyc; ring

theorem axis_swp : AxisPerm @swp @swp where
  left _ := rfl
  right _ := rfl
  map _ _ := rfl
  map' _ _ := rfl
  mem h := by simp only [Spec.cells, mem_product, mem_range, swp] at h ⊢; omega
  mem' h := by simp only [Spec.cells, mem_product, mem_range, swp] at h ⊢; omega
  phase n k u := by unfold Verif.phase swp; ring
  sub _ _ := rfl
  sq w := by unfold sq3 swp; ring

variable {e e' : ∀ {α : Type}, α × α × α → α × α × α}

theorem sum_axis (H : AxisPerm e e') {β : Type} [AddCommMonoid β] (n : ℕ) (g : Idx3 → β) :
    ∑ u ∈ Spec.cells (n, n, n), g (e u) = ∑ u ∈ Spec.cells (n, n, n), g u :=
  sum_nbij' e e' (fun _ h => H.mem h) (fun _ h => H.mem' h) (fun _ _ => H.left _) (fun _ _ => H.right _)
    (fun _ _ => rfl)

theorem z3_axis (H : AxisPerm e e') (u : Idx3) : z3 (e u) = e (z3 u) := (H.map (fun a : ℕ => (a : ℤ)) u).symm

theorem conv3_phase (s : Idx3) (x : Idx3 → ℝ) (f : Idx3 → ℂ) (u : Idx3) :
    Spec.conv3 s x f u = ∑ v ∈ Spec.cells s, (x v : ℂ) *
      ((∑ k ∈ Spec.cells s, f k * phase s (z3 k) (z3 u - z3 v)) / vol3 s) := by
  unfold Spec.conv3
  apply sum_congr rfl
  intro v _
  rw [impulse3_eq]
  rfl

/-- Permuting the axes of the volume and of the filter permutes the axes of the convolution. -/
theorem conv3_axis (H : AxisPerm e e') (n : ℕ) (x : Idx3 → ℝ) (f : Idx3 → ℂ) (u : Idx3) :
    Spec.conv3 (n, n, n) (fun v => x (e v)) (fun k => f (e k)) u = Spec.conv3 (n, n, n) x f (e u) := by
  rw [conv3_phase, conv3_phase]
  rw [← sum_axis H n fun v => (x v : ℂ) * ((∑ k ∈ Spec.cells (n, n, n), f k *
    phase (n, n, n) (z3 k) (z3 (e u) - z3 v)) / vol3 (n, n, n))]
  apply sum_congr rfl
  intro v _
  congr 2
  rw [← sum_axis H n fun k => f k * phase (n, n, n) (z3 k) (z3 (e u) - z3 (e v))]
  apply sum_congr rfl
  intro k _
  rw [z3_axis H, z3_axis H, z3_axis H, ← H.sub, H.phase]

theorem conv3_sum {n : ℕ} (s : Idx3) (x : Idx3 → ℝ) (c : Fin n → ℂ) (f : Fin n → Idx3 → ℂ) (u : Idx3) :
    Spec.conv3 s x (fun k => ∑ b, c b * f b k) u = ∑ b, c b * Spec.conv3 s x (f b) u := by
  unfold Spec.conv3
  simp only [mul_sum]
  rw [sum_comm]
  apply sum_congr rfl
  intro v _
  have : ∀ p q r : ℤ, Spec.impulse3 s (fun k => ∑ b, c b * f b k) p q r = ∑ b, c b * Spec.impulse3 s (f b) p q r := by
    intro p q r
    unfold Spec.impulse3
    simp only [sum_mul, ← mul_div_assoc, mul_sum]
    rw [sum_comm, ← sum_div]
    congr 1
    apply sum_congr rfl
    intro b _
    apply sum_congr rfl
    intro k _
    ring
  rw [this, mul_sum]
  apply sum_congr rfl
  intro b _
  ring

/-- If the permuted filters are a unitary mixture of the filters, the modulus follows the volume. -/
theorem rotMod3_axis (H : AxisPerm e e') {n d : ℕ} (M : Matrix (Fin d) (Fin d) ℂ)
    (hM : M ∈ Matrix.unitaryGroup (Fin d) ℂ) (f : Fin d → Idx3 → ℂ)
    (hf : ∀ a, ∀ k ∈ Spec.cells (n, n, n), f a (e k) = ∑ b, M a b * f b k) (x : Idx3 → ℝ) (u : Idx3) :
    Spec.rotMod3 (n, n, n) (List.ofFn f) (fun v => x (e v)) u =
      Spec.rotMod3 (n, n, n) (List.ofFn f) x (e u) := by
  unfold Spec.rotMod3
  congr 1
  rw [List.map_ofFn, List.map_ofFn, List.sum_ofFn, List.sum_ofFn]
  simp only [Function.comp]
  rw [← unitary_norm M hM]
  apply sum_congr rfl
  intro a _
  rw [← conv3_axis H, ← conv3_sum]
  congr 2
  unfold Spec.conv3
  rw [impulse3_congr (hf a)]

theorem cascade3_axis {n : ℕ} (fam : ℕ → List (Idx3 → ℂ)) (p : List ℕ)
    (hfam : ∀ j ∈ p, ∀ (x : Idx3 → ℝ) (u : Idx3), Spec.rotMod3 (n, n, n) (fam j) (fun v => x (e v)) u =
      Spec.rotMod3 (n, n, n) (fam j) x (e u)) (x : Idx3 → ℝ) :
    Spec.cascade3 (n, n, n) fam p (fun v => x (e v)) = fun u => Spec.cascade3 (n, n, n) fam p x (e u) := by
  induction p generalizing x with
  | nil => rfl
  | cons j p ih =>
    show Spec.cascade3 _ fam p _ = _
    rw [show Spec.rotMod3 (n, n, n) (fam j) (fun v => x (e v)) =
      fun u => Spec.rotMod3 (n, n, n) (fam j) x (e u) from funext fun u => hfam j (by simp) x u]
    exact ih (fun k hk => hfam k (by simp [hk])) _

theorem gridF_axis (H : AxisPerm e e') (n : ℕ) (u : Idx3) : gridF (n, n, n) (e u) = e (gridF (n, n, n) u) :=
  (H.map (fun i : ℕ => (gridCoord n i : ℝ) * (2 * Real.pi / n)) u).symm

/-- `Y` at angular order `l` is carried by the axis permutation `e` into a unitary mixture of itself, as
spherical harmonics are. -/
def Mixes (e : ∀ {α : Type}, α × α × α → α × α × α) (Y : ℤ → ℕ → ℝ → ℝ → ℂ) (l : ℕ) : Prop :=
  ∃ M ∈ Matrix.unitaryGroup (Fin (2 * l + 1)) ℂ, ∀ w : ℝ × ℝ × ℝ, w ≠ (0, 0, 0) → ∀ a : Fin (2 * l + 1),
    Y ((a : ℤ) - l) l (angles3 (e w)).2 (angles3 (e w)).1 =
      ∑ b : Fin (2 * l + 1), M a b * Y ((b : ℤ) - l) l (angles3 w).2 (angles3 w).1

theorem fam_axis (H : AxisPerm e e') (Y : ℤ → ℕ → ℝ → ℝ → ℂ) {n l : ℕ} (hY : l ≠ 0 → Mixes e Y l) (σ : ℝ)
    (x : Idx3 → ℝ) (u : Idx3) :
    Spec.rotMod3 (n, n, n) ((solidHarmonic3d Y (n, n, n) σ l true).map Vol.vx) (fun v => x (e v)) u =
      Spec.rotMod3 (n, n, n) ((solidHarmonic3d Y (n, n, n) σ l true).map Vol.vx) x (e u) := by
  by_cases hl : l = 0
  · subst hl
    unfold solidHarmonic3d
    simp only [if_true]
    have h := rotMod3_axis H (n := n) (d := 1) 1 (Submonoid.one_mem _)
      (fun _ => (Vol.tab (n, n, n) fun i => (Real.exp (-0.5 * sq3 (gridF (n, n, n) i) / (1 / σ) ^ 2) : ℂ)).vx)
      (by
        intro a k hk
        rw [Vol.vx_tab (H.mem hk), gridF_axis H, H.sq]
        have h11 : (1 : Matrix (Fin 1) (Fin 1) ℂ) a 0 = 1 := by
          rw [Subsingleton.elim a 0]; exact Matrix.one_apply_eq 0
        simp [Vol.vx_tab (show k ∈ box (n, n, n) from hk), h11]) x u
    simpa using h
  · obtain ⟨M, hM, hYM⟩ := hY hl
    have hlist : (solidHarmonic3d Y (n, n, n) σ l true).map Vol.vx = List.ofFn fun a : Fin (2 * l + 1) =>
        (Vol.tab (n, n, n) fun i =>
          Y ((a : ℤ) - l) l (angles3 (gridF (n, n, n) i)).2 (angles3 (gridF (n, n, n) i)).1 *
          ((Real.sqrt (sq3 (gridF (n, n, n) i) ^ l) *
            Real.exp (-0.5 * sq3 (gridF (n, n, n) i) / (1 / σ) ^ 2) / (1 / σ) ^ l : ℝ) : ℂ) *
          normFactor3 l (1 / σ) true).vx := by
      unfold solidHarmonic3d
      simp only [hl, if_false, if_true]
      apply List.ext_getElem
      · simp
      intro i h1 h2
      simp only [List.getElem_map, List.getElem_range, List.getElem_ofFn]
    rw [hlist]
    refine rotMod3_axis H M hM _ ?_ x u
    intro a k hk
    rw [Vol.vx_tab (H.mem hk), gridF_axis H, H.sq]
    by_cases h0 : gridF (n, n, n) k = (0, 0, 0)
    · have hq : sq3 (gridF (n, n, n) k) = 0 := by rw [h0]; simp [sq3]
      rw [hq]
      have : ∀ b, (Vol.tab (n, n, n) fun i =>
          Y ((b : Fin (2 * l + 1)) - l : ℤ) l (angles3 (gridF (n, n, n) i)).2 (angles3 (gridF (n, n, n) i)).1 *
          ((Real.sqrt (sq3 (gridF (n, n, n) i) ^ l) *
            Real.exp (-0.5 * sq3 (gridF (n, n, n) i) / (1 / σ) ^ 2) / (1 / σ) ^ l : ℝ) : ℂ) *
          normFactor3 l (1 / σ) true).vx k = 0 := by
        intro b
        rw [Vol.vx_tab (show k ∈ box (n, n, n) from hk), hq]
        simp [hl]
      simp only [this]
      simp [hl]
    · rw [hYM _ h0 a, sum_mul, sum_mul]
      apply sum_congr rfl
      intro b _
      rw [Vol.vx_tab (show k ∈ box (n, n, n) from hk)]
      ring

theorem C70_axes (H : AxisPerm e e') (a : Args3D) (Y : ℤ → ℕ → ℝ → ℝ → ℂ) (hq : a.powers ≠ [])
    (hrot : a.rot = true) (n : ℕ) (hn : a.shape = (n, n, n)) (hY : ∀ l ≤ a.L, l ≠ 0 → Mixes e Y l) {x y : Vol ℝ}
    (hx : x.shape = a.shape) (hy : y.shape = a.shape)
    (h : ∀ u ∈ Spec.cells a.shape, y.vx u = x.vx (e u)) :
    ∃ out, a.run Y x = .ok out ∧ a.run Y y = .ok out := by
  refine ⟨_, run3_eq a Y hq hx, ?_⟩
  rw [run3_eq a Y hq hy]
  congr 1
  apply List.map_congr_left
  intro p _
  apply List.map_congr_left
  intro l hl
  have hl' : l ≤ a.L := by have := List.mem_range.1 hl; omega
  apply List.map_congr_left
  intro q _
  have h1 : Spec.integral3 a.shape (Spec.cascade3 a.shape (fun j => used a.rot (a.fam Y l j)) p y.vx) q =
      Spec.integral3 a.shape (Spec.cascade3 a.shape (fun j => used a.rot (a.fam Y l j)) p fun u => x.vx (e u)) q := by
    unfold Spec.integral3
    exact sum_congr rfl fun v hv => by rw [cascade3_congr _ p h v hv]
  rw [h1]
  unfold used Args3D.fam
  rw [hn, hrot]
  simp only [if_true]
  rw [cascade3_axis (e := e) _ p fun j _ x u => fam_axis H Y (hY l hl') _ x u]
  unfold Spec.integral3
  exact sum_axis H n fun u => Spec.cascade3 (n, n, n)
    (fun j => (solidHarmonic3d Y (n, n, n) (a.sigma0 * 2 ^ j) l true).map Vol.vx) p x.vx u ^ q

/-- **C70.** On a cube, with `rotation_covariant`, and for `Y` that the rotation mixes unitarily (as it
does spherical harmonics), the coefficients do not change when the axes are permuted cyclically, that is
under the rotation by 120 degrees about the diagonal. -/
theorem C70_rotation (a : Args3D) (Y : ℤ → ℕ → ℝ → ℝ → ℂ) (hq : a.powers ≠ []) (hrot : a.rot = true) (n : ℕ)
    (hn : a.shape = (n, n, n)) (hY : ∀ l ≤ a.L, l ≠ 0 → Mixes cyc Y l) {x y : Vol ℝ} (hx : x.shape = a.shape)
    (hy : y.shape = a.shape)
    (h : ∀ u ∈ Spec.cells a.shape, y.vx u = x.vx (u.2.1, u.2.2, u.1)) :
    ∃ out, a.run Y x = .ok out ∧ a.run Y y = .ok out :=
  C70_axes axis_cyc a Y hq hrot n hn hY hx hy h

/-- **C70 (reflection).** The same for the exchange of two axes. -/
theorem C70_reflection (a : Args3D) (Y : ℤ → ℕ → ℝ → ℝ → ℂ) (hq : a.powers ≠ []) (hrot : a.rot = true) (n : ℕ)
    (hn : a.shape = (n, n, n)) (hY : ∀ l ≤ a.L, l ≠ 0 → Mixes swp Y l) {x y : Vol ℝ} (hx : x.shape = a.shape)
    (hy : y.shape = a.shape)
    (h : ∀ u ∈ Spec.cells a.shape, y.vx u = x.vx (u.1, u.2.2, u.2.1)) :
    ∃ out, a.run Y x = .ok out ∧ a.run Y y = .ok out :=
  C70_axes axis_swp a Y hq hrot n hn hY hx hy h

/-! The hypothesis on `Y` is met by the harmonics of order one, up to a constant: the components of the
direction. -/

/-- Components of the direction with the angles of `get_3d_angles`. -/
noncomputable def dirY (m : ℤ) (_ : ℕ) (az pol : ℝ) : ℂ :=
  if m = -1 then ((-Real.cos pol : ℝ) : ℂ) else if m = 0 then ((Real.sin az * Real.sin pol : ℝ) : ℂ)
  else ((Real.cos az * Real.sin pol : ℝ) : ℂ)

theorem dirY_eq {w : ℝ × ℝ × ℝ} (hw : w ≠ (0, 0, 0)) :
    dirY (-1) 1 (angles3 w).2 (angles3 w).1 = ((w.1 / Real.sqrt (sq3 w) : ℝ) : ℂ) ∧
    dirY 0 1 (angles3 w).2 (angles3 w).1 = ((w.2.1 / Real.sqrt (sq3 w) : ℝ) : ℂ) ∧
    dirY 1 1 (angles3 w).2 (angles3 w).1 = ((w.2.2 / Real.sqrt (sq3 w) : ℝ) : ℂ) := by
  obtain ⟨z, y, x⟩ := w
  set r := Real.sqrt (x ^ 2 + y ^ 2) with hr
  have hr2 : r ^ 2 = x ^ 2 + y ^ 2 := Real.sq_sqrt (by positivity)
  have hr0 : 0 ≤ r := Real.sqrt_nonneg _
  have hn : ‖(⟨r, z⟩ : ℂ)‖ = Real.sqrt (sq3 (z, y, x)) := by
    rw [Complex.norm_def, Complex.normSq_apply]
    congr 1
    simp only [sq3]
    nlinarith
  have hne : (⟨r, z⟩ : ℂ) ≠ 0 := by
    intro h
    have h1 : r = 0 := congrArg Complex.re h
    have h2 : z = 0 := congrArg Complex.im h
    rw [h1] at hr2
    have hx : x = 0 := by nlinarith [sq_nonneg x, sq_nonneg y]
    have hy : y = 0 := by nlinarith [sq_nonneg x, sq_nonneg y]
    exact hw (by rw [h2, hx, hy])
  have hs : Real.sin (Complex.arg ⟨r, z⟩ + Real.pi / 2) = r / Real.sqrt (sq3 (z, y, x)) := by
    rw [Real.sin_add_pi_div_two, Complex.cos_arg hne, hn]
  have hc : Real.cos (Complex.arg ⟨r, z⟩ + Real.pi / 2) = -(z / Real.sqrt (sq3 (z, y, x))) := by
    rw [Real.cos_add_pi_div_two, Complex.sin_arg, hn]
  have hnxy : ‖(⟨x, y⟩ : ℂ)‖ = r := by
    rw [Complex.norm_def, Complex.normSq_apply, hr]
    congr 1
    show x * x + y * y = x ^ 2 + y ^ 2
    ring
  have hcos : Real.cos (Complex.arg ⟨x, y⟩) * r = x := by
    have := Complex.norm_mul_cos_arg ⟨x, y⟩
    rw [hnxy] at this
    linarith
  have hsin : Real.sin (Complex.arg ⟨x, y⟩) * r = y := by
    have := Complex.norm_mul_sin_arg ⟨x, y⟩
    rw [hnxy] at this
    linarith
  refine ⟨?_, ?_, ?_⟩
  · simp only [dirY, angles3, if_true]
    rw [← hr, hc, neg_neg]
  · simp only [dirY, angles3]
    rw [← hr, hs, mul_div_assoc', hsin]
    simp
  · simp only [dirY, angles3]
    rw [if_neg (by norm_num), if_neg (by norm_num), ← hr, hs, mul_div_assoc', hcos]

/-- **C71.** The angles of a nonzero point `(z, y, x)` are its spherical coordinates, with the polar angle
measured from the negative `z` axis:
`z = -r cos(polar)`, `y = r sin(azimuthal) sin(polar)`, `x = r cos(azimuthal) sin(polar)`. -/
theorem C71_angles_partial {w : ℝ × ℝ × ℝ} (hw : w ≠ (0, 0, 0)) :
    w = (-(Real.sqrt (Spec.sqLen w) * Real.cos (angles3 w).1),
      Real.sqrt (Spec.sqLen w) * (Real.sin (angles3 w).2 * Real.sin (angles3 w).1),
      Real.sqrt (Spec.sqLen w) * (Real.cos (angles3 w).2 * Real.sin (angles3 w).1)) := by
  obtain ⟨h1, h2, h3⟩ := dirY_eq hw
  have hr : Real.sqrt (Spec.sqLen w) ≠ 0 := by
    intro h0
    have h0' := (Real.sqrt_eq_zero (sq3_nonneg w)).1 h0
    apply hw
    obtain ⟨z, y, x⟩ := w
    simp only [sq3] at h0'
    have hz : z = 0 := by nlinarith [sq_nonneg x, sq_nonneg y, sq_nonneg z]
    have hy : y = 0 := by nlinarith [sq_nonneg x, sq_nonneg y, sq_nonneg z]
    have hx : x = 0 := by nlinarith [sq_nonneg x, sq_nonneg y, sq_nonneg z]
    rw [hx, hy, hz]
  have h1' : -Real.cos (angles3 w).1 = w.1 / Real.sqrt (Spec.sqLen w) := by
    have := h1
    unfold dirY at this
    rw [if_pos rfl] at this
    exact Complex.ofReal_injective this
  have h2' : Real.sin (angles3 w).2 * Real.sin (angles3 w).1 = w.2.1 / Real.sqrt (Spec.sqLen w) := by
    have := h2
    unfold dirY at this
    rw [if_neg (by norm_num), if_pos rfl] at this
    exact Complex.ofReal_injective this
  have h3' : Real.cos (angles3 w).2 * Real.sin (angles3 w).1 = w.2.2 / Real.sqrt (Spec.sqLen w) := by
    have := h3
    unfold dirY at this
    rw [if_neg (by norm_num), if_neg (by norm_num)] at this
    exact Complex.ofReal_injective this
  rw [h2', h3', ← mul_neg, h1', mul_div_cancel₀ _ hr, mul_div_cancel₀ _ hr, mul_div_cancel₀ _ hr]

example : ((1, 2, 3) : ℝ × ℝ × ℝ) ≠ (0, 0, 0) := by simp

/-- **C71 (violated).** The polar angle of the positive `z` axis is `pi`, not `0`. -/
theorem C71_polar_from_south : (angles3 (1, 0, 0)).1 = Real.pi := by
  rw [angles3_eq]
  simp

theorem dirY_mixes : Mixes cyc dirY 1 := by
  refine ⟨!![0, 1, 0; 0, 0, 1; 1, 0, 0], ?_, ?_⟩
  · rw [Matrix.mem_unitaryGroup_iff]
    ext i j
    fin_cases i <;> fin_cases j <;> simp [Matrix.mul_apply, Fin.sum_univ_three, Matrix.star_apply]
  · intro w hw a
    have hw' : cyc w ≠ (0, 0, 0) := by
      intro h
      apply hw
      obtain ⟨z, y, x⟩ := w
      simp only [cyc, Prod.mk.injEq] at h ⊢
      tauto
    obtain ⟨h1, h2, h3⟩ := dirY_eq hw
    obtain ⟨h1', h2', h3'⟩ := dirY_eq hw'
    rw [axis_cyc.sq] at h1' h2' h3'
    simp only [cyc] at h1' h2' h3'
    have hsum : ∀ g : Fin (2 * 1 + 1) → ℂ, ∑ b, g b = g 0 + g 1 + g 2 := fun g => Fin.sum_univ_three g
    rw [hsum]
    fin_cases a <;> simp [h1, h2, h3, h1', h2', h3', cyc]

/-- A cube of side 4, angular orders 0 and 1, and any volume. -/
example (x y : Vol ℝ) (hx : x.shape = (4, 4, 4)) (hy : y.shape = (4, 4, 4))
    (h : ∀ u ∈ Spec.cells (4, 4, 4), y.vx u = x.vx (u.2.1, u.2.2, u.1)) :
    ∃ out, { ex3 with shape := (4, 4, 4) }.run dirY x = .ok out ∧
      { ex3 with shape := (4, 4, 4) }.run dirY y = .ok out :=
  C70_rotation { ex3 with shape := (4, 4, 4) } dirY (by simp [ex3]) rfl 4 rfl
    (fun l hl h0 => by
      have : l = 1 := by simp only [ex3] at hl; omega
      rw [this]; exact dirY_mixes) hx hy h

theorem dirY_mixes_swap : Mixes swp dirY 1 := by
  refine ⟨!![1, 0, 0; 0, 0, 1; 0, 1, 0], ?_, ?_⟩
  · rw [Matrix.mem_unitaryGroup_iff]
    ext i j
    fin_cases i <;> fin_cases j <;> simp [Matrix.mul_apply, Fin.sum_univ_three, Matrix.star_apply]
  · intro w hw a
    have hw' : swp w ≠ (0, 0, 0) := by
      intro h
      apply hw
      obtain ⟨z, y, x⟩ := w
      simp only [swp, Prod.mk.injEq] at h ⊢
      tauto
    obtain ⟨h1, h2, h3⟩ := dirY_eq hw
    obtain ⟨h1', h2', h3'⟩ := dirY_eq hw'
    rw [axis_swp.sq] at h1' h2' h3'
    simp only [swp] at h1' h2' h3'
    have hsum : ∀ g : Fin (2 * 1 + 1) → ℂ, ∑ b, g b = g 0 + g 1 + g 2 := fun g => Fin.sum_univ_three g
    rw [hsum]
    fin_cases a <;> simp [h1, h2, h3, h1', h2', h3', swp]

/-- The same cube with two axes exchanged. -/
example (x y : Vol ℝ) (hx : x.shape = (4, 4, 4)) (hy : y.shape = (4, 4, 4))
    (h : ∀ u ∈ Spec.cells (4, 4, 4), y.vx u = x.vx (u.1, u.2.2, u.2.1)) :
    ∃ out, { ex3 with shape := (4, 4, 4) }.run dirY x = .ok out ∧
      { ex3 with shape := (4, 4, 4) }.run dirY y = .ok out :=
  C70_reflection { ex3 with shape := (4, 4, 4) } dirY (by simp [ex3]) rfl 4 rfl
    (fun l hl h0 => by
      have : l = 1 := by simp only [ex3] at hl; omega
      rw [this]; exact dirY_mixes_swap) hx hy h

end Verif
