import Verif.Lemmas.Filters3D
import Mathlib.LinearAlgebra.UnitaryGroup
import Mathlib.LinearAlgebra.Matrix.DotProduct

/-!
# 3-D scattering: layout, closed form, translation, homogeneity, rotation modulus, grid

`Y` stands for `scipy.special.sph_harm`; every theorem holds for all `Y`.
-/

namespace Verif

open Finset Complex

/-! ## C45, C63: layout and closed form -/

theorem paths3_length (J : ℕ) (b : Bool) :
    (Spec.paths3 J b).length = (J + 1) + if b then J * (J + 1) / 2 else 0 := by
  unfold Spec.paths3
  cases b with
  | false => simp
  | true =>
    simp only [if_true, List.length_append, List.length_map, List.length_range, List.length_flatMap]
    congr 1
    have h : ∀ n, ((List.range n).map fun j => J - j).sum = ∑ j ∈ range n, (J - j) := by
      intro n
      induction n with
      | zero => rfl
      | succ n ih => rw [List.range_succ, List.map_append, List.sum_append, ih, sum_range_succ]; simp
    rw [h, ← Finset.sum_range_reflect]
    have e : ∀ j ∈ range (J + 1), J - (J + 1 - 1 - j) = j := by
      intro j hj; have := mem_range.1 hj; omega
    rw [sum_congr rfl e, Finset.sum_range_id]
    simp [Nat.mul_comm]

/-- **C45.** On a volume of the right shape the transform returns `(J+1)` rows, followed by
`J (J+1) / 2` rows when `max_order = 2`; each row has one entry per angular order `l = 0..L`, each entry
one number per integral power.  Missing: `integral_powers=[]`, where nothing is returned
(`C45_no_powers_violated`). -/
theorem C45_layout_partial (a : Args3D) (Y : ℤ → ℕ → ℝ → ℝ → ℂ) (hq : a.powers ≠ []) (x : Vol ℝ)
    (hx : x.shape = a.shape) : ∃ out, a.run Y x = .ok out ∧
      out.length = (a.J + 1) + (if a.maxOrder = 2 then a.J * (a.J + 1) / 2 else 0) ∧
      ∀ row ∈ out, row.length = a.L + 1 ∧ ∀ e ∈ row, e.length = a.powers.length := by
  refine ⟨_, run3_eq a Y hq hx, ?_, ?_⟩
  · rw [List.length_map, paths3_length]
    by_cases h : a.maxOrder = 2 <;> simp [h]
  · intro row hrow
    obtain ⟨p, _, rfl⟩ := List.mem_map.1 hrow
    refine ⟨by simp, fun e he => ?_⟩
    obtain ⟨l, _, rfl⟩ := List.mem_map.1 he
    simp

/-- **C45 (order of the rows).** Row `i` belongs to the `i`-th path of `Spec.paths3`: all `[j1]`, then
the pairs `[j1, j2]` with `j1 < j2` lexicographically.  Entry `l`, power `k` of row `i` is the integral, to
the `k`-th power, of the volume obtained by the wavelet moduli of angular order `l` along the path. -/
theorem C63_closed_form (a : Args3D) (Y : ℤ → ℕ → ℝ → ℝ → ℂ) (x : Vol ℝ)
    (hx : x.shape = a.shape) (hq : a.powers ≠ []) : ∃ out, a.run Y x = .ok out ∧
      ∀ (i : ℕ) (p : List ℕ), (Spec.paths3 a.J (a.maxOrder = 2))[i]? = some p →
      ∀ l ≤ a.L, ∀ (k : ℕ) (q : ℝ), a.powers[k]? = some q →
        ∃ row e v, out[i]? = some row ∧ row[l]? = some e ∧ e[k]? = some v ∧
        v = Spec.integral3 a.shape (Spec.cascade3 a.shape (fun j =>
          (if a.rot then solidHarmonic3d Y a.shape (a.sigma0 * 2 ^ j) l true
            else (solidHarmonic3d Y a.shape (a.sigma0 * 2 ^ j) l true).take 1).map Vol.vx) p x.vx) q := by
  refine ⟨_, run3_eq a Y hq hx, ?_⟩
  intro i p hp l hl k q hk
  refine ⟨_, _, _, by rw [List.getElem?_map, hp]; rfl, by
    rw [List.getElem?_map, List.getElem?_range (by omega)]; rfl, by rw [List.getElem?_map, hk]; rfl, ?_⟩
  rfl

/-- The rows are in the documented order on a small case. -/
example : Spec.paths3 2 true = [[0], [1], [2], [0, 1], [0, 2], [1, 2]] := rfl

/-- **C45 (violated).** With `integral_powers=[]` the numpy frontend raises `ValueError` (`np.stack` of nothing) on
every volume of the right shape, instead of returning rows of empty entries. -/
theorem C45_no_powers_violated (a : Args3D) (Y : ℤ → ℕ → ℝ → ℝ → ℂ) (hq : a.powers = []) (x : Vol ℝ)
    (hx : x.shape = a.shape) : a.run Y x = .error .value := by
  unfold Args3D.run
  rw [if_neg (not_not.2 hx), Args3D.filters_eq]
  unfold Core3D.scattering3d
  generalize hU : dft3 (x.map fun r : ℝ => (r : ℂ)) = U
  have hw : Core3D.wave (np3Backend a.powers) a.rot U (a.fam Y 0 0) = .ok (npWave x.shape a.rot (a.fam Y 0 0) x) := by
    rw [← hU]
    exact np_wave a.powers a.rot x (a.fam Y 0 0) (solidHarmonic3d_ok _ _ _ _ _).1
      (by rw [hx]; exact (solidHarmonic3d_ok _ _ _ _ _).2)
  have h1 : Core3D.order1 (np3Backend a.powers) a.rot a.J a.maxOrder ((List.range (a.J + 1)).map (a.fam Y 0)) U 0 =
      .error .value := by
    unfold Core3D.order1
    rw [listGet_map_range _ (by omega), ok_bind, hw, ok_bind]
    show (np3Averaging a.powers _ >>= _) = _
    rw [np3Averaging, if_pos hq]
    rfl
  have h2 : Core3D.perL (np3Backend a.powers) a.rot a.J a.maxOrder
      ((List.range (a.L + 1)).map fun l => (List.range (a.J + 1)).map (a.fam Y l)) U 0 = .error .value := by
    unfold Core3D.perL
    rw [listGet_map_range _ (by omega), ok_bind]
    rw [List.range_succ_eq_map, List.mapM_cons]
    rw [List.range_succ_eq_map] at h1
    rw [h1]
    rfl
  have h3 : (List.range (a.L + 1)).mapM (Core3D.perL (np3Backend a.powers) a.rot a.J a.maxOrder
      ((List.range (a.L + 1)).map fun l => (List.range (a.J + 1)).map (a.fam Y l)) U) = .error .value := by
    have e : List.range (a.L + 1) = 0 :: (List.range a.L).map Nat.succ := List.range_succ_eq_map
    generalize hg : Core3D.perL (np3Backend a.powers) a.rot a.J a.maxOrder _ _ = g at h2 ⊢
    rw [e, List.mapM_cons, h2]
    rfl
  rw [show (np3Backend a.powers).rfft x = .ok U from congrArg _ hU, ok_bind, h3]
  rfl

/-- **C45 (`max_order`).** Every `max_order` other than 2, including 3 and more, returns the first order
alone. -/
theorem C45_other_orders (a : Args3D) (Y : ℤ → ℕ → ℝ → ℝ → ℂ) (x : Vol ℝ)
    (h : a.maxOrder ≠ 2) : a.run Y x = { a with maxOrder := 1 }.run Y x := by
  by_cases hx : x.shape = a.shape
  · by_cases hq : a.powers = []
    · rw [C45_no_powers_violated a Y hq x hx, C45_no_powers_violated { a with maxOrder := 1 } Y hq x hx]
    · rw [run3_eq a Y hq hx, run3_eq { a with maxOrder := 1 } Y hq hx]
      simp [h]
      exact fun _ _ _ _ _ _ => rfl
  · unfold Args3D.run
    rw [if_pos hx, if_pos hx]

/-- **C45 (rejection).** A volume of another shape is refused. -/
theorem C45_rejects (a : Args3D) (Y : ℤ → ℕ → ℝ → ℝ → ℂ) (x : Vol ℝ) (h : x.shape ≠ a.shape) :
    a.run Y x = .error .runtime := by
  unfold Args3D.run; rw [if_pos h]

/-! ## C46: translation invariance -/

/-- **C46.** For any filters of the right shape, rolling the volume by any integer vector does not
change the coefficients. -/
theorem C46_translation {s : Idx3} {qs : List ℝ} (hq : qs ≠ []) (rot : Bool) {L J : ℕ} {mo : ℤ}
    {fam : ℕ → ℕ → List (Vol ℂ)} (hG : ∀ l ≤ L, ∀ j ≤ J, fam l j ≠ [] ∧ ∀ f ∈ fam l j, f.shape = s)
    {x y : Vol ℝ} (hx : x.shape = s) (hy : y.shape = s) (t : ℤ × ℤ × ℤ) (h : Spec.IsRoll3 s t x.vx y.vx) :
    ∃ out, Core3D.scattering3d (np3Backend qs) x
        ((List.range (L + 1)).map fun l => (List.range (J + 1)).map (fam l)) rot L J mo = .ok out ∧
      Core3D.scattering3d (np3Backend qs) y
        ((List.range (L + 1)).map fun l => (List.range (J + 1)).map (fam l)) rot L J mo = .ok out := by
  refine ⟨_, core3_np hq rot hG hx, ?_⟩
  rw [core3_np hq rot hG hy]
  congr 1
  apply List.map_congr_left
  intro p _
  apply List.map_congr_left
  intro l _
  apply List.map_congr_left
  intro q _
  exact integral3_roll (cascade3_roll _ p h) q

/-- **C46 (objects).** -/
theorem C46_object (a : Args3D) (Y : ℤ → ℕ → ℝ → ℝ → ℂ) (hq : a.powers ≠ []) {x y : Vol ℝ}
    (hx : x.shape = a.shape) (hy : y.shape = a.shape) (t : ℤ × ℤ × ℤ)
    (h : Spec.IsRoll3 a.shape t x.vx y.vx) : ∃ out, a.run Y x = .ok out ∧ a.run Y y = .ok out := by
  refine ⟨_, run3_eq a Y hq hx, ?_⟩
  rw [run3_eq a Y hq hy]
  congr 1
  apply List.map_congr_left
  intro p _
  apply List.map_congr_left
  intro l _
  apply List.map_congr_left
  intro q _
  exact integral3_roll (cascade3_roll _ p h) q

/-! ## C48: homogeneity -/

/-- **C48.** Multiplying the volume by `c` multiplies every coefficient of power `q` by `|c| ^ q`.  (For
`q > 0`; the model of `x ** q` is not that of numpy for negative `q`.) -/
theorem C48_homogeneous (a : Args3D) (Y : ℤ → ℕ → ℝ → ℝ → ℂ) (hq : a.powers ≠ []) {x y : Vol ℝ}
    (hx : x.shape = a.shape) (hy : y.shape = a.shape) (c : ℝ)
    (h : ∀ v ∈ Spec.cells a.shape, y.vx v = c * x.vx v) :
    ∃ out, a.run Y x = .ok out ∧ a.run Y y = .ok (out.map fun row => row.map fun e =>
      List.zipWith (fun q v => |c| ^ q * v) a.powers e) := by
  refine ⟨_, run3_eq a Y hq hx, ?_⟩
  rw [run3_eq a Y hq hy]
  congr 1
  rw [List.map_map]
  apply List.map_congr_left
  intro p hp
  simp only [Function.comp, List.map_map]
  apply List.map_congr_left
  intro l _
  simp only [Function.comp]
  rw [List.zipWith_map_right, List.zipWith_self]
  apply List.map_congr_left
  intro q _
  have e : Spec.integral3 a.shape (Spec.cascade3 a.shape (fun j => used a.rot (a.fam Y l j)) p y.vx) q =
      Spec.integral3 a.shape (Spec.cascade3 a.shape (fun j => used a.rot (a.fam Y l j)) p
        (fun v => c * x.vx v)) q := by
    unfold Spec.integral3
    exact sum_congr rfl fun v hv => by rw [cascade3_congr _ p h v hv]
  rw [e, cascade3_smul _ _ _ _ (paths3_ne_nil hp)]
  unfold Spec.integral3
  rw [mul_sum]
  apply sum_congr rfl
  intro u _
  rw [Real.mul_rpow (abs_nonneg _) (cascade3_nonneg _ _ _ (paths3_ne_nil hp) _ _)]

/-! ## C47: the modulus over components -/

/-- The running modulus `U_m = modulus_rotation(c, U_m)` over a list of components, from `None`. -/
noncomputable def runningModulus (cs : List (Vol ℂ)) : Option (Vol ℝ) :=
  cs.foldl (fun m c => some (np3ModRot c m)) none

theorem running_some {s : Idx3} (cs : List (Vol ℂ)) (h : ∀ c ∈ cs, c.shape = s) (acc : Idx3 → ℝ)
    (h0 : ∀ i, 0 ≤ acc i) :
    cs.foldl (fun m c => some (np3ModRot c m)) (some (Vol.tab s fun i => Real.sqrt (acc i))) =
      some (Vol.tab s fun i => Real.sqrt (acc i + (cs.map fun c => ‖c.vx i‖ ^ 2).sum)) := by
  induction cs generalizing acc with
  | nil => simp
  | cons c cs ih =>
    rw [List.foldl_cons]
    have e : np3ModRot c (some (Vol.tab s fun i => Real.sqrt (acc i))) =
        Vol.tab s fun i => Real.sqrt (acc i + ‖c.vx i‖ ^ 2) := by
      unfold np3ModRot
      rw [h c (by simp)]
      apply Vol.tab_congr
      intro i hi
      rw [Vol.vx_tab hi, Real.sq_sqrt (h0 i)]
    rw [e, ih (fun c hc => h c (by simp [hc])) _ fun i => add_nonneg (h0 i) (sq_nonneg _)]
    simp only [List.map_cons, List.sum_cons, add_assoc]

/-- **C47.** The running modulus is the square root of the sum of the squared magnitudes. -/
theorem C47_modulus {s : Idx3} (cs : List (Vol ℂ)) (h0 : cs ≠ []) (h : ∀ c ∈ cs, c.shape = s) :
    ∃ r, runningModulus cs = some r ∧ r.shape = s ∧
      ∀ u ∈ Spec.cells s, r.vx u = Real.sqrt ((cs.map fun c => ‖c.vx u‖ ^ 2).sum) := by
  obtain ⟨c, cs, rfl⟩ := List.exists_cons_of_ne_nil h0
  unfold runningModulus
  rw [List.foldl_cons]
  have e : np3ModRot c none = Vol.tab s fun i => Real.sqrt (‖c.vx i‖ ^ 2) := by
    unfold np3ModRot
    rw [h c (by simp)]
  rw [e, running_some cs (fun c hc => h c (by simp [hc])) _ fun i => sq_nonneg _]
  refine ⟨_, rfl, rfl, fun u hu => ?_⟩
  rw [Vol.vx_tab hu]
  simp

/-- The loop of the core is this running modulus over the components `ifft(cdgmm3d(U, f))`. -/
theorem C47_loop (qs : List ℝ) (x : Vol ℝ) (fs : List (Vol ℂ)) (h : ∀ f ∈ fs, f.shape = x.shape) :
    Core3D.rotLoop (np3Backend qs) (dft3 (x.map fun r : ℝ => (r : ℂ))) fs none =
      .ok (runningModulus (fs.map (npComp x))) := by
  have : ∀ (fs : List (Vol ℂ)) (m : Option (Vol ℝ)), (∀ f ∈ fs, f.shape = x.shape) →
      Core3D.rotLoop (np3Backend qs) (dft3 (x.map fun r : ℝ => (r : ℂ))) fs m =
      .ok ((fs.map (npComp x)).foldl (fun m c => some (np3ModRot c m)) m) := by
    intro fs
    induction fs with
    | nil => intro m _; rfl
    | cons f fs ih =>
      intro m h
      unfold Core3D.rotLoop
      show (np3Cdgmm _ _ >>= _) = _
      rw [np3Cdgmm_dft (h f (by simp)), ok_bind, ok_bind, ok_bind]
      exact ih _ fun g hg => h g (by simp [hg])
  exact this fs none h

/-- **C47 (order).** The running modulus does not depend on the order of the components. -/
theorem C47_permutation {s : Idx3} {cs ds : List (Vol ℂ)} (hp : cs.Perm ds) (h : ∀ c ∈ cs, c.shape = s) :
    runningModulus cs = runningModulus ds := by
  have key : ∀ cs : List (Vol ℂ), (∀ c ∈ cs, c.shape = s) → cs ≠ [] → runningModulus cs =
      some (Vol.tab s fun u => Real.sqrt ((cs.map fun c => ‖c.vx u‖ ^ 2).sum)) := by
    intro cs h h0
    obtain ⟨c, cs, rfl⟩ := List.exists_cons_of_ne_nil h0
    unfold runningModulus
    rw [List.foldl_cons]
    have e : np3ModRot c none = Vol.tab s fun i => Real.sqrt (‖c.vx i‖ ^ 2) := by
      unfold np3ModRot
      rw [h c (by simp)]
    rw [e, running_some cs (fun c hc => h c (by simp [hc])) _ fun i => sq_nonneg _]
    simp
  by_cases h0 : cs = []
  · subst h0
    rw [List.nil_perm.1 hp]
  · rw [key cs h h0, key ds (fun c hc => h c (hp.mem_iff.2 hc)) (fun hd => h0 (by subst hd; exact List.perm_nil.1 hp))]
    congr 2
    funext u
    rw [(hp.map _).sum_eq]

theorem unitary_norm {n : ℕ} (M : Matrix (Fin n) (Fin n) ℂ) (hM : M ∈ Matrix.unitaryGroup (Fin n) ℂ)
    (v : Fin n → ℂ) : ∑ a, ‖∑ b, M a b * v b‖ ^ 2 = ∑ b, ‖v b‖ ^ 2 := by
  have h1 : ∀ w : Fin n → ℂ, ((∑ a, ‖w a‖ ^ 2 : ℝ) : ℂ) = dotProduct (star w) w := by
    intro w
    rw [dotProduct]
    push_cast
    apply sum_congr rfl
    intro a _
    show _ = (starRingEnd ℂ) (w a) * w a
    rw [Complex.conj_mul']
  have h2 : dotProduct (star (M.mulVec v)) (M.mulVec v) = dotProduct (star v) v := by
    rw [Matrix.star_mulVec, ← Matrix.dotProduct_mulVec, Matrix.mulVec_mulVec]
    have : M.conjTranspose * M = 1 := Matrix.mem_unitaryGroup_iff'.1 hM
    rw [this, Matrix.one_mulVec]
  have h3 := h1 (M.mulVec v)
  rw [h2, ← h1 v] at h3
  exact_mod_cast h3

/-- **C47 (mixing).** The running modulus is unchanged when the components are mixed, at each point, by
a unitary matrix. -/
theorem C47_unitary {s : Idx3} {n : ℕ} (hn : 0 < n) (M : Matrix (Fin n) (Fin n) ℂ)
    (hM : M ∈ Matrix.unitaryGroup (Fin n) ℂ) (c d : Fin n → Vol ℂ) (hc : ∀ a, (c a).shape = s)
    (hd : ∀ a, (d a).shape = s) (hmix : ∀ a, ∀ u ∈ Spec.cells s, (d a).vx u = ∑ b, M a b * (c b).vx u) :
    ∃ r r', runningModulus (List.ofFn c) = some r ∧ runningModulus (List.ofFn d) = some r' ∧
      r.shape = r'.shape ∧ ∀ u ∈ Spec.cells s, r.vx u = r'.vx u := by
  have ne : ∀ c : Fin n → Vol ℂ, List.ofFn c ≠ [] := by
    intro c h
    have := congrArg List.length h
    simp at this
    omega
  obtain ⟨r, h1, h2, h3⟩ := C47_modulus (List.ofFn c) (ne c)
    (fun v hv => by obtain ⟨a, rfl⟩ := List.mem_ofFn.1 hv; exact hc a)
  obtain ⟨r', h1', h2', h3'⟩ := C47_modulus (List.ofFn d) (ne d)
    (fun v hv => by obtain ⟨a, rfl⟩ := List.mem_ofFn.1 hv; exact hd a)
  refine ⟨r, r', h1, h1', h2.trans h2'.symm, fun u hu => ?_⟩
  rw [h3 u hu, h3' u hu]
  congr 1
  rw [List.map_ofFn, List.map_ofFn, List.sum_ofFn, List.sum_ofFn]
  simp only [Function.comp]
  rw [← unitary_norm M hM fun b => (c b).vx u]
  apply sum_congr rfl
  intro a _
  rw [hmix a u hu]

/-- Two components and a real rotation of them. -/
example : (!![(3/5 : ℂ), 4/5; -4/5, 3/5] : Matrix (Fin 2) (Fin 2) ℂ) ∈ Matrix.unitaryGroup (Fin 2) ℂ := by
  rw [Matrix.mem_unitaryGroup_iff]
  ext i j
  fin_cases i <;> fin_cases j <;> simp [Matrix.mul_apply, Fin.sum_univ_two, Matrix.star_apply, map_ofNat] <;> norm_num

/-! ## C49: the sampling grid -/

/-- **C49 (even sizes).** Along an axis of even length the coordinate of index `i` is the signed
frequency of `i`: `i` below the middle, `i - M` from it; in particular zero at index zero. -/
theorem C49_grid_partial {M : ℕ} (h : M % 2 = 0) {i : ℕ} (hi : i < M) :
    gridCoord M i = (if i < M / 2 then (i : ℤ) else i - M) ∧ gridCoord M 0 = 0 := by
  refine ⟨gridCoord_even h hi, ?_⟩
  rw [gridCoord_even h (by omega), if_pos (by omega)]
  rfl

/-- **C49 (residues).** For every length, each residue modulo the length is taken exactly once. -/
theorem C49_residues {M : ℕ} (hM : 0 < M) (r : ℤ) : ∃! i : ℕ, i < M ∧ gridCoord M i % M = r % M := by
  have hd : ∀ i < M, gridCoord M i % M = (if M % 2 = 0 then (i : ℤ) else i - 1) % M := by
    intro i hi
    have hc : M % 2 = 0 ∨ M % 2 = 1 := by omega
    rcases hc with h | h
    · rw [gridCoord_even h hi, if_pos h]
      split
      · rfl
      · rw [Int.sub_emod_right]
    · have hn : ¬ M % 2 = 0 := by omega
      rw [gridCoord_odd h hi]
      simp only [hn, if_false]
      split
      · rfl
      · rw [Int.sub_emod_right]
  set e : ℤ := if M % 2 = 0 then 0 else 1 with he
  have hd' : ∀ i < M, gridCoord M i % M = ((i : ℤ) - e) % M := by
    intro i hi
    rw [hd i hi, he]
    split <;> simp
  refine ⟨((r + e) % M).toNat, ⟨emod_toNat_lt _ hM, ?_⟩, ?_⟩
  · rw [hd' _ (emod_toNat_lt _ hM), toNat_cast_emod _ hM, Int.emod_sub_emod]
    congr 1; ring
  · rintro i ⟨hi, hr⟩
    rw [hd' i hi] at hr
    have h2 : (r + e) % M = i := by
      have : ((i : ℤ) - e + e) % M = (r + e) % M := by
        rw [← Int.emod_add_emod, hr, Int.emod_add_emod]
      rw [← this, sub_add_cancel, Int.emod_eq_of_lt (by omega) (by omega)]
    rw [h2]
    rfl

/-- **C49 (violated).** Along an axis of odd length the coordinate at index zero is `-1`, because
`-M // 2` is `-(M + 1) / 2`: the filters are not centred. -/
theorem C49_odd_off_by_one {M : ℕ} (h : M % 2 = 1) : gridCoord M 0 = -1 := by
  rw [gridCoord_odd h (by omega), if_pos (by omega)]
  rfl

example : (List.range 4).map (gridCoord 4) = [0, 1, -2, -1] := by decide
example : (List.range 5).map (gridCoord 5) = [-1, 0, 1, -3, -2] := by decide

/-- **C49 (filters, even sizes).** At index zero the Gaussian is one, the wavelet `l = 0` is one and every
wavelet `l >= 1` is zero. -/
theorem C49_filters_partial (Y : ℤ → ℕ → ℝ → ℝ → ℂ) {s : Idx3} (h1 : s.1 % 2 = 0) (h2 : s.2.1 % 2 = 0)
    (h3 : s.2.2 % 2 = 0) (hs : (0, 0, 0) ∈ Spec.cells s) (sigma : ℝ) :
    (gaussian3d s sigma true).vx (0, 0, 0) = 1 ∧
    (∀ f ∈ solidHarmonic3d Y s sigma 0 true, f.vx (0, 0, 0) = 1) ∧
    ∀ l ≠ 0, ∀ f ∈ solidHarmonic3d Y s sigma l true, f.vx (0, 0, 0) = 0 := by
  have hm := hs
  simp only [Spec.cells, mem_product, mem_range] at hm
  have g0 : gridF s (0, 0, 0) = (0, 0, 0) := by
    unfold gridF
    rw [(C49_grid_partial h1 hm.1).2, (C49_grid_partial h2 hm.2.1).2, (C49_grid_partial h3 hm.2.2).2]
    simp
  have q0 : sq3 (gridF s (0, 0, 0)) = 0 := by rw [g0]; simp [sq3]
  refine ⟨?_, ?_, ?_⟩
  · unfold gaussian3d
    rw [if_pos rfl, Vol.vx_tab hs, q0]
    simp
  · intro f hf
    unfold solidHarmonic3d at hf
    simp only [if_true, List.mem_singleton] at hf
    rw [hf, Vol.vx_tab hs, q0]
    simp
  · intro l hl f hf
    unfold solidHarmonic3d at hf
    simp only [hl, if_false, if_true, List.mem_map] at hf
    obtain ⟨im, _, rfl⟩ := hf
    rw [Vol.vx_tab hs, q0]
    simp [hl]

/-- **C49 (filters, violated).** With an odd side the Gaussian low-pass is below one at the zero
frequency: it changes the mean of the volume. -/
theorem C49_odd_gaussian {s : Idx3} (h1 : s.1 % 2 = 1) (hs : (0, 0, 0) ∈ Spec.cells s) {sigma : ℝ}
    (hσ : 0 < sigma) : (gaussian3d s sigma true).vx (0, 0, 0) ≠ 1 := by
  unfold gaussian3d
  rw [if_pos rfl, Vol.vx_tab hs]
  intro h
  have h' := Complex.ofReal_eq_one.1 h
  rw [Real.exp_eq_one_iff] at h'
  have hq : 0 < sq3 (gridF s (0, 0, 0)) := by
    unfold sq3 gridF
    rw [C49_odd_off_by_one h1]
    have : (0 : ℝ) < s.1 := by
      have : 0 < s.1 := by omega
      exact_mod_cast this
    have := Real.pi_pos
    positivity
  have : 0 < (1 / sigma) ^ 2 := by positivity
  rcases div_eq_zero_iff.1 h' with h | h
  · nlinarith
  · exact this.ne' h

/-! ## C64: constant volumes -/

theorem integral3_zero (s : Idx3) {q : ℝ} (hq : 0 < q) : Spec.integral3 s (fun _ => 0) q = 0 := by
  unfold Spec.integral3
  simp [Real.zero_rpow hq.ne']

/-- **C64.** With even sides, a constant volume has zero coefficients for every `l >= 1`, and
`M N O |c| ^ q` for `l = 0`. -/
theorem C64_constant (a : Args3D) (Y : ℤ → ℕ → ℝ → ℝ → ℂ) (hq : a.powers ≠ []) (hpos : ∀ q ∈ a.powers, 0 < q)
    (h1 : a.shape.1 % 2 = 0) (h2 : a.shape.2.1 % 2 = 0) (h3 : a.shape.2.2 % 2 = 0)
    (hs : (0, 0, 0) ∈ Spec.cells a.shape) (c : ℝ) {x : Vol ℝ} (hx : x.shape = a.shape)
    (hc : ∀ v ∈ Spec.cells a.shape, x.vx v = c) :
    a.run Y x = .ok ((Spec.paths3 a.J (a.maxOrder = 2)).map fun _ => (List.range (a.L + 1)).map fun l =>
      a.powers.map fun q => if l = 0 then (a.shape.1 * a.shape.2.1 * a.shape.2.2 : ℝ) * |c| ^ q else 0) := by
  rw [run3_eq a Y hq hx]
  congr 1
  apply List.map_congr_left
  intro p hp
  apply List.map_congr_left
  intro l _
  apply List.map_congr_left
  intro q hqm
  have hv : 0 < vol3 a.shape := by
    have hm := hs
    simp only [Spec.cells, mem_product, mem_range] at hm
    exact Nat.mul_pos (Nat.mul_pos hm.1 hm.2.1) hm.2.2
  have hx' : Spec.integral3 a.shape (Spec.cascade3 a.shape (fun j => used a.rot (a.fam Y l j)) p x.vx) q =
      Spec.integral3 a.shape (Spec.cascade3 a.shape (fun j => used a.rot (a.fam Y l j)) p fun _ => c) q := by
    unfold Spec.integral3
    exact sum_congr rfl fun v hv => by rw [cascade3_congr _ p hc v hv]
  rw [hx']
  have hcard : (Spec.cells a.shape).card = a.shape.1 * (a.shape.2.1 * a.shape.2.2) := by
    simp [Spec.cells, card_product]
  by_cases hl : l = 0
  · subst hl
    rw [if_pos rfl]
    have key : ∀ j, ∀ d : ℝ, Spec.rotMod3 a.shape (used a.rot (a.fam Y 0 j)) (fun _ => d) = fun _ => |d| := by
      intro j d
      have hf := (C49_filters_partial Y h1 h2 h3 hs (a.sigma0 * 2 ^ j)).2.1
      have hlen := solidHarmonic3d_length Y a.shape (a.sigma0 * 2 ^ j) 0 true
      obtain ⟨f, hf1⟩ := List.length_eq_one_iff.1 hlen
      have hu : used a.rot (a.fam Y 0 j) = [f.vx] := by
        unfold used Args3D.fam
        rw [hf1]
        cases a.rot <;> rfl
      rw [rotMod3_const hv, hu]
      simp [hf f (by rw [hf1]; simp)]
    have hcas : ∀ (p : List ℕ), p ≠ [] → ∀ d : ℝ,
        Spec.cascade3 a.shape (fun j => used a.rot (a.fam Y 0 j)) p (fun _ => d) = fun _ => |d| := by
      intro p hp
      induction p with
      | nil => exact absurd rfl hp
      | cons j p ih =>
        intro d
        show Spec.cascade3 _ _ p (Spec.rotMod3 _ _ _) = _
        rw [key]
        by_cases hp0 : p = []
        · subst hp0; rfl
        · rw [ih hp0, abs_abs]
    rw [hcas p (paths3_ne_nil hp)]
    unfold Spec.integral3
    rw [sum_const, hcard]
    simp [mul_assoc]
  · rw [if_neg hl]
    have key : ∀ j, ∀ d : ℝ, Spec.rotMod3 a.shape (used a.rot (a.fam Y l j)) (fun _ => d) = fun _ => 0 := by
      intro j d
      have hf := (C49_filters_partial Y h1 h2 h3 hs (a.sigma0 * 2 ^ j)).2.2 l hl
      rw [rotMod3_const hv]
      have : ((used a.rot (a.fam Y l j)).map fun f => ‖f (0, 0, 0)‖ ^ 2).sum = 0 := by
        apply List.sum_eq_zero
        intro r hr
        obtain ⟨g, hg, rfl⟩ := List.mem_map.1 hr
        unfold used at hg
        obtain ⟨f, hfm, rfl⟩ := List.mem_map.1 hg
        have hfm' : f ∈ a.fam Y l j := by
          cases hr : a.rot <;> simp [hr] at hfm
          · exact List.mem_of_mem_take hfm
          · exact hfm
        rw [hf f hfm']
        simp
      rw [this]
      simp
    obtain ⟨j, p, rfl⟩ := List.exists_cons_of_ne_nil (paths3_ne_nil hp)
    have hcas : ∀ p : List ℕ, Spec.cascade3 a.shape (fun j => used a.rot (a.fam Y l j)) p (fun _ => 0) =
        fun _ => 0 := by
      intro p
      induction p with
      | nil => rfl
      | cons j p ih =>
        show Spec.cascade3 _ _ p (Spec.rotMod3 _ _ _) = _
        rw [key, ih]
    show Spec.integral3 a.shape (Spec.cascade3 _ _ p (Spec.rotMod3 _ _ _)) q = 0
    rw [key, hcas, integral3_zero _ (hpos q hqm)]

/-! ## C65, C66: torch and batches -/

/-- **C65.** On every volume (of any shape) the torch frontend with `method='integral'` returns exactly
what the numpy frontend returns, errors included.  Missing: `integral_powers=[]` (`C65_no_powers_violated`). -/
theorem C65_torch_eq_numpy_partial (a : Args3D) (Y : ℤ → ℕ → ℝ → ℝ → ℂ) (hq : a.powers ≠ []) (hm : a.methodOk = true)
    (x : Vol ℝ) : a.runTorch Y x = a.run Y x := by
  by_cases hx : x.shape = a.shape
  · rw [runTorch3_eq a Y hm hx, run3_eq a Y hq hx]
  · unfold Args3D.runTorch Args3D.run
    rw [if_pos hx, if_pos hx]

/-- **C65 (violated).** With `integral_powers=[]`, on every volume of the right shape, the numpy frontend raises
`ValueError` while the torch frontend returns the rows of C45 with empty entries. -/
theorem C65_no_powers_violated (a : Args3D) (Y : ℤ → ℕ → ℝ → ℝ → ℂ) (hq : a.powers = []) (hm : a.methodOk = true)
    (x : Vol ℝ) (hx : x.shape = a.shape) : a.run Y x = .error .value ∧
      a.runTorch Y x = .ok (List.replicate ((a.J + 1) + (if a.maxOrder = 2 then a.J * (a.J + 1) / 2 else 0))
        (List.replicate (a.L + 1) [])) := by
  refine ⟨C45_no_powers_violated a Y hq x hx, ?_⟩
  rw [runTorch3_eq a Y hm hx]
  congr 1
  rw [List.eq_replicate_iff]
  constructor
  · rw [List.length_map, paths3_length]
    by_cases h : a.maxOrder = 2 <;> simp [h]
  · intro r hr
    obtain ⟨p, -, rfl⟩ := List.mem_map.1 hr
    simp [hq]

/-- **C65 (difference).** Another `method` is refused by torch and ignored by numpy. -/
theorem C65_method (a : Args3D) (Y : ℤ → ℕ → ℝ → ℝ → ℂ) (hq : a.powers ≠ []) (hm : a.methodOk = false)
    (x : Vol ℝ) (hx : x.shape = a.shape) : a.runTorch Y x = .error .value ∧ ∃ out, a.run Y x = .ok out := by
  refine ⟨?_, _, run3_eq a Y hq hx⟩
  unfold Args3D.runTorch
  rw [if_neg (not_not.2 hx), if_pos (by simp [hm])]

/-- **C66.** The coefficients of the `b`-th volume of a non-empty batch are those of this volume alone. -/
theorem C66_batch (a : Args3D) (Y : ℤ → ℕ → ℝ → ℝ → ℂ) (hq : a.powers ≠ []) (xs : List (Vol ℝ)) (h0 : xs ≠ [])
    (hx : ∀ x ∈ xs, x.shape = a.shape) : ∃ out, a.runBatch Y a.shape xs = .ok out ∧
      ∀ (b : ℕ) (x : Vol ℝ), xs[b]? = some x → ∃ one, a.run Y x = .ok one ∧
        out.map (fun row => row.map fun e => e[b]?) = one.map fun row => row.map some := by
  refine ⟨_, runBatch3_eq a Y hq h0 hx, ?_⟩
  intro b x hb
  refine ⟨_, run3_eq a Y hq (hx x (List.mem_of_getElem? hb)), ?_⟩
  rw [List.map_map, List.map_map]
  apply List.map_congr_left
  intro p _
  simp only [Function.comp, List.map_map]
  apply List.map_congr_left
  intro l _
  simp [hb]

/-- **C66 (empty batch).** Unlike the 1-D and 2-D transforms, the 3-D transform of an array without volumes raises
`ValueError`. -/
theorem C66_empty (a : Args3D) (Y : ℤ → ℕ → ℝ → ℝ → ℂ) : a.runBatch Y a.shape [] = .error .value := by
  unfold Args3D.runBatch
  rw [if_neg (not_not.2 rfl), Args3D.filters_eq]
  unfold Core3D.scattering3d
  have hw : Core3D.wave (np3Batch a.powers) a.rot [] (a.fam Y 0 0) = .ok [] :=
    batch_wave a.shape a.powers a.rot [] (by simp) (a.fam Y 0 0) (solidHarmonic3d_ok _ _ _ _ _).1
      (solidHarmonic3d_ok _ _ _ _ _).2
  have h1 : Core3D.order1 (np3Batch a.powers) a.rot a.J a.maxOrder ((List.range (a.J + 1)).map (a.fam Y 0)) [] 0 =
      .error .value := by
    unfold Core3D.order1
    rw [listGet_map_range _ (by omega), ok_bind, hw]
    rfl
  have h2 : Core3D.perL (np3Batch a.powers) a.rot a.J a.maxOrder
      ((List.range (a.L + 1)).map fun l => (List.range (a.J + 1)).map (a.fam Y l)) [] 0 = .error .value := by
    unfold Core3D.perL
    rw [listGet_map_range _ (by omega), ok_bind]
    rw [List.range_succ_eq_map, List.mapM_cons]
    rw [List.range_succ_eq_map] at h1
    rw [h1]
    rfl
  have h3 : (List.range (a.L + 1)).mapM (Core3D.perL (np3Batch a.powers) a.rot a.J a.maxOrder
      ((List.range (a.L + 1)).map fun l => (List.range (a.J + 1)).map (a.fam Y l)) []) = .error .value := by
    have e : List.range (a.L + 1) = 0 :: (List.range a.L).map Nat.succ := List.range_succ_eq_map
    generalize hg : Core3D.perL (np3Batch a.powers) a.rot a.J a.maxOrder _ _ = g at h2 ⊢
    rw [e, List.mapM_cons, h2]
    rfl
  rw [show (np3Batch a.powers).rfft [] = .ok [] from rfl, ok_bind, h3]
  rfl

/-! ## A concrete object -/

/-- Two scales, two angular orders, two powers, on volumes of shape `(4, 2, 6)`. -/
noncomputable def ex3 : Args3D :=
  { J := 1, shape := (4, 2, 6), L := 1, sigma0 := 1, maxOrder := 2, rot := true, methodOk := true,
    powers := [1, 2] }

/-- A volume with a single nonzero cell, and its roll by `(1, 0, -1)`. -/
noncomputable def exVol : Vol ℝ := Vol.tab (4, 2, 6) fun u => if u = (0, 1, 0) then 3 else 0
noncomputable def exVol' : Vol ℝ := Vol.tab (4, 2, 6) fun u => if u = (1, 1, 5) then 3 else 0

theorem exVol_roll : Spec.IsRoll3 (4, 2, 6) (1, 0, -1) exVol.vx exVol'.vx := by
  intro u hu
  unfold exVol exVol'
  show _ = (Vol.tab _ _).vx (rollIdx (4, 2, 6) (1, 0, -1) u)
  rw [Vol.vx_tab (show u ∈ box (4, 2, 6) from hu), Vol.vx_tab (show _ ∈ box (4, 2, 6) from rollIdx_mem hu)]
  congr 1
  unfold rollIdx
  obtain ⟨a, b, c⟩ := u
  simp only [Spec.cells, mem_product, mem_range] at hu
  simp only [Prod.mk.injEq, eq_iff_iff]
  omega

example (Y : ℤ → ℕ → ℝ → ℝ → ℂ) : ∃ out, ex3.run Y exVol = .ok out ∧ ex3.run Y exVol' = .ok out :=
  C46_object ex3 Y (by simp [ex3]) rfl rfl _ exVol_roll

example (Y : ℤ → ℕ → ℝ → ℝ → ℂ) : ∃ out, ex3.run Y exVol = .ok out ∧ out.length = 3 ∧
    ∀ row ∈ out, row.length = 2 ∧ ∀ e ∈ row, e.length = 2 :=
  C45_layout_partial ex3 Y (by simp [ex3]) exVol rfl

example (Y : ℤ → ℕ → ℝ → ℝ → ℂ) : { ex3 with powers := [] }.run Y exVol = .error .value ∧
    { ex3 with powers := [] }.runTorch Y exVol = .ok [[[], []], [[], []], [[], []]] :=
  C65_no_powers_violated { ex3 with powers := [] } Y rfl rfl exVol rfl

example (Y : ℤ → ℕ → ℝ → ℝ → ℂ) : ∃ out, ex3.runBatch Y ex3.shape [exVol, exVol'] = .ok out ∧ True := by
  obtain ⟨out, h, _⟩ := C66_batch ex3 Y (by simp [ex3]) [exVol, exVol'] (by simp) (by simp [ex3, exVol, exVol'])
  exact ⟨out, h, trivial⟩

example (Y : ℤ → ℕ → ℝ → ℝ → ℂ) : ex3.run Y (Vol.tab (4, 2, 6) fun _ => -1) =
    .ok [[[48 * 1, 48 * 1], [0, 0]], [[48 * 1, 48 * 1], [0, 0]], [[48 * 1, 48 * 1], [0, 0]]] := by
  rw [C64_constant ex3 Y (by simp [ex3]) (by simp [ex3]) rfl rfl rfl (by decide) (-1)
    (x := Vol.tab (4, 2, 6) fun _ => -1) rfl fun v hv => Vol.vx_tab (s := (4, 2, 6)) hv]
  simp [ex3, Spec.paths3, List.range_succ]
  norm_num

end Verif
