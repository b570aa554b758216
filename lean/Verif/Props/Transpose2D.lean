import Verif.Lemmas.Transpose2D

/-!
# C83: exchanging the axes of the image
-/

namespace Verif

open Finset

/-- Angle number `t` of a bank of `L` angles (filter_bank.py L34). -/
theorem angle_flip {L t : Nat} (hL : L % 2 = 0) (ht : t < L) :
    let th : Nat → ℝ := fun t => ((((L - 2) / 2 : Nat) : ℝ) - t) * Real.pi / L
    Spec.flipAngle L t < L ∧
    (t + 2 ≤ L / 2 → Real.pi / 2 - th t = th (Spec.flipAngle L t)) ∧
    (L / 2 < t + 2 → Real.pi / 2 - th t = th (Spec.flipAngle L t) + Real.pi) := by
  intro th
  obtain ⟨K, rfl⟩ : ∃ K, L = 2 * K := ⟨L / 2, by omega⟩
  have hK : (K : ℝ) ≠ 0 := by exact_mod_cast (by omega : K ≠ 0)
  have h1 : (2 * K - 2) / 2 = K - 1 := by omega
  have h2 : 2 * K / 2 = K := by omega
  refine ⟨Nat.mod_lt _ (by omega), fun h => ?_, fun h => ?_⟩
  · have e : Spec.flipAngle (2 * K) t = K - 2 - t := by
      unfold Spec.flipAngle
      rw [h2, show 2 * K + K - 2 - t = K - 2 - t + 2 * K by omega, Nat.add_mod_right]
      exact Nat.mod_eq_of_lt (by omega)
    simp only [th, e, h1]
    rw [Nat.cast_sub (by omega), Nat.cast_sub (by omega), Nat.cast_sub (by omega)]
    push_cast
    field_simp
    ring
  · have e : Spec.flipAngle (2 * K) t = 3 * K - 2 - t := by
      unfold Spec.flipAngle
      rw [h2, show 2 * K + K - 2 - t = 3 * K - 2 - t by omega]
      exact Nat.mod_eq_of_lt (by omega)
    simp only [th, e, h1]
    rw [Nat.cast_sub (by omega), Nat.cast_sub (by omega), Nat.cast_sub (by omega)]
    push_cast
    field_simp
    ring

theorem morlet_fft_add_pi (M N : Nat) (sigma theta xi slant : ℝ) {k l : Nat} (hk : k < M) (hl : l < N) :
    (realFft2 (morlet2d M N sigma (theta + Real.pi) xi slant)).px k l =
      (realFft2 (morlet2d M N sigma theta xi slant)).px (Spec.negIdx M k) (Spec.negIdx N l) :=
  realFft2_conj' (h_morlet2d _ _ _ _ _ _) (w_morlet2d _ _ _ _ _ _) (h_morlet2d _ _ _ _ _ _)
    (w_morlet2d _ _ _ _ _ _)
    (fun _ _ hi hj => morlet2d_add_pi M N sigma theta xi slant hi hj) hk hl

/-- **The bank is closed under exchange of the axes** (even `L`): the transpose of wavelet `(j, t)` is
wavelet `(j, flipAngle t)`, or, past the angle `pi`, its conjugate, whose transfer function is read at
the opposite frequencies. -/
theorem C83_wavelets {M N L j t : Nat} (hL : L % 2 = 0) (ht : t < L) :
    (t + 2 ≤ L / 2 → Tr (psiHat2 M N L j t) (psiHat2 N M L j (Spec.flipAngle L t))) ∧
    (L / 2 < t + 2 → ∀ k l, k < M → l < N →
      (psiHat2 N M L j (Spec.flipAngle L t)).px l k =
        (psiHat2 M N L j t).px (Spec.negIdx M k) (Spec.negIdx N l)) := by
  obtain ⟨-, h1, h2⟩ := angle_flip hL ht
  constructor
  · intro h
    have e := (morlet2d_tr M N (0.8 * 2 ^ j) (((((L - 2) / 2 : Nat) : ℝ) - t) * Real.pi / L)
      (3 / 4 * Real.pi / 2 ^ j) (4 / L)).realFft2
    have h1 : Real.pi / 2 - ((((L - 2) / 2 : Nat) : ℝ) - t) * Real.pi / L =
      ((((L - 2) / 2 : Nat) : ℝ) - (Spec.flipAngle L t : Nat)) * Real.pi / L := h1 h
    rw [h1] at e
    exact e
  · intro h k l hk hl
    have e := (morlet2d_tr M N (0.8 * 2 ^ j) (((((L - 2) / 2 : Nat) : ℝ) - t) * Real.pi / L)
      (3 / 4 * Real.pi / 2 ^ j) (4 / L)).realFft2
    have h2 : Real.pi / 2 - ((((L - 2) / 2 : Nat) : ℝ) - t) * Real.pi / L =
      ((((L - 2) / 2 : Nat) : ℝ) - (Spec.flipAngle L t : Nat)) * Real.pi / L + Real.pi := h2 h
    rw [h2] at e
    have c := morlet_fft_add_pi N M (0.8 * 2 ^ j)
      (((((L - 2) / 2 : Nat) : ℝ) - (Spec.flipAngle L t : Nat)) * Real.pi / L)
      (3 / 4 * Real.pi / 2 ^ j) (4 / L) (Spec.negIdx_lt hl) (Spec.negIdx_lt hk)
    have c' := c.symm.trans (e.px _ _ (Spec.negIdx_lt hk) (Spec.negIdx_lt hl))
    have n1 : Spec.negIdx N (Spec.negIdx N l) = l := Spec.negIdx_negIdx hl
    have n2 : Spec.negIdx M (Spec.negIdx M k) = k := Spec.negIdx_negIdx hk
    refine Eq.trans ?_ c'
    show (psiHat2 N M L j (Spec.flipAngle L t)).px l k =
      (psiHat2 N M L j (Spec.flipAngle L t)).px (Spec.negIdx N (Spec.negIdx N l))
        (Spec.negIdx M (Spec.negIdx M k))
    rw [n1, n2]

/-! ## The cascade -/

theorem low2_tr {h w : ℕ} {x x' f f' : ℕ → ℕ → ℝ} (hx : ∀ i j, i < h → j < w → x' j i = x i j)
    (hf : ∀ i j, i < h → j < w → f' j i = f i j) (e m n : ℕ) :
    Spec.low2 w h x' f' e n m = Spec.low2 h w x f e m n := by
  unfold Spec.low2
  rw [← Spec.conv2_tr h w x f, conv2_congr (fun i j hi hj => hx j i hj hi) (fun i j hi hj => hf j i hj hi)]

theorem band2_tr {h w : ℕ} {x x' f f' : ℕ → ℕ → ℝ} (hx : ∀ i j, i < h → j < w → x' j i = x i j)
    (hf : (∀ i j, i < h → j < w → f' j i = f i j) ∨
      (∀ i j, i < h → j < w → f' j i = f (Spec.negIdx h i) (Spec.negIdx w j))) (e m n : ℕ) :
    Spec.band2 w h x' f' e n m = Spec.band2 h w x f e m n := by
  unfold Spec.band2
  rcases hf with hf | hf
  · rw [← Spec.conv2_tr h w x f, conv2_congr (fun i j hi hj => hx j i hj hi) (fun i j hi hj => hf j i hj hi)]
  · rw [conv2_congr (fun i j hi hj => hx j i hj hi) (fun i j hi hj => hf j i hj hi),
      Spec.conv2_tr h w x (fun k l => f (Spec.negIdx h k) (Spec.negIdx w l))]
    have : Spec.impulse2 h w (fun k l => f (Spec.negIdx h k) (Spec.negIdx w l)) =
        fun a b => (starRingEnd ℂ) (Spec.impulse2 h w f a b) := by
      funext a b
      exact Spec.impulse2_neg h w f a b
    rw [this, Spec.conv2_conj, Complex.norm_conj]

theorem level_zero' {f : Img ℝ} {H W i j : Nat} (hh : f.h = H) (hw : f.w = W) (hi : i < H) (hj : j < W) :
    (periodizeFilter f 0).px i j = f.px i j := by
  subst hh hw
  exact C41_level_zero f i j hi hj

/-- The object built for the transposed image. -/
def Args2D.flip (a : Args2D) : Args2D := { a with M := a.N, N := a.M }

theorem np2Pad_tr {t b l r : Nat} {x y u v : Img ℝ} (hT : Tr x y)
    (hu : np2Pad t b l r x = .ok u) (hv : np2Pad l r t b y = .ok v) : Tr u v := by
  unfold np2Pad at hu hv
  split at hu
  · cases hu
  split at hv
  · cases hv
  rename_i h1 h2
  have hu := Except.ok.inj hu
  have hv := Except.ok.inj hv
  subst hu hv
  refine ⟨by simp [hT.h], by simp [hT.w], fun i j hi hj => ?_⟩
  have hi : i < t + x.h + b := hi
  have hj : j < l + x.w + r := hj
  rw [Img.px_tab hi hj, Img.px_tab (by rw [hT.h]; exact hj) (by rw [hT.w]; exact hi), hT.h, hT.w]
  have hx : ∀ {n c d e : Nat}, ¬ (n = 0 ∧ c + d > 0) → e < c + n + d → 0 < n := by
    intro n c d e h1 h2
    omega
  rw [not_or] at h1
  exact hT.px _ _ (mirrorIndex_lt (hx h1.1 hi) _ _) (mirrorIndex_lt (hx h1.2 hj) _ _)

theorem flip_run (a : Args2D) (hJ : 1 ≤ a.J) (ho : a.outType = .list) {x y : Img ℝ} (hT : Tr x y)
    {l : List (Path2 (Img ℝ))} (h : a.run x = .ok (.list l)) : ∃ l', a.flip.run y = .ok (.list l') := by
  obtain ⟨s, l0, hs, hc, -, -, -⟩ := run_eq_ok h
  obtain ⟨h1, h2, h3, h4, -, -⟩ := make_eq_ok hs
  obtain ⟨c1, c2, -⟩ := check_eq_ok.1 hc
  obtain ⟨out, hout⟩ := C40_no_error a.flip hJ h2 h1 (by show a.outType ≠ _; rw [ho]; simp) y (by
    show if a.prePad then y.h = padded2 a.N a.J ∧ y.w = padded2 a.M a.J else y.h = a.N ∧ y.w = a.M
    rw [hT.h, hT.w]
    split
    · rename_i hp
      rw [← h3, ← h4]
      exact ⟨(c2 hp).2, (c2 hp).1⟩
    · rename_i hp
      have hp : a.prePad = false := by simpa using hp
      exact ⟨(c1 hp).2, (c1 hp).1⟩)
  obtain ⟨l', rfl, -⟩ := C39_channels a.flip ho y out hout
  exact ⟨l', hout⟩

/-- **Exchanging the axes of the image exchanges the axes of every coefficient** and replaces every
angle `theta` by `pi/2 - theta`.  For the second order this is shown when the second wavelet stays
within the same half-turn or the first one is not subsampled. -/
theorem C83_transpose_partial (a : Args2D) (hJ : 1 ≤ a.J) (ho : a.outType = .list) (hL : a.L % 2 = 0)
    (x y : Img ℝ) (hT : Tr x y) (l : List (Path2 (Img ℝ))) (h : a.run x = .ok (.list l)) :
    ∃ l', a.flip.run y = .ok (.list l') ∧ ∀ p ∈ l,
      (∀ j1 j2 t1 t2, p.j = [j1, j2] → p.theta = [t1, t2] → j1 = 0 ∨ t2 + 2 ≤ a.L / 2) →
      ∃ q ∈ l', q.j = p.j ∧ q.theta = p.theta.map (Spec.flipAngle a.L) ∧ Tr p.coef q.coef := by
  obtain ⟨l', h'⟩ := flip_run a hJ ho hT h
  refine ⟨l', h', ?_⟩
  obtain ⟨l0, e0, hlab⟩ := C39_channels a ho x _ h
  obtain ⟨l1, e1, hlab'⟩ := C39_channels a.flip ho y _ h'
  have e0 : l = l0 := by injection e0
  have e1 : l' = l1 := by injection e1
  subst e0 e1
  obtain ⟨H, W, u, hH, hW, uh, uw, up, un, hcl⟩ := C58_closed_form a ho x l h
  obtain ⟨W', H', v, hW', hH', vh, vw, vp, vn, hcl'⟩ := C58_closed_form a.flip ho y l' h'
  have e2 : W' = W := hW'.trans hW.symm
  have e3 : H' = H := hH'.trans hH.symm
  subst e2 e3
  have huv : Tr u v := by
    cases hp : a.prePad with
    | true => rw [up hp, vp hp]; exact hT
    | false => exact np2Pad_tr hT (un hp) (vn hp)
  have hu : ∀ i j, i < H' → j < W' → v.px j i = u.px i j := fun i j hi hj =>
    huv.px i j (by rw [uh]; exact hi) (by rw [uw]; exact hj)
  have hphi := phiHat2_tr H' W' a.J
  have hphi0 : ∀ i j, i < H' → j < W' → (phiHat2 W' H' a.J).px j i = (phiHat2 H' W' a.J).px i j :=
    fun i j hi hj => hphi.px i j hi hj
  have hphik : ∀ k i j, i < H' / 2 ^ k → j < W' / 2 ^ k →
      (periodizeFilter (phiHat2 W' H' a.J) k).px j i = (periodizeFilter (phiHat2 H' W' a.J) k).px i j :=
    fun k i j hi hj => (hphi.periodize k).px i j hi hj
  have hpsi0 : ∀ j t, t < a.L →
      (∀ i k, i < H' → k < W' →
        (psiHat2 W' H' a.L j (Spec.flipAngle a.L t)).px k i = (psiHat2 H' W' a.L j t).px i k) ∨
      (∀ i k, i < H' → k < W' → (psiHat2 W' H' a.L j (Spec.flipAngle a.L t)).px k i =
        (psiHat2 H' W' a.L j t).px (Spec.negIdx H' i) (Spec.negIdx W' k)) := by
    intro j t ht
    obtain ⟨g1, g2⟩ := C83_wavelets (M := H') (N := W') (j := j) hL ht
    by_cases hc : t + 2 ≤ a.L / 2
    · exact .inl fun i k hi hk => (g1 hc).px i k hi hk
    · exact .inr fun i k hi hk => g2 (by omega) i k hi hk
  have hsz := C38_output_size a x _ h
  have hsz' := C38_output_size a.flip y _ h'
  have hfl : ∀ t, t < a.L → Spec.flipAngle a.L t < a.L := fun t ht => (angle_flip hL ht).1
  intro p hp hcond
  have size : ∀ q ∈ l', q.coef.h = p.coef.w ∧ q.coef.w = p.coef.h := by
    intro q hq
    have s1 := hsz p.coef (List.mem_map.2 ⟨p, hp, rfl⟩)
    have s2 := hsz' q.coef (List.mem_map.2 ⟨q, hq, rfl⟩)
    exact ⟨s2.1.trans s1.2.symm, s2.2.trans s1.1.symm⟩
  have hmem : (p.j, p.n, p.theta) ∈ Spec.channels2 a.J a.L a.maxOrder := by
    rw [← hlab]; exact List.mem_map.2 ⟨p, hp, rfl⟩
  have find : ∀ c ∈ Spec.channels2 a.J a.L a.maxOrder, ∃ q ∈ l', q.j = c.1 ∧ q.n = c.2.1 ∧ q.theta = c.2.2 := by
    intro c hc
    have hc : c ∈ Spec.channels2 a.flip.J a.flip.L a.flip.maxOrder := hc
    rw [← hlab'] at hc
    obtain ⟨q, hq, rfl⟩ := List.mem_map.1 hc
    exact ⟨q, hq, rfl, rfl, rfl⟩
  rcases (C39_members _ _ _ _).1 hmem with hc | ⟨j, t, hj, ht, hc⟩ | ⟨hmo, j1, t1, j2, t2, hjj, hj2, ht1, ht2, hc⟩
  · simp only [Prod.mk.injEq] at hc
    obtain ⟨p1, p2, p3⟩ := hc
    obtain ⟨q, hq, q1, q2, q3⟩ := find ([], [], []) ((C39_members _ _ _ _).2 (.inl rfl))
    refine ⟨q, hq, by rw [q1, p1], by rw [q3, p3]; rfl, (size q hq).1, (size q hq).2, fun i k hi hk => ?_⟩
    have A := hcl p hp i k hi hk
    have B := hcl' q hq k i (by rw [(size q hq).1]; exact hk) (by rw [(size q hq).2]; exact hi)
    simp only [p2, q2] at A B
    simp only [true_and, List.nil_eq, reduceCtorEq, false_and, and_false, exists_false, or_false] at A B
    rw [A, B]
    exact low2_tr hu hphi0 _ _ _
  · simp only [Prod.mk.injEq] at hc
    obtain ⟨p1, p2, p3⟩ := hc
    obtain ⟨q, hq, q1, q2, q3⟩ := find ([j], [j * a.L + Spec.flipAngle a.L t], [Spec.flipAngle a.L t])
      ((C39_members _ _ _ _).2 (.inr (.inl ⟨j, _, hj, hfl t ht, rfl⟩)))
    refine ⟨q, hq, by rw [q1, p1], by rw [q3, p3]; rfl, (size q hq).1, (size q hq).2, fun i k hi hk => ?_⟩
    have A := hcl p hp i k hi hk
    have B := hcl' q hq k i (by rw [(size q hq).1]; exact hk) (by rw [(size q hq).2]; exact hi)
    rcases A with ⟨A, -⟩ | ⟨aj, at', -, -, -, A1, A2, A⟩ | ⟨_, _, _, _, -, -, -, -, A, -⟩
    · rw [p2] at A; simp at A
    · rw [p1] at A1
      rw [p3] at A2
      cases A1
      cases A2
      rcases B with ⟨B, -⟩ | ⟨bj, bt, -, -, -, B1, B2, B⟩ | ⟨_, _, _, _, -, -, -, -, B, -⟩
      · rw [q2] at B; simp at B
      · rw [q1] at B1
        rw [q3] at B2
        cases B1
        cases B2
        rw [A, B]
        exact low2_tr (fun i k hi hk => band2_tr hu (hpsi0 _ t ht) _ _ _) (hphik _) _ _ _
      · rw [q2] at B; simp at B
    · rw [p2] at A; simp at A
  · simp only [Prod.mk.injEq] at hc
    obtain ⟨p1, p2, p3⟩ := hc
    obtain ⟨q, hq, q1, q2, q3⟩ := find ([j1, j2],
        [j1 * a.L + Spec.flipAngle a.L t1, j2 * a.L + Spec.flipAngle a.L t2],
        [Spec.flipAngle a.L t1, Spec.flipAngle a.L t2])
      ((C39_members _ _ _ _).2 (.inr (.inr ⟨hmo, j1, _, j2, _, hjj, hj2, hfl t1 ht1, hfl t2 ht2, rfl⟩)))
    refine ⟨q, hq, by rw [q1, p1], by rw [q3, p3]; rfl, (size q hq).1, (size q hq).2, fun i k hi hk => ?_⟩
    have A := hcl p hp i k hi hk
    have B := hcl' q hq k i (by rw [(size q hq).1]; exact hk) (by rw [(size q hq).2]; exact hi)
    rcases A with ⟨A, -⟩ | ⟨_, _, -, -, A, -⟩ | ⟨_, _, _, _, -, -, -, -, -, A1, A2, A⟩
    · rw [p2] at A; simp at A
    · rw [p2] at A; simp at A
    · rw [p1] at A1
      rw [p3] at A2
      cases A1
      cases A2
      rcases B with ⟨B, -⟩ | ⟨_, _, -, -, B, -⟩ | ⟨_, _, _, _, -, -, -, -, -, B1, B2, B⟩
      · rw [q2] at B; simp at B
      · rw [q2] at B; simp at B
      · rw [q1] at B1
        rw [q3] at B2
        cases B1
        cases B2
        rw [A, B]
        refine low2_tr (fun i k hi hk => band2_tr (fun i k hi hk => band2_tr hu (hpsi0 _ t1 ht1) _ _ _)
          ?_ _ _ _) (hphik _) _ _ _
        rcases hcond _ _ _ _ p1 p3 with rfl | ht
        · refine (hpsi0 j2 t2 ht2).imp (fun g i k hi hk => ?_) (fun g i k hi hk => ?_)
          all_goals
            have hi : i < H' := by simpa using hi
            have hk : k < W' := by simpa using hk
          · rw [C41_level_zero _ _ _ hk hi, C41_level_zero _ _ _ hi hk]
            exact g i k hi hk
          · rw [C41_level_zero _ _ _ hk hi]
            simp only [pow_zero, Nat.div_one]
            rw [level_zero' (H := H') (W := W') (f := psiHat2 H' W' a.L j2 t2) rfl rfl (Spec.negIdx_lt hi) (Spec.negIdx_lt hk)]
            exact g i k hi hk
        · exact .inl (((C83_wavelets hL ht2).1 ht).periodize _).px

/-- What is missing for the second order: the mask of `periodize_filter_fft` keeps frequency `-M/4`
but not `M/4`, so reading a table at the opposite frequencies does not commute with the reduction of
its resolution.  Here the table is supported at frequency `1` of four. -/
theorem C83_mask_asymmetric :
    ∃ f g : Img ℝ, f.h = 4 ∧ f.w = 4 ∧ g.h = 4 ∧ g.w = 4 ∧
      (∀ k l, k < 4 → l < 4 → g.px k l = f.px (Spec.negIdx 4 k) (Spec.negIdx 4 l)) ∧
      (periodizeFilter g 1).px 1 0 ≠ (periodizeFilter f 1).px (Spec.negIdx 2 1) (Spec.negIdx 2 0) := by
  refine ⟨Img.tab 4 4 fun k l => if k = 1 ∧ l = 0 then 1 else 0,
    Img.tab 4 4 fun k l => if k = 3 ∧ l = 0 then 1 else 0, rfl, rfl, rfl, rfl, ?_, ?_⟩
  · intro k l hk hl
    rw [Img.px_tab hk hl, Img.px_tab (Spec.negIdx_lt hk) (Spec.negIdx_lt hl)]
    unfold Spec.negIdx
    interval_cases k <;> interval_cases l <;> simp
  · unfold periodizeFilter
    simp [Img.tab, masked, Finset.sum_range_succ, Spec.negIdx]

/-- Eight angles: `flipAngle` exchanges the first three among themselves and the others across the
half-turn; a wide image and its transpose meet the hypotheses. -/
example : (List.range 8).map (Spec.flipAngle 8) = [2, 1, 0, 7, 6, 5, 4, 3] := by decide

example : ∃ (a : Args2D) (x y : Img ℝ) (l : List (Path2 (Img ℝ))), 1 ≤ a.J ∧ a.outType = .list ∧
    a.L % 2 = 0 ∧ Tr x y ∧ x.px 0 1 = 1 ∧ a.run x = .ok (.list l) := by
  have hr := C40_no_error ⟨2, 8, 12, 8, 2, false, .list⟩ (by decide) (by decide) (by decide) (by simp)
    (Img.tab 8 12 fun _ j => (j : ℝ)) ⟨rfl, rfl⟩
  obtain ⟨out, hr⟩ := hr
  obtain ⟨l, rfl, -⟩ := C39_channels _ rfl _ _ hr
  refine ⟨_, _, Img.tab 12 8 fun j _ => (j : ℝ), l, by decide, rfl, rfl, ⟨rfl, rfl, fun i j hi hj => ?_⟩,
    ?_, hr⟩
  · have hi : i < 8 := hi
    have hj : j < 12 := hj
    rw [Img.px_tab hi hj, Img.px_tab hj hi]
  · simp [Img.tab]

end Verif
