import Verif.Props.LipschitzJTFS
import Verif.Props.Sharp1D

/-!
# C126 and C128 with constants that do not depend on the scales

The bounds of C126 and C128 with the gains of the filters that are used, 1.02 for the wavelets and 1.001 for the low-pass
filters, in place of the powers of two that hold for every filter bank.
-/

namespace Verif

open Finset FrontJ JTFS

/-- The levels of the filters that are used. -/
theorem sharp_gains {a : JArgs} {s : ScJ} (hmake : a.make = .ok s) {T : Rat} {av : Average}
    (hT : parseT a.T a.J s.base.built.Ninput = .ok (T, av)) {ls : ℕ} (hlsT : (2 : ℚ) ^ ls ≤ T) {Q1 Q2 : ℕ}
    (hQ : parseQ a.Q = .ok ((Q1 : ℤ), (Q2 : ℤ))) {F : Rat} {avF : Average}
    (hF : parseT a.F a.Jfr ((a.J + 1) * Q1) = .ok (F, avF)) {lsFr : ℕ} (hlsF : (2 : ℚ) ^ lsFr ≤ F)
    (hQJ2 : Q2 ≤ 2 ^ a.J) (hN : 2 ^ (a.J + 4) ≤ s.base.built.Npadded) :
    LevelsLe ls 1.001 (a.obj s Q1).phi.levels ∧ (∀ f ∈ (a.obj s Q1).psi2, PsiLe ls 1.02 f) ∧
    LevelsLe lsFr 1.001 (a.obj s Q1).phiFr.levels := by
  obtain ⟨Q, q, F', hbase, hQ', -, hF', -, -, hfr⟩ := JArgs.make_eq_ok hmake
  obtain rfl := Except.ok.inj (hQ.symm.trans hQ')
  have hF'' : parseT a.F a.Jfr ((a.J + 1) * Q1) = .ok F' := hF'
  obtain rfl := Except.ok.inj (hF.symm.trans hF'')
  have cast : ∀ {l K : ℕ} {t : ℚ}, l ≤ K → (2 : ℚ) ^ K ≤ t → (2 : ℝ) ^ l ≤ (t : ℝ) := fun {l K t} hl h => by
    refine (pow_le_pow_right₀ one_le_two hl).trans ?_
    exact_mod_cast h
  refine ⟨fun l hl y hy => ?_, fun f hf l hl _ y hy => ?_, fun l hl y hy => ?_⟩
  · exact (phi_level_bounds (make_fromFull hbase hT hQ).1 (cast hl hlsT) hy).1
  · obtain ⟨n, hn⟩ := List.mem_iff_getElem?.1 hf
    exact second_gain_sharp hbase hQ hQJ2 hN n f hn l hl y hy
  · obtain ⟨phi1, psis, M, -, hlv0, -, -, -, -, -, -⟩ := createFiltersFr_eq_ok hfr
    exact (phi_level_bounds (f := ⟨s.phiFr.levels, 0⟩) ⟨_, hlv0⟩ (cast hl hlsF) hy).1

/-- **C126, sharp.**  If the strides are at most `T` and `F`, the constant depends on the scales only through the number of
first-order wavelets. -/
theorem C126_sharp (a : JArgs) (s : ScJ) (hmake : a.make = .ok s) (T : Rat) (av : Average)
    (hT : parseT a.T a.J s.base.built.Ninput = .ok (T, av)) (Q1 Q2 : ℕ) (hQ : parseQ a.Q = .ok ((Q1 : ℤ), (Q2 : ℤ)))
    (F : Rat) (avF : Average) (hF : parseT a.F a.Jfr ((a.J + 1) * Q1) = .ok (F, avF))
    (ls lsFr : ℕ) (hls : log2Stride s.base.built.stride a.T a.J s.base.built.Ninput = .ok (ls : ℤ))
    (hlsFr : log2Stride a.strideFr a.F a.Jfr ((a.J + 1) * Q1) = .ok (lsFr : ℤ))
    (hlsT : (2 : ℚ) ^ ls ≤ T) (hlsF : (2 : ℚ) ^ lsFr ≤ F) (hQJ2 : Q2 ≤ 2 ^ a.J)
    (hNp : 2 ^ (a.J + 4) ≤ s.base.built.Npadded)
    (R : RoundedJ) (N : ℕ) (δ : ℝ) (hδ : 0 ≤ δ) (hR : R.Accurate N δ) (x x' : List ℝ) (hl : x'.length = x.length) (k : ℕ)
    (hx : Spec.l2 x.length (fun i => x.getD i 0 - x'.getD i 0) ≤
      ((1 + δ) ^ k - 1) * Spec.l2 x.length (fun i => x.getD i 0)) (W : ℕ)
    (hW : W = s.base.built.padLeft + x.length + s.base.built.padRight) (hN : W ≤ N) (hNF : s.nFr ≤ N)
    (out : JOut (List ℝ) (Img ℝ)) (hout : a.run x = .ok out) :
    ∃ out', a.runRounded R x' = .ok out' ∧ Spec.OutRelJ (fun n => Spec.CoefErr (
      if n = [] then
        Real.sqrt 3 * Spec.avgGain s.base.average 1 W * ((1 + δ) ^ (k + Spec.avgOps s.base.average) - 1) *
          Spec.l2 x.length (fun i => x.getD i 0)
      else
        Real.sqrt 3 * Real.sqrt s.base.psi1.length * 1.02 * Spec.avgGain s.base.average 1.001 W *
          Spec.avgGain s.averageFr 1.001 s.nFr *
          ((1 + δ) ^ (k + 14 + Spec.avgOps s.base.average + Spec.avgOps s.averageFr) - 1) *
          Spec.l2 x.length (fun i => x.getD i 0))) out out' := by
  obtain ⟨h1, h2, h3⟩ := sharp_gains hmake hT hlsT hQ hF hlsF hQJ2 hNp
  exact input_gains a s hmake Q1 Q2 hQ ls lsFr hls hlsFr (by norm_num) (by norm_num) (by norm_num) h1 h2 h3 R N δ hδ hR
    x x' hl k hx W hW hN hNF out hout

/-- **C128, sharp.**  The same constants for the distance of the coefficients of two signals. -/
theorem C128_sharp (a : JArgs) (s : ScJ) (hmake : a.make = .ok s) (T : Rat) (av : Average)
    (hT : parseT a.T a.J s.base.built.Ninput = .ok (T, av)) (Q1 Q2 : ℕ) (hQ : parseQ a.Q = .ok ((Q1 : ℤ), (Q2 : ℤ)))
    (F : Rat) (avF : Average) (hF : parseT a.F a.Jfr ((a.J + 1) * Q1) = .ok (F, avF))
    (ls lsFr : ℕ) (hls : log2Stride s.base.built.stride a.T a.J s.base.built.Ninput = .ok (ls : ℤ))
    (hlsFr : log2Stride a.strideFr a.F a.Jfr ((a.J + 1) * Q1) = .ok (lsFr : ℤ))
    (hlsT : (2 : ℚ) ^ ls ≤ T) (hlsF : (2 : ℚ) ^ lsFr ≤ F) (hQJ2 : Q2 ≤ 2 ^ a.J)
    (hNp : 2 ^ (a.J + 4) ≤ s.base.built.Npadded)
    (x y : List ℝ) (hxy : y.length = x.length) (W : ℕ)
    (hW : W = s.base.built.padLeft + x.length + s.base.built.padRight)
    (out : JOut (List ℝ) (Img ℝ)) (hout : a.run x = .ok out) :
    ∃ out', a.run y = .ok out' ∧ Spec.OutRelJ (fun n => Spec.CoefErr (
      if n = [] then
        Real.sqrt 3 * Spec.avgGain s.base.average 1 W * Spec.l2 x.length (fun i => x.getD i 0 - y.getD i 0)
      else
        Real.sqrt 3 * Real.sqrt s.base.psi1.length * 1.02 * Spec.avgGain s.base.average 1.001 W *
          Spec.avgGain s.averageFr 1.001 s.nFr * Spec.l2 x.length (fun i => x.getD i 0 - y.getD i 0))) out out' := by
  obtain ⟨h1, h2, h3⟩ := sharp_gains hmake hT hlsT hQ hF hlsF hQJ2 hNp
  exact lipschitz_gains a s hmake Q1 Q2 hQ ls lsFr hls hlsFr (by norm_num) (by norm_num) (by norm_num) h1 h2 h3
    x y hxy W hW out hout

/-- **C128, bounds.**  With local averages of time and frequency, the norm of every coefficient is at most
`1.78 √n₁` times that of the signal, for `n₁` wavelets of the first order; for the zeroth order, `1.78` times. -/
theorem C128_local (a : JArgs) (s : ScJ) (hmake : a.make = .ok s) (T : Rat)
    (hT : parseT a.T a.J s.base.built.Ninput = .ok (T, .loc)) (Q1 Q2 : ℕ) (hQ : parseQ a.Q = .ok ((Q1 : ℤ), (Q2 : ℤ)))
    (F : Rat) (hF : parseT a.F a.Jfr ((a.J + 1) * Q1) = .ok (F, .loc))
    (ls lsFr : ℕ) (hls : log2Stride s.base.built.stride a.T a.J s.base.built.Ninput = .ok (ls : ℤ))
    (hlsFr : log2Stride a.strideFr a.F a.Jfr ((a.J + 1) * Q1) = .ok (lsFr : ℤ))
    (hlsT : (2 : ℚ) ^ ls ≤ T) (hlsF : (2 : ℚ) ^ lsFr ≤ F) (hQJ2 : Q2 ≤ 2 ^ a.J)
    (hNp : 2 ^ (a.J + 4) ≤ s.base.built.Npadded) (x : List ℝ)
    (l : List (JPath (List ℝ) (Img ℝ))) (hout : a.run x = .ok (.list l)) (p : JPath (List ℝ) (Img ℝ)) (hp : p ∈ l) :
    Spec.coefNorm p.coef ≤ 1.78 * Real.sqrt (if p.n = [] then 1 else s.base.psi1.length) *
      Spec.l2 x.length (fun i => x.getD i 0) := by
  obtain ⟨h1, h2, h3⟩ := sharp_gains hmake hT hlsT hQ hF hlsF hQJ2 hNp
  have := bounded_gains a s hmake Q1 Q2 hQ ls lsFr hls hlsFr (by norm_num) (by norm_num) (by norm_num) h1 h2 h3
    x _ rfl l hout p hp
  obtain ⟨Q, q, F', hbase, hQ', -, hF', haF, -, -⟩ := JArgs.make_eq_ok hmake
  obtain rfl := Except.ok.inj (hQ.symm.trans hQ')
  have hF'' : parseT a.F a.Jfr ((a.J + 1) * Q1) = .ok F' := hF'
  obtain rfl := Except.ok.inj (hF.symm.trans hF'')
  obtain ⟨t, R1, R2, lT, M1, M2, -, -, -, hT', -⟩ := make_filters hbase
  have hav : s.base.average = .loc := (congrArg Prod.snd (Except.ok.inj (hT'.symm.trans hT)))
  rw [hav, haF] at this
  refine this.trans ?_
  have h0 : 0 ≤ Spec.l2 x.length (fun i => x.getD i 0) := Real.sqrt_nonneg _
  have h3 := sqrt3_le
  by_cases hn : p.n = []
  · rw [if_pos hn, if_pos hn, Real.sqrt_one]
    refine mul_le_mul_of_nonneg_right ?_ h0
    show Real.sqrt 3 * 1 ≤ _
    linarith
  · rw [if_neg hn, if_neg hn]
    refine mul_le_mul_of_nonneg_right ?_ h0
    show Real.sqrt 3 * Real.sqrt s.base.psi1.length * 1.02 * 1.001 * 1.001 ≤ _
    have h5 := mul_le_mul_of_nonneg_right h3 (Real.sqrt_nonneg s.base.psi1.length)
    nlinarith [Real.sqrt_nonneg (s.base.psi1.length : ℝ)]

/-- The objects of the examples meet the hypotheses. -/
theorem exJ_long {o : OutType} {f : Format} {s : ScJ} (hs : (exJ o f).make = .ok s) (hN : s.base.built.Ninput = 1000) :
    parseT (exJ o f).T (exJ o f).J s.base.built.Ninput = .ok (2 ^ 3, .loc) ∧
    parseQ (exJ o f).Q = .ok (((8 : ℕ) : ℤ), ((1 : ℕ) : ℤ)) ∧
    parseT (exJ o f).F (exJ o f).Jfr (((exJ o f).J + 1) * 8) = .ok (2 ^ 2, .loc) ∧ 1 ≤ 2 ^ (exJ o f).J ∧
    2 ^ ((exJ o f).J + 4) ≤ s.base.built.Npadded := by
  obtain ⟨-, -, -, hb, -⟩ := JArgs.make_eq_ok hs
  refine ⟨rfl, rfl, rfl, Nat.one_le_two_pow, ?_⟩
  obtain ⟨t, lT, -, -, -, h1, -⟩ := make_sizes hb
  have : (exJ o f).J = 3 := rfl
  rw [this]
  omega

/-- The hypotheses of `C128_sharp` are met by `TimeFrequencyScattering(J=3, J_fr=2, shape=1000, Q=8)` and every two signals
of that length, for every type of output and format. -/
example (x y : List ℝ) (hx : x.length = 1000) (hy : y.length = 1000) (o : OutType) (ho : o ≠ .other) (f : Format)
    (hf : f ≠ .other) : ∃ s out out', (exJ o f).make = .ok s ∧ (exJ o f).run x = .ok out ∧ (exJ o f).run y = .ok out' ∧
      Spec.OutRelJ (fun n => Spec.CoefErr (
        if n = [] then Real.sqrt 3 * 1 * Spec.l2 x.length (fun i => x.getD i 0 - y.getD i 0)
        else Real.sqrt 3 * Real.sqrt s.base.psi1.length * 1.02 * 1.001 * 1.001 *
          Spec.l2 x.length (fun i => x.getD i 0 - y.getD i 0))) out out' := by
  obtain ⟨s, r, P, hs, hN, hav, havF, hls, hlsFr, hr, -, -, -⟩ := exJ_run o ho f hf x hx
  obtain ⟨hT, hQ, hF, hQJ, hNp⟩ := exJ_long hs hN
  obtain ⟨out', h1, h2⟩ := C128_sharp (exJ o f) s hs _ _ hT 8 1 hQ _ _ hF 3 2 hls hlsFr le_rfl le_rfl hQJ hNp x y
    (by omega) _ rfl r hr
  rw [hav, havF] at h2
  exact ⟨s, r, out', hs, hr, h1, h2⟩

/-- Those of `C128_local` with a list of coefficients. -/
example (x : List ℝ) (hx : x.length = 1000) : ∃ s l, (exJ .list .joint).make = .ok s ∧
    (exJ .list .joint).run x = .ok (.list l) ∧ ∀ p ∈ l, Spec.coefNorm p.coef ≤
      1.78 * Real.sqrt (if p.n = [] then 1 else s.base.psi1.length) * Spec.l2 x.length (fun i => x.getD i 0) := by
  obtain ⟨s, r, P, hs, hN, -, -, hls, hlsFr, hr, -, -, ha⟩ := exJ_run .list (by simp) .joint (by simp) x hx
  obtain rfl : r = .list P := (Except.ok.inj ha).symm
  obtain ⟨hT, hQ, hF, hQJ, hNp⟩ := exJ_long hs hN
  exact ⟨s, P, hs, hr, fun p hp => C128_local (exJ .list .joint) s hs _ hT 8 1 hQ _ hF 3 2 hls hlsFr le_rfl le_rfl hQJ hNp
    x P hr p hp⟩

/-- Those of `C126_sharp` with correctly rounded double-precision operations and a signal that has been rounded to double
precision first. -/
example (x : List ℝ) (hx : x.length = 1000) (o : OutType) (ho : o ≠ .other) (f : Format) (hf : f ≠ .other) :
    ∃ F : FloatOps, F.Correct ∧ ∃ s out out', (exJ o f).make = .ok s ∧ (exJ o f).run x = .ok out ∧
      (exJ o f).runRounded (RoundedJ.ofFloat F) (x.map F.rnd) = .ok out' ∧
      Spec.OutRelJ (fun n => Spec.CoefErr (
        if n = [] then Real.sqrt 3 * 1 * ((1 + 2 ^ (-50 : ℤ)) ^ 5 - 1) * Spec.l2 x.length (fun i => x.getD i 0)
        else Real.sqrt 3 * Real.sqrt s.base.psi1.length * 1.02 * 1.001 * 1.001 * ((1 + 2 ^ (-50 : ℤ)) ^ 23 - 1) *
          Spec.l2 x.length (fun i => x.getD i 0))) out out' := by
  obtain ⟨F, hF⟩ := exists_correct
  obtain ⟨s, r, P, hs, hN, hav, havF, hls, hlsFr, hr, -, -, -⟩ := exJ_run o ho f hf x hx
  obtain ⟨hT, hQ, hFr, hQJ, hNp⟩ := exJ_long hs hN
  have hd : Spec.l2 x.length (fun i => x.getD i 0 - (x.map F.rnd).getD i 0) ≤
      ((1 + 2 ^ (-50 : ℤ)) ^ 1 - 1) * Spec.l2 x.length (fun i => x.getD i 0) := by
    rw [pow_one, add_sub_cancel_left, ← adist_real, ← anorm_real]
    exact adist_map (by positivity) (rnd_rel hF) x
  obtain ⟨out', h1, h2⟩ := C126_sharp (exJ o f) s hs _ _ hT 8 1 hQ _ _ hFr 3 2 hls hlsFr le_rfl le_rfl hQJ hNp
    (RoundedJ.ofFloat F) (max (s.base.built.padLeft + x.length + s.base.built.padRight) s.nFr) _ (by positivity)
    (ofFloatJ_accurate hF _) x (x.map F.rnd) (by simp) 1 hd _ rfl (le_max_left _ _) (le_max_right _ _) r hr
  rw [hav, havF] at h2
  exact ⟨F, hF, s, r, out', hs, hr, h1, h2⟩

end Verif
