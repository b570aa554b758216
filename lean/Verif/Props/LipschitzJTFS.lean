import Verif.Props.RoundedErrJTFS
import Verif.Props.LawsJTFS
import Mathlib.Analysis.SpecialFunctions.Pow.Continuity

/-!
# C128: joint time-frequency scattering is Lipschitz in the Euclidean norm

The bounds of C126 hold with exact operations, which are accurate to every `δ`, and a second signal that is off by `K`
errors of relative size `δ`; the constants follow as `K` grows and `δ` shrinks.
-/

namespace Verif

open Finset FrontJ JTFS Filter Topology

/-- The exact operations are accurate. -/
theorem exactJ_accurate (N : ℕ) {δ : ℝ} (hδ : 0 ≤ δ) : RoundedJ.exact.Accurate N δ := by
  have la : ∀ {E F : Type} [NormedAddCommGroup E] [NormedAddCommGroup F] (u : List E) (v : List F),
      Spec.adist u u ≤ δ * Spec.anorm v := fun u v => by
    rw [adist_self]
    exact mul_nonneg hδ (anorm_nonneg v)
  have li : ∀ {E F : Type} [NormedAddCommGroup E] [NormedAddCommGroup F] (u : Img E) (v : Img F),
      Spec.idist u u ≤ δ * Spec.inorm v := fun u v => by
    rw [idist_self]
    exact mul_nonneg hδ (inorm_nonneg v)
  have hs : Rounded.exact.Accurate N δ :=
    { exact_shapes with
      rfft_err := fun x _ => la _ _
      ifft_err := fun x _ => la _ _
      irfft_err := fun x _ => la _ _
      modulus_err := fun x _ => la _ _
      mul_err := fun x f _ _ C hC _ => by
        rw [adist_self]
        exact mul_nonneg hδ (mul_nonneg hC (anorm_nonneg x))
      mean_err := fun x k _ _ _ => by
        rw [adist_self]
        exact mul_nonneg hδ (div_nonneg (anorm_nonneg x) (Real.sqrt_nonneg _))
      sum_err := fun x _ => by
        show |x.sum - x.sum| ≤ _
        rw [sub_self, abs_zero]
        refine mul_nonneg hδ (List.sum_nonneg fun v hv => ?_)
        obtain ⟨w, -, rfl⟩ := List.mem_map.1 hv
        exact abs_nonneg w }
  exact
    { exactJ_shapes with
      sigs := hs
      rfft_err := fun x _ => li _ _
      cfft_err := fun x _ => li _ _
      ifft_err := fun x _ => li _ _
      irfft_err := fun x _ => li _ _
      modulus_err := fun x _ => li _ _
      mul_err := fun x f _ _ C hC _ => by
        rw [idist_self]
        exact mul_nonneg hδ (mul_nonneg hC (inorm_nonneg x))
      mean_err := fun x k _ _ _ => by
        rw [idist_self]
        exact mul_nonneg hδ (div_nonneg (inorm_nonneg x) (Real.sqrt_nonneg _))
      sum_err := fun x _ i _ => by
        show |(rowAverage x).px i 0 - (rowAverage x).px i 0| ≤ _
        rw [sub_self, abs_zero]
        exact mul_nonneg hδ (sum_nonneg fun _ _ => abs_nonneg _) }

/-- `K + 1` errors of this relative size amount to `r`. -/
noncomputable def rootErr (r : ℝ) (K : ℕ) : ℝ := (1 + r) ^ (1 / ((K : ℝ) + 1)) - 1

theorem rootErr_nonneg {r : ℝ} (hr : 0 ≤ r) (K : ℕ) : 0 ≤ rootErr r K :=
  sub_nonneg.2 (Real.one_le_rpow (by linarith) (by positivity))

theorem rootErr_pow {r : ℝ} (hr : 0 ≤ r) (K : ℕ) : (1 + rootErr r K) ^ (K + 1) = 1 + r := by
  have h1 : (0 : ℝ) < 1 + r := by linarith
  have hK : ((K : ℝ) + 1) ≠ 0 := by positivity
  unfold rootErr
  rw [add_sub_cancel, ← Real.rpow_natCast, ← Real.rpow_mul h1.le]
  push_cast
  rw [one_div, inv_mul_cancel₀ hK, Real.rpow_one]

theorem lim_bound {c : ℕ} {e G r : ℝ} (hr : 0 ≤ r) (h : ∀ K : ℕ, e ≤ ((1 + rootErr r K) ^ (K + 1 + c) - 1) * G) :
    e ≤ r * G := by
  have h1 : (0 : ℝ) < 1 + r := by linarith
  have t1 : Tendsto (fun K : ℕ => 1 + rootErr r K) atTop (𝓝 1) := by
    have := ((Real.continuous_const_rpow h1.ne').tendsto 0).comp (tendsto_one_div_add_atTop_nhds_zero_nat (𝕜 := ℝ))
    rw [Real.rpow_zero] at this
    refine this.congr fun K => ?_
    unfold rootErr
    rw [add_sub_cancel]
    rfl
  have t2 : Tendsto (fun K : ℕ => ((1 + r) * (1 + rootErr r K) ^ c - 1) * G) atTop
      (𝓝 (((1 + r) * 1 ^ c - 1) * G)) :=
    (((t1.pow c).const_mul _).sub_const 1).mul_const G
  refine (ge_of_tendsto' (b := e) t2 fun K => ?_).trans (le_of_eq ?_)
  · refine (h K).trans (le_of_eq ?_)
    rw [pow_add, rootErr_pow hr]
  · rw [one_pow]
    ring

theorem coefErr_of_forall {E : ℕ → ℝ} {F : ℝ} (hlim : ∀ e, (∀ K, e ≤ E K) → e ≤ F) {c d : JCoef (List ℝ) (Img ℝ)}
    (h : ∀ K, Spec.CoefErr (E K) c d) : Spec.CoefErr F c d := by
  cases c <;> cases d
  · exact ⟨(h 0).1, hlim _ fun K => (h K).2⟩
  · exact h 0
  · exact h 0
  · exact ⟨(h 0).1, (h 0).2.1, hlim _ fun K => (h K).2.2⟩

theorem forall₂_of_forall {α β : Type} {P : ℕ → α → β → Prop} {Q : α → β → Prop}
    (hPQ : ∀ a b, (∀ K, P K a b) → Q a b) {l : List α} {m : List β} (h : ∀ K, List.Forall₂ (P K) l m) :
    List.Forall₂ Q l m := by
  refine List.forall₂_iff_get.2 ⟨(h 0).length_eq, fun i h1 h2 => hPQ _ _ fun K => ?_⟩
  exact (List.forall₂_iff_get.1 (h K)).2 i h1 h2

/-- The distance of the coefficients for bounds `c0`, `cT` and `cF` of the levels that are used. -/
theorem lipschitz_gains (a : JArgs) (s : ScJ) (hmake : a.make = .ok s) (Q1 Q2 : Int) (hQ : parseQ a.Q = .ok (Q1, Q2))
    (ls lsFr : ℕ) (hls : log2Stride s.base.built.stride a.T a.J s.base.built.Ninput = .ok (ls : ℤ))
    (hlsFr : log2Stride a.strideFr a.F a.Jfr ((a.J + 1) * Q1.toNat) = .ok (lsFr : ℤ))
    {c0 cT cF : ℝ} (hcT : 1 ≤ cT) (hc0 : cT ≤ c0) (hcF : 1 ≤ cF)
    (hphiT : LevelsLe ls cT (a.obj s Q1.toNat).phi.levels) (h2 : ∀ f ∈ (a.obj s Q1.toNat).psi2, PsiLe ls c0 f)
    (hphiF : LevelsLe lsFr cF (a.obj s Q1.toNat).phiFr.levels)
    (x y : List ℝ) (hxy : y.length = x.length) (W : ℕ)
    (hW : W = s.base.built.padLeft + x.length + s.base.built.padRight)
    (out : JOut (List ℝ) (Img ℝ)) (hout : a.run x = .ok out) :
    ∃ out', a.run y = .ok out' ∧ Spec.OutRelJ (fun n => Spec.CoefErr (
      if n = [] then
        Real.sqrt 3 * Spec.avgGain s.base.average 1 W * Spec.l2 x.length (fun i => x.getD i 0 - y.getD i 0)
      else
        Real.sqrt 3 * Real.sqrt s.base.psi1.length * c0 * Spec.avgGain s.base.average cT W *
          Spec.avgGain s.averageFr cF s.nFr * Spec.l2 x.length (fun i => x.getD i 0 - y.getD i 0))) out out' := by
  set M := Spec.anorm x + 1 with hM
  have hM0 : 0 < M := by have := anorm_nonneg x; linarith
  have hD0 : 0 ≤ Spec.adist x y := Real.sqrt_nonneg _
  set r := Spec.adist x y / M with hr
  have hr0 : 0 ≤ r := div_nonneg hD0 hM0.le
  have hrM : r * M = Spec.adist x y := div_mul_cancel₀ _ hM0.ne'
  have hu := fun K : ℕ => err_unassembled hmake Q1.toNat ls lsFr hls hlsFr hcT hc0 hcF hphiT h2 hphiF (rootErr_nonneg hr0 K)
    (exactJ_accurate (max W s.nFr) (rootErr_nonneg hr0 K)) hW (le_max_left _ _) (le_max_right _ _)
    (k := K + 1) (M := M) (x := x) (x' := y) ⟨hxy, by rw [hM]; linarith, by
      rw [rootErr_pow hr0, add_sub_cancel_left, hrM]⟩
  have key : Sim (Spec.OutRelJ (errOf
      (r * (Spec.avgGain s.base.average 1 W * (Real.sqrt 3 * M)))
      (r * (Spec.avgGain s.averageFr cF s.nFr * (Spec.avgGain s.base.average cT W *
          (Real.sqrt s.base.psi1.length * (c0 * (Real.sqrt 3 * M))))))))
      (a.runRounded RoundedJ.exact x) (a.runRounded RoundedJ.exact y) := by
    unfold JArgs.runRounded
    rw [hmake, hQ]
    show Sim _ (FrontJ.scattering RoundedJ.exact.backend npFrontJ (a.obj s Q1.toNat) x)
      (FrontJ.scattering RoundedJ.exact.backend npFrontJ (a.obj s Q1.toNat) y)
    rw [FrontJ.scattering_eq, FrontJ.scattering_eq]
    refine Sim.bind (R := List.Forall₂ (PathC (errOf
      (r * (Spec.avgGain s.base.average 1 W * (Real.sqrt 3 * M)))
      (r * (Spec.avgGain s.averageFr cF s.nFr * (Spec.avgGain s.base.average cT W *
          (Real.sqrt s.base.psi1.length * (c0 * (Real.sqrt 3 * M))))))))) (fun l hl => ?_) fun l m hlm =>
      assemble_relC (fun _ _ _ h => coefErr_same h) _ hlm
    obtain ⟨m, hm, -⟩ := hu 0 l hl
    refine ⟨m, hm, forall₂_of_forall (P := fun K => PathC (errOf
      (((1 + rootErr r K) ^ (K + 1 + Spec.avgOps s.base.average) - 1) *
        (Spec.avgGain s.base.average 1 W * (Real.sqrt 3 * M)))
      (((1 + rootErr r K) ^ (K + 1 + 14 + Spec.avgOps s.base.average + Spec.avgOps s.averageFr) - 1) *
        (Spec.avgGain s.averageFr cF s.nFr * (Spec.avgGain s.base.average cT W *
          (Real.sqrt s.base.psi1.length * (c0 * (Real.sqrt 3 * M))))))))
      (fun p q hpq => ⟨?_, (hpq 0).2⟩) fun K => ?_⟩
    · obtain ⟨m', hm', h⟩ := hu K l hl
      obtain rfl := Except.ok.inj (hm.symm.trans hm')
      exact h
    · refine coefErr_of_forall (fun e he => ?_) fun K => (hpq K).1
      by_cases hn : p.n = []
      · simp only [if_pos hn] at he ⊢
        exact lim_bound hr0 he
      · simp only [if_neg hn] at he ⊢
        refine lim_bound hr0 (c := 14 + Spec.avgOps s.base.average + Spec.avgOps s.averageFr) fun K => ?_
        rw [← add_assoc, ← add_assoc]
        exact he K
  obtain ⟨out', ho, hr'⟩ := key out hout
  refine ⟨out', ho, ?_⟩
  refine (congrArg (fun C => Spec.OutRelJ C out out') (funext fun n => ?_)).mpr hr'
  funext c d
  unfold errOf
  congr 1
  rw [← adist_real, ← hrM]
  split <;> ring

/-- **C128.**  For two signals of the same length the call returns for both or for neither, with the same labels, and each
coefficient moves, in Euclidean norm, by at most the stated multiple of the distance of the signals.  `W` is the padded
length. -/
theorem C128_lipschitz (a : JArgs) (s : ScJ) (hmake : a.make = .ok s) (Q1 Q2 : Int) (hQ : parseQ a.Q = .ok (Q1, Q2))
    (ls lsFr : ℕ) (hls : log2Stride s.base.built.stride a.T a.J s.base.built.Ninput = .ok (ls : ℤ))
    (hlsFr : log2Stride a.strideFr a.F a.Jfr ((a.J + 1) * Q1.toNat) = .ok (lsFr : ℤ))
    (x y : List ℝ) (hxy : y.length = x.length) (W : ℕ)
    (hW : W = s.base.built.padLeft + x.length + s.base.built.padRight)
    (out : JOut (List ℝ) (Img ℝ)) (hout : a.run x = .ok out) :
    ∃ out', a.run y = .ok out' ∧ Spec.OutRelJ (fun n => Spec.CoefErr (
      if n = [] then
        Real.sqrt 3 * Spec.avgGain s.base.average 1 W * Spec.l2 x.length (fun i => x.getD i 0 - y.getD i 0)
      else
        Real.sqrt 3 * Real.sqrt s.base.psi1.length * 2 ^ ls * Spec.avgGain s.base.average (2 ^ ls) W *
          Spec.avgGain s.averageFr (2 ^ lsFr) s.nFr * Spec.l2 x.length (fun i => x.getD i 0 - y.getD i 0))) out out' := by
  obtain ⟨hphi, -, h2, -, hphiFr⟩ := obj_dyadic hmake Q1.toNat
  exact lipschitz_gains a s hmake Q1 Q2 hQ ls lsFr hls hlsFr (one_le_pow₀ one_le_two) le_rfl (one_le_pow₀ one_le_two)
    (dyadic_le hphi ls) (fun f hf => dyadic_psi (h2 f hf) ls) (dyadic_le hphiFr lsFr) x y hxy W hW out hout

namespace Spec

/-- The Euclidean norm of a coefficient. -/
noncomputable def coefNorm : JCoef (List ℝ) (Img ℝ) → ℝ
  | .sig x => Spec.l2 x.length fun i => x.getD i 0
  | .stk x => Spec.norm2 x.h x.w x.px

end Spec

theorem coefNorm_le {E : ℝ} {c : JCoef (List ℝ) (Img ℝ)} (h : Spec.CoefErr E c (c.times 0)) : Spec.coefNorm c ≤ E := by
  cases c with
  | sig x =>
    refine le_trans (le_of_eq (Spec.l2_congr fun i hi => ?_)) h.2
    rw [List.getD_eq_getElem (x.map _) _ (by simpa using hi), List.getElem_map, zero_mul, sub_zero]
  | stk x =>
    refine le_trans (le_of_eq (norm2_congr fun i hi k hk => ?_)) h.2.2
    rw [px_mapJ (fun r : ℝ => 0 * r) x hi hk, zero_mul, sub_zero]

/-- The norms of the coefficients for such bounds. -/
theorem bounded_gains (a : JArgs) (s : ScJ) (hmake : a.make = .ok s) (Q1 Q2 : Int) (hQ : parseQ a.Q = .ok (Q1, Q2))
    (ls lsFr : ℕ) (hls : log2Stride s.base.built.stride a.T a.J s.base.built.Ninput = .ok (ls : ℤ))
    (hlsFr : log2Stride a.strideFr a.F a.Jfr ((a.J + 1) * Q1.toNat) = .ok (lsFr : ℤ))
    {c0 cT cF : ℝ} (hcT : 1 ≤ cT) (hc0 : cT ≤ c0) (hcF : 1 ≤ cF)
    (hphiT : LevelsLe ls cT (a.obj s Q1.toNat).phi.levels) (h2 : ∀ f ∈ (a.obj s Q1.toNat).psi2, PsiLe ls c0 f)
    (hphiF : LevelsLe lsFr cF (a.obj s Q1.toNat).phiFr.levels)
    (x : List ℝ) (W : ℕ) (hW : W = s.base.built.padLeft + x.length + s.base.built.padRight)
    (l : List (JPath (List ℝ) (Img ℝ))) (hout : a.run x = .ok (.list l)) (p : JPath (List ℝ) (Img ℝ)) (hp : p ∈ l) :
    Spec.coefNorm p.coef ≤
      if p.n = [] then Real.sqrt 3 * Spec.avgGain s.base.average 1 W * Spec.l2 x.length (fun i => x.getD i 0)
      else
        Real.sqrt 3 * Real.sqrt s.base.psi1.length * c0 * Spec.avgGain s.base.average cT W *
          Spec.avgGain s.averageFr cF s.nFr * Spec.l2 x.length (fun i => x.getD i 0) := by
  obtain ⟨out', h1, h2'⟩ := lipschitz_gains a s hmake Q1 Q2 hQ ls lsFr hls hlsFr hcT hc0 hcF hphiT h2 hphiF x (x.map (0 * ·))
    (by simp) W hW _ hout
  obtain rfl := Except.ok.inj ((C81_homogeneous a 0 x _ hout).symm.trans h1)
  have h3 := List.forall₂_map_right_iff.1 h2'
  have h4 := (List.forall₂_same.1 h3 p hp).1
  have e : (fun i => x.getD i 0 - (x.map (0 * ·)).getD i 0) = fun i => x.getD i 0 := by
    funext i
    rcases Nat.lt_or_ge i x.length with hi | hi
    · rw [List.getD_eq_getElem (x.map _) _ (by simpa using hi), List.getElem_map, zero_mul, sub_zero]
    · rw [List.getD_eq_default (x.map _) _ (by simpa using hi), sub_zero]
  rw [e] at h4
  have e0 : factor 0 p.n = 0 := by
    unfold factor
    split <;> simp
  refine coefNorm_le ?_
  change Spec.CoefErr _ p.coef (p.coef.times (factor 0 p.n)) at h4
  rw [e0] at h4
  exact h4

/-- **C128, bounds.**  The norm of a coefficient is at most the same multiple of the norm of the signal. -/
theorem C128_bounded (a : JArgs) (s : ScJ) (hmake : a.make = .ok s) (Q1 Q2 : Int) (hQ : parseQ a.Q = .ok (Q1, Q2))
    (ls lsFr : ℕ) (hls : log2Stride s.base.built.stride a.T a.J s.base.built.Ninput = .ok (ls : ℤ))
    (hlsFr : log2Stride a.strideFr a.F a.Jfr ((a.J + 1) * Q1.toNat) = .ok (lsFr : ℤ))
    (x : List ℝ) (W : ℕ) (hW : W = s.base.built.padLeft + x.length + s.base.built.padRight)
    (l : List (JPath (List ℝ) (Img ℝ))) (hout : a.run x = .ok (.list l)) (p : JPath (List ℝ) (Img ℝ)) (hp : p ∈ l) :
    Spec.coefNorm p.coef ≤
      if p.n = [] then Real.sqrt 3 * Spec.avgGain s.base.average 1 W * Spec.l2 x.length (fun i => x.getD i 0)
      else
        Real.sqrt 3 * Real.sqrt s.base.psi1.length * 2 ^ ls * Spec.avgGain s.base.average (2 ^ ls) W *
          Spec.avgGain s.averageFr (2 ^ lsFr) s.nFr * Spec.l2 x.length (fun i => x.getD i 0) := by
  obtain ⟨hphi, -, h2, -, hphiFr⟩ := obj_dyadic hmake Q1.toNat
  exact bounded_gains a s hmake Q1 Q2 hQ ls lsFr hls hlsFr (one_le_pow₀ one_le_two) le_rfl (one_le_pow₀ one_le_two)
    (dyadic_le hphi ls) (fun f hf => dyadic_psi (h2 f hf) ls) (dyadic_le hphiFr lsFr) x W hW l hout p hp

/-- The hypotheses are met by `TimeFrequencyScattering(J=3, J_fr=2, shape=1000, Q=8)` and every two signals of that length,
for every type of output and format. -/
example (x y : List ℝ) (hx : x.length = 1000) (hy : y.length = 1000) (o : OutType) (ho : o ≠ .other) (f : Format)
    (hf : f ≠ .other) : ∃ s out out', (exJ o f).make = .ok s ∧ (exJ o f).run x = .ok out ∧ (exJ o f).run y = .ok out' ∧
      Spec.OutRelJ (fun n => Spec.CoefErr (
        if n = [] then Real.sqrt 3 * 1 * Spec.l2 x.length (fun i => x.getD i 0 - y.getD i 0)
        else Real.sqrt 3 * Real.sqrt s.base.psi1.length * 2 ^ 3 * 2 ^ 3 * 2 ^ 2 *
          Spec.l2 x.length (fun i => x.getD i 0 - y.getD i 0))) out out' := by
  obtain ⟨s, r, P, hs, -, hav, havF, hls, hlsFr, hr, -, -, -⟩ := exJ_run o ho f hf x hx
  obtain ⟨out', h1, h2⟩ := C128_lipschitz (exJ o f) s hs 8 1 rfl 3 2 hls hlsFr x y (by omega) _ rfl r hr
  rw [hav, havF] at h2
  exact ⟨s, r, out', hs, hr, h1, h2⟩

/-- The bounds for the same object. -/
example (x : List ℝ) (hx : x.length = 1000) : ∃ s l, (exJ .list .joint).make = .ok s ∧
    (exJ .list .joint).run x = .ok (.list l) ∧ ∀ p ∈ l, Spec.coefNorm p.coef ≤
      if p.n = [] then Real.sqrt 3 * 1 * Spec.l2 x.length (fun i => x.getD i 0)
      else Real.sqrt 3 * Real.sqrt s.base.psi1.length * 2 ^ 3 * 2 ^ 3 * 2 ^ 2 * Spec.l2 x.length (fun i => x.getD i 0) := by
  obtain ⟨s, r, P, hs, -, hav, havF, hls, hlsFr, hr, -, -, ha⟩ := exJ_run .list (by simp) .joint (by simp) x hx
  obtain rfl : r = .list P := (Except.ok.inj ha).symm
  refine ⟨s, P, hs, hr, fun p hp => ?_⟩
  have := C128_bounded (exJ .list .joint) s hs 8 1 rfl 3 2 hls hlsFr x _ rfl P hr p hp
  rwa [hav, havF] at this

end Verif
