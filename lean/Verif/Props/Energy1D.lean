import Verif.Lemmas.Energy1D
import Verif.Lemmas.GaussAlias
import Verif.Lemmas.MirrorSum
import Verif.Props.Stability1D
import Verif.Props.Nesting
import Mathlib.Algebra.Order.Chebyshev

/-!
# C111, C112: translation invariance and Euclidean stability of 1-D scattering
-/

namespace Verif

open Finset Core1D Front1D

/-- Euclidean norm of the first `n` values of a sequence. -/
noncomputable def Spec.l2 (n : ℕ) (v : ℕ → ℝ) : ℝ := Real.sqrt (∑ i ∈ range n, v i ^ 2)

theorem Spec.l2_le_of_sq {n m : ℕ} {v w : ℕ → ℝ} {C : ℝ} (hC : 0 ≤ C)
    (h : ∑ i ∈ range n, v i ^ 2 ≤ C ^ 2 * ∑ i ∈ range m, w i ^ 2) : Spec.l2 n v ≤ C * Spec.l2 m w := by
  unfold Spec.l2
  rw [← Real.sqrt_sq hC, ← Real.sqrt_mul (sq_nonneg C)]
  exact Real.sqrt_le_sqrt h

theorem Spec.l2_congr {n : ℕ} {v w : ℕ → ℝ} (h : ∀ i < n, v i = w i) : Spec.l2 n v = Spec.l2 n w := by
  unfold Spec.l2
  congr 1
  exact sum_congr rfl fun i hi => by rw [h i (mem_range.1 hi)]

theorem Spec.l2_nonneg (n : ℕ) (v : ℕ → ℝ) : 0 ≤ Spec.l2 n v := Real.sqrt_nonneg _

theorem FromFull.level {f : Filt (List ℝ)} {h : List ℝ} (hf : FromFull f h) {l : Nat} {y : List ℝ}
    (hy : f.levels[l]? = some y) :
    y.length * 2 ^ l = h.length ∧
      ∀ m < y.length, y.getD m 0 = ∑ i ∈ range (2 ^ l), h.getD (i * y.length + m) 0 := by
  obtain ⟨b, hb⟩ := hf
  have := makeLevels_get hb hy
  unfold reduceLevel at this
  split at this
  · rename_i hd
    injection this with this
    have hl : y.length = h.length / 2 ^ l := by rw [← this]; simp
    refine ⟨by rw [hl]; exact Nat.div_mul_cancel hd, fun m hm => ?_⟩
    rw [hl] at hm
    conv_lhs => rw [← this]
    rw [getD_tab_lt hm, hl]
    simp
  · cases this

/-- Gain of a stored level of a filter whose impulse response has unit mass. -/
theorem FromFull.gain {f : Filt (List ℝ)} {h : List ℝ} (hf : FromFull f h) (h1 : l1norm h ≤ 1) {l : Nat}
    {y : List ℝ} (hy : f.levels[l]? = some y) : ∀ m < y.length, |y.getD m 0| ≤ 2 ^ l := by
  obtain ⟨-, hv⟩ := hf.level hy
  intro m hm
  rw [hv m hm]
  refine (abs_sum_le_sum_abs _ _).trans ?_
  calc ∑ i ∈ range (2 ^ l), |h.getD (i * y.length + m) 0| ≤ ∑ i ∈ range (2 ^ l), (1 : ℝ) :=
        sum_le_sum fun i _ => (gain_le_l1norm h _).trans h1
    _ = 2 ^ l := by simp

theorem length_gauss {N : ℕ} {sigma : ℝ} (hs : 0 < sigma) : (gauss1d N sigma).length = N := by
  unfold gauss1d
  exact length_morlet1d hs

theorem phi_nonneg {N : ℕ} {T : ℝ} (hT : 0 < T) (k : ℕ) : 0 ≤ (gauss1d N (0.1 / T)).getD k 0 := by
  rcases Nat.lt_or_ge k N with hk | hk
  · exact (gauss1d_le (by positivity) hk).1
  · rw [List.getD_eq_default _ _ (by rw [length_gauss (by positivity)]; exact hk)]

/-- Gain and displacement of a stored level of the low-pass filter. -/
theorem phi_level_bounds {f : Filt (List ℝ)} {N : ℕ} {T : ℝ} (hf : FromFull f (gauss1d N (0.1 / T))) {l : Nat}
    (hT : (2 : ℝ) ^ l ≤ T) {y : List ℝ} (hy : f.levels[l]? = some y) :
    (∀ m < y.length, |y.getD m 0| ≤ 1.001) ∧
    ∀ c s : ℤ, c = 2 ^ l * s → ∀ m < y.length,
      |y.getD m 0| * ‖tw y.length (-((m : ℤ) * s)) - 1‖ ≤ 0.77 * |(c : ℝ)| / T := by
  have hT0 : 0 < T := lt_of_lt_of_le (by positivity) hT
  obtain ⟨hl, hv⟩ := hf.level hy
  rw [length_gauss (by positivity)] at hl
  have habs : ∀ m < y.length, |y.getD m 0| = ∑ i ∈ range (2 ^ l), (gauss1d N (0.1 / T)).getD (i * y.length + m) 0 := by
    intro m hm
    rw [hv m hm, abs_of_nonneg (sum_nonneg fun i _ => phi_nonneg hT0 _)]
  refine ⟨fun m hm => ?_, fun c s hc m hm => ?_⟩
  · rw [habs m hm]; exact phi_alias_gain hl hT hm
  · rw [habs m hm]; exact phi_shift hl hT hm c s hc

/-! ## The moduli of a run -/

/-- Every path of an averaged run, with its moduli. -/
theorem path_moduli {x : List ℝ} {phi : Filt (List ℝ)} {psi1 psi2 : List (Filt (List ℝ))} {mo ls : ℕ}
    {out : List (Path (List ℝ))}
    (h : scattering1d npBackend x phi ([psi1, psi2].take mo) ls true = .ok out) {p : Path (List ℝ)} (hp : p ∈ out) :
    (p.n = [] ∧ p.j = [] ∧ lowpass npBackend phi (npRfft x) 0 (ls - 0) = .ok p.coef) ∨
    (∃ n1 f1 U, psi1[n1]? = some f1 ∧ p.n = [n1] ∧ p.j = [f1.j] ∧
      bandpass npBackend f1 (npRfft x) 0 (min f1.j ls) = .ok U ∧
      lowpass npBackend phi (npRfft U) (min f1.j ls) (ls - min f1.j ls) = .ok p.coef) ∨
    (∃ n1 n2 f1 f2 U V, psi1[n1]? = some f1 ∧ psi2[n2]? = some f2 ∧ p.n = [n1, n2] ∧ p.j = [f1.j, f2.j] ∧
      f1.j < f2.j ∧ bandpass npBackend f1 (npRfft x) 0 (min f1.j ls) = .ok U ∧
      bandpass npBackend f2 (npRfft U) (min f1.j ls) (min f2.j ls - min f1.j ls) = .ok V ∧
      lowpass npBackend phi (npRfft V) (min f2.j ls) (ls - min f2.j ls) = .ok p.coef) := by
  have key := mem_scattering1d npBackend h hp
  change Path npBackend.R at p
  cases key with
  | zero U0hat c h0 hc =>
    have hU : U0hat = npRfft x := by injection h0 with h; exact h.symm
    subst hU
    exact Or.inl ⟨rfl, rfl, hc⟩
  | one U0hat U1m c q1 n1 psi h0 hp1 hn1 hU hc =>
    have hU0 : U0hat = npRfft x := by injection h0 with h; exact h.symm
    subst hU0
    have : q1 = psi1 := take2_zero hp1
    subst this
    simp only [if_true] at hU hc
    obtain ⟨U1hat, hU1, hs⟩ := hc.1 rfl
    have : U1hat = npRfft U1m := by injection hU1 with h; exact h.symm
    subst this
    exact Or.inr (Or.inl ⟨n1, psi, U1m, hn1, rfl, rfl, hU, hs⟩)
  | two U0hat U1m U1hat c q1 q2 n1 n2 psi psi' h0 hp1 hn1 hp2 hn2 hj hU hUh hc =>
    have hU0 : U0hat = npRfft x := by injection h0 with h; exact h.symm
    subst hU0
    have : q1 = psi1 := take2_zero hp1
    subst this
    have : q2 = psi2 := take2_one hp2
    subst this
    have : U1hat = npRfft U1m := by injection hUh with h; exact h.symm
    subst this
    simp only [if_true] at hU hc
    obtain ⟨U2m, hU2, hs, -⟩ := hc
    obtain ⟨U2hat, hU2h, hs⟩ := hs rfl
    have : U2hat = npRfft U2m := by injection hU2h with h; exact h.symm
    subst this
    simp only [if_true] at hU2
    have e1 : min psi.j ls + (min psi'.j ls - min psi.j ls) = min psi'.j ls := by omega
    rw [e1] at hs
    exact Or.inr (Or.inr ⟨n1, n2, psi, psi', U1m, U2m, hn1, hn2, rfl, rfl, hj, hU, hU2, hs⟩)

/-! ## Energy of one step -/

/-- The difference of two signals. -/
noncomputable def diffL (x y : List ℝ) : List ℝ := tab x.length fun i => x.getD i 0 - y.getD i 0

@[simp] theorem length_diffL (x y : List ℝ) : (diffL x y).length = x.length := by simp [diffL]

theorem energy1_diffL (x y : List ℝ) : energy1 (diffL x y) = ∑ i ∈ range x.length, (x.getD i 0 - y.getD i 0) ^ 2 := by
  unfold energy1
  rw [length_diffL]
  refine sum_congr rfl fun i hi => ?_
  rw [diffL, getD_tab_lt (mem_range.1 hi)]

theorem convR_diffL {x y : List ℝ} (h : y.length = x.length) (f : ℤ → ℂ) (n : ℤ) :
    Spec.convR (diffL x y) f n = Spec.convR x f n - Spec.convR y f n := by
  unfold Spec.convR
  rw [length_diffL, h, ← sum_sub_distrib]
  refine sum_congr rfl fun i hi => ?_
  rw [diffL, getD_tab_lt (mem_range.1 hi)]
  push_cast
  ring

theorem band_diff {psi : Filt (List ℝ)} {x y u v : List ℝ} {k e : ℕ} (hl : y.length = x.length)
    (hu : bandpass npBackend psi (npRfft x) k e = .ok u) (hv : bandpass npBackend psi (npRfft y) k e = .ok v)
    {C : ℝ} (hC : ∀ f, psi.levels[k]? = some f → ∀ m < f.length, |f.getD m 0| ≤ C) :
    v.length = u.length ∧ energy1 (diffL u v) ≤ C ^ 2 * energy1 (diffL x y) := by
  obtain ⟨f, hf, hfl, hul, huv⟩ := np_bandpass hu
  obtain ⟨g, hg, hgl, hvl, hvv⟩ := np_bandpass hv
  rw [hf] at hg
  injection hg with hg
  subst hg
  have hlen : v.length = u.length :=
    Nat.eq_of_mul_eq_mul_right (by positivity : 0 < 2 ^ e) (by rw [hvl, hul, hl])
  refine ⟨hlen, ?_⟩
  have := energy_conv1 (diffL x y) f (by rw [length_diffL, hfl]) (C := C)
    (fun m hm => hC f hf m (by rw [hfl]; simpa using hm)) u.length (2 ^ e) (by rw [length_diffL, hul])
    (by positivity)
  refine le_trans ?_ this
  rw [energy1_diffL]
  refine sum_le_sum fun t ht => ?_
  have ht := mem_range.1 ht
  rw [huv t ht, hvv t (by omega), convR_diffL hl, ← sq_abs]
  push_cast
  exact pow_le_pow_left₀ (abs_nonneg _) (abs_norm_sub_norm_le _ _) 2

theorem low_diff {phi : Filt (List ℝ)} {x y u v : List ℝ} {k e : ℕ} (hl : y.length = x.length)
    (hu : lowpass npBackend phi (npRfft x) k e = .ok u) (hv : lowpass npBackend phi (npRfft y) k e = .ok v)
    {C : ℝ} (hC : ∀ f, phi.levels[k]? = some f → ∀ m < f.length, |f.getD m 0| ≤ C) :
    v.length = u.length ∧ energy1 (diffL u v) ≤ C ^ 2 * energy1 (diffL x y) := by
  obtain ⟨f, hf, hfl, hul, huv⟩ := np_lowpass hu
  obtain ⟨g, hg, hgl, hvl, hvv⟩ := np_lowpass hv
  rw [hf] at hg
  injection hg with hg
  subst hg
  have hlen : v.length = u.length :=
    Nat.eq_of_mul_eq_mul_right (by positivity : 0 < 2 ^ e) (by rw [hvl, hul, hl])
  refine ⟨hlen, ?_⟩
  have := energy_conv1 (diffL x y) f (by rw [length_diffL, hfl]) (C := C)
    (fun m hm => hC f hf m (by rw [hfl]; simpa using hm)) u.length (2 ^ e) (by rw [length_diffL, hul])
    (by positivity)
  refine le_trans ?_ this
  rw [energy1_diffL]
  refine sum_le_sum fun t ht => ?_
  have ht := mem_range.1 ht
  rw [huv t ht, hvv t (by omega), convR_diffL hl, ← sq_abs, ← Complex.sub_re]
  push_cast
  exact pow_le_pow_left₀ (abs_nonneg _) (Complex.abs_re_le_norm _) 2

theorem band_energy {psi : Filt (List ℝ)} {x u : List ℝ} {k e : ℕ}
    (hu : bandpass npBackend psi (npRfft x) k e = .ok u)
    {C : ℝ} (hC : ∀ f, psi.levels[k]? = some f → ∀ m < f.length, |f.getD m 0| ≤ C) :
    energy1 u ≤ C ^ 2 * energy1 x := by
  obtain ⟨f, hf, hfl, hul, huv⟩ := np_bandpass hu
  have := energy_conv1 x f hfl (C := C) (fun m hm => hC f hf m (by rw [hfl]; exact hm)) u.length (2 ^ e) hul.le
    (by positivity)
  refine le_trans (sum_le_sum fun t ht => ?_) this
  rw [huv t (mem_range.1 ht)]
  push_cast
  rfl

theorem low_shift {phi : Filt (List ℝ)} {x y u v : List ℝ} {k e : ℕ} {s : ℤ} (hroll : Spec.IsRoll s x y)
    (hu : lowpass npBackend phi (npRfft x) k e = .ok u) (hv : lowpass npBackend phi (npRfft y) k e = .ok v)
    {C : ℝ} (hC : ∀ f, phi.levels[k]? = some f → ∀ m < f.length,
      |f.getD m 0| * ‖tw f.length (-((m : ℤ) * s)) - 1‖ ≤ C) :
    v.length = u.length ∧
      ∑ t ∈ range u.length, (v.getD t 0 - u.getD t 0) ^ 2 ≤ C ^ 2 * energy1 x := by
  obtain ⟨f, hf, hfl, hul, huv⟩ := np_lowpass hu
  obtain ⟨g, hg, hgl, hvl, hvv⟩ := np_lowpass hv
  rw [hf] at hg
  injection hg with hg
  subst hg
  have hlen : v.length = u.length :=
    Nat.eq_of_mul_eq_mul_right (by positivity : 0 < 2 ^ e) (by rw [hvl, hul, hroll.1])
  refine ⟨hlen, ?_⟩
  have := energy_shift1 x y f s hroll hfl (C := C)
    (fun m hm => by have := hC f hf m (by rw [hfl]; exact hm); rwa [hfl] at this) u.length (2 ^ e) hul.le (by positivity)
  refine le_trans (sum_le_sum fun t ht => ?_) this
  have ht := mem_range.1 ht
  rw [huv t ht, hvv t (by omega), ← sq_abs, ← Complex.sub_re]
  push_cast
  exact pow_le_pow_left₀ (abs_nonneg _) (Complex.abs_re_le_norm _) 2

/-- Band-pass filtering and decimation carry a roll to a roll. -/
theorem band_roll {psi : Filt (List ℝ)} {x y u v : List ℝ} {c : ℤ} {k e : ℕ}
    (hroll : (2 : ℤ) ^ k ∣ c → Spec.IsRoll (c / 2 ^ k) x y) (hl : y.length = x.length)
    (hu : bandpass npBackend psi (npRfft x) k e = .ok u) (hv : bandpass npBackend psi (npRfft y) k e = .ok v) :
    v.length = u.length ∧ ((2 : ℤ) ^ (k + e) ∣ c → Spec.IsRoll (c / 2 ^ (k + e)) u v) := by
  have h1 : (rollRel c).rC 0 k (npRfft x) (npRfft y) :=
    ⟨by simp [hl], fun hd => dft_roll (toC_roll (hroll hd))⟩
  obtain ⟨v', hv', h2⟩ := sim_bandpass (rollRel c) (filt_refl _ (fun _ _ => rfl) psi) (e := e) h1 u hu
  rw [hv] at hv'
  injection hv' with hv'
  subst hv'
  exact h2

/-! ## C111 -/

theorem energy1_eq_l2 (x : List ℝ) : Real.sqrt (energy1 x) = Spec.l2 x.length fun i => x.getD i 0 := rfl

theorem l2_of_energy {n : ℕ} {v : ℕ → ℝ} {x : List ℝ} {C : ℝ} (hC : 0 ≤ C)
    (h : ∑ i ∈ range n, v i ^ 2 ≤ C ^ 2 * energy1 x) : Spec.l2 n v ≤ C * Spec.l2 x.length fun i => x.getD i 0 :=
  Spec.l2_le_of_sq hC h

/-- The banks of a constructed object, with their full-rate filters. -/
theorem make_banks {a : Args1D} {s : Sc1D} (hmake : a.make = .ok s) {Q1 Q2 : Int}
    (hQ : parseQ a.Q = .ok (Q1, Q2)) :
    ∃ mo, psis (a.obj s) = [s.psi1.map FiltX.toFilt, s.psi2.map FiltX.toFilt].take mo ∧
    (∀ (n : ℕ) f, (s.psi1.map FiltX.toFilt)[n]? = some f → ∃ p, (anden a.J Q1.toNat)[n]? = some p ∧
      FromFull f (morlet1d s.built.Npadded (some p.1) p.2) ∧
      l1norm (morlet1d s.built.Npadded (some p.1) p.2) ≤ 1) ∧
    (∀ (n : ℕ) f, (s.psi2.map FiltX.toFilt)[n]? = some f → ∃ p, (anden a.J Q2.toNat)[n]? = some p ∧
      FromFull f (morlet1d s.built.Npadded (some p.1) p.2) ∧
      l1norm (morlet1d s.built.Npadded (some p.1) p.2) ≤ 1) := by
  obtain ⟨T, -, -, hT, -⟩ := make_sizes hmake
  obtain ⟨-, h1, h2⟩ := make_fromFull hmake hT hQ
  refine ⟨nBanks a.maxOrder, psis_eq _, fun n f hf => ?_, fun n f hf => ?_⟩
  · obtain ⟨p, hp, -, hpf⟩ := h1 n f hf
    exact ⟨p, hp, hpf, l1norm_morlet1d_le _ _ _⟩
  · obtain ⟨p, hp, -, hpf⟩ := h2 n f hf
    exact ⟨p, hp, hpf, l1norm_morlet1d_le _ _ _⟩

/-- **C111.**  Averaging over the support `T` makes the coefficients insensitive to translations that are short
compared with `T`: when the padded signal `x` is rolled by `c` samples, `c` a multiple of the step of the last modulus
of the path, the coefficients of the path move by at most `0.77 |c| / T` times the Euclidean norm of that modulus (the
signal itself at order zero), which is at most `2^min(j1, log2_stride)` times that of the signal at order two and at
most that of the signal at orders zero and one. -/
theorem C111_shift (a : Args1D) (s : Sc1D) (hmake : a.make = .ok s) (T : Rat)
    (hT : parseT a.T a.J s.built.Ninput = .ok (T, .loc)) (Q1 Q2 : Int) (hQ : parseQ a.Q = .ok (Q1, Q2)) (ls : ℕ)
    (x y : List ℝ) (c : ℤ) (hroll : Spec.IsRoll c x y)
    (out out' : List (Path (List ℝ)))
    (h : scattering1d npBackend x s.phi.toFilt (psis (a.obj s)) ls true = .ok out)
    (h' : scattering1d npBackend y s.phi.toFilt (psis (a.obj s)) ls true = .ok out')
    (p q : Path (List ℝ)) (hp : p ∈ out) (hq : q ∈ out') (hpq : p.n = q.n)
    (hdvd : (2 : ℤ) ^ min (p.j.getLastD 0) ls ∣ c) (hstep : (2 : ℚ) ^ min (p.j.getLastD 0) ls ≤ T) :
    q.coef.length = p.coef.length ∧ ∃ (m : ℕ) (U : ℕ → ℝ), m * 2 ^ min (p.j.getLastD 0) ls = x.length ∧
      ((p.n = [] ∧ p.j = [] ∧ ∀ u, U u = x.getD u 0) ∨
       (∃ n1 p1 j1, p.n = [n1] ∧ p.j = [j1] ∧ (anden a.J Q1.toNat)[n1]? = some p1 ∧
        ∀ u < m, U u = Spec.U1 x (waveletResponse s.built.Npadded p1) (min j1 ls) u) ∨
       (∃ n1 n2 p1 p2 j1 j2, p.n = [n1, n2] ∧ p.j = [j1, j2] ∧ j1 < j2 ∧ (anden a.J Q1.toNat)[n1]? = some p1 ∧
        (anden a.J Q2.toNat)[n2]? = some p2 ∧
        ∀ u < m, U u = Spec.U2 x (waveletResponse s.built.Npadded p1) (waveletResponse s.built.Npadded p2)
          (min j1 ls) (min j2 ls) u)) ∧
      (Spec.l2 p.coef.length fun t => q.coef.getD t 0 - p.coef.getD t 0) ≤ 0.77 * |(c : ℝ)| / T * Spec.l2 m U ∧
      Spec.l2 m U ≤ 2 ^ (p.j.dropLast.map fun j => min j ls).sum * Spec.l2 x.length fun i => x.getD i 0 := by
  obtain ⟨mo, hps, HH1, HH2⟩ := make_banks hmake hQ
  obtain ⟨Hphi, -, -⟩ := make_fromFull hmake hT hQ
  rw [hps] at h h'
  have hC0 : 0 ≤ 0.77 * |(c : ℝ)| / T := by
    have : (0 : ℝ) < T := by
      exact_mod_cast lt_of_lt_of_le (by positivity : (0 : ℚ) < 2 ^ min (p.j.getLastD 0) ls) hstep
    positivity
  have hstepR : (2 : ℝ) ^ min (p.j.getLastD 0) ls ≤ T := by exact_mod_cast hstep
  -- the averaging step
  have low : ∀ (k e : ℕ) (U V : List ℝ), k = min (p.j.getLastD 0) ls → Spec.IsRoll (c / 2 ^ k) U V →
      lowpass npBackend s.phi.toFilt (npRfft U) k e = .ok p.coef →
      lowpass npBackend s.phi.toFilt (npRfft V) k e = .ok q.coef →
      q.coef.length = p.coef.length ∧ (Spec.l2 p.coef.length fun t => q.coef.getD t 0 - p.coef.getD t 0) ≤
        0.77 * |(c : ℝ)| / T * Spec.l2 U.length fun i => U.getD i 0 := by
    intro k e U V hk hr hu hv
    subst hk
    obtain ⟨h1, h2⟩ := low_shift hr hu hv (C := 0.77 * |(c : ℝ)| / T) fun f hf =>
      (phi_level_bounds Hphi hstepR hf).2 c _ (Int.mul_ediv_cancel' hdvd).symm
    exact ⟨h1, l2_of_energy hC0 h2⟩
  rcases path_moduli h hp with ⟨n1, j1, l1⟩ | ⟨n1, f1, U, hf1, en, ej, hU, l1⟩ |
      ⟨n1, n2, f1, f2, U, V, hf1, hf2, en, ej, hj, hU, hV, l1⟩ <;>
    rcases path_moduli h' hq with ⟨m1, k1, l2⟩ | ⟨m1, g1, U', hg1, em, ek, hU', l2⟩ |
      ⟨m1, m2, g1, g2, U', V', hg1, hg2, em, ek, hk, hU', hV', l2⟩
  · have hk : 0 = min (p.j.getLastD 0) ls := by rw [j1]; simp
    obtain ⟨h1, h2⟩ := low 0 (ls - 0) x y hk (by simpa using hroll) l1 l2
    refine ⟨h1, x.length, fun i => x.getD i 0, by rw [← hk]; simp, Or.inl ⟨n1, j1, fun _ => rfl⟩, h2, ?_⟩
    rw [j1]; simp
  · rw [n1, em] at hpq; cases hpq
  · rw [n1, em] at hpq; cases hpq
  · rw [en, m1] at hpq; cases hpq
  · rw [en, em] at hpq
    injection hpq with e
    subst e
    rw [hf1] at hg1
    injection hg1 with hg1
    subst hg1
    have hk : min f1.j ls = min (p.j.getLastD 0) ls := by rw [ej]; rfl
    obtain ⟨pr, hpr, hfull, hnorm⟩ := HH1 n1 f1 hf1
    obtain ⟨hUl, hUv⟩ := U1_closed hfull hU
    have hr := (band_roll (c := c) (fun _ => by simpa using hroll) hroll.1 hU hU').2
    rw [Nat.zero_add] at hr
    obtain ⟨h1, h2⟩ := low _ _ U U' hk (hr (by rw [hk]; exact hdvd)) l1 l2
    refine ⟨h1, U.length, fun i => U.getD i 0, by rw [← hk]; exact hUl,
      Or.inr (Or.inl ⟨n1, pr, f1.j, en, ej, hpr, fun u hu => hUv u hu⟩), h2, ?_⟩
    refine l2_of_energy (by positivity) ?_
    rw [ej]
    change energy1 U ≤ _
    simpa using band_energy hU (C := 2 ^ 0) fun f hf => hfull.gain hnorm hf
  · rw [en, em] at hpq; cases hpq
  · rw [en, m1] at hpq; cases hpq
  · rw [en, em] at hpq; cases hpq
  · rw [en, em] at hpq
    injection hpq with e e'
    injection e' with e'
    subst e e'
    rw [hf1] at hg1
    injection hg1 with hg1
    subst hg1
    rw [hf2] at hg2
    injection hg2 with hg2
    subst hg2
    have hk' : min f2.j ls = min (p.j.getLastD 0) ls := by rw [ej]; rfl
    obtain ⟨pr, hpr, hfull, hnorm⟩ := HH1 n1 f1 hf1
    obtain ⟨pr2, hpr2, hfull2, hnorm2⟩ := HH2 n2 f2 hf2
    obtain ⟨hUl, hUv⟩ := U1_closed hfull hU
    have hle : min f1.j ls ≤ min f2.j ls := by omega
    obtain ⟨hVl, hVv⟩ := U2_closed hfull2 hle hUl hUv hV
    have hr := band_roll (c := c) (fun _ => by simpa using hroll) hroll.1 hU hU'
    rw [Nat.zero_add] at hr
    have hr2 := (band_roll (c := c) hr.2 hr.1 hV hV').2
    rw [Nat.add_sub_cancel' hle] at hr2
    obtain ⟨h1, h2⟩ := low _ _ V V' hk' (hr2 (by rw [hk']; exact hdvd)) l1 l2
    refine ⟨h1, V.length, fun i => V.getD i 0, by rw [← hk']; exact hVl,
      Or.inr (Or.inr ⟨n1, n2, pr, pr2, f1.j, f2.j, en, ej, hj, hpr, hpr2, fun u hu => hVv u hu⟩), h2, ?_⟩
    refine l2_of_energy (by positivity) ?_
    rw [ej]
    have b1 := band_energy hU (C := 2 ^ 0) fun f hf => hfull.gain hnorm hf
    have b2 := band_energy hV (C := 2 ^ min f1.j ls) fun f hf => hfull2.gain hnorm2 hf
    simp only [pow_zero, one_pow, one_mul] at b1
    change energy1 V ≤ _
    simpa using b2.trans (mul_le_mul_of_nonneg_left b1 (by positivity))

/-! ## C112 -/

/-- Reflection by less than the length repeats no sample more than three times. -/
theorem sum_mirror_le_three (n t b : ℕ) (ht : t < n) (hb : b < n) (F : ℕ → ℝ) (hF : ∀ i, 0 ≤ F i) :
    ∑ i ∈ range (t + n + b), F (Spec.mirror n ((i : ℤ) - t)) ≤ 3 * ∑ i ∈ range n, F i := by
  rcases Nat.lt_or_ge n 2 with h1 | hn
  · obtain ⟨rfl, rfl, rfl⟩ : n = 1 ∧ t = 0 ∧ b = 0 := by omega
    have := hF 0
    simp [Spec.mirror]
    linarith
  rw [Finset.sum_range_add, Finset.sum_range_add]
  have e1 : ∑ x ∈ range n, F (Spec.mirror n (((t + x : ℕ) : ℤ) - t)) = ∑ i ∈ range n, F i := by
    refine sum_congr rfl fun i hi => ?_
    rw [show ((t + i : ℕ) : ℤ) - t = (i : ℕ) by omega, mirror_mid hn (mem_range.1 hi)]
  have e2 : ∑ x ∈ range b, F (Spec.mirror n (((t + n + x : ℕ) : ℤ) - t)) =
      ∑ d ∈ range b, F (Spec.mirror n ((n : ℤ) + d)) := by
    refine sum_congr rfl fun i _ => ?_
    congr 2; omega
  rw [e1, e2]
  have hl := sum_mirror_left n t hn ht.le F hF
  have hr := sum_mirror_right n b hn hb.le F hF
  rw [if_neg ht.ne] at hl
  rw [if_neg hb.ne] at hr
  linarith

theorem padded_energy {x y U V : List ℝ} {l r : ℕ} (hxy : y.length = x.length) (hU : npPad x l r = .ok U)
    (hV : npPad y l r = .ok V) : V.length = U.length ∧ energy1 (diffL U V) ≤ 3 * energy1 (diffL x y) := by
  obtain ⟨h1, h2⟩ := padded_of_npPad hU
  obtain ⟨g1, g2⟩ := padded_of_npPad hV
  obtain ⟨hl, hr, -⟩ := npPad_length hU
  rw [hxy] at g1 g2
  refine ⟨by omega, ?_⟩
  rw [energy1_diffL, energy1_diffL, h1]
  refine le_trans (le_of_eq (sum_congr rfl fun i hi => ?_))
    (sum_mirror_le_three x.length l r hl hr (fun i => (x.getD i 0 - y.getD i 0) ^ 2) fun i => sq_nonneg _)
  rw [h2 i (mem_range.1 hi), g2 i (mem_range.1 hi)]

/-- Every path of a run without local averaging, with its moduli. -/
theorem path_moduli_un {x : List ℝ} {phi : Filt (List ℝ)} {psi1 psi2 : List (Filt (List ℝ))} {mo ls : ℕ}
    {out : List (Path (List ℝ))}
    (h : scattering1d npBackend x phi ([psi1, psi2].take mo) ls false = .ok out) {p : Path (List ℝ)} (hp : p ∈ out) :
    (p.n = [] ∧ p.j = [] ∧ p.coef = x) ∨
    (∃ n1 f1, psi1[n1]? = some f1 ∧ p.n = [n1] ∧ p.j = [f1.j] ∧
      bandpass npBackend f1 (npRfft x) 0 f1.j = .ok p.coef) ∨
    (∃ n1 n2 f1 f2 U, psi1[n1]? = some f1 ∧ psi2[n2]? = some f2 ∧ p.n = [n1, n2] ∧ p.j = [f1.j, f2.j] ∧
      f1.j < f2.j ∧ bandpass npBackend f1 (npRfft x) 0 f1.j = .ok U ∧
      bandpass npBackend f2 (npRfft U) f1.j (f2.j - f1.j) = .ok p.coef) := by
  have key := mem_scattering1d npBackend h hp
  change Path npBackend.R at p
  cases key with
  | zero U0hat c h0 hc =>
    injection hc with hc
    exact Or.inl ⟨rfl, rfl, hc.symm⟩
  | one U0hat U1m c q1 n1 psi h0 hp1 hn1 hU hc =>
    have hU0 : U0hat = npRfft x := by injection h0 with h; exact h.symm
    subst hU0
    have : q1 = psi1 := take2_zero hp1
    subst this
    simp only [Bool.false_eq_true, if_false] at hU hc
    have hcu := hc.2 rfl
    subst hcu
    exact Or.inr (Or.inl ⟨n1, psi, hn1, rfl, rfl, hU⟩)
  | two U0hat U1m U1hat c q1 q2 n1 n2 psi psi' h0 hp1 hn1 hp2 hn2 hj hU hUh hc =>
    have hU0 : U0hat = npRfft x := by injection h0 with h; exact h.symm
    subst hU0
    have : q1 = psi1 := take2_zero hp1
    subst this
    have : q2 = psi2 := take2_one hp2
    subst this
    have : U1hat = npRfft U1m := by injection hUh with h; exact h.symm
    subst this
    simp only [Bool.false_eq_true, if_false] at hU hc
    obtain ⟨U2m, hU2, -, hs⟩ := hc
    have hcu := hs rfl
    subst hcu
    simp only [Bool.false_eq_true, if_false] at hU2
    exact Or.inr (Or.inr ⟨n1, n2, psi, psi', U1m, hn1, hn2, rfl, rfl, hj, hU, hU2⟩)

/-- Cutting a window out of two signals does not increase the energy of their difference. -/
theorem unpad_energy {c d : List ℝ} (hl : d.length = c.length) (i0 i1 : ℕ) :
    (npUnpad d i0 i1).length = (npUnpad c i0 i1).length ∧
      ∑ t ∈ range (npUnpad c i0 i1).length, ((npUnpad c i0 i1).getD t 0 - (npUnpad d i0 i1).getD t 0) ^ 2 ≤
        energy1 (diffL c d) := by
  have hlen : (npUnpad d i0 i1).length = (npUnpad c i0 i1).length := by
    unfold npUnpad
    simp [hl]
  refine ⟨hlen, ?_⟩
  have e : ∀ t ∈ range (npUnpad c i0 i1).length,
      ((npUnpad c i0 i1).getD t 0 - (npUnpad d i0 i1).getD t 0) ^ 2 = (c.getD (i0 + t) 0 - d.getD (i0 + t) 0) ^ 2 := by
    intro t ht
    have ht := mem_range.1 ht
    rw [(getD_npUnpad_lt ht).1, (getD_npUnpad_lt (by rw [hlen]; exact ht)).1]
  rw [sum_congr rfl e, energy1_diffL]
  rcases Nat.eq_zero_or_pos (npUnpad c i0 i1).length with h0 | hpos
  · rw [h0]
    simpa using sum_nonneg fun i _ => sq_nonneg (c.getD i 0 - d.getD i 0)
  have hlast := (getD_npUnpad_lt (x := c) (i0 := i0) (i1 := i1) (t := (npUnpad c i0 i1).length - 1) (by omega)).2
  rw [← Finset.sum_image (s := range (npUnpad c i0 i1).length) (g := fun t => i0 + t)
    (f := fun i => (c.getD i 0 - d.getD i 0) ^ 2) (by intro a _ b _ h; simpa using h)]
  refine sum_le_sum_of_subset_of_nonneg ?_ fun _ _ _ => sq_nonneg _
  intro i hi
  obtain ⟨t, ht, rfl⟩ := mem_image.1 hi
  have := mem_range.1 ht
  exact mem_range.2 (by omega)

theorem resolution_congr {o : Obj1D (List ℝ)} {ls : ℕ} {p q : Path (List ℝ)} (hn : p.n = q.n) (hj : p.j = q.j) :
    resolution o ls p = resolution o ls q := by
  unfold resolution
  rw [hn, hj]

/-- Equal paths of two runs have equal scales. -/
theorem unpad_pair {o : Obj1D (List ℝ)} {ls : ℕ} {c d p q : Path (List ℝ)} (hg : o.average ≠ .glob)
    (hc : post npFront o ls c = .ok p) (hd : post npFront o ls d = .ok q) (hn : c.n = d.n) (hj : c.j = d.j)
    (hl : d.coef.length = c.coef.length) :
    q.coef.length = p.coef.length ∧
      ∑ t ∈ range p.coef.length, (p.coef.getD t 0 - q.coef.getD t 0) ^ 2 ≤ energy1 (diffL c.coef d.coef) := by
  rcases post_coef hc with ⟨h, -⟩ | ⟨-, r, i0, i1, h1, h2, h3, h4⟩
  · exact absurd h hg
  rcases post_coef hd with ⟨h, -⟩ | ⟨-, r', k0, k1, g1, g2, g3, g4⟩
  · exact absurd h hg
  rw [resolution_congr hn hj, g1] at h1
  injection h1 with h1
  subst h1
  rw [h2] at g2
  injection g2 with g2
  subst g2
  rw [h3] at g3
  injection g3 with g3
  subst g3
  rw [h4, g4]
  exact unpad_energy hl _ _

theorem l2_sub_le {n : ℕ} {v : ℕ → ℝ} {x y : List ℝ} {C : ℝ} (hC : 0 ≤ C)
    (h : ∑ i ∈ range n, v i ^ 2 ≤ 3 * C ^ 2 * energy1 (diffL x y)) :
    Spec.l2 n v ≤ Real.sqrt 3 * C * Spec.l2 x.length fun i => x.getD i 0 - y.getD i 0 := by
  refine Spec.l2_le_of_sq (by positivity) ?_
  rw [mul_pow, Real.sq_sqrt (by norm_num), ← energy1_diffL]
  exact h

theorem map_prod_nonneg {G : ℕ → ℝ} (hG : ∀ l, 0 ≤ G l) (h : ℕ → ℕ) (l : List ℕ) :
    0 ≤ (l.map fun j => G (h j)).prod :=
  List.prod_nonneg (by
    intro b hb
    obtain ⟨j, -, rfl⟩ := List.mem_map.1 hb
    exact hG _)

theorem map_pow_prod (h : ℕ → ℕ) (l : List ℕ) : (l.map fun j => (2 : ℝ) ^ h j).prod = 2 ^ (l.map h).sum := by
  induction l with
  | nil => simp
  | cons a l ih => rw [List.map_cons, List.prod_cons, ih, List.map_cons, List.sum_cons, pow_add]

/-- Gain of the stored levels of the second bank. -/
theorem second_gain {a : Args1D} {s : Sc1D} (hmake : a.make = .ok s) (n : ℕ) (f : Filt (List ℝ))
    (hf : (s.psi2.map FiltX.toFilt)[n]? = some f) (l : ℕ) (y : List ℝ) (hy : f.levels[l]? = some y) :
    ∀ m < y.length, |y.getD m 0| ≤ 2 ^ l := by
  obtain ⟨_, Q1, Q2, -, -, -, -, -, -, -, hQ, -⟩ := make_filters hmake
  obtain ⟨mo, hps, -, HH2⟩ := make_banks hmake hQ
  obtain ⟨pr, hpr, hfull, hnorm⟩ := HH2 n f hf
  exact hfull.gain hnorm hy

/-- Stability with a bound `G` on the levels of the second bank. -/
theorem stable_averaged (a : Args1D) (s : Sc1D) (hmake : a.make = .ok s) (T : Rat)
    (hT : parseT a.T a.J s.built.Ninput = .ok (T, .loc)) (ls : ℕ)
    (hls : log2Stride s.built.stride a.T a.J s.built.Ninput = .ok ls)
    (x y : List ℝ) (hxy : y.length = x.length)
    (G : ℕ → ℝ) (hG0 : ∀ l, 0 ≤ G l)
    (hG : ∀ (n : ℕ) f, (s.psi2.map FiltX.toFilt)[n]? = some f → ∀ l < f.j, ∀ y, f.levels[l]? = some y →
      ∀ m < y.length, |y.getD m 0| ≤ G l)
    (l m : List (Path (List ℝ))) (hl : a.run x = .ok (.list l)) (hm : a.run y = .ok (.list m))
    (p q : Path (List ℝ)) (hp : p ∈ l) (hq : q ∈ m) (hpq : p.n = q.n)
    (hstep : (2 : ℚ) ^ min (p.j.getLastD 0) ls ≤ T) :
    q.coef.length = p.coef.length ∧
    (Spec.l2 p.coef.length fun t => p.coef.getD t 0 - q.coef.getD t 0) ≤
      Real.sqrt 3 * (1.001 * (p.j.dropLast.map fun j => G (min j ls)).prod) *
        Spec.l2 x.length fun i => x.getD i 0 - y.getD i 0 := by
  have hav : s.average = .loc := by
    obtain ⟨t, -, -, hT', -⟩ := make_sizes hmake
    rw [hT] at hT'
    injection hT' with hT'
    injection hT' with e1 e2
    exact e2.symm
  obtain ⟨_, Q1, Q2, -, -, -, -, -, -, -, hQ, -⟩ := make_filters hmake
  obtain ⟨mo, hps, HH1, -⟩ := make_banks hmake hQ
  obtain ⟨Hphi, -, -⟩ := make_fromFull hmake hT hQ
  obtain ⟨X, ls1, out, hX, hls1, hout, hpost⟩ := run_list hmake hl
  obtain ⟨Y, ls2, out', hY, hls2, hout', hpost'⟩ := run_list hmake hm
  rw [hls] at hls1 hls2
  injection hls1 with hls1
  injection hls2 with hls2
  subst hls1 hls2
  rw [hps, hav] at hout hout'
  simp only [decide_true, Int.toNat_natCast] at hout hout' hpost hpost'
  obtain ⟨hXY, hE⟩ := padded_energy hxy hX hY
  obtain ⟨c, hc, hcp⟩ := hpost p hp
  obtain ⟨d, hd, hdq⟩ := hpost' q hq
  obtain ⟨pn, pj⟩ := post_labels hcp
  obtain ⟨qn, qj⟩ := post_labels hdq
  have hcd : c.n = d.n := by rw [← pn, ← qn, hpq]
  rw [pj] at hstep ⊢
  have hstepR : (2 : ℝ) ^ min (c.j.getLastD 0) ls ≤ T := by exact_mod_cast hstep
  have hphi : ∀ k, k = min (c.j.getLastD 0) ls → ∀ f, s.phi.toFilt.levels[k]? = some f → ∀ m < f.length,
      |f.getD m 0| ≤ 1.001 := by
    rintro k rfl f hf
    exact (phi_level_bounds Hphi hstepR hf).1
  have key : c.j = d.j ∧ d.coef.length = c.coef.length ∧
      energy1 (diffL c.coef d.coef) ≤ (1.001 * (c.j.dropLast.map fun j => G (min j ls)).prod) ^ 2 * energy1 (diffL X Y) := by
    rcases path_moduli hout hc with ⟨n1, j1, l1⟩ | ⟨n1, f1, U, hf1, en, ej, hU, l1⟩ |
        ⟨n1, n2, f1, f2, U, V, hf1, hf2, en, ej, hj, hU, hV, l1⟩ <;>
      rcases path_moduli hout' hd with ⟨m1, k1, l2⟩ | ⟨m1, g1, U', hg1, em, ek, hU', l2⟩ |
        ⟨m1, m2, g1, g2, U', V', hg1, hg2, em, ek, hk, hU', hV', l2⟩
    · obtain ⟨h1, h2⟩ := low_diff hXY l1 l2 (hphi 0 (by rw [j1]; simp))
      refine ⟨by rw [j1, k1], h1, ?_⟩
      rw [j1]
      simpa using h2
    · rw [n1, em] at hcd; cases hcd
    · rw [n1, em] at hcd; cases hcd
    · rw [en, m1] at hcd; cases hcd
    · rw [en, em] at hcd
      injection hcd with e
      subst e
      rw [hf1] at hg1
      injection hg1 with hg1
      subst hg1
      obtain ⟨pr, hpr, hfull, hnorm⟩ := HH1 n1 f1 hf1
      obtain ⟨b1, b2⟩ := band_diff hXY hU hU' (C := 2 ^ 0) fun f hf => hfull.gain hnorm hf
      obtain ⟨h1, h2⟩ := low_diff b1 l1 l2 (hphi _ (by rw [ej]; rfl))
      refine ⟨by rw [ej, ek], h1, ?_⟩
      rw [ej]
      simp only [pow_zero, one_pow, one_mul] at b2
      simpa using h2.trans (mul_le_mul_of_nonneg_left b2 (by positivity))
    · rw [en, em] at hcd; cases hcd
    · rw [en, m1] at hcd; cases hcd
    · rw [en, em] at hcd; cases hcd
    · rw [en, em] at hcd
      injection hcd with e e'
      injection e' with e'
      subst e e'
      rw [hf1] at hg1
      injection hg1 with hg1
      subst hg1
      rw [hf2] at hg2
      injection hg2 with hg2
      subst hg2
      obtain ⟨pr, hpr, hfull, hnorm⟩ := HH1 n1 f1 hf1
      obtain ⟨b1, b2⟩ := band_diff hXY hU hU' (C := 2 ^ 0) fun f hf => hfull.gain hnorm hf
      obtain ⟨b3, b4⟩ := band_diff b1 hV hV' (C := G (min f1.j ls))
        (hG n2 f2 hf2 _ (lt_of_le_of_lt (min_le_left _ _) hj))
      obtain ⟨h1, h2⟩ := low_diff b3 l1 l2 (hphi _ (by rw [ej]; rfl))
      refine ⟨by rw [ej, ek], h1, ?_⟩
      rw [ej]
      simp only [pow_zero, one_pow, one_mul] at b2
      have := h2.trans (mul_le_mul_of_nonneg_left (b4.trans (mul_le_mul_of_nonneg_left b2 (by positivity)))
        (by positivity))
      simpa [mul_pow, mul_assoc] using this
  obtain ⟨k1, k2, k3⟩ := key
  have hng : (a.obj s).average ≠ .glob := by
    change s.average ≠ .glob
    rw [hav]; simp
  obtain ⟨g1, g2⟩ := unpad_pair hng hcp hdq hcd k1 k2
  refine ⟨g1, l2_sub_le (mul_nonneg (by norm_num) (map_prod_nonneg hG0 _ _)) ?_⟩
  have := g2.trans (k3.trans (mul_le_mul_of_nonneg_left hE (by positivity)))
  linarith

/-- **C112, local averaging.**  Two signals whose difference has Euclidean norm `D` have coefficients whose difference
has norm at most `1.001 √3 D` at orders zero and one, and `2^min(j1, log2_stride)` times this at order two, as long as
the step of the last modulus of the path is not larger than the support `T` of the low-pass filter. -/
theorem C112_averaged (a : Args1D) (s : Sc1D) (hmake : a.make = .ok s) (T : Rat)
    (hT : parseT a.T a.J s.built.Ninput = .ok (T, .loc)) (ls : ℕ)
    (hls : log2Stride s.built.stride a.T a.J s.built.Ninput = .ok ls)
    (x y : List ℝ) (hxy : y.length = x.length)
    (l m : List (Path (List ℝ))) (hl : a.run x = .ok (.list l)) (hm : a.run y = .ok (.list m))
    (p q : Path (List ℝ)) (hp : p ∈ l) (hq : q ∈ m) (hpq : p.n = q.n)
    (hstep : (2 : ℚ) ^ min (p.j.getLastD 0) ls ≤ T) :
    q.coef.length = p.coef.length ∧
    (Spec.l2 p.coef.length fun t => p.coef.getD t 0 - q.coef.getD t 0) ≤
      Real.sqrt 3 * (1.001 * 2 ^ (p.j.dropLast.map fun j => min j ls).sum) *
        Spec.l2 x.length fun i => x.getD i 0 - y.getD i 0 := by
  obtain ⟨h1, h2⟩ := stable_averaged a s hmake T hT ls hls x y hxy (fun l => 2 ^ l) (fun l => by positivity)
    (fun n f hf l _ y hy => second_gain hmake n f hf l y hy) l m hl hm p q hp hq hpq hstep
  rw [map_pow_prod] at h2
  exact ⟨h1, h2⟩

/-- The same without local averaging. -/
theorem stable_unaveraged (a : Args1D) (s : Sc1D) (hmake : a.make = .ok s)
    (x y : List ℝ) (hx : x.length = s.built.Ninput) (hxy : y.length = x.length)
    (G : ℕ → ℝ) (hG0 : ∀ l, 0 ≤ G l)
    (hG : ∀ (n : ℕ) f, (s.psi2.map FiltX.toFilt)[n]? = some f → ∀ l < f.j, ∀ y, f.levels[l]? = some y →
      ∀ m < y.length, |y.getD m 0| ≤ G l)
    (l m : List (Path (List ℝ))) (hl : a.run x = .ok (.list l)) (hm : a.run y = .ok (.list m))
    (p q : Path (List ℝ)) (hp : p ∈ l) (hq : q ∈ m) (hpq : p.n = q.n) :
    (s.average = .no → q.coef.length = p.coef.length ∧
      (Spec.l2 p.coef.length fun t => p.coef.getD t 0 - q.coef.getD t 0) ≤
        Real.sqrt 3 * (p.j.dropLast.map G).prod * Spec.l2 x.length fun i => x.getD i 0 - y.getD i 0) ∧
    (s.average = .glob → ∃ v w, p.coef = [v] ∧ q.coef = [w] ∧
      |v - w| ≤ Real.sqrt ((s.built.Npadded / 2 ^ p.j.getLastD 0 : ℕ) : ℝ) *
        (Real.sqrt 3 * (p.j.dropLast.map G).prod * Spec.l2 x.length fun i => x.getD i 0 - y.getD i 0)) := by
  by_cases hav : s.average = .loc
  · constructor <;> intro h <;> rw [hav] at h <;> cases h
  obtain ⟨_, Q1, Q2, -, -, -, -, -, -, -, hQ, -⟩ := make_filters hmake
  obtain ⟨mo, hps, HH1, HH2⟩ := make_banks hmake hQ
  obtain ⟨X, ls1, out, hX, hls1, hout, hpost⟩ := run_list hmake hl
  obtain ⟨Y, ls2, out', hY, hls2, hout', hpost'⟩ := run_list hmake hm
  rw [hls1] at hls2
  injection hls2 with hls2
  subst hls2
  rw [hps, decide_eq_false hav] at hout hout'
  obtain ⟨hXY, hE⟩ := padded_energy hxy hX hY
  obtain ⟨c, hc, hcp⟩ := hpost p hp
  obtain ⟨d, hd, hdq⟩ := hpost' q hq
  obtain ⟨pn, pj⟩ := post_labels hcp
  obtain ⟨qn, qj⟩ := post_labels hdq
  have hcd : c.n = d.n := by rw [← pn, ← qn, hpq]
  rw [pj]
  have key : c.j = d.j ∧ c.coef.length * 2 ^ c.j.getLastD 0 = X.length ∧ d.coef.length = c.coef.length ∧
      energy1 (diffL c.coef d.coef) ≤ ((c.j.dropLast.map G).prod) ^ 2 * energy1 (diffL X Y) := by
    rcases path_moduli_un hout hc with ⟨n1, j1, l1⟩ | ⟨n1, f1, hf1, en, ej, hU⟩ |
        ⟨n1, n2, f1, f2, U, hf1, hf2, en, ej, hj, hU, hV⟩ <;>
      rcases path_moduli_un hout' hd with ⟨m1, k1, l2⟩ | ⟨m1, g1, hg1, em, ek, hU'⟩ |
        ⟨m1, m2, g1, g2, U', hg1, hg2, em, ek, hk, hU', hV'⟩
    · rw [l1, l2, j1, k1]
      exact ⟨rfl, by simp, hXY, by simp⟩
    · rw [n1, em] at hcd; cases hcd
    · rw [n1, em] at hcd; cases hcd
    · rw [en, m1] at hcd; cases hcd
    · rw [en, em] at hcd
      injection hcd with e
      subst e
      rw [hf1] at hg1
      injection hg1 with hg1
      subst hg1
      obtain ⟨pr, hpr, hfull, hnorm⟩ := HH1 n1 f1 hf1
      obtain ⟨b1, b2⟩ := band_diff hXY hU hU' (C := 2 ^ 0) fun f hf => hfull.gain hnorm hf
      refine ⟨by rw [ej, ek], by rw [ej]; exact (U1_closed hfull hU).1, b1, ?_⟩
      rw [ej]
      simpa using b2
    · rw [en, em] at hcd; cases hcd
    · rw [en, m1] at hcd; cases hcd
    · rw [en, em] at hcd; cases hcd
    · rw [en, em] at hcd
      injection hcd with e e'
      injection e' with e'
      subst e e'
      rw [hf1] at hg1
      injection hg1 with hg1
      subst hg1
      rw [hf2] at hg2
      injection hg2 with hg2
      subst hg2
      obtain ⟨pr, hpr, hfull, hnorm⟩ := HH1 n1 f1 hf1
      obtain ⟨pr2, hpr2, hfull2, hnorm2⟩ := HH2 n2 f2 hf2
      obtain ⟨b1, b2⟩ := band_diff hXY hU hU' (C := 2 ^ 0) fun f hf => hfull.gain hnorm hf
      obtain ⟨b3, b4⟩ := band_diff b1 hV hV' (C := G f1.j) (hG n2 f2 hf2 _ hj)
      obtain ⟨hUl, hUv⟩ := U1_closed hfull hU
      refine ⟨by rw [ej, ek], by rw [ej]; exact (U2_closed hfull2 hj.le hUl hUv hV).1, b3, ?_⟩
      rw [ej]
      simp only [pow_zero, one_pow, one_mul] at b2
      simpa using b4.trans (mul_le_mul_of_nonneg_left b2 (by positivity))
  obtain ⟨k1, kl, k2, k3⟩ := key
  have k4 : energy1 (diffL c.coef d.coef) ≤ 3 * ((c.j.dropLast.map G).prod) ^ 2 * energy1 (diffL x y) := by
    have := k3.trans (mul_le_mul_of_nonneg_left hE (by positivity))
    linarith
  refine ⟨fun hno => ?_, fun hgl => ?_⟩
  · have hng : (a.obj s).average ≠ .glob := by
      change s.average ≠ .glob
      rw [hno]; simp
    obtain ⟨g1, g2⟩ := unpad_pair hng hcp hdq hcd k1 k2
    exact ⟨g1, l2_sub_le (map_prod_nonneg hG0 id _) (g2.trans k4)⟩
  · have hg : ∀ {r t : Path (List ℝ)}, post npFront (a.obj s) ls1.toNat r = .ok t → t.coef = [r.coef.sum] := by
      intro r t h
      rcases post_coef h with ⟨-, h⟩ | ⟨h, -⟩
      · exact h
      · exact absurd hgl h
    refine ⟨_, _, hg hcp, hg hdq, ?_⟩
    have hXl : X.length = s.built.Npadded := by
      obtain ⟨t, lT, -, -, -, h1, -⟩ := make_sizes hmake
      have := (npPad_length hX).2.2
      omega
    have hn : s.built.Npadded / 2 ^ c.j.getLastD 0 = c.coef.length := by
      rw [← hXl, ← kl, Nat.mul_div_cancel _ (by positivity)]
    rw [hn]
    have h5 : Spec.l2 c.coef.length (fun t => c.coef.getD t 0 - d.coef.getD t 0) ≤
        Real.sqrt 3 * (c.j.dropLast.map G).prod * Spec.l2 x.length fun i => x.getD i 0 - y.getD i 0 :=
      l2_sub_le (map_prod_nonneg hG0 id _) (by rw [← energy1_diffL]; exact k4)
    refine le_trans ?_ (mul_le_mul_of_nonneg_left h5 (Real.sqrt_nonneg _))
    rw [getD_eq_fn, getD_eq_fn, k2, ← sum_sub_distrib]
    unfold Spec.l2
    rw [← Real.sqrt_mul (Nat.cast_nonneg _)]
    apply Real.abs_le_sqrt
    have := sq_sum_le_card_mul_sum_sq (s := range c.coef.length) (f := fun t => c.coef.getD t 0 - d.coef.getD t 0)
    simpa using this

/-- **C112, without local averaging.**  With `T = 0` the constant is `√3` at orders zero and one and `2^j1 √3` at order
two; with `T = 'global'` the sum moves by at most this times the square root of the number of samples summed. -/
theorem C112_unaveraged (a : Args1D) (s : Sc1D) (hmake : a.make = .ok s)
    (x y : List ℝ) (hx : x.length = s.built.Ninput) (hxy : y.length = x.length)
    (l m : List (Path (List ℝ))) (hl : a.run x = .ok (.list l)) (hm : a.run y = .ok (.list m))
    (p q : Path (List ℝ)) (hp : p ∈ l) (hq : q ∈ m) (hpq : p.n = q.n) :
    (s.average = .no → q.coef.length = p.coef.length ∧
      (Spec.l2 p.coef.length fun t => p.coef.getD t 0 - q.coef.getD t 0) ≤
        Real.sqrt 3 * 2 ^ p.j.dropLast.sum * Spec.l2 x.length fun i => x.getD i 0 - y.getD i 0) ∧
    (s.average = .glob → ∃ v w, p.coef = [v] ∧ q.coef = [w] ∧
      |v - w| ≤ Real.sqrt ((s.built.Npadded / 2 ^ p.j.getLastD 0 : ℕ) : ℝ) *
        (Real.sqrt 3 * 2 ^ p.j.dropLast.sum * Spec.l2 x.length fun i => x.getD i 0 - y.getD i 0)) := by
  have h := stable_unaveraged a s hmake x y hx hxy (fun l => 2 ^ l) (fun l => by positivity)
    (fun n f hf l _ y hy => second_gain hmake n f hf l y hy) l m hl hm p q hp hq hpq
  have e := map_pow_prod id p.j.dropLast
  simp only [id, List.map_id_fun] at e
  rw [e] at h
  exact h

/-- Scale and stride of the object of the examples. -/
theorem exArgs_stride {s : Sc1D} (h1 : (exArgs .none .list).make = .ok s) (h2 : s.built.Ninput = 1000) :
    parseT (exArgs .none .list).T (exArgs .none .list).J s.built.Ninput = .ok (8, .loc) ∧
    log2Stride s.built.stride (exArgs .none .list).T (exArgs .none .list).J s.built.Ninput = .ok ((3 : ℕ) : ℤ) := by
  obtain ⟨s', h1', -, -, h5⟩ := C17_construction (exArgs .none .list) 1000 rfl (by norm_num) (2 ^ 3)
    .loc rfl 8 1 rfl (by norm_num) (le_jPad_of_pow (by norm_num) (by norm_num [exArgs])) (Or.inr rfl)
  rw [h1] at h1'
  injection h1' with h1'
  subst h1'
  refine ⟨by rw [h2]; norm_num [parseT, exArgs], ?_⟩
  rw [h5, h2]
  refine (C07_log2_stride_ok _ _ _ _ _).2 (Or.inl ⟨rfl, ?_⟩)
  show Except.ok (floorLog2 (2 ^ 3)) = _
  rw [floorLog2_twoPow]

theorem pow_min_three (j : ℕ) : (2 : ℤ) ^ min j 3 ∣ 8 ∧ (2 : ℚ) ^ min j 3 ≤ 8 := by
  have : min j 3 ≤ 3 := min_le_right _ _
  interval_cases min j 3 <;> norm_num

/-- The hypotheses of `C111_shift` are met by the object `Scattering1D(J=3, shape=1000, Q=(8, 1))`, every path and every
roll by a multiple of 8 of any padded signal: both runs return. -/
example (x : List ℝ) (hx : x.length = 1000) : ∃ s U V out out', (exArgs .none .list).make = .ok s ∧
    parseT (exArgs .none .list).T (exArgs .none .list).J s.built.Ninput = .ok (8, .loc) ∧
    npPad x s.built.padLeft s.built.padRight = .ok U ∧ Spec.IsRoll 8 U V ∧
    scattering1d npBackend U s.phi.toFilt (psis ((exArgs .none .list).obj s)) 3 true = .ok out ∧
    scattering1d npBackend V s.phi.toFilt (psis ((exArgs .none .list).obj s)) 3 true = .ok out' ∧
    out ≠ [] ∧ List.Forall₂ (fun p q => p.n = q.n) out out' ∧
    ∀ p ∈ out, (2 : ℤ) ^ min (p.j.getLastD 0) 3 ∣ 8 ∧ (2 : ℚ) ^ min (p.j.getLastD 0) 3 ≤ 8 := by
  obtain ⟨s, l, hs, hN, hav, hl⟩ := exArgs_list (T := .none) (av := .loc) (.inl ⟨rfl, rfl⟩) x hx
  obtain ⟨U, ls, out, hU, hls, hout, -⟩ := run_list hs hl
  obtain ⟨hT, hls'⟩ := exArgs_stride hs hN
  rw [hls'] at hls
  injection hls with hls
  have hls3 : ls.toNat = 3 := by omega
  rw [hls3, hav] at hout
  simp only [decide_true] at hout
  have hroll : Spec.IsRoll 8 U (tab U.length fun n => U.getD (((n : ℤ) - 8) % U.length).toNat 0) :=
    ⟨by simp, fun n hn => getD_tab_lt hn⟩
  obtain ⟨out', hout', hF⟩ := shift_run U _ 8 hroll s.phi.toFilt (psis ((exArgs .none .list).obj s)) 3 true out hout
  refine ⟨s, U, _, out, out', hs, hT, hU, hroll, hout, hout', ?_, ?_, fun p _ => ?_⟩
  · obtain ⟨_, c, _, rest, -, -, -, -, rfl⟩ := scattering1d_eq_ok npBackend hout
    simp
  · exact hF.imp fun p q h => h.2.1
  · exact pow_min_three _

/-- The hypotheses of `C112_averaged` are met by the same object, any two signals of 1000 samples and every path. -/
example (x y : List ℝ) (hx : x.length = 1000) (hy : y.length = 1000) : ∃ s l m,
    (exArgs .none .list).make = .ok s ∧
    parseT (exArgs .none .list).T (exArgs .none .list).J s.built.Ninput = .ok (8, .loc) ∧
    log2Stride s.built.stride (exArgs .none .list).T (exArgs .none .list).J s.built.Ninput = .ok ((3 : ℕ) : ℤ) ∧
    (exArgs .none .list).run x = .ok (.list l) ∧ (exArgs .none .list).run y = .ok (.list m) ∧
    ∀ p ∈ l, (2 : ℚ) ^ min (p.j.getLastD 0) 3 ≤ 8 := by
  obtain ⟨s, l, hs, hN, hav, hl⟩ := exArgs_list (T := .none) (av := .loc) (.inl ⟨rfl, rfl⟩) x hx
  obtain ⟨s', m, hs', -, -, hm⟩ := exArgs_list (T := .none) (av := .loc) (.inl ⟨rfl, rfl⟩) y hy
  obtain ⟨hT, hls⟩ := exArgs_stride hs hN
  exact ⟨s, l, m, hs, hT, hls, hl, hm, fun p _ => (pow_min_three _).2⟩

/-- Objects with `T = 0` and `T = 'global'` for `C112_unaveraged`. -/
example (x y : List ℝ) (hx : x.length = 1000) (hy : y.length = 1000) : ∃ s s' l m l' m',
    (exArgs (.num 0) .list).make = .ok s ∧ s.average = .no ∧ x.length = s.built.Ninput ∧
    (exArgs (.num 0) .list).run x = .ok (.list l) ∧ (exArgs (.num 0) .list).run y = .ok (.list m) ∧
    (exArgs .global .list).make = .ok s' ∧ s'.average = .glob ∧
    (exArgs .global .list).run x = .ok (.list l') ∧ (exArgs .global .list).run y = .ok (.list m') := by
  obtain ⟨s, l, hs, hN, hav, hl⟩ := exArgs_list (T := .num 0) (av := .no) (.inr (.inr (.inl ⟨rfl, rfl⟩))) x hx
  obtain ⟨-, m, -, -, -, hm⟩ := exArgs_list (T := .num 0) (av := .no) (.inr (.inr (.inl ⟨rfl, rfl⟩))) y hy
  obtain ⟨s', l', hs', -, hav', hl'⟩ := exArgs_list (T := .global) (av := .glob) (.inr (.inl ⟨rfl, rfl⟩)) x hx
  obtain ⟨-, m', -, -, -, hm'⟩ := exArgs_list (T := .global) (av := .glob) (.inr (.inl ⟨rfl, rfl⟩)) y hy
  exact ⟨s, s', l, m, l', m', hs, hav, by omega, hl, hm, hs', hav', hl', hm'⟩

end Verif
