import Verif.Props.NoError1D

/-!
# C20, C21, C28: zero mean, unit norm, and their consequences for the transform
-/

namespace Verif

open Finset Core1D Front1D

/-! ## C28 -/

/-- C28, wavelets of a constructed object.  For every set of constructor arguments accepted by
`Scattering1D` with a signal of at least two samples, every first- or second-order wavelet has a
full-rate transfer function `h` of the padded length, which is zero at frequency zero, is not
identically zero, whose impulse response has L1 norm exactly one, and whose magnitude is nowhere
above one. -/
theorem C28_wavelets (a : Args1D) (s : Sc1D) (hmake : a.make = .ok s) (hN : 2 ≤ s.built.Ninput)
    (f : FiltX) (hf : f ∈ s.psi1 ++ s.psi2) :
    ∃ h, f.levels[0]? = some h ∧ h.length = s.built.Npadded ∧ h.getD 0 0 = 0 ∧
      (∃ k < s.built.Npadded, h.getD k 0 ≠ 0) ∧
      ∑ m ∈ range s.built.Npadded, ‖Spec.impulseR h m‖ = 1 ∧
      ∀ k, |h.getD k 0| ≤ 1 := by
  obtain ⟨Q, p, b, hQ, hp, -, -, -, hlv⟩ := make_wavelet hmake hf
  obtain ⟨hNp, heven⟩ := make_even hmake hN
  obtain ⟨hx, -, hsg⟩ := anden_pos hQ hp
  have hs : 0 < p.2 := lt_of_lt_of_le (by positivity) hsg
  have hl := length_morlet1d (N := s.built.Npadded) (xi := some p.1) hs
  have hnorm := l1norm_morlet1d _ _ _ (l1norm_anden hQ hNp heven hp).ne'
  have hsum := hnorm
  rw [l1norm_eq, hl] at hsum
  refine ⟨_, makeLevels_zero hlv, hl, ?_, ?_, hsum, fun k => ?_⟩
  · unfold morlet1d
    have hz := morletRaw_zero (N := s.built.Npadded) hs hx.ne'
    rw [List.getD_eq_getElem?_getD] at hz ⊢
    simp only [List.getElem?_map]
    cases hc : (morletRaw s.built.Npadded (some p.1) p.2)[0]? with
    | none => rfl
    | some v =>
      rw [hc] at hz
      simp only [Option.getD_some] at hz
      simp [hz]
  · by_contra hc
    push Not at hc
    have h0 : ∀ k, (morlet1d s.built.Npadded (some p.1) p.2).getD k 0 = 0 := by
      intro k
      rcases Nat.lt_or_ge k s.built.Npadded with hk | hk
      · exact hc k hk
      · rw [List.getD_eq_getElem?_getD, List.getElem?_eq_none (by rw [hl]; exact hk)]; rfl
    have : ∑ m ∈ range s.built.Npadded,
        ‖Spec.impulseR (morlet1d s.built.Npadded (some p.1) p.2) m‖ = 0 := by
      apply Finset.sum_eq_zero
      intro m _
      unfold Spec.impulseR
      rw [← imp_eq_impulse]
      unfold imp
      rw [Finset.sum_eq_zero]
      · simp
      · intro k _
        rw [getD_ofReal, h0]
        simp
    rw [this] at hsum
    exact zero_ne_one hsum
  · rw [← hnorm]
    exact gain_le_l1norm _ k

/-- C28, low-pass of a constructed object (any length): positive transfer function, unit L1 norm,
magnitude at most one. -/
theorem C28_lowpass (a : Args1D) (s : Sc1D) (hmake : a.make = .ok s) :
    ∃ h, s.phi.levels[0]? = some h ∧ h.length = s.built.Npadded ∧
      (∀ k < s.built.Npadded, 0 < h.getD k 0) ∧
      ∑ m ∈ range s.built.Npadded, ‖Spec.impulseR h m‖ = 1 ∧ ∀ k, |h.getD k 0| ≤ 1 := by
  obtain ⟨t, Q1, Q2, lT, M1, M2, -, -, ht, -, -, -, -, -, -, -, hlv, -⟩ := make_filters hmake
  obtain ⟨t', lT', -, -, -, -, -, -, -, h2, -⟩ := make_sizes hmake
  have hNp : 0 < s.built.Npadded := by rw [h2]; positivity
  have hs : (0 : ℝ) < 0.1 / t := by
    have : (0 : ℝ) < t := by exact_mod_cast (by linarith : (0 : ℚ) < t)
    positivity
  have hl := length_morlet1d (N := s.built.Npadded) (xi := none) hs
  have hpos := l1norm_gauss hNp hs
  have hnorm := l1norm_morlet1d s.built.Npadded none _ hpos.ne'
  have hsum := hnorm
  rw [l1norm_eq, hl] at hsum
  refine ⟨_, makeLevels_zero hlv, hl, fun k hk => ?_, hsum, fun k => ?_⟩
  · have h3 := morletLow_pos hs hk
    rw [← morletRaw_low hs] at h3
    unfold gauss1d morlet1d
    have hk' : k < (morletRaw s.built.Npadded none (0.1 / t)).length := by
      rw [length_morletRaw hs]; exact hk
    rw [List.getD_eq_getElem?_getD, List.getElem?_eq_getElem hk', Option.getD_some] at h3
    rw [List.getD_eq_getElem?_getD, List.getElem?_map, List.getElem?_eq_getElem hk']
    exact div_pos h3 hpos
  · rw [← hnorm]
    exact gain_le_l1norm _ k

/-- C28 for `morlet_1d` itself, at any length, any nonzero centre frequency and any bandwidth: zero
at frequency zero, and L1 norm one unless the unnormalised filter is identically zero. -/
theorem C28_morlet (N : Nat) (xi sigma : ℝ) (hxi : xi ≠ 0) (hs : 0 < sigma) :
    (morlet1d N (some xi) sigma).length = N ∧ (morlet1d N (some xi) sigma).getD 0 0 = 0 ∧
    ((∃ k, (morletRaw N (some xi) sigma).getD k 0 ≠ 0) →
      ∑ m ∈ range N, ‖Spec.impulseR (morlet1d N (some xi) sigma) m‖ = 1) := by
  have hl := length_morlet1d (N := N) (xi := some xi) hs
  refine ⟨hl, ?_, fun ⟨k, hk⟩ => ?_⟩
  · unfold morlet1d
    have hz := morletRaw_zero (N := N) hs hxi
    rw [List.getD_eq_getElem?_getD] at hz ⊢
    simp only [List.getElem?_map]
    cases hc : (morletRaw N (some xi) sigma)[0]? with
    | none => rfl
    | some v =>
      rw [hc] at hz
      simp only [Option.getD_some] at hz
      simp [hz]
  · have := gain_le_l1norm (morletRaw N (some xi) sigma) k
    have h2 : 0 < l1norm (morletRaw N (some xi) sigma) := lt_of_lt_of_le (abs_pos.2 hk) this
    have h3 := l1norm_morlet1d N (some xi) sigma h2.ne'
    rwa [l1norm_eq, hl] at h3

/-- The condition of `C28_morlet` is needed: at length one the wavelet is zero before normalisation
and the code divides zero by zero. -/
theorem C28_one_sample (xi sigma : ℝ) (hxi : xi ≠ 0) (hs : 0 < sigma) :
    morletRaw 1 (some xi) sigma = [0] ∧ l1norm (morletRaw 1 (some xi) sigma) = 0 := by
  have hl := length_morletRaw (N := 1) (xi := some xi) hs
  have hz := morletRaw_zero (N := 1) hs hxi
  have : morletRaw 1 (some xi) sigma = [0] := by
    obtain ⟨v, hv⟩ := List.length_eq_one_iff.1 hl
    rw [hv] at hz ⊢
    simpa using hz
  refine ⟨this, ?_⟩
  rw [this, l1norm_eq]
  simp [Spec.impulseR, Spec.impulse]

/-- Objects as in `C28_wavelets` and `C28_lowpass` exist, with a wavelet to speak of. -/
example : ∃ (a : Args1D) (s : Sc1D) (f : FiltX), a.make = .ok s ∧ 2 ≤ s.built.Ninput ∧
    f ∈ s.psi1 ++ s.psi2 := by
  obtain ⟨s, h1, h2, -⟩ := exArgs_run (av := .loc) .list (Or.inl ⟨rfl, rfl⟩) (Or.inl rfl)
  obtain ⟨f, hf⟩ := exArgs_psi1 h1
  exact ⟨_, s, f, h1, by omega, List.mem_append_left _ hf⟩

/-- A wavelet satisfying the condition of `C28_morlet`. -/
example : ∃ k, (morletRaw 4 (some (1 / 4)) 0.1).getD k 0 ≠ 0 :=
  ⟨2, (morletRaw_half_pos (N := 4) (by norm_num) (by norm_num) (by norm_num) (by norm_num)
    (by norm_num) (by norm_num) (Or.inl (by norm_num))).ne'⟩

/-! ## C20 -/

theorem bandpass_const {psi : Filt (List ℝ)} {x u : List ℝ} {k e : Nat} (c : ℝ)
    (hx : ∀ m < x.length, x.getD m 0 = c) (h : bandpass npBackend psi (npRfft x) k e = .ok u)
    (h0 : c = 0 ∨ ∀ f, psi.levels[k]? = some f → f.getD 0 0 = 0) :
    ∀ m < u.length, u.getD m 0 = 0 := by
  obtain ⟨f, hf, hl, -, hv⟩ := np_bandpass h
  intro m hm
  rw [hv m hm, convR_const c hx hl]
  rcases h0 with h0 | h0
  · simp [h0]
  · rw [h0 f hf]; simp

theorem lowpass_zero {phi : Filt (List ℝ)} {x u : List ℝ} {k e : Nat}
    (hx : ∀ m < x.length, x.getD m 0 = 0) (h : lowpass npBackend phi (npRfft x) k e = .ok u) :
    ∀ m < u.length, u.getD m 0 = 0 := by
  obtain ⟨f, hf, hl, -, hv⟩ := np_lowpass h
  intro m hm
  rw [hv m hm, convR_const 0 hx hl]
  simp

/-- Core-level statement: constant input, wavelets vanishing at frequency zero. -/
theorem core_const {x : List ℝ} {phi : Filt (List ℝ)} {psis : List (List (Filt (List ℝ)))} {ls : Nat}
    {avg : Bool} {out : List (Path (List ℝ))} (c : ℝ) (hx : ∀ m < x.length, x.getD m 0 = c)
    (hpsi : ∀ psi1, psis[0]? = some psi1 → ∀ f ∈ psi1, ∀ h, f.levels[0]? = some h → h.getD 0 0 = 0)
    (h : scattering1d npBackend x phi psis ls avg = .ok out) (p : Path (List ℝ)) (hp : p ∈ out)
    (hn : p.n ≠ []) : ∀ m < p.coef.length, p.coef.getD m 0 = 0 := by
  have key := mem_scattering1d npBackend h hp
  change Path npBackend.R at p
  cases key with
  | zero U0hat c h0 hc => exact absurd rfl hn
  | one U0hat U1m c' q1 n1 psi h0 hp1 hn1 hU hc =>
    have hU0 : U0hat = npRfft x := by injection h0 with h; exact h.symm
    subst hU0
    have hz := bandpass_const c hx hU (Or.inr (hpsi q1 hp1 psi (List.mem_of_getElem? hn1)))
    cases avg with
    | false => rw [hc.2 rfl]; exact hz
    | true =>
      obtain ⟨U1hat, hU1, hs⟩ := hc.1 rfl
      have : U1hat = npRfft U1m := by injection hU1 with h; exact h.symm
      subst this
      exact lowpass_zero hz hs
  | two U0hat U1m U1hat c' q1 q2 n1 n2 psi psi' h0 hp1 hn1 hp2 hn2 hj hU hUh hc =>
    have hU0 : U0hat = npRfft x := by injection h0 with h; exact h.symm
    subst hU0
    have hz := bandpass_const c hx hU (Or.inr (hpsi q1 hp1 psi (List.mem_of_getElem? hn1)))
    have : U1hat = npRfft U1m := by injection hUh with h; exact h.symm
    subst this
    obtain ⟨U2m, hU2, hs, hs'⟩ := hc
    have hz2 := bandpass_const 0 hz hU2 (Or.inl rfl)
    cases avg with
    | false => rw [hs' rfl]; exact hz2
    | true =>
      obtain ⟨U2hat, hU2h, hs⟩ := hs rfl
      have : U2hat = npRfft U2m := by injection hU2h with h; exact h.symm
      subst this
      exact lowpass_zero hz2 hs

theorem getD_mem_or {l : List ℝ} {v : ℝ} (h : v ∈ l) : ∃ m < l.length, l.getD m 0 = v := by
  obtain ⟨m, hm, rfl⟩ := List.mem_iff_getElem.1 h
  exact ⟨m, hm, by rw [List.getD_eq_getElem?_getD, List.getElem?_eq_getElem hm, Option.getD_some]⟩

theorem mem_npUnpad {x : List ℝ} {i0 i1 : Nat} {v : ℝ} (h : v ∈ npUnpad x i0 i1) : v ∈ x :=
  List.mem_of_mem_take (List.mem_of_mem_drop h)

/-- Post-processing: global sum, or selection of a range. -/
theorem post_coef {o : Obj1D (List ℝ)} {ls : Nat} {p q : Path (List ℝ)}
    (h : post npFront o ls p = .ok q) :
    (o.average = .glob ∧ q.coef = [p.coef.sum]) ∨
    (o.average ≠ .glob ∧ ∃ res i0 i1, resolution o ls p = .ok res ∧ o.indStart res = some i0 ∧
      o.indEnd res = some i1 ∧ q.coef = npUnpad p.coef i0 i1) := by
  unfold post at h
  obtain ⟨res, hres, h⟩ := bind_eq_ok.1 h
  split at h
  · rename_i hg
    injection h with h
    subst h
    exact Or.inl ⟨hg, rfl⟩
  · rename_i hg
    obtain ⟨i0, h0, h⟩ := bind_eq_ok.1 h
    obtain ⟨i1, h1, h⟩ := bind_eq_ok.1 h
    injection h with h
    subst h
    exact Or.inr ⟨hg, res, i0, i1, hres, dictGet_eq_ok.1 h0, dictGet_eq_ok.1 h1, rfl⟩

/-- Every item of the list output is a post-processed path of the core. -/
theorem run_list {a : Args1D} {s : Sc1D} {x : List ℝ} {l : List (Path (List ℝ))}
    (hmake : a.make = .ok s) (hl : a.run x = .ok (.list l)) :
    ∃ U0 ls out, npPad x s.built.padLeft s.built.padRight = .ok U0 ∧
      log2Stride s.built.stride a.T a.J s.built.Ninput = .ok ls ∧
      scattering1d npBackend U0 s.phi.toFilt (psis (a.obj s)) ls.toNat
        (decide (s.average = .loc)) = .ok out ∧
      ∀ p ∈ l, ∃ q ∈ out, post npFront (a.obj s) ls.toNat q = .ok p := by
  obtain ⟨s', hs', hrun⟩ := bind_eq_ok.1 hl
  rw [hmake] at hs'
  injection hs' with hs'
  subst hs'
  obtain ⟨-, m, hm, ha⟩ := scattering_eq_ok.1 hrun
  obtain ⟨U0, ls, out, h1, h2, h3, h4⟩ := paths_eq_ok.1 hm
  refine ⟨U0, ls, out, h1, h2, h3, fun p hp => ?_⟩
  have hl' : l = sortPaths m := by
    unfold assemble at ha
    split at ha
    · cases ha
    · injection ha with ha
      injection ha with ha
      exact ha.symm
    · obtain ⟨r, -, ha⟩ := bind_eq_ok.1 ha
      cases ha
  rw [hl'] at hp
  have hp' : p ∈ m := (List.mergeSort_perm _ _).mem_iff.1 hp
  exact forall₂_mem_right h4 hp'

theorem getD_npPad {x U : List ℝ} {l r : Nat} (h : npPad x l r = .ok U) {i : Nat}
    (hi : i < U.length) : U.getD i 0 = x.getD (reflectIndex x.length l i) 0 := by
  have hlen := length_npPad h
  unfold npPad at h
  split at h
  · cases h
  · injection h with h
    rw [← h, getD_tab_lt (by omega)]

/-- C20 (partial): for every accepted set of constructor arguments and every constant signal of at least two
samples, all coefficients of order one and two are zero (with local, global or no averaging).
Missing for the full C20: signals of one sample, where it is false of the code (`C20_one_sample`). -/
theorem C20_constant_partial (a : Args1D) (s : Sc1D) (hmake : a.make = .ok s) (hN : 2 ≤ s.built.Ninput)
    (n : Nat) (c : ℝ) (l : List (Path (List ℝ)))
    (hl : a.run (List.replicate n c) = .ok (.list l)) (p : Path (List ℝ)) (hp : p ∈ l)
    (hn : p.n ≠ []) : ∀ v ∈ p.coef, v = 0 := by
  obtain ⟨U0, ls, out, hpad, -, hcore, hpost⟩ := run_list hmake hl
  obtain ⟨q, hq, hpq⟩ := hpost p hp
  have hqn : q.n ≠ [] := by rw [← (post_labels hpq).1]; exact hn
  have hU : ∀ m < U0.length, U0.getD m 0 = c := by
    intro m hm
    have hlen := length_npPad hpad
    rw [getD_npPad hpad hm]
    have hlt : ¬ (s.built.padLeft ≥ (List.replicate n c).length ∨
        s.built.padRight ≥ (List.replicate n c).length) := by
      intro hc
      unfold npPad at hpad
      rw [if_pos hc] at hpad
      cases hpad
    rw [List.length_replicate] at *
    have hr : reflectIndex n s.built.padLeft m < n := by
      push Not at hlt
      have hm' : m < s.built.padLeft + n + s.built.padRight := by omega
      unfold reflectIndex
      split
      · omega
      · split <;> omega
    rw [List.getD_eq_getElem?_getD, List.getElem?_replicate, if_pos hr]
    rfl
  have hpsi : ∀ psi1, (psis (a.obj s))[0]? = some psi1 → ∀ f ∈ psi1, ∀ h, f.levels[0]? = some h →
      h.getD 0 0 = 0 := by
    intro psi1 h1 f hf h hh
    have : psi1 = s.psi1.map FiltX.toFilt := by
      rw [psis_eq, List.getElem?_take] at h1
      split at h1
      · simpa [Args1D.obj] using h1.symm
      · cases h1
    subst this
    obtain ⟨g, hg, rfl⟩ := List.mem_map.1 hf
    obtain ⟨h', hh', -, hz, -⟩ := C28_wavelets a s hmake hN g (List.mem_append_left _ hg)
    have : some h = some h' := by rw [← hh, ← hh']; rfl
    injection this with this
    rw [this]; exact hz
  have hz := core_const c hU hpsi hcore q hq hqn
  have hz' : ∀ v ∈ q.coef, v = 0 := by
    intro v hv
    obtain ⟨m, hm, rfl⟩ := getD_mem_or hv
    exact hz m hm
  rcases post_coef hpq with ⟨-, h⟩ | ⟨-, res, i0, i1, -, -, -, h⟩
  · rw [h]
    intro v hv
    rw [List.mem_singleton] at hv
    rw [hv]
    exact List.sum_eq_zero hz'
  · rw [h]
    intro v hv
    exact hz' v (mem_npUnpad hv)

theorem make_one {a : Args1D} {s : Sc1D} (h : a.make = .ok s) (hN : s.built.Ninput = 1) : s.built.Npadded = 1 := by
  obtain ⟨t, lT, -, -, -, h1, -, -, -, h2, -⟩ := make_sizes h
  obtain ⟨k, l, r, hk, -, h3, h4, h5, -⟩ := C01_padding_fits s.built.Ninput (minToPad s.built.Ninput t) (by omega)
  rw [h2, hk, ← h3]
  omega

/-- For signals of one sample C20 and C21 are false of the code: every wavelet of the object is the zero filter
divided by its L1 norm, which is zero.  numpy then stores NaN, and so are all coefficients of order one and two (the real
numbers of the model have no NaN; their `0/0` is 0). -/
theorem C20_one_sample (a : Args1D) (s : Sc1D) (hmake : a.make = .ok s) (hN : s.built.Ninput = 1) (f : FiltX)
    (hf : f ∈ s.psi1 ++ s.psi2) :
    f.levels[0]? = some (morlet1d 1 (some f.xi) f.sigma) ∧ morletRaw 1 (some f.xi) f.sigma = [0] ∧
      l1norm (morletRaw 1 (some f.xi) f.sigma) = 0 := by
  obtain ⟨Q, p, b, hQ, hp, e1, e2, -, hlv⟩ := make_wavelet hmake hf
  obtain ⟨hx, -, hsg⟩ := anden_pos hQ hp
  rw [make_one hmake hN] at hlv
  rw [e1, e2]
  exact ⟨makeLevels_zero hlv, C28_one_sample p.1 p.2 hx.ne' (lt_of_lt_of_le (by positivity) hsg)⟩

/-- Such an object: `Scattering1D(J=0, shape=1, Q=8)`, with or without averaging.  It has wavelets and transforms every
signal of one sample. -/
example (T : PyT) (hT : T = .none ∨ T = .num 0) :
    ∃ s, (⟨0, .int 1, .int 8, T, none, 2, some (.int 0), .list⟩ : Args1D).make = .ok s ∧ s.built.Ninput = 1 ∧
      (∃ f, f ∈ s.psi1) ∧ ∀ x : List ℝ, x.length = 1 →
        ∃ r, (⟨0, .int 1, .int 8, T, none, 2, some (.int 0), .list⟩ : Args1D).run x = .ok r := by
  have key : ∀ av, parseT T 0 1 = .ok (1, av) →
      ∃ s, (⟨0, .int 1, .int 8, T, none, 2, some (.int 0), .list⟩ : Args1D).make = .ok s ∧ s.built.Ninput = 1 ∧
      (∃ f, f ∈ s.psi1) ∧ ∀ x : List ℝ, x.length = 1 →
        ∃ r, (⟨0, .int 1, .int 8, T, none, 2, some (.int 0), .list⟩ : Args1D).run x = .ok r := by
    intro av h
    obtain ⟨s, h1, h2, -, h4⟩ := C17_no_error ⟨0, .int 1, .int 8, T, none, 2, some (.int 0), .list⟩ 1 rfl le_rfl 1 av
      h 8 1 rfl (by norm_num) (Nat.zero_le _) rfl (by norm_num) (.inl rfl) (.inl rfl)
    obtain ⟨t, R1, R2, lT, M1, M2, hR1, -, -, -, -, -, g1, -⟩ := make_filters h1
    obtain ⟨p, hp⟩ := anden_nonempty (J := 0) hR1
    obtain ⟨f, hf, -⟩ := forall₂_mem_left g1 (List.mem_of_getElem? hp)
    exact ⟨s, h1, h2, ⟨f, hf⟩, h4⟩
  rcases hT with rfl | rfl
  · exact key .loc (by simp [parseT])
  · exact key .no (by simp [parseT])

/-! ## C21 -/

/-- The filter of a first-order path. -/
theorem first_filter {a : Args1D} {s : Sc1D} (hmake : a.make = .ok s) (hN : 2 ≤ s.built.Ninput)
    {q1 : List (Filt (List ℝ))} (h1 : (psis (a.obj s))[0]? = some q1) {n : Nat} {psi : Filt (List ℝ)}
    (hn : q1[n]? = some psi) : ∃ h, psi.levels[0]? = some h ∧ l1norm h = 1 := by
  have : q1 = s.psi1.map FiltX.toFilt := by
    rw [psis_eq, List.getElem?_take] at h1
    split at h1
    · simpa [Args1D.obj] using h1.symm
    · cases h1
  subst this
  obtain ⟨g, hg, rfl⟩ := List.mem_map.1 (List.mem_of_getElem? hn)
  obtain ⟨h', hh', hlen, -, -, hs, -⟩ := C28_wavelets a s hmake hN g (List.mem_append_left _ hg)
  refine ⟨h', hh', ?_⟩
  rw [l1norm_eq, hlen]
  exact hs

theorem one_of_length {U0 : List ℝ} {phi : Filt (List ℝ)} {ps : List (List (Filt (List ℝ)))} {ls : Nat}
    {q : Path (List ℝ)} (h : IsPath npBackend U0 phi ps ls false q) (hq : q.n.length = 1) :
    ∃ q1 n1 psi, ps[0]? = some q1 ∧ q1[n1]? = some psi ∧ q.n = [n1] ∧ q.j = [psi.j] ∧
      bandpass npBackend psi (npRfft U0) 0 psi.j = .ok q.coef := by
  change Path npBackend.R at q
  cases h with
  | zero U0hat c h0 hc => simp at hq
  | one U0hat U1m c q1 n1 psi h0 hp1 hn1 hU hc =>
    have hU0 : U0hat = npRfft U0 := by injection h0 with h; exact h.symm
    subst hU0
    have hcu := hc.2 rfl
    subst hcu
    exact ⟨q1, n1, psi, hp1, hn1, rfl, rfl, hU⟩
  | two U0hat U1m U1hat c q1 q2 n1 n2 psi psi' h0 hp1 hn1 hp2 hn2 hj hU hUh hc => simp at hq

theorem npPad_bound {x U : List ℝ} {l r : Nat} (h : npPad x l r = .ok U) {M : ℝ}
    (hM : ∀ v ∈ x, |v| ≤ M) (h0 : 0 ≤ M) : ∀ i < U.length, |U.getD i 0| ≤ M := by
  intro i hi
  rw [getD_npPad h hi, List.getD_eq_getElem?_getD]
  cases hc : x[reflectIndex x.length l i]? with
  | none => simpa using h0
  | some v => exact hM v (List.mem_of_getElem? hc)

/-- C21, bound (partial): with averaging switched off (`T = 0`), every sample of every first-order coefficient
lies between zero and the largest absolute value of the signal.  Missing for the full C21, here and below: signals of
one sample, where the coefficients are NaN (`C20_one_sample`). -/
theorem C21_bounded_partial (a : Args1D) (s : Sc1D) (hmake : a.make = .ok s) (hN : 2 ≤ s.built.Ninput)
    (havg : s.average = .no) (x : List ℝ) (M : ℝ) (hM : ∀ v ∈ x, |v| ≤ M)
    (l : List (Path (List ℝ))) (hl : a.run x = .ok (.list l)) (p : Path (List ℝ)) (hp : p ∈ l)
    (hn : p.n.length = 1) : ∀ v ∈ p.coef, 0 ≤ v ∧ v ≤ M := by
  obtain ⟨U0, ls, out, hpad, -, hcore, hpost⟩ := run_list hmake hl
  obtain ⟨q, hq, hpq⟩ := hpost p hp
  have hqn : q.n.length = 1 := by rw [← (post_labels hpq).1]; exact hn
  rw [havg] at hcore
  obtain ⟨q1, n1, psi, e1, e2, e3, e4, e5⟩ := one_of_length (mem_scattering1d npBackend hcore hq) hqn
  obtain ⟨h, hh, hone⟩ := first_filter hmake hN e1 e2
  obtain ⟨f, hf, hfl, -, hv⟩ := np_bandpass e5
  have : f = h := by rw [hh] at hf; injection hf with hf; exact hf.symm
  subst this
  have hxl : 0 < x.length := by
    by_contra hc
    unfold npPad at hpad
    rw [if_pos (Or.inl (by omega))] at hpad
    cases hpad
  have h0 : 0 ≤ M := (abs_nonneg _).trans (hM _ (List.getElem_mem hxl))
  have hU := npPad_bound hpad hM h0
  have hz : ∀ v ∈ q.coef, 0 ≤ v ∧ v ≤ M := by
    intro v hvm
    obtain ⟨m, hm, rfl⟩ := getD_mem_or hvm
    rw [hv m hm]
    refine ⟨norm_nonneg _, ?_⟩
    have := norm_convR_le M hU hfl (m * 2 ^ psi.j)
    rwa [hone, mul_one] at this
  rcases post_coef hpq with ⟨hg, h⟩ | ⟨-, res, i0, i1, -, -, -, h⟩
  · rw [show (a.obj s).average = s.average from rfl, havg] at hg
    cases hg
  · rw [h]
    intro v hv
    exact hz v (mem_npUnpad hv)

theorem getD_npUnpad_lt {x : List ℝ} {i0 i1 t : Nat} (h : t < (npUnpad x i0 i1).length) :
    (npUnpad x i0 i1).getD t 0 = x.getD (i0 + t) 0 ∧ i0 + t < x.length := by
  unfold npUnpad at *
  rw [List.length_drop, List.length_take] at h
  have h1 : i0 + t < i1 := by omega
  refine ⟨?_, by omega⟩
  rw [List.getD_eq_getElem?_getD, List.getD_eq_getElem?_getD, List.getElem?_drop,
    List.getElem?_take_of_lt h1]

/-- C21, stability (partial): with averaging switched off, two signals of the same length that differ by at
most `D` at every sample have first-order coefficients of the same length that differ by at most `D`
at every sample. -/
theorem C21_nonexpansive_partial (a : Args1D) (s : Sc1D) (hmake : a.make = .ok s)
    (hN : 2 ≤ s.built.Ninput) (havg : s.average = .no) (x y : List ℝ) (hxy : x.length = y.length)
    (D : ℝ) (hD : ∀ i < x.length, |x.getD i 0 - y.getD i 0| ≤ D)
    (l m : List (Path (List ℝ))) (hl : a.run x = .ok (.list l)) (hm : a.run y = .ok (.list m))
    (p q : Path (List ℝ)) (hp : p ∈ l) (hq : q ∈ m) (hn : p.n.length = 1) (hpq : p.n = q.n) :
    p.coef.length = q.coef.length ∧
      ∀ t < p.coef.length, |p.coef.getD t 0 - q.coef.getD t 0| ≤ D := by
  obtain ⟨U, ls, out, hpad, hls, hcore, hpost⟩ := run_list hmake hl
  obtain ⟨V, ls', out', hpad', hls', hcore', hpost'⟩ := run_list hmake hm
  rw [hls] at hls'
  injection hls' with hls'
  subst hls'
  obtain ⟨p', hp', hpp⟩ := hpost p hp
  obtain ⟨q', hq', hqq⟩ := hpost' q hq
  have hpn : p'.n.length = 1 := by rw [← (post_labels hpp).1]; exact hn
  have hqn : q'.n.length = 1 := by rw [← (post_labels hqq).1, ← hpq]; exact hn
  rw [havg] at hcore hcore'
  obtain ⟨q1, n1, psi, e1, e2, e3, e4, e5⟩ :=
    one_of_length (mem_scattering1d npBackend hcore hp') hpn
  obtain ⟨q2, n2, psi', f1, f2, f3, f4, f5⟩ :=
    one_of_length (mem_scattering1d npBackend hcore' hq') hqn
  rw [e1] at f1
  injection f1 with f1
  subst f1
  have hnn : n1 = n2 := by
    have h1 := (post_labels hpp).1
    have h2 := (post_labels hqq).1
    rw [e3] at h1
    rw [f3, ← hpq, h1] at h2
    simpa using h2
  subst hnn
  rw [e2] at f2
  injection f2 with f2
  subst f2
  obtain ⟨h, hh, hone⟩ := first_filter hmake hN e1 e2
  obtain ⟨f, hf, hfl, hlp, hvp⟩ := np_bandpass e5
  obtain ⟨f', hf', hfl', hlq, hvq⟩ := np_bandpass f5
  have : f = h := by rw [hh] at hf; injection hf with hf; exact hf.symm
  subst this
  have : f' = f := by rw [hh] at hf'; injection hf' with hf; exact hf.symm
  subst this
  have hUV : U.length = V.length := by rw [length_npPad hpad, length_npPad hpad', hxy]
  have hxl : 0 < x.length := by
    by_contra hc
    unfold npPad at hpad
    rw [if_pos (Or.inl (by omega))] at hpad
    cases hpad
  have h0 : 0 ≤ D := (abs_nonneg _).trans (hD 0 hxl)
  have hd : ∀ i < U.length, |U.getD i 0 - V.getD i 0| ≤ D := by
    intro i hi
    rw [getD_npPad hpad hi, getD_npPad hpad' (by omega), hxy]
    rcases Nat.lt_or_ge (reflectIndex y.length s.built.padLeft i) x.length with hlt | hge
    · exact hD _ hlt
    · rw [List.getD_eq_getElem?_getD, List.getElem?_eq_none hge, List.getD_eq_getElem?_getD,
        List.getElem?_eq_none (by omega)]
      simpa using h0
  have hconv : ∀ n, |‖Spec.convR U (Spec.impulseR f') n‖ - ‖Spec.convR V (Spec.impulseR f') n‖| ≤ D := by
    intro n
    refine (abs_norm_sub_norm_le _ _).trans ?_
    have hdiff : Spec.convR U (Spec.impulseR f') n - Spec.convR V (Spec.impulseR f') n =
        Spec.convR (tab U.length fun i => U.getD i 0 - V.getD i 0) (Spec.impulseR f') n := by
      unfold Spec.convR
      rw [length_tab, hUV, ← Finset.sum_sub_distrib]
      apply Finset.sum_congr rfl
      intro i hi
      rw [mem_range] at hi
      rw [getD_tab_lt hi]
      push_cast
      ring
    rw [hdiff]
    have := norm_convR_le (x := tab U.length fun i => U.getD i 0 - V.getD i 0) (h := f') D
      (fun i hi => by
        rw [length_tab] at hi
        rw [getD_tab_lt hi]
        exact hd i hi) (by rw [length_tab]; exact hfl) n
    rwa [hone, mul_one] at this
  have hlen : p'.coef.length = q'.coef.length := by
    have : p'.coef.length * 2 ^ psi.j = q'.coef.length * 2 ^ psi.j := by rw [hlp, hlq, hUV]
    exact Nat.eq_of_mul_eq_mul_right (by positivity) this
  rcases post_coef hpp with ⟨hg, -⟩ | ⟨-, res, i0, i1, r1, r2, r3, h1⟩
  · rw [show (a.obj s).average = s.average from rfl, havg] at hg
    cases hg
  rcases post_coef hqq with ⟨hg, -⟩ | ⟨-, res', i0', i1', r1', r2', r3', h1'⟩
  · rw [show (a.obj s).average = s.average from rfl, havg] at hg
    cases hg
  have hres : res = res' := by
    have : resolution (a.obj s) ls.toNat p' = resolution (a.obj s) ls.toNat q' := by
      unfold resolution
      rw [e3, e4, f3, f4]
    rw [r1, r1'] at this
    injection this
  subst hres
  rw [r2] at r2'
  rw [r3] at r3'
  injection r2' with r2'
  injection r3' with r3'
  subst r2' r3'
  rw [h1, h1']
  have hlu : (npUnpad p'.coef i0 i1).length = (npUnpad q'.coef i0 i1).length := by
    unfold npUnpad
    simp only [List.length_drop, List.length_take, hlen]
  refine ⟨hlu, fun t ht => ?_⟩
  obtain ⟨g1, g2⟩ := getD_npUnpad_lt ht
  obtain ⟨g3, g4⟩ := getD_npUnpad_lt (hlu ▸ ht)
  rw [g1, g3, hvp _ g2, hvq _ g4]
  exact hconv _

/-! ## Cases meeting the hypotheses -/

/-- C20: a constant input of 1000 samples, averaged or not. -/
example (c : ℝ) : ∃ s l, (exArgs .none .list).make = .ok s ∧ 2 ≤ s.built.Ninput ∧
    (exArgs .none .list).run (List.replicate 1000 c) = .ok (.list l) := by
  obtain ⟨s, l, h1, h2, -, h4⟩ := exArgs_list (T := .none) (av := .loc) (Or.inl ⟨rfl, rfl⟩)
    (List.replicate 1000 c) (List.length_replicate ..)
  exact ⟨s, l, h1, by omega, h4⟩

/-- C21: `T = 0` switches averaging off; any two signals of 1000 samples. -/
example (x y : List ℝ) (hx : x.length = 1000) (hy : y.length = 1000) :
    ∃ s l m, (exArgs (.num 0) .list).make = .ok s ∧ 2 ≤ s.built.Ninput ∧ s.average = .no ∧
      (exArgs (.num 0) .list).run x = .ok (.list l) ∧
      (exArgs (.num 0) .list).run y = .ok (.list m) := by
  obtain ⟨s, l, h1, h2, h3, h4⟩ := exArgs_list (T := .num 0) (av := .no)
    (Or.inr (Or.inr (Or.inl ⟨rfl, rfl⟩))) x hx
  obtain ⟨s', m, -, -, -, h4'⟩ := exArgs_list (T := .num 0) (av := .no)
    (Or.inr (Or.inr (Or.inl ⟨rfl, rfl⟩))) y hy
  exact ⟨s, l, m, h1, by omega, h3, h4, h4'⟩

end Verif
