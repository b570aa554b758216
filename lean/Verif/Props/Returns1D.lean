import Verif.Props.NoError1D

/-!
# Exactly when the 1-D transform returns
-/

namespace Verif

open Core1D Front1D

namespace Spec

/-- The stride requested by the user is usable: none, or a power of two together with local averaging. -/
def StrideOk (stride : Option PyNum) (av : Average) : Prop :=
  stride = none ∨ ∃ m : ℕ, stride = some (.int (2 ^ m)) ∧ av = .loc

/-- The arguments with which a signal of the declared length is transformed, for an averaging scale
between `2^k` and `2^(k+1)`. -/
def Accepted (a : Args1D) (k : ℕ) (av : Average) : Prop :=
  (1 ≤ a.maxOrder ∨ a.maxOrder = -2) ∧ (a.outType = .list ∨ a.outType = .dict ∨ a.outType = .array ∧ av ≠ .no) ∧
    ((a.oversampling = none ∧ av = .loc ∧ StrideOk a.stride av) ∨
     (a.oversampling = some (.int 0) ∧ StrideOk a.stride av) ∨
     (∃ n : ℕ, a.oversampling = some (.int n) ∧ 0 < n ∧ n ≤ k ∧ av = .loc ∧
      (a.stride = none ∨ ∃ v, a.stride = some v ∧ v.val = (2 : ℚ) ^ ((k : ℤ) - n - 1))))

end Spec

/-- The oversampling block, case by case. -/
theorem applyOversampling_ok {ov st : Option PyNum} {T : PyT} {J N k : ℕ}
    (hk : log2T T J N = .ok (k : ℤ)) {st' : Option PyNum} :
    applyOversampling ov st T J N = .ok st' ↔
      (ov = none ∧ st' = st) ∨ (ov = some (.int 0) ∧ st' = st) ∨
      (∃ n : ℕ, ov = some (.int n) ∧ 0 < n ∧ st' = some (pyTwoPow ((k : ℤ) - n)) ∧
        (st = none ∨ ∃ v, st = some v ∧ v.val = (2 : ℚ) ^ ((k : ℤ) - n - 1))) := by
  cases ov with
  | none =>
    simp only [applyOversampling, Except.ok.injEq, reduceCtorEq, false_and, exists_false, or_false, true_and]
    exact eq_comm
  | some o =>
    cases o with
    | flt q =>
      simp only [reduceCtorEq, false_and, false_or, Option.some.injEq, exists_false, iff_false]
      rw [(C08_oversampling_values T J N st q 0).2.2.1]
      simp
    | int o =>
      simp only [reduceCtorEq, false_and, false_or, Option.some.injEq, PyNum.int.injEq]
      rcases lt_trichotomy o 0 with h | h | h
      · rw [(C08_oversampling_values T J N st 0 o).2.2.2 h]
        constructor
        · intro h; cases h
        · rintro (⟨h', -⟩ | ⟨n, h', -⟩) <;> omega
      · subst h
        rw [(C08_oversampling_values T J N st 0 0).2.1]
        constructor
        · intro h
          exact Or.inl ⟨rfl, (Except.ok.inj h).symm⟩
        · rintro (⟨-, h⟩ | ⟨n, h', h'', -⟩)
          · rw [h]
          · omega
      · obtain ⟨n, rfl⟩ := Int.eq_ofNat_of_zero_le h.le
        have h1 : ¬ (PyNum.int n).val < 0 := by
          show ¬ ((n : ℤ) : ℚ) < 0
          push_cast
          exact not_lt.2 (Nat.cast_nonneg n)
        have h2 : 0 < n := by omega
        simp only [applyOversampling, h1, if_false, h, if_true, hk, bind, Except.bind]
        cases st with
        | none =>
          constructor
          · intro h
            exact Or.inr ⟨n, rfl, h2, (Except.ok.inj h).symm, Or.inl rfl⟩
          · rintro (⟨h', -⟩ | ⟨m, h', -, h3, -⟩)
            · omega
            · have : m = n := by omega
              subst this
              rw [h3]
        | some v =>
          simp only [pyTwoPow_val]
          constructor
          · intro h
            split at h
            · rename_i hv
              exact Or.inr ⟨n, rfl, h2, (Except.ok.inj h).symm, Or.inr ⟨v, rfl, hv⟩⟩
            · cases h
          · rintro (⟨h', -⟩ | ⟨m, h', -, h3, h4⟩)
            · omega
            · have : m = n := by omega
              subst this
              rcases h4 with h4 | ⟨w, h4, h5⟩
              · cases h4
              · rw [Option.some.injEq] at h4
                subst h4
                rw [if_pos h5, h3]

/-- The stride stored by the constructor. -/
theorem make_stride {a : Args1D} {s : Sc1D} (h : a.make = .ok s) :
    applyOversampling a.oversampling a.stride a.T a.J s.built.Ninput = .ok s.built.stride := by
  unfold Args1D.make at h
  obtain ⟨N, hN, h⟩ := bind_eq_ok.1 h
  obtain ⟨T, hT, h⟩ := bind_eq_ok.1 h
  obtain ⟨b, hb, h⟩ := bind_eq_ok.1 h
  obtain ⟨Q, hQ, h⟩ := bind_eq_ok.1 h
  obtain ⟨f, hf, h⟩ := bind_eq_ok.1 h
  injection h with h
  subst h
  unfold build1D at hb
  obtain ⟨N', hN', hb⟩ := bind_eq_ok.1 hb
  obtain ⟨st, hst, hb⟩ := bind_eq_ok.1 hb
  obtain ⟨lT, hlT, hb⟩ := bind_eq_ok.1 hb
  obtain ⟨lr, hlr, hb⟩ := bind_eq_ok.1 hb
  injection hb with hb
  subst hb
  exact hst

theorem maxOrder_pos {a : Args1D} {s : Sc1D} {x : List ℝ} {l : List (Path (List ℝ))}
    (hl : paths npBackend npFront (a.obj s) x = .ok l) : 1 ≤ a.maxOrder ∨ a.maxOrder = -2 := by
  obtain ⟨U, ls, out, -, -, hcore, -⟩ := paths_eq_ok.1 hl
  obtain ⟨_, _, psi1, _, -, -, hp, -, -⟩ := scattering1d_eq_ok npBackend hcore
  rw [psis_eq] at hp
  refine one_le_nBanks.1 ?_
  by_contra h
  have : nBanks (a.obj s).maxOrder = 0 := by
    show nBanks a.maxOrder = 0
    omega
  simp [this] at hp

/-- With averaging off or global, `oversampling = None` makes every first-order path fail. -/
theorem oversampling_some {a : Args1D} {s : Sc1D} (hmake : a.make = .ok s) (hav : s.average ≠ .loc)
    {x : List ℝ} {l : List (Path (List ℝ))} (hl : paths npBackend npFront (a.obj s) x = .ok l) :
    a.oversampling ≠ none := by
  obtain ⟨U, ls, out, -, -, hcore, hpost⟩ := paths_eq_ok.1 hl
  obtain ⟨_, _, psi1, _, -, -, hp, -, -⟩ := scattering1d_eq_ok npBackend hcore
  obtain ⟨t, R1, R2, lT, M1, M2, hR1, hR2, ht, hT, hR, hfl, h1, -⟩ := make_filters hmake
  have hmo := maxOrder_pos hl
  intro hn
  have hp1 : psi1 = s.psi1.map FiltX.toFilt := by
    rw [psis_eq, List.getElem?_take, if_pos (show 0 < nBanks (a.obj s).maxOrder from one_le_nBanks.2 hmo)] at hp
    simpa [Args1D.obj] using hp.symm
  obtain ⟨p, hp0⟩ := anden_nonempty (J := a.J) hR1
  obtain ⟨f, hf, -⟩ := forall₂_mem_left h1 (List.mem_of_getElem? hp0)
  obtain ⟨n1, hn1⟩ := List.getElem?_of_mem (List.mem_map_of_mem (f := FiltX.toFilt) hf)
  have hmem : ([f.toFilt.j], [n1]) ∈ labels npBackend (psis (a.obj s)) :=
    (mem_labels npBackend).2 (Or.inr (Or.inl ⟨n1, f.toFilt, by rw [hp, hp1]; exact hn1, rfl⟩))
  rw [← labels_eq npBackend hcore] at hmem
  obtain ⟨q, hq, e⟩ := List.mem_map.1 hmem
  obtain ⟨r, -, hr⟩ := forall₂_mem_left hpost hq
  obtain ⟨res, hres, -⟩ := bind_eq_ok.1 hr
  unfold resolution at hres
  have e2 : q.n = [n1] := congrArg Prod.snd e
  rw [if_neg (show ¬ (a.obj s).average = .loc from hav), if_pos (by rw [e2]; simp),
    show (a.obj s).oversampling = none from by
      show oversamplingInt a.oversampling = none
      rw [hn]; rfl] at hres
  cases hres

/-- **C94.**  Let the shape be `N ≥ 1`, `T` valid, `Q1 ≥ Q2 ≥ 1`, `2^J` at most the padded length, and the
stride, if a power of two, at most the averaging scale.  Then a call returns exactly for signals of `N`
samples and the arguments of `Spec.Accepted`. -/
theorem C94_returns_iff (a : Args1D) (N : Nat) (hshape : parseShape a.shape = .ok N) (hN : 1 ≤ N)
    (t : Rat) (av : Average) (hT : parseT a.T a.J N = .ok (t, av)) (Q1 Q2 : Int)
    (hQ : parseQ a.Q = .ok (Q1, Q2)) (hQ12 : Q2 ≤ Q1) (hJ : a.J ≤ jPad N (minToPad N t)) (k : ℕ)
    (hk1 : (2 : ℚ) ^ k ≤ t) (hk2 : t < 2 ^ (k + 1))
    (hst : ∀ m : ℕ, a.stride = some (.int (2 ^ m)) → m ≤ k) (x : List ℝ) :
    (∃ r, a.run x = .ok r) ↔ x.length = N ∧ Spec.Accepted a k av := by
  have hk : log2T a.T a.J N = .ok (k : ℤ) := by
    obtain ⟨k', hk', h1, h2⟩ := C06_log2_T a.T a.J N _ hT
    have e1 := (pow_lt_pow_iff_right₀ (by norm_num : (1 : ℚ) < 2)).1 (lt_of_le_of_lt hk1 h2)
    have e2 := (pow_lt_pow_iff_right₀ (by norm_num : (1 : ℚ) < 2)).1 (lt_of_le_of_lt h1 hk2)
    have : k' = k := by omega
    rw [← this]
    exact hk'
  constructor
  · rintro ⟨r, hr⟩
    obtain ⟨s, hmake, hrun⟩ := bind_eq_ok.1 hr
    obtain ⟨⟨hc1, hc2⟩, l, hl, -⟩ := scattering_eq_ok.1 hrun
    obtain ⟨t', -, hN', hT', -⟩ := make_sizes hmake
    have hNi : s.built.Ninput = N := by
      rw [hshape] at hN'
      exact (Except.ok.inj hN').symm
    rw [hNi, hT] at hT'
    obtain ⟨e1, hav⟩ := Prod.mk.inj (Except.ok.inj hT')
    subst hav
    have hap := make_stride hmake
    rw [hNi] at hap
    obtain ⟨-, ls, -, -, hls, -⟩ := paths_eq_ok.1 hl
    have hls : log2Stride s.built.stride a.T a.J s.built.Ninput = .ok ls := hls
    rw [hNi] at hls
    have hls' := (C07_log2_stride_ok _ _ _ _ _).1 hls
    have hloc : ∀ t', parseT a.T a.J N = .ok (t', .loc) → s.average = .loc := by
      intro t' h
      rw [hT] at h
      exact (Prod.mk.inj (Except.ok.inj h)).2
    have hok : s.built.stride = a.stride → Spec.StrideOk a.stride s.average := by
      intro e
      rw [e] at hls'
      rcases hls' with ⟨h, -⟩ | ⟨m, -, h, t', h'⟩
      · exact Or.inl h
      · exact Or.inr ⟨m, h, hloc t' h'⟩
    refine ⟨(C57_length_checked a s hmake x r hr).trans hNi, maxOrder_pos hl, ?_, ?_⟩
    · have hc1 : a.outType ≠ .other := hc1
      have hc2 : ¬ (s.average = .no ∧ a.outType = .array) := hc2
      cases ho : a.outType with
      | list => exact Or.inl rfl
      | dict => exact Or.inr (Or.inl rfl)
      | array => exact Or.inr (Or.inr ⟨rfl, fun h => hc2 ⟨h, ho⟩⟩)
      | other => exact absurd ho hc1
    · rcases (applyOversampling_ok hk).1 hap with ⟨h1, h2⟩ | ⟨h1, h2⟩ | ⟨n, h1, h2, h3, h4⟩
      · refine Or.inl ⟨h1, ?_, hok h2⟩
        by_contra h
        exact oversampling_some hmake h hl h1
      · exact Or.inr (Or.inl ⟨h1, hok h2⟩)
      · rw [h3] at hls'
        rcases hls' with ⟨h, -⟩ | ⟨m, -, h, t', h'⟩
        · cases h
        · refine Or.inr (Or.inr ⟨n, h1, h2, ?_, hloc t' h', h4⟩)
          unfold pyTwoPow at h
          split at h
          · omega
          · cases h
  · rintro ⟨hx, hmo, hout, hov⟩
    -- the stride stored, and its exponent
    obtain ⟨st, hap, ls, hls, hlsk, hov'⟩ : ∃ st, applyOversampling a.oversampling a.stride a.T a.J N = .ok st ∧
        ∃ ls : ℕ, log2Stride st a.T a.J N = .ok (ls : ℤ) ∧ ls ≤ k ∧
          (av = .loc ∨ ∃ n : ℕ, a.oversampling = some (.int n)) := by
      have hso : Spec.StrideOk a.stride av → ∃ ls : ℕ, log2Stride a.stride a.T a.J N = .ok (ls : ℤ) ∧ ls ≤ k := by
        rintro (h | ⟨m, h, hloc⟩)
        · exact ⟨k, (C07_log2_stride_ok _ _ _ _ _).2 (Or.inl ⟨h, hk⟩), le_rfl⟩
        · exact ⟨m, (C07_log2_stride_ok _ _ _ _ _).2 (Or.inr ⟨m, rfl, h, t, by rw [hT, hloc]⟩), hst m h⟩
      rcases hov with ⟨h1, h2, h3⟩ | ⟨h1, h2⟩ | ⟨n, h1, h2, h3, h4, h5⟩
      · obtain ⟨ls, h4, h5⟩ := hso h3
        exact ⟨_, (applyOversampling_ok hk).2 (Or.inl ⟨h1, rfl⟩), ls, h4, h5, Or.inl h2⟩
      · obtain ⟨ls, h4, h5⟩ := hso h2
        exact ⟨_, (applyOversampling_ok hk).2 (Or.inr (Or.inl ⟨h1, rfl⟩)), ls, h4, h5, Or.inr ⟨0, h1⟩⟩
      · refine ⟨_, (applyOversampling_ok hk).2 (Or.inr (Or.inr ⟨n, h1, h2, rfl, h5⟩)), k - n, ?_, by omega,
          Or.inl h4⟩
        refine (C07_log2_stride_ok _ _ _ _ _).2 (Or.inr ⟨k - n, rfl, ?_, t, by rw [hT, h4]⟩)
        unfold pyTwoPow
        rw [if_pos (by omega)]
        congr 3
        omega
    obtain ⟨s, hmake, hNi, hav, hs⟩ := make_of a N hshape hN t av hT Q1 Q2 hQ hQ12 hJ st hap
    rw [← hs, ← hNi] at hls
    obtain ⟨l, hl⟩ := run_paths hmake hQ hQ12 (by rw [hav]; exact hov') (one_le_nBanks.2 hmo) hls
      (fun lT h => by rw [hNi, hk] at h; injection h with h; omega) (hx.trans hNi.symm)
    exact run_of_paths hmake hls (by rw [hNi]; exact hshape) (hx.trans hNi.symm) (by rw [hav]; exact hout) hl

/-! ## Cases -/

/-- `oversampling = 2` is admissible for `J = 3` and local averaging ... -/
example (x : List ℝ) (hx : x.length = 1000) :
    ∃ r, { exArgs .none .array with oversampling := some (.int 2) }.run x = .ok r :=
  (C94_returns_iff _ 1000 rfl (by norm_num) (2 ^ 3) .loc rfl 8 1 rfl (by norm_num)
    (le_jPad_of_pow (by norm_num) (by norm_num [exArgs])) 3 le_rfl (by norm_num) (by intro m h; cases h) x).2
    ⟨hx, by norm_num [exArgs], Or.inr (Or.inr ⟨rfl, by simp⟩),
      Or.inr (Or.inr ⟨2, rfl, by norm_num, by norm_num, rfl, Or.inl rfl⟩)⟩

/-- ... but never with `T = 'global'`. -/
example (x : List ℝ) : ¬ ∃ r, { exArgs .global .array with oversampling := some (.int 2) }.run x = .ok r := by
  intro h
  obtain ⟨-, -, -, h⟩ := (C94_returns_iff _ 1000 rfl (by norm_num) (2 ^ 3) .glob rfl 8 1 rfl (by norm_num)
    (le_jPad_of_pow (by norm_num) (by norm_num [exArgs])) 3 le_rfl (by norm_num) (by intro m h; cases h) x).1 h
  rcases h with ⟨h, -⟩ | ⟨h, -⟩ | ⟨n, -, -, -, h, -⟩
  · cases h
  · simp at h
  · cases h

end Verif
