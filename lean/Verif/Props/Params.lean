import Verif.Model.Params
import Verif.Props.InstancesJTFS

/-!
# C106: an object constructed from the parameters of another one
-/

namespace Verif

theorem parseQ_params {q : PyQ} {Q : Int × Int} (h : parseQ q = .ok Q) : parseQ (.tuple [Q.1, Q.2]) = .ok Q := by
  have hQ : ¬ Q.1 < 1 ∧ ¬ Q.2 < 1 := by
    unfold parseQ at h
    split at h
    · split at h
      · cases h
      · cases h
        exact ⟨by assumption, by norm_num⟩
    · rename_i l
      split at h
      · cases h
      · rename_i hl
        split at h
        · cases h
          simp at hl ⊢
          omega
        · cases h
          simp at hl ⊢
          omega
        · cases h
    · cases h
  unfold parseQ
  simp [hQ.1, hQ.2]

theorem parseQfr_params {q : PyQ} {n : Int} (h : parseQfr q = .ok n) : parseQfr (.tuple [n]) = .ok n := by
  have hn : ¬ n < 1 := by
    unfold parseQfr at h
    split at h
    · split at h
      · cases h
      · cases h
        assumption
    · rename_i l
      split at h
      · cases h
      · rename_i hl
        split at h
        · cases h
          simp at hl ⊢
          omega
        · cases h
    · cases h
  unfold parseQfr
  simp [hn]

/-- The cases in which the averaging is read back as it was given. -/
def Spec.Readable (T : PyT) (J N : Nat) : Prop := (T = .none ∧ 2 ^ J ≤ N) ∨ ∃ t, t ≠ 0 ∧ T = .num t

theorem parseT_num {t : Rat} {J N : Nat} {p : Rat × Average} (h0 : t ≠ 0) :
    parseT (.num t) J N = .ok p ↔ t ≤ N ∧ 1 ≤ t ∧ p = (t, .loc) := by
  unfold parseT
  simp only
  by_cases h1 : t > N
  · rw [if_pos h1]
    simp [not_le.2 h1]
  · rw [if_neg h1, if_neg h0]
    by_cases h2 : t < 1
    · rw [if_pos h2]
      simp [not_le.2 h2]
    · rw [if_neg h2]
      simp [not_lt.1 h1, not_lt.1 h2, eq_comm]

theorem parseT_params {T : PyT} {J N : Nat} {p : Rat × Average} (h : parseT T J N = .ok p) (hT : Spec.Readable T J N) :
    parseT (.num p.1) J N = .ok p ∧ p.2 = .loc ∧ 1 ≤ p.1 := by
  rcases hT with ⟨rfl, hJ⟩ | ⟨t, ht, rfl⟩
  · cases h
    have h1 : (1 : Rat) ≤ 2 ^ J := one_le_pow₀ (by norm_num)
    exact ⟨(parseT_num (by positivity)).2 ⟨show ((2 : Rat) ^ J) ≤ N by exact_mod_cast hJ, h1, rfl⟩, rfl, h1⟩
  · obtain ⟨h1, h2, rfl⟩ := (parseT_num ht).1 h
    exact ⟨h, rfl, h2⟩

theorem floorLog2_nonneg {t : Rat} (h : 1 ≤ t) : 0 ≤ floorLog2 t := by
  unfold floorLog2
  rw [Int.log_of_one_le_right _ h]
  exact Int.natCast_nonneg _

/-- The stride is read back as it was given, or as the averaging scale. -/
theorem log2Stride_params {st : Option PyNum} {T : PyT} {J N : Nat} {p : Rat × Average} {k : Int}
    (hp : parseT T J N = .ok p) (h1 : 1 ≤ p.1) (hp' : parseT (.num p.1) J N = .ok p) (hl : p.2 = .loc)
    (hk : log2Stride st T J N = .ok k) : log2Stride (some (pyTwoPow k)) (.num p.1) J N = .ok k := by
  have h0 : ∃ m : ℕ, k = m := by
    rcases (C07_log2_stride_ok _ _ _ _ _).1 hk with ⟨-, h⟩ | ⟨m, hm, -⟩
    · unfold log2T at h
      rw [hp] at h
      have h : Except.ok (floorLog2 p.1) = (Except.ok k : Py Int) := h
      cases h
      exact Int.eq_ofNat_of_zero_le (floorLog2_nonneg h1)
    · exact ⟨m, hm⟩
  obtain ⟨m, rfl⟩ := h0
  refine (C07_log2_stride_ok _ _ _ _ _).2 (.inr ⟨m, rfl, ?_, p.1, ?_⟩)
  · unfold pyTwoPow
    rw [if_pos (Int.natCast_nonneg _)]
    simp
  · rw [hp', ← hl]

/-- Objects whose arguments are parsed to the same values differ in the stored stride only. -/
theorem make_congr {a b : Args1D} {s : Sc1D} {st : Option PyNum} (h : a.make = .ok s) (hJ : b.J = a.J)
    (hN : parseShape b.shape = .ok s.built.Ninput) (hT : parseT b.T a.J s.built.Ninput = parseT a.T a.J s.built.Ninput)
    (hQ : parseQ b.Q = parseQ a.Q) (ho : applyOversampling b.oversampling b.stride b.T a.J s.built.Ninput = .ok st) :
    b.make = .ok { s with built := { s.built with stride := st } } := by
  obtain ⟨N, hN', h⟩ := bind_eq_ok.1 h
  obtain ⟨T, hT', h⟩ := bind_eq_ok.1 h
  obtain ⟨bd, hb, h⟩ := bind_eq_ok.1 h
  obtain ⟨Q, hQ', h⟩ := bind_eq_ok.1 h
  obtain ⟨f, hf, h⟩ := bind_eq_ok.1 h
  cases h
  unfold build1D at hb
  obtain ⟨N', hN'', hb⟩ := bind_eq_ok.1 hb
  rw [hN'] at hN''
  cases hN''
  obtain ⟨st', -, hb⟩ := bind_eq_ok.1 hb
  obtain ⟨lT, hlT, hb⟩ := bind_eq_ok.1 hb
  obtain ⟨lr, hlr, hb⟩ := bind_eq_ok.1 hb
  cases hb
  simp only at hN hT ho
  unfold Args1D.make
  rw [hN, hJ]
  show (parseT b.T a.J N >>= _ : Py _) = _
  rw [hT, hT']
  show (build1D b.shape a.J b.T b.stride b.oversampling (minToPad N T.1) >>= _ : Py _) = _
  have hlT' : log2T b.T a.J N = .ok lT := by
    unfold log2T at hlT ⊢
    rw [hT]
    exact hlT
  unfold build1D
  rw [hN]
  show ((applyOversampling b.oversampling b.stride b.T a.J N >>= _) >>= _ : Py _) = _
  rw [ho]
  show ((log2T b.T a.J N >>= _) >>= _ : Py _) = _
  rw [hlT']
  show ((computePadding (2 ^ jPad N (minToPad N T.1)) N >>= _) >>= _ : Py _) = _
  rw [hlr]
  show (parseQ b.Q >>= _ : Py _) = _
  rw [hQ, hQ']
  show (createFilters _ a.J Q.1.toNat Q.2.toNat T.1 >>= _ : Py _) = _
  rw [hf]
  rfl

theorem params_eq_ok {a a' : Args1D} {s : Sc1D} (h : a.params s = .ok a') :
    ∃ Q T k, parseQ a.Q = .ok Q ∧ parseT a.T a.J s.built.Ninput = .ok T ∧
      log2Stride s.built.stride a.T a.J s.built.Ninput = .ok k ∧
      a' = ⟨a.J, .tuple [s.built.Ninput], .tuple [Q.1, Q.2], .num T.1, some (pyTwoPow k), a.maxOrder, a.oversampling,
        a.outType⟩ := by
  obtain ⟨Q, hQ, h⟩ := bind_eq_ok.1 h
  obtain ⟨T, hT, h⟩ := bind_eq_ok.1 h
  obtain ⟨k, hk, h⟩ := bind_eq_ok.1 h
  cases h
  exact ⟨Q, T, k, hQ, hT, hk, rfl⟩

theorem params_ok {a : Args1D} {s : Sc1D} {Q : Int × Int} {T : Rat × Average} {k : Int} (hQ : parseQ a.Q = .ok Q)
    (hT : parseT a.T a.J s.built.Ninput = .ok T) (hk : log2Stride s.built.stride a.T a.J s.built.Ninput = .ok k) :
    ∃ a', a.params s = .ok a' := by
  unfold Args1D.params
  rw [hQ, hT, hk]
  exact ⟨_, rfl⟩

/-- An object that can be called has parameters. -/
theorem C106_params (a : Args1D) (s : Sc1D) (hs : a.make = .ok s) (x : List ℝ) (r : Out1D (List ℝ)) (h : a.run x = .ok r) :
    ∃ a', a.params s = .ok a' := by
  obtain ⟨s', hs', h⟩ := bind_eq_ok.1 h
  rw [hs] at hs'
  cases hs'
  obtain ⟨-, m, hm, -⟩ := Front1D.scattering_eq_ok.1 h
  obtain ⟨U, -, hm⟩ := bind_eq_ok.1 hm
  obtain ⟨k, hk, -⟩ := bind_eq_ok.1 hm
  obtain ⟨t, Q1, Q2, lT, M1, M2, -, -, -, hT, hQ, -⟩ := make_filters hs
  exact params_ok hQ hT hk

/-- **1-D.**  If `T` is not zero and not `'global'` and fits into the signal, and oversampling is not used, the object
constructed from the parameters of `S` is `S` again: all methods do the same.  The full claim has no hypothesis on `T` and
`oversampling`; it is false (below). -/
theorem C106_1d_partial (a a' : Args1D) (s : Sc1D) (hs : a.make = .ok s) (ha : a.params s = .ok a')
    (hT : Spec.Readable a.T a.J s.built.Ninput) (ho : a.oversampling = none ∨ a.oversampling = some (.int 0)) :
    ∃ s', a'.make = .ok s' ∧ a'.obj s' = a.obj s ∧ ∀ x, a'.run x = a.run x := by
  obtain ⟨Q, T, k, hQ, hT', hk, rfl⟩ := params_eq_ok ha
  obtain ⟨p1, p2, p3⟩ := parseT_params hT' hT
  have hm : (Args1D.mk a.J (.tuple [s.built.Ninput]) (.tuple [Q.1, Q.2]) (.num T.1) (some (pyTwoPow k)) a.maxOrder a.oversampling
      a.outType).make = .ok { s with built := { s.built with stride := some (pyTwoPow k) } } :=
    make_congr hs rfl rfl (p1.trans hT'.symm) ((parseQ_params hQ).trans hQ.symm)
      (by rcases ho with h | h <;> rw [h] <;> simp [applyOversampling, PyNum.val])
  have hobj : (Args1D.mk a.J (.tuple [s.built.Ninput]) (.tuple [Q.1, Q.2]) (.num T.1) (some (pyTwoPow k)) a.maxOrder a.oversampling
      a.outType).obj { s with built := { s.built with stride := some (pyTwoPow k) } } = a.obj s := by
    unfold Args1D.obj
    simp only
    rw [hk, log2Stride_params hT' p3 p1 p2 hk]
  refine ⟨_, hm, hobj, fun x => ?_⟩
  unfold Args1D.run
  rw [hm, hs]
  show Front1D.scattering npBackend npFront _ x = Front1D.scattering npBackend npFront _ x
  rw [hobj]

/-- `T=0` and `T='global'` are lost: the new object, if there is one, averages locally. -/
theorem C106_average_violated (a a' : Args1D) (s s' : Sc1D) (hs : a.make = .ok s) (ha : a.params s = .ok a')
    (hT : a.T = .global ∨ a.T = .num 0) (hs' : a'.make = .ok s') : s.average ≠ .loc ∧ s'.average = .loc := by
  obtain ⟨Q, T, k, hQ, hT', hk, rfl⟩ := params_eq_ok ha
  obtain ⟨t, lT, -, h1, -⟩ := make_sizes hs
  obtain ⟨t', lT', -, h2, -⟩ := make_sizes hs'
  have hTv : T.1 = 2 ^ a.J ∧ s.average ≠ .loc := by
    rw [h1] at hT'
    have e : (t, s.average) = T := Except.ok.inj hT'
    rw [← e]
    rcases hT with hT | hT <;> rw [hT] at h1
    · have h1 := Except.ok.inj h1
      rw [Prod.mk.injEq] at h1
      exact ⟨h1.1.symm, by rw [← h1.2]; simp⟩
    · unfold parseT at h1
      simp only at h1
      split at h1
      · cases h1
      · rw [if_true] at h1
        have h1 := Except.ok.inj h1
        rw [Prod.mk.injEq] at h1
        exact ⟨h1.1.symm, by rw [← h1.2]; simp⟩
  refine ⟨hTv.2, ?_⟩
  have h2 : parseT (.num T.1) a.J s'.built.Ninput = .ok (t', s'.average) := h2
  rw [hTv.1] at h2
  have := ((parseT_num (by positivity)).1 h2).2.2
  rw [Prod.mk.injEq] at this
  exact this.2

/-- With `T=None` and `2**J` above the length of the signal, the new object cannot be constructed. -/
theorem C106_long_violated (a a' : Args1D) (s : Sc1D) (ha : a.params s = .ok a') (hT : a.T = .none)
    (hJ : s.built.Ninput < 2 ^ a.J) : a'.make = .error .value := by
  obtain ⟨Q, T, k, hQ, hT', hk, rfl⟩ := params_eq_ok ha
  rw [hT] at hT'
  cases hT'
  unfold Args1D.make
  show (parseT (.num ((2 : Rat) ^ a.J)) a.J s.built.Ninput >>= _ : Py _) = _
  have : parseT (.num ((2 : Rat) ^ a.J)) a.J s.built.Ninput = .error .value := by
    unfold parseT
    simp only
    rw [if_pos (by exact_mod_cast hJ)]
  rw [this]
  rfl

/-- With oversampling the new object cannot be constructed: the stride that goes with it is refused. -/
theorem C106_oversampling_violated (a a' : Args1D) (s : Sc1D) (hs : a.make = .ok s) (ha : a.params s = .ok a') (o : Int)
    (h0 : 0 < o) (ho : a.oversampling = some (.int o)) : a'.make = .error .value := by
  obtain ⟨Q, T, k, hQ, hT', hk, rfl⟩ := params_eq_ok ha
  have hk' : k = floorLog2 T.1 - o ∧ 0 ≤ k := by
    obtain ⟨N, hN, h⟩ := bind_eq_ok.1 hs
    obtain ⟨T', hT'', h⟩ := bind_eq_ok.1 h
    obtain ⟨bd, hb, h⟩ := bind_eq_ok.1 h
    obtain ⟨Q', hQ', h⟩ := bind_eq_ok.1 h
    obtain ⟨f, hf, h⟩ := bind_eq_ok.1 h
    cases h
    unfold build1D at hb
    obtain ⟨N', hN'', hb⟩ := bind_eq_ok.1 hb
    rw [hN] at hN''
    cases hN''
    obtain ⟨st, hst, hb⟩ := bind_eq_ok.1 hb
    obtain ⟨lT, hlT, hb⟩ := bind_eq_ok.1 hb
    obtain ⟨lr, hlr, hb⟩ := bind_eq_ok.1 hb
    cases hb
    simp only at hT' hk
    have hl : lT = floorLog2 T.1 := by
      unfold log2T at hlT
      rw [hT'] at hlT
      have hlT : Except.ok (floorLog2 T.1) = (Except.ok lT : Py Int) := hlT
      cases hlT
      rfl
    have e : st = some (pyTwoPow (lT - o)) := by
      rw [ho] at hst
      unfold applyOversampling at hst
      simp only at hst
      rw [if_neg (by simp [PyNum.val]; omega), if_pos h0, hlT] at hst
      change (match a.stride with
        | none => Except.ok (some (pyTwoPow (lT - o)))
        | some s => if s.val = (pyTwoPow (lT - o - 1)).val then Except.ok (some (pyTwoPow (lT - o))) else .error .value) =
          (Except.ok st : Py _) at hst
      split at hst
      · cases hst
        rfl
      · split at hst
        · cases hst
          rfl
        · cases hst
    rw [e] at hk
    rcases (C07_log2_stride_ok _ _ _ _ _).1 hk with ⟨h, -⟩ | ⟨m, rfl, hm, -⟩
    · cases h
    · unfold pyTwoPow at hm
      split at hm
      · rename_i h
        simp only [Option.some.injEq, PyNum.int.injEq] at hm
        have := Int.pow_right_injective (a := 2) (by decide) hm
        omega
      · cases hm
  obtain ⟨rfl, hk0⟩ := hk'
  unfold Args1D.make
  show (parseT (.num T.1) a.J s.built.Ninput >>= _ : Py _) = _
  cases hp : parseT (.num T.1) a.J s.built.Ninput with
  | error e =>
    unfold parseT at hp
    simp only at hp
    split at hp
    · cases hp; rfl
    · split at hp
      · cases hp
      · split at hp
        · cases hp; rfl
        · cases hp
  | ok p =>
    have hp1 : p.1 = T.1 := by
      have hne : T.1 ≠ 0 := by
        obtain ⟨t', Q1, Q2, lT', M1, M2, -, -, ht', hT2, -⟩ := make_filters hs
        rw [hT2] at hT'
        rw [← Except.ok.inj hT']
        show t' ≠ 0
        intro h
        rw [h] at ht'
        norm_num at ht'
      rw [((parseT_num hne).1 hp).2.2]
    show (build1D _ _ _ _ _ _ >>= _ : Py _) = _
    unfold build1D
    show ((applyOversampling a.oversampling (some (pyTwoPow (floorLog2 T.1 - o))) (.num T.1) a.J s.built.Ninput >>= _) >>= _ : Py _) = _
    have : applyOversampling a.oversampling (some (pyTwoPow (floorLog2 T.1 - o))) (.num T.1) a.J s.built.Ninput =
        .error .value := by
      rw [ho]
      unfold applyOversampling log2T
      simp only
      rw [if_neg (by simp [PyNum.val]; omega), if_pos h0, hp]
      show (if (pyTwoPow (floorLog2 T.1 - o)).val = (pyTwoPow (floorLog2 p.1 - o - 1)).val then _ else _) = _
      rw [if_neg]
      rw [hp1]
      have e : ∀ z : Int, (pyTwoPow z).val = (2 : Rat) ^ z := by
        intro z
        unfold pyTwoPow
        split
        · rename_i hz
          obtain ⟨n, rfl⟩ := Int.eq_ofNat_of_zero_le hz
          simp [PyNum.val]
        · rfl
      rw [e, e]
      intro h
      have := zpow_right_injective₀ (by norm_num : (0 : Rat) < 2) (by norm_num) h
      omega
    rw [this]
    rfl

/-! ## Joint time-frequency scattering -/

theorem paramsJ_eq_ok {a a' : JArgs} {s : ScJ} (h : a.params s = .ok a') :
    ∃ Q T k q F l, parseQ a.Q = .ok Q ∧ parseT a.T a.J s.base.built.Ninput = .ok T ∧
      log2Stride s.base.built.stride a.T a.J s.base.built.Ninput = .ok k ∧ parseQfr a.Qfr = .ok q ∧
      parseT a.F a.Jfr ((a.J + 1) * Q.1.toNat) = .ok F ∧ log2Stride a.strideFr a.F a.Jfr ((a.J + 1) * Q.1.toNat) = .ok l ∧
      a' = ⟨a.J, a.Jfr, .tuple [Q.1, Q.2], .tuple [s.base.built.Ninput], .num T.1, some (pyTwoPow k), .tuple [q], .num F.1,
        some (pyTwoPow l), a.outType, a.fmt⟩ := by
  obtain ⟨Q, hQ, h⟩ := bind_eq_ok.1 h
  obtain ⟨T, hT, h⟩ := bind_eq_ok.1 h
  obtain ⟨k, hk, h⟩ := bind_eq_ok.1 h
  obtain ⟨q, hq, h⟩ := bind_eq_ok.1 h
  obtain ⟨F, hF, h⟩ := bind_eq_ok.1 h
  obtain ⟨l, hl, h⟩ := bind_eq_ok.1 h
  cases h
  exact ⟨Q, T, k, q, F, l, hQ, hT, hk, hq, hF, hl, rfl⟩

theorem paramsJ_ok {a : JArgs} {s : ScJ} {Q : Int × Int} {T F : Rat × Average} {k l q : Int} (hQ : parseQ a.Q = .ok Q)
    (hT : parseT a.T a.J s.base.built.Ninput = .ok T)
    (hk : log2Stride s.base.built.stride a.T a.J s.base.built.Ninput = .ok k) (hq : parseQfr a.Qfr = .ok q)
    (hF : parseT a.F a.Jfr ((a.J + 1) * Q.1.toNat) = .ok F)
    (hl : log2Stride a.strideFr a.F a.Jfr ((a.J + 1) * Q.1.toNat) = .ok l) : ∃ a', a.params s = .ok a' := by
  unfold JArgs.params
  rw [hQ, hT, hk, hq]
  show ∃ a', (parseT a.F a.Jfr ((a.J + 1) * Q.1.toNat) >>= fun F => _ : Py _) = .ok a'
  rw [hF]
  show ∃ a', (log2Stride a.strideFr a.F a.Jfr ((a.J + 1) * Q.1.toNat) >>= fun l => _ : Py _) = .ok a'
  rw [hl]
  exact ⟨_, rfl⟩

/-- **Joint time-frequency scattering.**  The same if `T` and `F` are not zero and not `'global'` and fit.  The full claim has
no such hypothesis; it is false (below). -/
theorem C106_jtfs_partial (a a' : JArgs) (s : ScJ) (hs : a.make = .ok s) (ha : a.params s = .ok a') (Q : Int × Int)
    (hQ : parseQ a.Q = .ok Q) (hT : Spec.Readable a.T a.J s.base.built.Ninput)
    (hF : Spec.Readable a.F a.Jfr ((a.J + 1) * Q.1.toNat)) :
    ∃ s', a'.make = .ok s' ∧ a'.obj s' Q.1.toNat = a.obj s Q.1.toNat ∧ ∀ x, a'.run x = a.run x := by
  obtain ⟨Q', T, k, q, F, l, hQ', hT', hk, hq, hF', hl, rfl⟩ := paramsJ_eq_ok ha
  rw [hQ] at hQ'
  cases hQ'
  obtain ⟨p1, p2, p3⟩ := parseT_params hT' hT
  obtain ⟨f1, f2, f3⟩ := parseT_params hF' hF
  unfold JArgs.make at hs
  obtain ⟨s0, hs0, h⟩ := bind_eq_ok.1 hs
  obtain ⟨Q', hQ', h⟩ := bind_eq_ok.1 h
  rw [hQ] at hQ'
  cases hQ'
  obtain ⟨q', hq', h⟩ := bind_eq_ok.1 h
  rw [hq] at hq'
  cases hq'
  obtain ⟨F', hF'', h⟩ := bind_eq_ok.1 h
  rw [hF'] at hF''
  cases hF''
  obtain ⟨f, hf, h⟩ := bind_eq_ok.1 h
  cases h
  simp only at hT hT' hk p1
  have hm0 : (Args1D.mk a.J (.tuple [s0.built.Ninput]) (.tuple [Q.1, Q.2]) (.num T.1) (some (pyTwoPow k)) 2 none
      a.outType).make = .ok { s0 with built := { s0.built with stride := some (pyTwoPow k) } } :=
    make_congr hs0 rfl rfl (p1.trans hT'.symm) ((parseQ_params hQ).trans hQ.symm) rfl
  have hm : (JArgs.mk a.J a.Jfr (.tuple [Q.1, Q.2]) (.tuple [s0.built.Ninput]) (.num T.1) (some (pyTwoPow k)) (.tuple [q])
      (.num F.1) (some (pyTwoPow l)) a.outType a.fmt).make =
      .ok ⟨{ s0 with built := { s0.built with stride := some (pyTwoPow k) } }, f.1, f.2,
        nPaddedFr a.Jfr ((a.J + 1) * Q.1.toNat) F.1, F.2⟩ := by
    unfold JArgs.make JArgs.base
    simp only
    rw [hm0]
    show (parseQ (.tuple [Q.1, Q.2]) >>= _ : Py _) = _
    rw [parseQ_params hQ]
    show (parseQfr (.tuple [q]) >>= _ : Py _) = _
    rw [parseQfr_params hq]
    show (parseT (.num F.1) a.Jfr ((a.J + 1) * Q.1.toNat) >>= _ : Py _) = _
    rw [f1]
    show (createFiltersFr _ a.Jfr q.toNat F.1 >>= _ : Py _) = _
    rw [hf]
    rfl
  have hobj : (JArgs.mk a.J a.Jfr (.tuple [Q.1, Q.2]) (.tuple [s0.built.Ninput]) (.num T.1) (some (pyTwoPow k)) (.tuple [q])
      (.num F.1) (some (pyTwoPow l)) a.outType a.fmt).obj
      ⟨{ s0 with built := { s0.built with stride := some (pyTwoPow k) } }, f.1, f.2,
        nPaddedFr a.Jfr ((a.J + 1) * Q.1.toNat) F.1, F.2⟩ Q.1.toNat =
      a.obj ⟨s0, f.1, f.2, nPaddedFr a.Jfr ((a.J + 1) * Q.1.toNat) F.1, F.2⟩ Q.1.toNat := by
    unfold JArgs.obj
    simp only
    rw [hk, hl, log2Stride_params hT' p3 p1 p2 hk, log2Stride_params hF' f3 f1 f2 hl]
  refine ⟨_, hm, hobj, fun x => ?_⟩
  unfold JArgs.run
  rw [hm, show a.make = _ from hs]
  show (parseQ (.tuple [Q.1, Q.2]) >>= _ : Py _) = (parseQ a.Q >>= _ : Py _)
  rw [parseQ_params hQ, hQ]
  show FrontJ.scattering npJ npFrontJ _ x = FrontJ.scattering npJ npFrontJ _ x
  rw [hobj]

/-- `F=0` and `F='global'` are lost in the same way. -/
theorem C106_frequency_violated (a a' : JArgs) (s s' : ScJ) (hs : a.make = .ok s) (ha : a.params s = .ok a')
    (hF : a.F = .global ∨ a.F = .num 0) (hs' : a'.make = .ok s') : s.averageFr ≠ .loc ∧ s'.averageFr = .loc := by
  obtain ⟨Q, T, k, q, F, l, hQ, hT, hk, hq, hF', hl, rfl⟩ := paramsJ_eq_ok ha
  have e : ∀ {b : JArgs} {r : ScJ}, b.make = .ok r → ∃ Q F, parseQ b.Q = .ok Q ∧
      parseT b.F b.Jfr ((b.J + 1) * Q.1.toNat) = .ok F ∧ r.averageFr = F.2 := by
    intro b r h
    obtain ⟨s0, hs0, h⟩ := bind_eq_ok.1 h
    obtain ⟨Q', hQ', h⟩ := bind_eq_ok.1 h
    obtain ⟨q', hq', h⟩ := bind_eq_ok.1 h
    obtain ⟨F', hF'', h⟩ := bind_eq_ok.1 h
    obtain ⟨f, hf, h⟩ := bind_eq_ok.1 h
    cases h
    exact ⟨Q', F', hQ', hF'', rfl⟩
  obtain ⟨Q1, F1, h1, h2, h3⟩ := e hs
  rw [hQ] at h1
  cases h1
  rw [hF'] at h2
  cases h2
  obtain ⟨Q2, F2, h4, h5, h6⟩ := e hs'
  have hFv : F.1 = 2 ^ a.Jfr ∧ F.2 ≠ .loc := by
    rcases hF with hF | hF <;> rw [hF] at hF'
    · rw [← Except.ok.inj hF']
      exact ⟨rfl, by simp⟩
    · unfold parseT at hF'
      simp only at hF'
      split at hF'
      · cases hF'
      · rw [if_true] at hF'
        rw [← Except.ok.inj hF']
        exact ⟨rfl, by simp⟩
  refine ⟨h3 ▸ hFv.2, ?_⟩
  have h5 : parseT (.num F.1) a.Jfr ((a.J + 1) * Q2.1.toNat) = .ok F2 := h5
  rw [hFv.1] at h5
  rw [h6, ((parseT_num (by positivity)).1 h5).2.2]

/-! ## Concrete cases -/

/-- `Scattering1D(J=3, shape=1000, Q=8)`. -/
example : ∃ s a', (exArgs .none .array).make = .ok s ∧ (exArgs .none .array).params s = .ok a' ∧
    ∀ x, a'.run x = (exArgs .none .array).run x := by
  obtain ⟨s, hs, hN, -, hrun⟩ := exArgs_run (T := .none) (av := .loc) .array (Or.inl ⟨rfl, rfl⟩)
    (Or.inr (Or.inr ⟨rfl, by simp⟩))
  obtain ⟨r, hr⟩ := hrun (List.replicate 1000 0) List.length_replicate
  obtain ⟨a', ha'⟩ := C106_params _ s hs _ r hr
  obtain ⟨s', -, -, h⟩ := C106_1d_partial _ a' s hs ha' (.inl ⟨rfl, by rw [hN]; norm_num [exArgs]⟩) (.inr rfl)
  exact ⟨s, a', hs, ha', h⟩

/-- `Scattering1D(J=3, shape=1000, Q=8, T=0, out_type='list')`: the new object exists and averages. -/
example : ∃ s a' s', (exArgs (.num 0) .list).make = .ok s ∧ (exArgs (.num 0) .list).params s = .ok a' ∧ a'.make = .ok s' ∧
    s.average = .no ∧ s'.average = .loc := by
  obtain ⟨s, hs, hN, hav, hrun⟩ := exArgs_run (T := .num 0) (av := .no) .list (Or.inr (Or.inr (Or.inl ⟨rfl, rfl⟩)))
    (Or.inl rfl)
  obtain ⟨r, hr⟩ := hrun (List.replicate 1000 0) List.length_replicate
  obtain ⟨a', ha'⟩ := C106_params _ s hs _ r hr
  obtain ⟨Q, T, k, hQ, hT', hk, e⟩ := params_eq_ok ha'
  have hT1 : T = (2 ^ 3, .no) := by
    rw [hN] at hT'
    unfold parseT exArgs at hT'
    norm_num at hT'
    rw [← hT']
    norm_num
  have hk3 : k = 3 := by
    rcases (C07_log2_stride_ok _ _ _ _ _).1 hk with ⟨-, h⟩ | ⟨m, -, -, t, h⟩
    · unfold log2T at h
      rw [hT'] at h
      have h := Except.ok.inj (show Except.ok (floorLog2 T.1) = (Except.ok k : Py Int) from h)
      rw [← h, hT1]
      exact floorLog2_twoPow 3
    · rw [hT', hT1] at h
      simp at h
  obtain ⟨s', hs', -⟩ := C17_no_error a' 1000 (by rw [e, hN]; rfl) (by norm_num) (2 ^ 3) .loc
    (by rw [e]; exact (parseT_num (t := T.1) (by rw [hT1]; norm_num)).2 ⟨by rw [hT1]; norm_num, by rw [hT1]; norm_num, by rw [hT1]⟩)
    8 1 (by rw [e]; cases hQ; rfl) (by norm_num) (by rw [e]; exact le_jPad_of_pow (by norm_num) (by norm_num [exArgs]))
    (by rw [e]; rfl) (by rw [e]; norm_num [exArgs])
    (.inr ⟨3, by rw [e, hk3]; rfl, by norm_num, rfl⟩) (.inl (by rw [e]; rfl))
  exact ⟨s, a', s', hs, ha', hs', hav, (C106_average_violated _ a' s s' hs ha' (.inr rfl) hs').2⟩

/-- `Scattering1D(J=10, shape=1000, Q=8)`: the filter is longer than the signal. -/
example : ∃ s a', ({ exArgs .none .list with J := 10 } : Args1D).make = .ok s ∧
    ({ exArgs .none .list with J := 10 } : Args1D).params s = .ok a' ∧ a'.make = .error .value := by
  obtain ⟨s, hs, hN, -, hrun⟩ := C17_no_error ({ exArgs .none .list with J := 10 } : Args1D) 1000 rfl (by norm_num) (2 ^ 10) .loc
    rfl 8 1 rfl (by norm_num)
    (le_min ((Nat.lt_clog_iff_pow_lt (by norm_num)).2 (show 2 ^ 9 < _ by omega)) (Nat.le_log_of_pow_le (by norm_num) (by norm_num)))
    rfl (by norm_num [exArgs]) (Or.inl rfl) (Or.inl rfl)
  obtain ⟨r, hr⟩ := hrun (List.replicate 1000 0) List.length_replicate
  obtain ⟨a', ha'⟩ := C106_params _ s hs _ r hr
  exact ⟨s, a', hs, ha', C106_long_violated _ a' s ha' rfl (by rw [hN]; norm_num)⟩

/-- `Scattering1D(J=3, shape=1000, Q=8, oversampling=1)`. -/
example : ∃ s a', ({ exArgs .none .list with oversampling := some (.int 1) } : Args1D).make = .ok s ∧
    ({ exArgs .none .list with oversampling := some (.int 1) } : Args1D).params s = .ok a' ∧ a'.make = .error .value := by
  obtain ⟨s, hs, hN, -⟩ := exArgs_run (T := .none) (av := .loc) .list (Or.inl ⟨rfl, rfl⟩) (Or.inl rfl)
  obtain ⟨t, lT, hsh, -⟩ := make_sizes hs
  have hm := make_congr (b := { exArgs .none .list with oversampling := some (.int 1) }) (st := some (.int 4)) hs rfl hsh rfl rfl
    (by
      unfold applyOversampling log2T
      show ((if (1 : Rat) < 0 then _ else if (0 : Int) < 1 then _ else _) : Py _) = _
      rw [if_neg (by norm_num), if_pos (by norm_num)]
      show Except.ok (some (pyTwoPow (floorLog2 (2 ^ 3) - 1))) = _
      rw [floorLog2_twoPow]
      rfl)
  obtain ⟨a', ha'⟩ := params_ok (a := { exArgs .none .list with oversampling := some (.int 1) })
    (s := { s with built := { s.built with stride := some (.int 4) } }) (Q := (8, 1)) (T := (2 ^ 3, .loc)) (k := 2) rfl rfl
    ((C07_log2_stride_ok _ _ _ _ _).2 (.inr ⟨2, rfl, rfl, _, rfl⟩))
  exact ⟨_, a', hm, ha', C106_oversampling_violated _ a' _ hm ha' 1 (by norm_num) rfl⟩

/-- `TimeFrequencyScattering(J=3, J_fr=2, Q=8, shape=1000)`. -/
example : ∃ s a', (exJ .array .joint).make = .ok s ∧ (exJ .array .joint).params s = .ok a' ∧
    ∀ x, a'.run x = (exJ .array .joint).run x := by
  obtain ⟨s, -, -, hs, hN, -, -, hk, hl, -⟩ := exJ_run .array (by simp) .joint (by simp) (List.replicate 1000 0) List.length_replicate
  obtain ⟨a', ha'⟩ := paramsJ_ok (a := exJ .array .joint) (s := s) (Q := (8, 1)) (T := (2 ^ 3, .loc)) (q := 1)
    (F := (2 ^ 2, .loc)) rfl rfl hk rfl rfl hl
  obtain ⟨s', -, -, h⟩ := C106_jtfs_partial _ a' s hs ha' (8, 1) rfl (.inl ⟨rfl, by rw [hN]; norm_num [exJ]⟩)
    (.inl ⟨rfl, by norm_num [exJ]⟩)
  exact ⟨s, a', hs, ha', h⟩

/-- The same with `F=0`, `out_type='list'`: the new object averages along frequency. -/
example : ∃ s a' s', ({ exJ .list .time with F := .num 0 } : JArgs).make = .ok s ∧
    ({ exJ .list .time with F := .num 0 } : JArgs).params s = .ok a' ∧ a'.make = .ok s' ∧
    s.averageFr = .no ∧ s'.averageFr = .loc := by
  have h0 : parseT (.num 0) 2 ((3 + 1) * (8 : ℤ).toNat) = .ok (2 ^ 2, .no) := by norm_num [parseT]
  have hJp : ∀ t, 3 ≤ jPad 1000 (minToPad 1000 t) := fun t => le_jPad_of_pow (by norm_num) (by norm_num)
  obtain ⟨s, hs, hN, -, hF, hst⟩ := C76_construction ({ exJ .list .time with F := .num 0 } : JArgs) 1000 rfl (by norm_num)
    (2 ^ 3) .loc rfl 8 1 rfl (by norm_num) (hJp _) 1 rfl (2 ^ 2) .no h0 (by rw [floorLog2_twoPow]; rfl)
  have hl2 : log2T (.num 0) 2 ((3 + 1) * (8 : ℤ).toNat) = .ok 2 := by
    unfold log2T
    rw [h0]
    exact congrArg Except.ok (floorLog2_twoPow 2)
  have hk3 : log2Stride s.base.built.stride .none 3 s.base.built.Ninput = .ok 3 := by
    rw [hst]
    exact congrArg Except.ok (floorLog2_twoPow 3)
  obtain ⟨a', ha'⟩ := paramsJ_ok (a := { exJ .list .time with F := .num 0 }) (s := s) (Q := (8, 1)) (T := (2 ^ 3, .loc)) (q := 1)
    (F := (2 ^ 2, .no)) (k := 3) (l := 2) rfl rfl hk3 rfl h0 hl2
  obtain ⟨Q, T, k, q, F, l, hQ, hT', hk, hq, hF', hl, e⟩ := paramsJ_eq_ok ha'
  cases Except.ok.inj hQ
  cases Except.ok.inj hT'
  cases Except.ok.inj hq
  cases Except.ok.inj (h0.symm.trans hF')
  obtain ⟨s', hs', -⟩ := C76_construction a' 1000 (by rw [e, hN]; rfl) (by norm_num) (2 ^ 3) .loc
    (by rw [e]; exact (parseT_num (by norm_num)).2 ⟨by norm_num [exJ], by norm_num [exJ], rfl⟩) 8 1 (by rw [e]; rfl) (by norm_num)
    (by rw [e]; exact hJp _) 1 (by rw [e]; rfl) (2 ^ 2) .loc
    (by rw [e]; exact (parseT_num (by norm_num)).2 ⟨by norm_num [exJ], by norm_num, rfl⟩)
    (by rw [e, floorLog2_twoPow]; rfl)
  exact ⟨s, a', s', hs, ha', hs', hF, (C106_frequency_violated _ a' s s' hs ha' (.inr rfl) hs').2⟩

end Verif
