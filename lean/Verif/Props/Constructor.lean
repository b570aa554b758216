import Verif.Props.NoError1D
import Verif.Props.ObjectJTFS
import Verif.Model.Object2D
import Verif.Lemmas.Core3D

/-!
# C108: which exception a constructor raises
-/

namespace Verif

namespace Spec

/-- A `shape` that announces `N` samples. -/
def IsLength (s : PyShape) (N : ℕ) : Prop := s = .int N ∨ s = .tuple [N]

/-- A usable `T` (or `F`) for `N` samples. -/
def TOk (T : PyT) (N : ℕ) : Prop := ∀ t, T = .num t → t = 0 ∨ (1 ≤ t ∧ t ≤ N)

/-- The number meant by `T`. -/
def numberOfT (T : PyT) (J : ℕ) : ℚ :=
  match T with
  | .num t => if t = 0 then 2 ^ J else t
  | _ => 2 ^ J

/-- A usable `oversampling`: `None`, zero or a positive integer; with a positive one no stride but `2 ** (log2_T - o - 1)` may
be given. -/
def OversamplingOk (ov stride : Option PyNum) (T : PyT) (J : ℕ) : Prop :=
  ∀ o, ov = some o → ∃ n : ℕ, o = .int n ∧
    (0 < n → ∀ s, stride = some s → s.val = (2 : ℚ) ^ (Int.log 2 (numberOfT T J) - n - 1))

/-- A quality factor that is not an int of at least one or a tuple of such ints. -/
def QInvalid (Q : PyQ) : Prop :=
  (∃ n, Q = .int n ∧ n < 1) ∨ (∃ l, Q = .tuple l ∧ ∃ x ∈ l, x < 1) ∨ ∃ b, Q = .other b

/-- A tuple of ints of at least one, of a length that is not listed. -/
def QMany (Q : PyQ) (lengths : List ℕ) : Prop := ∃ l, Q = .tuple l ∧ (∀ x ∈ l, 1 ≤ x) ∧ l.length ∉ lengths

/-- The pair meant by an accepted `Q`. -/
def QIs (Q : PyQ) (Q1 Q2 : ℤ) : Prop :=
  1 ≤ Q1 ∧ 1 ≤ Q2 ∧ ((Q2 = 1 ∧ (Q = .int Q1 ∨ Q = .tuple [Q1])) ∨ Q = .tuple [Q1, Q2])

/-- Every `Q` is accepted, invalid or too long. -/
theorem Q_cases (Q : PyQ) : (∃ Q1 Q2, QIs Q Q1 Q2) ∨ QInvalid Q ∨ QMany Q [1, 2] := by
  cases Q with
  | int n =>
    by_cases h : n < 1
    · exact .inr (.inl (.inl ⟨n, rfl, h⟩))
    · exact .inl ⟨n, 1, by omega, le_refl 1, .inl ⟨rfl, .inl rfl⟩⟩
  | other b => exact .inr (.inl (.inr (.inr ⟨b, rfl⟩)))
  | tuple l =>
    by_cases h : ∃ x ∈ l, x < 1
    · exact .inr (.inl (.inr (.inl ⟨l, rfl, h⟩)))
    push Not at h
    match l, h with
    | [], _ => exact .inr (.inr ⟨[], rfl, by simp, by simp⟩)
    | [a], h => exact .inl ⟨a, 1, h a (by simp), le_refl 1, .inl ⟨rfl, .inr rfl⟩⟩
    | [a, b], h => exact .inl ⟨a, b, h a (by simp), h b (by simp), .inr rfl⟩
    | a :: b :: c :: l, h => exact .inr (.inr ⟨_, rfl, h, by simp⟩)

end Spec

/-! ## The parts -/

theorem parseShape_isLength {s : PyShape} {N : ℕ} (h : Spec.IsLength s N) : parseShape s = .ok N := by
  rcases h with rfl | rfl <;> rfl

theorem parseT_tOk {T : PyT} {J N : ℕ} (h : Spec.TOk T N) : ∃ av, parseT T J N = .ok (Spec.numberOfT T J, av) := by
  cases T with
  | none => exact ⟨_, rfl⟩
  | global => exact ⟨_, rfl⟩
  | num t =>
    rcases h t rfl with rfl | ⟨h1, h2⟩
    · exact ⟨.no, by rw [((C06_parse_T J N).2.2 0).1 rfl]; simp [Spec.numberOfT]⟩
    · refine ⟨.loc, ?_⟩
      rw [((C06_parse_T J N).2.2 t).2.1 h1 h2]
      have : t ≠ 0 := by linarith
      simp [Spec.numberOfT, this]

theorem parseT_not {T : PyT} {J N : ℕ} (h : ¬ Spec.TOk T N) : parseT T J N = .error .value := by
  unfold Spec.TOk at h
  push Not at h
  obtain ⟨t, rfl, h0, h1⟩ := h
  exact ((C06_parse_T J N).2.2 t).2.2 h0 fun h => absurd h.2 (not_le.2 (h1 h.1))

theorem log2T_tOk {T : PyT} {J N : ℕ} (h : Spec.TOk T N) : log2T T J N = .ok (Int.log 2 (Spec.numberOfT T J)) := by
  obtain ⟨av, h⟩ := parseT_tOk (J := J) h
  unfold log2T
  rw [h]
  rfl

theorem applyOversampling_iff {ov stride : Option PyNum} {T : PyT} {J N : ℕ} (hT : Spec.TOk T N) :
    (Spec.OversamplingOk ov stride T J → ∃ st, applyOversampling ov stride T J N = .ok st) ∧
      (¬ Spec.OversamplingOk ov stride T J → applyOversampling ov stride T J N = .error .value) := by
  cases ov with
  | none => exact ⟨fun _ => ⟨_, rfl⟩, fun h => absurd (fun o ho => by cases ho) h⟩
  | some o =>
    cases o with
    | flt q =>
      refine ⟨fun h => ?_, fun _ => (C08_oversampling_values T J N stride q 0).2.2.1⟩
      obtain ⟨n, hn, -⟩ := h _ rfl
      cases hn
    | int z =>
      by_cases hz : z < 0
      · refine ⟨fun h => ?_, fun _ => (C08_oversampling_values T J N stride 0 z).2.2.2 hz⟩
        obtain ⟨n, hn, -⟩ := h _ rfl
        cases hn
        omega
      obtain ⟨n, rfl⟩ := Int.eq_ofNat_of_zero_le (not_lt.1 hz)
      have h0 : ¬ (PyNum.int (n : ℤ)).val < 0 := by
        simp [PyNum.val]
      unfold applyOversampling
      simp only
      rw [if_neg h0]
      by_cases hn : (0 : ℤ) < n
      · rw [if_pos hn, log2T_tOk hT, ok_bind]
        cases stride with
        | none =>
          refine ⟨fun _ => ⟨_, rfl⟩, fun h => absurd (fun o ho => ?_) h⟩
          cases ho
          exact ⟨n, rfl, fun _ s hs => by cases hs⟩
        | some s =>
          simp only
          rw [pyTwoPow_val]
          constructor
          · intro h
            obtain ⟨m, hm, h⟩ := h _ rfl
            have : n = m := by
              injection hm with hm
              exact_mod_cast hm
            subst this
            rw [if_pos (h (by exact_mod_cast hn) s rfl)]
            exact ⟨_, rfl⟩
          · intro h
            refine if_neg fun hs => h fun o ho => ?_
            cases ho
            exact ⟨n, rfl, fun _ s' hs' => by cases hs'; exact hs⟩
      · rw [if_neg hn]
        refine ⟨fun _ => ⟨_, rfl⟩, fun h => absurd (fun o ho => ?_) h⟩
        cases ho
        exact ⟨n, rfl, fun h' => absurd (by exact_mod_cast h') hn⟩

theorem parseQ_is {Q : PyQ} {Q1 Q2 : ℤ} (h : Spec.QIs Q Q1 Q2) : parseQ Q = .ok (Q1, Q2) := by
  obtain ⟨h1, h2, h⟩ := h
  obtain ⟨c1, -, c2, c3, -⟩ := C09_parse_Q Q1 Q2 [] true
  rcases h with ⟨rfl, rfl | rfl⟩ | rfl
  · exact c1 h1
  · exact c2 h1
  · exact c3 h1 h2

theorem parseQ_invalid {Q : PyQ} (h : Spec.QInvalid Q) : parseQ Q = .error .value := by
  rcases h with ⟨n, rfl, h⟩ | ⟨l, rfl, h⟩ | ⟨b, rfl⟩
  · exact (C09_parse_Q n 0 [] true).2.1 h
  · exact (C09_parse_Q 0 0 l true).2.2.2.2.1 h
  · rfl

theorem parseQ_many {Q : PyQ} (h : Spec.QMany Q [1, 2]) : parseQ Q = .error .notImpl := by
  obtain ⟨l, rfl, h1, h2⟩ := h
  simp only [List.mem_cons, List.not_mem_nil, or_false, not_or] at h2
  exact (C09_parse_Q 0 0 l true).2.2.2.2.2.1 h1 h2.1 h2.2

theorem parseQfr_is {Q : PyQ} {q : ℤ} (h : 1 ≤ q) (hq : Q = .int q ∨ Q = .tuple [q]) : parseQfr Q = .ok q := by
  rcases hq with rfl | rfl
  · exact if_neg (by omega)
  · have : ([q].any fun x => decide (x < 1)) = false := by simpa using h
    unfold parseQfr
    simp only
    rw [this]
    rfl

theorem parseQfr_invalid {Q : PyQ} (h : Spec.QInvalid Q) : parseQfr Q = .error .value := by
  rcases h with ⟨n, rfl, h⟩ | ⟨l, rfl, h⟩ | ⟨b, rfl⟩
  · exact if_pos h
  · have : (l.any fun x => decide (x < 1)) = true := by simpa using h
    unfold parseQfr
    simp only
    rw [this]
    rfl
  · rfl

theorem parseQfr_many {Q : PyQ} (h : Spec.QMany Q [1]) : parseQfr Q = .error .notImpl := by
  obtain ⟨l, rfl, h1, h2⟩ := h
  have : (l.any fun x => decide (x < 1)) = false := by simpa using h1
  unfold parseQfr
  simp only
  rw [this]
  match l, h2 with
  | [], _ => rfl
  | [a], h2 => simp at h2
  | a :: b :: l, _ => rfl

/-! ## 1-D -/

/-- **1-D, shape.** -/
theorem C108_shape_1d (a : Args1D) :
    (a.shape = .tuple [] → a.make = .error .index) ∧
      (a.shape ≠ .tuple [] → (∀ N, ¬ Spec.IsLength a.shape N) → a.make = .error .value) := by
  constructor
  · intro h
    unfold Args1D.make
    rw [h]
    rfl
  · intro h0 h
    have e : parseShape a.shape = .error .value := by
      cases hs : a.shape with
      | int n => exact absurd (.inl hs) (h n)
      | other => rfl
      | tuple l =>
        match l, hs with
        | [], hs => exact absurd hs h0
        | [n], hs => exact absurd (.inr hs) (h n)
        | a :: b :: l, _ => rfl
    unfold Args1D.make
    rw [e]
    rfl

theorem build1D_ok {a : Args1D} {N : ℕ} (hs : Spec.IsLength a.shape N) (hN : 1 ≤ N) (hT : Spec.TOk a.T N)
    (hov : Spec.OversamplingOk a.oversampling a.stride a.T a.J) (m : ℕ) :
    ∃ b, build1D a.shape a.J a.T a.stride a.oversampling m = .ok b := by
  obtain ⟨st, hst⟩ := (applyOversampling_iff hT).1 hov
  obtain ⟨k, l, r, hk, hp, -⟩ := C01_padding_fits N m hN
  refine ⟨_, bind_eq_ok.2 ⟨N, parseShape_isLength hs, bind_eq_ok.2 ⟨st, hst, bind_eq_ok.2 ⟨_, log2T_tOk hT,
    bind_eq_ok.2 ⟨(l, r), ?_, rfl⟩⟩⟩⟩⟩
  rw [hk]
  exact hp

/-- **1-D, other arguments.**  With a shape that announces `N ≥ 1` samples: a bad `T` or `oversampling` raises `ValueError`;
otherwise a `Q` below one, or neither an int nor a tuple, raises `ValueError`, and a tuple of another length than one or two raises
`NotImplementedError`; otherwise, with `Q1 ≥ Q2` and `2 ** J` at most the padded length, the constructor returns. -/
theorem C108_1d (a : Args1D) (N : ℕ) (hs : Spec.IsLength a.shape N) (hN : 1 ≤ N) :
    (¬ (Spec.TOk a.T N ∧ Spec.OversamplingOk a.oversampling a.stride a.T a.J) → a.make = .error .value) ∧
      (Spec.TOk a.T N → Spec.OversamplingOk a.oversampling a.stride a.T a.J →
        (Spec.QInvalid a.Q → a.make = .error .value) ∧ (Spec.QMany a.Q [1, 2] → a.make = .error .notImpl) ∧
        ∀ Q1 Q2, Spec.QIs a.Q Q1 Q2 → Q2 ≤ Q1 → a.J ≤ jPad N (minToPad N (Spec.numberOfT a.T a.J)) →
          ∃ s, a.make = .ok s ∧ s.built.Ninput = N) := by
  have hp := parseShape_isLength hs
  constructor
  · intro h
    by_cases hT : Spec.TOk a.T N
    · have hov : ¬ Spec.OversamplingOk a.oversampling a.stride a.T a.J := fun h' => h ⟨hT, h'⟩
      obtain ⟨av, hav⟩ := parseT_tOk (J := a.J) hT
      unfold Args1D.make build1D
      rw [hp, ok_bind, hav, ok_bind, ok_bind, (applyOversampling_iff hT).2 hov]
      rfl
    · unfold Args1D.make
      rw [hp, ok_bind, parseT_not hT]
      rfl
  · intro hT hov
    obtain ⟨av, hav⟩ := parseT_tOk (J := a.J) hT
    obtain ⟨b, hb⟩ := build1D_ok hs hN hT hov (minToPad N (Spec.numberOfT a.T a.J))
    refine ⟨fun h => ?_, fun h => ?_, fun Q1 Q2 h h12 hJ => ?_⟩
    · unfold Args1D.make
      rw [hp, ok_bind, hav, ok_bind, hb, ok_bind, parseQ_invalid h]
      rfl
    · unfold Args1D.make
      rw [hp, ok_bind, hav, ok_bind, hb, ok_bind, parseQ_many h]
      rfl
    · obtain ⟨st, hst⟩ := (applyOversampling_iff hT).1 hov
      obtain ⟨s, h1, h2, -⟩ := make_of a N hp hN _ av hav Q1 Q2 (parseQ_is h) h12 hJ st hst
      exact ⟨s, h1, h2⟩

/-! ## Joint time-frequency -/

/-- **Joint time-frequency.**  Whatever the base class refuses is refused with the same exception; when the base class accepts, a
`Q_fr` below one or neither an int nor a tuple raises `ValueError`, a tuple of another length than one raises
`NotImplementedError`, a bad `F` raises `ValueError`; otherwise, if `F` is at most `2 ** J_fr` in octaves, the constructor
returns. -/
theorem C108_jtfs (a : JArgs) :
    (∀ e, a.base.make = .error e → a.make = .error e) ∧
      ∀ s, a.base.make = .ok s → (Spec.QInvalid a.Qfr → a.make = .error .value) ∧
        (Spec.QMany a.Qfr [1] → a.make = .error .notImpl) ∧
        ∀ q, 1 ≤ q → a.Qfr = .int q ∨ a.Qfr = .tuple [q] → ∀ Q1 Q2, Spec.QIs a.Q Q1 Q2 →
          (¬ Spec.TOk a.F ((a.J + 1) * Q1.toNat) → a.make = .error .value) ∧
          (Spec.TOk a.F ((a.J + 1) * Q1.toNat) → Int.log 2 (Spec.numberOfT a.F a.Jfr) ≤ a.Jfr → ∃ s', a.make = .ok s') := by
  refine ⟨fun e he => ?_, fun s hs => ?_⟩
  · unfold JArgs.make
    rw [he]
    rfl
  · have hQ : ∃ Q, parseQ a.Q = .ok Q := by
      obtain ⟨N, -, h⟩ := bind_eq_ok.1 hs
      obtain ⟨T, -, h⟩ := bind_eq_ok.1 h
      obtain ⟨b, -, h⟩ := bind_eq_ok.1 h
      obtain ⟨Q, hQ, -⟩ := bind_eq_ok.1 h
      exact ⟨Q, hQ⟩
    obtain ⟨Q, hQ⟩ := hQ
    refine ⟨fun h => ?_, fun h => ?_, fun q hq1 hq Q1 Q2 h12 => ⟨fun h => ?_, fun h hl => ?_⟩⟩
    · unfold JArgs.make
      rw [hs, ok_bind, hQ, ok_bind, parseQfr_invalid h]
      rfl
    · unfold JArgs.make
      rw [hs, ok_bind, hQ, ok_bind, parseQfr_many h]
      rfl
    · unfold JArgs.make
      rw [hs, ok_bind, parseQ_is h12, ok_bind, parseQfr_is hq1 hq, ok_bind, parseT_not h]
      rfl
    · obtain ⟨av, hav⟩ := parseT_tOk (J := a.Jfr) h
      obtain ⟨r, hr⟩ := createFiltersFr_ok (N := nPaddedFr a.Jfr ((a.J + 1) * Q1.toNat) (Spec.numberOfT a.F a.Jfr)) (Jfr := a.Jfr)
        (Qfr := q.toNat) (nPaddedFr_dvd _ _ _) (by omega) (parseT_ge_one hav) hl
      exact ⟨_, bind_eq_ok.2 ⟨s, hs, bind_eq_ok.2 ⟨_, parseQ_is h12, bind_eq_ok.2 ⟨q, parseQfr_is hq1 hq,
        bind_eq_ok.2 ⟨_, hav, bind_eq_ok.2 ⟨r, hr, rfl⟩⟩⟩⟩⟩⟩

/-! ## 2-D -/

/-- **2-D.**  The constructor raises `RuntimeError` when a side is shorter than `2 ** J` and returns otherwise. -/
theorem C108_2d (a : Args2D) :
    (a.M < 2 ^ a.J ∨ a.N < 2 ^ a.J → a.make = .error .runtime) ∧
      (2 ^ a.J ≤ a.M → 2 ^ a.J ≤ a.N → ∃ s, a.make = .ok s) := by
  refine ⟨fun h => if_pos h, fun h1 h2 => ⟨_, if_neg ?_⟩⟩
  omega

/-! ## Concrete cases -/

/-- `Scattering1D(6, (64, 2))`, `Scattering1D(6, ())`. -/
example : (Args1D.mk 6 (.tuple [64, 2]) (.int 8) .none none 2 none .array).make = .error .value ∧
    (Args1D.mk 6 (.tuple []) (.int 8) .none none 2 none .array).make = .error .index := by
  refine ⟨(C108_shape_1d _).2 (by simp) fun N h => ?_, (C108_shape_1d _).1 rfl⟩
  rcases h with h | h <;> cases h

/-- `T=2000` with 1000 samples, `T=0.5`, `oversampling=-1`, `Q=0`, `Q=(8, 2, 1)`. -/
example :
    (Args1D.mk 6 (.int 1000) (.int 8) (.num 2000) none 2 none .array).make = .error .value ∧
    (Args1D.mk 6 (.int 1000) (.int 8) (.num (1 / 2)) none 2 none .array).make = .error .value ∧
    (Args1D.mk 6 (.int 1000) (.int 8) .none none 2 (some (.int (-1))) .array).make = .error .value ∧
    (Args1D.mk 6 (.int 1000) (.int 0) .none none 2 none .array).make = .error .value ∧
    (Args1D.mk 6 (.int 1000) (.tuple [8, 2, 1]) .none none 2 none .array).make = .error .notImpl := by
  have hov : ∀ s T, Spec.OversamplingOk none s T 6 := fun s T o ho => by cases ho
  refine ⟨(C108_1d _ 1000 (.inl rfl) (by norm_num)).1 fun h => ?_, (C108_1d _ 1000 (.inl rfl) (by norm_num)).1 fun h => ?_,
    (C108_1d _ 1000 (.inl rfl) (by norm_num)).1 fun h => ?_,
    ((C108_1d _ 1000 (.inl rfl) (by norm_num)).2 (fun t ht => by cases ht) (hov _ _)).1 (.inl ⟨0, rfl, by norm_num⟩),
    ((C108_1d _ 1000 (.inl rfl) (by norm_num)).2 (fun t ht => by cases ht) (hov _ _)).2.1
      ⟨_, rfl, by simp, by simp⟩⟩
  · have := h.1 2000 rfl
    norm_num at this
  · have := h.1 (1 / 2) rfl
    norm_num at this
  · obtain ⟨n, hn, -⟩ := h.2 _ rfl
    injection hn with hn
    omega

/-- A stride of any kind is accepted by the constructor: `stride=3`. -/
example : ∃ s, (Args1D.mk 3 (.int 1000) (.int 8) .none (some (.int 3)) 2 none .array).make = .ok s := by
  obtain ⟨s, hs, -⟩ := ((C108_1d (Args1D.mk 3 (.int 1000) (.int 8) .none (some (.int 3)) 2 none .array) 1000 (.inl rfl)
    (by norm_num)).2 (fun t ht => by cases ht) (fun o ho => by cases ho)).2.2 8 1
    ⟨by norm_num, by norm_num, .inl ⟨rfl, .inl rfl⟩⟩ (by norm_num) (le_jPad_of_pow (by norm_num) (by norm_num))
  exact ⟨s, hs⟩

/-- `TimeFrequencyScattering(3, 2, 8, 1000)` with `Q_fr=(1, 1)`, with `F=40` (there are `4 * 8 = 32` first-order positions) and
without. -/
example :
    (JArgs.mk 3 2 (.int 8) (.int 1000) .none none (.tuple [1, 1]) .none none .array .time).make = .error .notImpl ∧
    (JArgs.mk 3 2 (.int 8) (.int 1000) .none none (.int 1) (.num 40) none .array .time).make = .error .value ∧
    ∃ s, (JArgs.mk 3 2 (.int 8) (.int 1000) .none none (.int 1) .none none .array .time).make = .ok s := by
  have hQ : Spec.QIs (.int 8) 8 1 := ⟨by norm_num, by norm_num, .inl ⟨rfl, .inl rfl⟩⟩
  obtain ⟨s, hs, -⟩ := ((C108_1d (Args1D.mk 3 (.int 1000) (.int 8) .none none 2 none .array) 1000 (.inl rfl)
    (by norm_num)).2 (fun t ht => by cases ht) (fun o ho => by cases ho)).2.2 8 1 hQ (by norm_num)
    (le_jPad_of_pow (by norm_num) (by norm_num))
  have key : ∀ q F, (JArgs.mk 3 2 (.int 8) (.int 1000) .none none q F none .array .time).base.make = .ok s := fun _ _ => hs
  refine ⟨((C108_jtfs _).2 s (key _ _)).2.1 ⟨_, rfl, by simp, by simp⟩,
    (((C108_jtfs _).2 s (key _ _)).2.2 1 (by norm_num) (.inl rfl) 8 1 hQ).1 fun h => ?_,
    (((C108_jtfs _).2 s (key _ _)).2.2 1 (by norm_num) (.inl rfl) 8 1 hQ).2 (fun t ht => by cases ht) ?_⟩
  · have := h 40 rfl
    norm_num [show Int.toNat 8 = 8 from rfl] at this
  · exact le_of_eq (floorLog2_twoPow 2)

/-- `Scattering2D(5, (64, 16))` and `Scattering2D(4, (64, 16))`. -/
example : (Args2D.mk 5 64 16 8 2 false .array).make = .error .runtime ∧
    ∃ s, (Args2D.mk 4 64 16 8 2 false .array).make = .ok s :=
  ⟨(C108_2d _).1 (.inr (by norm_num)), (C108_2d _).2 (by norm_num) (by norm_num)⟩

end Verif
