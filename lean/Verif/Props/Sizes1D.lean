import Verif.Lemmas.Sizes1D
import Mathlib.Order.Interval.Finset.Nat

/-!
# Properties C01, C02, C03, C05 (index part), C06, C07, C08, C09
-/

namespace Verif

/-! ## C02 -/

/-- C02: `compute_padding(N, N_input)` returns `(l, r)` exactly when the two amounts add up to the
missing length, are balanced (`l ≤ r ≤ l + 1`) and stay below the input length. -/
theorem C02_compute_padding_ok (N Ni l r : Nat) :
    computePadding N Ni = .ok (l, r) ↔ l + Ni + r = N ∧ l ≤ r ∧ r ≤ l + 1 ∧ r < Ni :=
  computePadding_eq N Ni l r

/-- C02, error side: the only exception is `ValueError`, raised exactly when no such pair exists. -/
theorem C02_compute_padding_error (N Ni : Nat) (e : PyErr) :
    computePadding N Ni = .error e ↔
      e = .value ∧ ¬ ∃ l r, l + Ni + r = N ∧ l ≤ r ∧ r ≤ l + 1 ∧ r < Ni := by
  have hkey : ∀ x, computePadding N Ni = x →
      (x = .error .value ∨ ∃ l r, x = .ok (l, r)) := by
    intro x hx
    subst hx
    unfold computePadding
    split
    · exact Or.inl rfl
    · dsimp only
      split
      · exact Or.inl rfl
      · exact Or.inr ⟨_, _, rfl⟩
  rcases hkey _ rfl with h | ⟨l, r, h⟩
  · rw [h]
    constructor
    · intro h'
      injection h' with h'
      refine ⟨h'.symm, ?_⟩
      rintro ⟨l, r, hlr⟩
      rw [← C02_compute_padding_ok] at hlr
      rw [h] at hlr
      cases hlr
    · rintro ⟨rfl, -⟩; rfl
  · rw [h]
    constructor
    · intro h'; cases h'
    · rintro ⟨-, h2⟩
      exact absurd ⟨l, r, (C02_compute_padding_ok _ _ _ _).1 h⟩ h2

example : computePadding 16 9 = .ok (3, 4) := by decide
example : computePadding 27 9 = .error .value := by decide
example : computePadding 8 9 = .error .value := by decide

/-! ## C01 -/

/-- C01: the padding computed by `build` for a signal of length `N ≥ 1` never raises: the padded
length is a power of two between `N` and `3N - 2`; both pads are smaller than `N`, balanced, and add
up.  The padded length is either the smallest power of two providing the requested margin
`minToPad` on both sides, or the largest power of two not exceeding `3N - 2`. -/
theorem C01_padding_fits (N minToPad : Nat) (hN : 1 ≤ N) :
    ∃ k l r, jPad N minToPad = k ∧ computePadding (2 ^ k) N = .ok (l, r) ∧
      l + N + r = 2 ^ k ∧ l < N ∧ r < N ∧ l ≤ r ∧ r ≤ l + 1 ∧ 2 ^ k ≤ 3 * N - 2 ∧
      ((N + 2 * minToPad ≤ 2 ^ k ∧ ∀ k', N + 2 * minToPad ≤ 2 ^ k' → k ≤ k') ∨
        (∀ k', 2 ^ k' ≤ 3 * N - 2 → k' ≤ k)) := by
  have h1 := le_jPad N minToPad hN
  have h2 := jPad_le N minToPad hN
  refine ⟨jPad N minToPad, (2 ^ jPad N minToPad - N) / 2,
    2 ^ jPad N minToPad - N - (2 ^ jPad N minToPad - N) / 2, rfl, ?_, ?_, ?_, ?_, ?_, ?_, h2, ?_⟩
  · rw [computePadding_eq]; omega
  any_goals omega
  · unfold jPad
    rcases min_choice (Nat.clog 2 (N + 2 * minToPad)) (Nat.log 2 (3 * N - 2)) with h | h <;> rw [h]
    · left
      exact ⟨Nat.le_pow_clog (by norm_num) _, fun k' hk => Nat.clog_le_of_le_pow hk⟩
    · right
      intro k' hk'
      exact Nat.le_log_of_pow_le (by norm_num) hk'

/-- C01 for the whole of `build`: once the shape is a positive integer, `T` is valid and no
oversampling is requested, `build` succeeds and stores consistent sizes. -/
theorem C01_build_succeeds (N J : Nat) (T : PyT) (stride : Option PyNum) (minToPad : Nat)
    (hN : 1 ≤ N) (p : Rat × Average) (hT : parseT T J N = .ok p) :
    ∃ b, build1D (.int N) J T stride none minToPad = .ok b ∧ b.Ninput = N ∧ b.stride = stride ∧
      b.padLeft + N + b.padRight = b.Npadded ∧ b.padLeft < N ∧ b.padRight < N ∧
      b.Npadded = 2 ^ jPad N minToPad ∧
      b.indStart 0 = some b.padLeft ∧ b.indEnd 0 = some (b.padLeft + N) := by
  obtain ⟨k, l, r, hk, hc, hsum, hl, hr, -⟩ := C01_padding_fits N minToPad hN
  have h0 : ∀ K i, borderDict K i 0 = some i := by
    intro K i; rw [borderDict_get]; simp
  refine ⟨{ Ninput := N, Npadded := 2 ^ k, padLeft := l, padRight := r,
            indStart := borderDict (max (floorLog2 p.1).toNat J) l,
            indEnd := borderDict (max (floorLog2 p.1).toNat J) (l + N), stride := stride },
    ?_, rfl, rfl, hsum, hl, hr, by rw [hk], h0 _ _, h0 _ _⟩
  simp only [build1D, parseShape, applyOversampling, log2T, hT, hk, hc, computeBorderIndices,
      bind, Except.bind]

example : ∃ b, build1D (.int 1000) 6 .none none none 300 = .ok b ∧ b.Npadded = 2048 :=
  ⟨_, rfl, rfl⟩

/-! ## C03 -/

/-- C03: at every resolution `2^j` with `j ≤ max(log2_T, J)`, both dictionaries have an entry and
index `m` lies in the kept slice iff `m * 2^j` lies in the original range `[i0, i1)`. -/
theorem C03_border_indices (log2T J i0 i1 j : Nat) (hj : j ≤ max log2T J) :
    ∃ s e, (computeBorderIndices log2T J i0 i1).1 j = some s ∧
      (computeBorderIndices log2T J i0 i1).2 j = some e ∧
      ∀ m, (s ≤ m ∧ m < e) ↔ (i0 ≤ m * 2 ^ j ∧ m * 2 ^ j < i1) := by
  have hp : 0 < 2 ^ j := Nat.pow_pos (by norm_num)
  refine ⟨(i0 + (2 ^ j - 1)) / 2 ^ j, (i1 + (2 ^ j - 1)) / 2 ^ j, ?_, ?_, ?_⟩
  · simp only [computeBorderIndices, borderDict_get, hj, if_true]
  · simp only [computeBorderIndices, borderDict_get, hj, if_true]
  · intro m
    rw [ceilDiv_le_iff _ _ _ hp, lt_ceilDiv_iff _ _ _ hp]

/-- C03, key range: no index is stored beyond `max(log2_T, J)` (looking one up is a `KeyError`). -/
theorem C03_border_indices_missing (log2T J i0 i1 j : Nat) (hj : max log2T J < j) :
    dictGet (computeBorderIndices log2T J i0 i1).1 j = .error .key ∧
      dictGet (computeBorderIndices log2T J i0 i1).2 j = .error .key := by
  have : ¬ j ≤ max log2T J := by omega
  simp [computeBorderIndices, borderDict_get, this, dictGet]

example : (computeBorderIndices 3 5 12 1012).1 3 = some 2 ∧
    (computeBorderIndices 3 5 12 1012).2 3 = some 127 := by decide

/-! ## C05 (index part) -/

/-- C05, slices: if the padded length `l + N + r` is a multiple of the stride `2^j`, the slice used
for unpadding lies inside the subsampled signal, has exactly as many elements as there are multiples
of the stride in the original range, differs from `N / 2^j` by less than one sample, and is exactly
`N / 2^j` when the stride divides `N`. -/
theorem C05_unpadded_length (log2T J N l r j : Nat) (hj : j ≤ max log2T J)
    (hdiv : 2 ^ j ∣ l + N + r) :
    ∃ s e, (computeBorderIndices log2T J l (l + N)).1 j = some s ∧
      (computeBorderIndices log2T J l (l + N)).2 j = some e ∧
      s ≤ e ∧ e ≤ (l + N + r) / 2 ^ j ∧
      e - s = ((Finset.range (l + N + r)).filter
        (fun i => 2 ^ j ∣ i ∧ l ≤ i ∧ i < l + N)).card ∧
      (e - s) * 2 ^ j < N + 2 ^ j ∧ N < (e - s) * 2 ^ j + 2 ^ j ∧
      (2 ^ j ∣ N → e - s = N / 2 ^ j) := by
  obtain ⟨s, e, hs, he, hm⟩ := C03_border_indices log2T J l (l + N) j hj
  have hp : 0 < 2 ^ j := Nat.pow_pos (by norm_num)
  have hs' : s = (l + (2 ^ j - 1)) / 2 ^ j := by
    simpa [computeBorderIndices, borderDict_get, hj] using hs.symm
  have he' : e = (l + N + (2 ^ j - 1)) / 2 ^ j := by
    simpa [computeBorderIndices, borderDict_get, hj] using he.symm
  have hse : s ≤ e := by
    rw [hs', he']; exact Nat.div_le_div_right (by omega)
  have hle : e ≤ (l + N + r) / 2 ^ j := by
    rw [he', ceilDiv_le_iff _ _ _ hp, Nat.div_mul_cancel hdiv]; omega
  have hlen1 : (e - s) * 2 ^ j < N + 2 ^ j := by
    have h1 : l ≤ s * 2 ^ j := (ceilDiv_le_iff l _ s hp).1 (hs' ▸ le_refl _)
    have h2 : e * 2 ^ j < l + N + 2 ^ j := by
      have := Nat.div_mul_le_self (l + N + (2 ^ j - 1)) (2 ^ j)
      rw [← he'] at this; omega
    rw [Nat.sub_mul]; omega
  have hlen2 : N < (e - s) * 2 ^ j + 2 ^ j := by
    have h1 : l + N ≤ e * 2 ^ j := (ceilDiv_le_iff (l + N) _ e hp).1 (he' ▸ le_refl _)
    have h2 : s * 2 ^ j < l + 2 ^ j := by
      have := Nat.div_mul_le_self (l + (2 ^ j - 1)) (2 ^ j)
      rw [← hs'] at this; omega
    rw [Nat.sub_mul]; omega
  refine ⟨s, e, hs, he, hse, hle, ?_, hlen1, hlen2, ?_⟩
  · rw [← Nat.card_Ico s e]
    refine Finset.card_bij (fun m _ => m * 2 ^ j) ?_ ?_ ?_
    · intro m hmem
      rw [Finset.mem_Ico] at hmem
      have := (hm m).1 hmem
      simp only [Finset.mem_filter, Finset.mem_range]
      exact ⟨by omega, Dvd.intro_left m rfl, this⟩
    · intro a _ b _ hab
      exact Nat.eq_of_mul_eq_mul_right hp hab
    · intro i hi
      simp only [Finset.mem_filter, Finset.mem_range] at hi
      obtain ⟨-, ⟨m, rfl⟩, h3⟩ := hi
      refine ⟨m, ?_, by ring⟩
      rw [Finset.mem_Ico]
      rw [mul_comm] at h3
      exact (hm m).2 h3
  · rintro ⟨q, rfl⟩
    rw [Nat.mul_div_cancel_left _ hp]
    have h1 : (e - s) < q + 1 := by
      apply Nat.lt_of_mul_lt_mul_right (a := 2 ^ j)
      calc (e - s) * 2 ^ j < 2 ^ j * q + 2 ^ j := hlen1
        _ = (q + 1) * 2 ^ j := by ring
    have h2 : q < (e - s) + 1 := by
      apply Nat.lt_of_mul_lt_mul_right (a := 2 ^ j)
      calc q * 2 ^ j = 2 ^ j * q := by ring
        _ < (e - s) * 2 ^ j + 2 ^ j := hlen2
        _ = ((e - s) + 1) * 2 ^ j := by ring
    omega

example : (3 : Nat) ≤ max 3 5 ∧ 2 ^ 3 ∣ 12 + 1000 + 12 := by decide

/-! ## C06 -/

/-- C06: the complete decision table of `parse_T`. -/
theorem C06_parse_T (J N : Nat) :
    parseT .none J N = .ok ((2 : Rat) ^ J, .loc) ∧
    parseT .global J N = .ok ((2 : Rat) ^ J, .glob) ∧
    ∀ t : Rat,
      (t = 0 → parseT (.num t) J N = .ok ((2 : Rat) ^ J, .no)) ∧
      (1 ≤ t → t ≤ N → parseT (.num t) J N = .ok (t, .loc)) ∧
      (t ≠ 0 → ¬ (1 ≤ t ∧ t ≤ N) → parseT (.num t) J N = .error .value) := by
  refine ⟨rfl, rfl, fun t => ⟨?_, ?_, ?_⟩⟩
  · rintro rfl
    have : ¬ ((0 : Rat) > N) := by simp
    simp [parseT, this]
  · intro h1 h2
    have a : ¬ (t > N) := not_lt.2 h2
    have b : t ≠ 0 := by intro h; rw [h] at h1; norm_num at h1
    have c : ¬ t < 1 := not_lt.2 h1
    simp [parseT, a, b, c]
  · intro h0 h1
    by_cases a : t > N
    · simp [parseT, a]
    · have c : t < 1 := by
        by_contra hc
        exact h1 ⟨not_lt.1 hc, not_lt.1 a⟩
      simp [parseT, a, h0, c]

/-- C06, consequence: whenever `T` is accepted, the averaging scale is at least one sample, so
`log2_T` is a nonnegative integer `k` with `2^k ≤ T < 2^(k+1)`. -/
theorem C06_log2_T (T : PyT) (J N : Nat) (p : Rat × Average) (h : parseT T J N = .ok p) :
    ∃ k : Nat, log2T T J N = .ok (k : Int) ∧ (2 : Rat) ^ k ≤ p.1 ∧ p.1 < (2 : Rat) ^ (k + 1) := by
  have h1 : 1 ≤ p.1 := by
    have hpow : (1 : Rat) ≤ 2 ^ J := one_le_pow₀ (by norm_num)
    cases T with
    | none => simp only [parseT, Except.ok.injEq] at h; rw [← h]; exact hpow
    | global => simp only [parseT, Except.ok.injEq] at h; rw [← h]; exact hpow
    | num t =>
      simp only [parseT] at h
      split at h
      · cases h
      · split at h
        · injection h with h; rw [← h]; exact hpow
        · split at h
          · cases h
          · rename_i h3; injection h with h; rw [← h]; exact not_lt.1 h3
  have hpos : 0 < p.1 := lt_of_lt_of_le (by norm_num) h1
  have hnn : 0 ≤ Int.log 2 p.1 := by
    have := (Int.zpow_le_iff_le_log (b := 2) (by norm_num) (x := 0) hpos).1 (by simpa using h1)
    exact this
  obtain ⟨k, hk⟩ := Int.eq_ofNat_of_zero_le hnn
  refine ⟨k, ?_, ?_, ?_⟩
  · simp [log2T, h, floorLog2, hk, bind, Except.bind]
  · have := Int.zpow_log_le_self (b := 2) (by norm_num) hpos
    rw [hk] at this; simpa using this
  · have := Int.lt_zpow_succ_log_self (R := Rat) (b := 2) (by norm_num) p.1
    rw [hk] at this
    exact_mod_cast this

example : parseT (.num 300) 6 1000 = .ok (300, .loc) := by
  exact ((C06_parse_T 6 1000).2.2 300).2.1 (by norm_num) (by norm_num)

/-! ## C07 -/

/-- C07: reading `log2_stride` succeeds with value `k` exactly when either no stride was requested
and `k = log2_T`, or the requested stride is the integer `2^k`, `T` is valid and averaging is
local. -/
theorem C07_log2_stride_ok (stride : Option PyNum) (T : PyT) (J N : Nat) (k : Int) :
    log2Stride stride T J N = .ok k ↔
      (stride = none ∧ log2T T J N = .ok k) ∨
      (∃ m : Nat, k = m ∧ stride = some (.int (2 ^ m)) ∧ ∃ t, parseT T J N = .ok (t, .loc)) := by
  cases stride with
  | none => simp [log2Stride]
  | some s =>
    cases s with
    | flt q => simp [log2Stride]
    | int n =>
      simp only [log2Stride, reduceCtorEq, false_and, false_or, Option.some.injEq, PyNum.int.injEq]
      by_cases hn : n ≤ 0
      · simp only [hn, if_true]
        constructor
        · intro h; cases h
        · rintro ⟨m, -, h, -⟩
          have : (0 : Int) < 2 ^ m := by positivity
          omega
      · obtain ⟨n', rfl⟩ := Int.eq_ofNat_of_zero_le (by omega : (0 : Int) ≤ n)
        have hnn : (0 : Int) < (n' : Int) := by omega
        simp only [hn, if_false, Int.toNat_natCast]
        by_cases hp : isPow2 n' = true
        · obtain ⟨m0, rfl⟩ := (isPow2_iff _).1 hp
          simp only [hp, Bool.not_true, Bool.false_eq_true, if_false]
          rcases hT : parseT T J N with e | ⟨t, a⟩
          · simp only [bind, Except.bind, reduceCtorEq, exists_false, and_false]
          · cases a
            · simp only [bind, Except.bind, reduceCtorEq, or_self, if_false, Except.ok.injEq]
              rw [Nat.log_pow (by norm_num)]
              constructor
              · rintro rfl
                exact ⟨m0, rfl, by push_cast; rfl, t, rfl⟩
              · rintro ⟨m, rfl, h2, -⟩
                have h3 : (2 : Nat) ^ m0 = 2 ^ m := by exact_mod_cast h2
                rw [Nat.pow_right_injective (le_refl 2) h3]
            · simp [bind, Except.bind]
            · simp [bind, Except.bind]
        · simp only [hp, Bool.not_false, if_true]
          constructor
          · intro h; simp at h
          · rintro ⟨m, -, h2, -⟩
            exact absurd ((isPow2_iff n').2 ⟨m, by exact_mod_cast h2⟩) hp

/-- C07, error side: with a valid `T`, the only exception is `ValueError`, raised exactly when a
stride is given that is not an integer power of two, or when averaging is off or global. -/
theorem C07_log2_stride_error (stride : Option PyNum) (T : PyT) (J N : Nat) (e : PyErr)
    (t : Rat) (a : Average) (hT : parseT T J N = .ok (t, a)) :
    log2Stride stride T J N = .error e ↔
      e = .value ∧ ∃ s, stride = some s ∧
        (a ≠ .loc ∨ ¬ ∃ m : Nat, s = .int (2 ^ m)) := by
  have hval : ∀ e, log2Stride stride T J N = .error e → e = .value := by
    intro e he
    unfold log2Stride at he
    split at he
    · simp [log2T, hT, bind, Except.bind] at he
    · injection he with he; exact he.symm
    · split at he
      · injection he with he; exact he.symm
      · split at he
        · injection he with he; exact he.symm
        · simp only [hT, bind, Except.bind] at he
          split at he
          · injection he with he; exact he.symm
          · cases he
  have hok := C07_log2_stride_ok stride T J N
  constructor
  · intro he
    refine ⟨hval e he, ?_⟩
    cases stride with
    | none => simp [log2Stride, log2T, hT, bind, Except.bind] at he
    | some s =>
      refine ⟨s, rfl, ?_⟩
      by_contra hcon
      push Not at hcon
      obtain ⟨rfl, m, rfl⟩ := hcon
      have := (hok m).2 (Or.inr ⟨m, rfl, rfl, t, hT⟩)
      rw [he] at this; cases this
  · rintro ⟨rfl, s, rfl, hs⟩
    rcases h : log2Stride (some s) T J N with e | k
    · rw [hval e h]
    · exfalso
      rcases (hok k).1 h with ⟨h1, -⟩ | ⟨m, -, h2, t', h3⟩
      · cases h1
      · rw [hT] at h3
        injection h3 with h3
        injection h3 with h3 h4
        injection h2 with h2
        rcases hs with hs | hs
        · exact hs h4
        · exact hs ⟨m, h2⟩

example : log2Stride (some (.int 16)) .none 6 1000 = .ok 4 :=
  (C07_log2_stride_ok _ _ _ _ 4).2 (Or.inr ⟨4, rfl, rfl, _, rfl⟩)
example : log2Stride (some (.int 12)) .none 6 1000 = .error .value :=
  (C07_log2_stride_error _ _ _ _ _ _ _ rfl).2 ⟨rfl, _, rfl, Or.inr (by
    rintro ⟨m, h⟩
    injection h with h
    rcases m with _ | _ | _ | _ | m
    · norm_num at h
    · norm_num at h
    · norm_num at h
    · norm_num at h
    · have : (16 : Int) ≤ 2 ^ (m + 1 + 1 + 1 + 1) := by
        have : (1 : Int) ≤ 2 ^ m := one_le_pow₀ (by norm_num)
        rw [pow_succ, pow_succ, pow_succ, pow_succ]; omega
      omega)⟩

/-! ## C08 -/

/-- C08 (full statement): passing `oversampling = o` together with a stride is accepted exactly when
the stride is the documented equivalent `2^(log2_T - o)`, which then stays in force.  The code
violates this. -/
def C08_statement : Prop :=
  ∀ (T : PyT) (J N : Nat) (o : Nat) (s : Int) (lT : Int), 1 ≤ o → log2T T J N = .ok lT →
    ((∃ s', applyOversampling (some (.int o)) (some (.int s)) T J N = .ok s') ↔
      (s : Rat) = (2 : Rat) ^ (lT - o))

/-- C08 negation: with `J = 6`, `oversampling = 1`, the documented stride `32` is rejected, while
`16` is accepted and silently replaced by `32`. -/
theorem C08_oversampling_stride_check_wrong :
    applyOversampling (some (.int 1)) (some (.int 32)) .none 6 1000 = .error .value ∧
    (∃ s, applyOversampling (some (.int 1)) (some (.int 16)) .none 6 1000 = .ok (some s) ∧
      s.val = 32) ∧ ¬ C08_statement := by
  have hl : log2T .none 6 1000 = .ok (6 : Int) := by
    simp [log2T, parseT, bind, Except.bind]
    exact_mod_cast floorLog2_twoPow 6
  have h32 : applyOversampling (some (.int 1)) (some (.int 32)) .none 6 1000 = .error .value := by
    simp only [applyOversampling, hl, bind, Except.bind, pyTwoPow_val]
    norm_num [PyNum.val]
  refine ⟨h32, ⟨pyTwoPow 5, ?_, ?_⟩, ?_⟩
  · simp only [applyOversampling, hl, bind, Except.bind, pyTwoPow_val]
    norm_num [PyNum.val]
  · rw [pyTwoPow_val]; norm_num
  · intro h
    obtain ⟨s', hs'⟩ := (h .none 6 1000 1 32 6 (le_refl _) hl).2 (by norm_num)
    have : applyOversampling (some (.int 1)) (some (.int 32)) .none 6 1000 = .ok s' := hs'
    rw [h32] at this; cases this

/-- C08, the part that holds: without an explicit stride, `oversampling = o ≥ 1` sets the stride to
the number `2^(log2_T - o)`, as documented; it is usable only if `o ≤ log2_T` and averaging is
local, in which case `log2_stride = log2_T - o`; otherwise reading the stride raises `ValueError`.
Negative or non-integer values are rejected and `0`/`None` leave the stride alone.
Missing for the full C08: the joint check against an explicit stride (see the negation). -/
theorem C08_oversampling_partial (T : PyT) (J N : Nat) (o : Nat) (lT : Nat) (t : Rat) (a : Average)
    (ho : 1 ≤ o) (hT : parseT T J N = .ok (t, a)) (hlT : log2T T J N = .ok (lT : Int)) :
    ∃ s, applyOversampling (some (.int o)) none T J N = .ok (some s) ∧
      s.val = (2 : Rat) ^ ((lT : Int) - o) ∧
      (a = .loc → o ≤ lT → log2Stride (some s) T J N = .ok ((lT : Int) - o)) ∧
      (¬ (a = .loc ∧ o ≤ lT) → log2Stride (some s) T J N = .error .value) := by
  refine ⟨pyTwoPow ((lT : Int) - o), ?_, pyTwoPow_val _, ?_, ?_⟩
  · have h1 : ¬ ((o : Int) : Rat) < 0 := by push_cast; exact not_lt.2 (Nat.cast_nonneg o)
    have h2 : (0 : Int) < (o : Int) := by omega
    simp only [applyOversampling, PyNum.val, h1, if_false, h2, if_true, hlT, bind, Except.bind]
  · rintro rfl hol
    have h0 : (0 : Int) ≤ (lT : Int) - o := by omega
    refine (C07_log2_stride_ok _ _ _ _ _).2 (Or.inr ⟨lT - o, by omega, ?_, t, hT⟩)
    simp only [pyTwoPow, h0, if_true]
    congr 3
    omega
  · intro hno
    refine (C07_log2_stride_error _ _ _ _ _ _ _ hT).2 ⟨rfl, _, rfl, ?_⟩
    by_cases ha : a = .loc
    · right
      have : ¬ o ≤ lT := fun h => hno ⟨ha, h⟩
      have h0 : ¬ (0 : Int) ≤ (lT : Int) - o := by omega
      rintro ⟨m, hm⟩
      simp only [pyTwoPow, h0, if_false] at hm
      cases hm
    · exact Or.inl ha

/-- C08, rejected and neutral values of `oversampling`. -/
theorem C08_oversampling_values (T : PyT) (J N : Nat) (stride : Option PyNum) (q : Rat) (o : Int) :
    applyOversampling none stride T J N = .ok stride ∧
    applyOversampling (some (.int 0)) stride T J N = .ok stride ∧
    applyOversampling (some (.flt q)) stride T J N = .error .value ∧
    (o < 0 → applyOversampling (some (.int o)) stride T J N = .error .value) := by
  refine ⟨rfl, ?_, ?_, ?_⟩
  · simp [applyOversampling, PyNum.val]
  · simp only [applyOversampling]; split <;> rfl
  · intro h
    have : ((o : Int) : Rat) < 0 := by exact_mod_cast h
    simp [applyOversampling, PyNum.val, this]

example : parseT .none 6 1000 = .ok ((2 : Rat) ^ 6, .loc) ∧ log2T .none 6 1000 = .ok ((6 : Nat) : Int) := by
  refine ⟨rfl, ?_⟩
  simp [log2T, parseT, bind, Except.bind]
  exact_mod_cast floorLog2_twoPow 6

/-! ## C09 -/

/-- C09: complete decision table of `Q`. -/
theorem C09_parse_Q (a b : Int) (l : List Int) (x : Bool) :
    (1 ≤ a → parseQ (.int a) = .ok (a, 1)) ∧
    (a < 1 → parseQ (.int a) = .error .value) ∧
    (1 ≤ a → parseQ (.tuple [a]) = .ok (a, 1)) ∧
    (1 ≤ a → 1 ≤ b → parseQ (.tuple [a, b]) = .ok (a, b)) ∧
    ((∃ y ∈ l, y < 1) → parseQ (.tuple l) = .error .value) ∧
    ((∀ y ∈ l, 1 ≤ y) → l.length ≠ 1 → l.length ≠ 2 → parseQ (.tuple l) = .error .notImpl) ∧
    parseQ (.other x) = .error .value := by
  refine ⟨?_, ?_, ?_, ?_, ?_, ?_, rfl⟩
  · intro h; simp [parseQ, not_lt.2 h]
  · intro h; simp [parseQ, h]
  · intro h; simp [parseQ, not_lt.2 h]
  · intro h1 h2; simp [parseQ, not_lt.2 h1, not_lt.2 h2]
  · intro h
    have : l.any (fun x => decide (x < 1)) = true := by simpa using h
    simp [parseQ, this]
  · intro h h1 h2
    have : l.any (fun x => decide (x < 1)) = false := by
      simp only [List.any_eq_false, decide_eq_true_eq, not_lt]
      exact h
    simp only [parseQ, this]
    match l, h1, h2 with
    | [], _, _ => rfl
    | [_], h1, _ => exact absurd rfl h1
    | [_, _], _, h2 => exact absurd rfl h2
    | _ :: _ :: _ :: _, _, _ => rfl

/-- C09, consequence: whatever is accepted has both quality factors at least one. -/
theorem C09_Q_positive (q : PyQ) (a b : Int) (h : parseQ q = .ok (a, b)) : 1 ≤ a ∧ 1 ≤ b := by
  cases q with
  | int n =>
    simp only [parseQ] at h
    split at h
    · cases h
    · injection h with h; injection h with h1 h2; omega
  | tuple l =>
    simp only [parseQ] at h
    split at h
    · cases h
    · rename_i hany
      have hall : ∀ y ∈ l, 1 ≤ y := by
        intro y hy
        by_contra hlt
        exact hany (List.any_eq_true.2 ⟨y, hy, by simpa using hlt⟩)
      split at h
      · injection h with h; injection h with h1 h2
        have := hall _ (List.mem_singleton.2 rfl); omega
      · injection h with h; injection h with h1 h2
        have h3 := hall _ List.mem_cons_self
        have h4 := hall _ (List.mem_cons_of_mem _ (List.mem_singleton.2 rfl)); omega
      · cases h
  | other x => cases h

example : parseQ (.tuple [8, 2]) = .ok (8, 2) := by decide
example : parseQ (.tuple []) = .error .notImpl := by decide

end Verif
