import Verif.Lemmas.FloatInt

/-!
# C120: integers computed through floating-point numbers

The integers that the constructors compute with floating-point logarithms, products and quotients are those of exact
arithmetic, for every platform whose operations satisfy `FloatOps.Sound`; and where they are not.
-/

namespace Verif

/-! ## Integers -/

/-- **C120** (integers): the floor and the ceiling of the floating-point logarithm of an integer below `2^44` are
exact, and they agree exactly for the powers of two. -/
theorem C120_log2_int {F : FloatOps} (h : F.Sound) {n : ℕ} (h1 : 1 ≤ n) (h2 : n < 2 ^ 44) :
    (∃ k : ℕ, F.floorLog2 n = k ∧ 2 ^ k ≤ n ∧ n < 2 ^ (k + 1)) ∧
      (∃ k : ℕ, F.ceilLog2 n = k ∧ n ≤ 2 ^ k ∧ (∀ j, n ≤ 2 ^ j → k ≤ j)) ∧
      (F.isPow2 n = true ↔ ∃ k : ℕ, n = 2 ^ k) := by
  have hd : IsDouble (n : ℝ) := isDouble_natCast (lt_trans h2 (by norm_num))
  have hr : F.rnd (n : ℝ) = n := h.rnd _ hd
  have hr' : F.rnd ((n : Rat) : ℝ) = n := by rw [Rat.cast_natCast, hr]
  have e1 : F.floorLog2 n = ⌊F.log2 n⌋ := by unfold FloatOps.floorLog2; rw [hr']
  have e2 : F.ceilLog2 n = ⌈F.log2 n⌉ := by unfold FloatOps.ceilLog2; rw [hr]
  set k := Nat.log 2 n with hk
  have k1 : 2 ^ k ≤ n := Nat.pow_log_le_self 2 (by omega)
  have k2 : n < 2 ^ (k + 1) := Nat.lt_pow_succ_log_self (by norm_num) n
  clear_value k
  have hk43 : k ≤ 43 := by
    by_contra hc
    have : 2 ^ 44 ≤ 2 ^ k := Nat.pow_le_pow_right (by norm_num) (by omega)
    omega
  rcases eq_or_lt_of_le k1 with heq | hlt
  · have hl : F.log2 (n : ℝ) = (k : ℤ) := by
      have := h.pow (k : ℤ) (by rw [abs_of_nonneg (by positivity)]; omega)
      rw [← heq]
      push_cast
      rw [← zpow_natCast]
      exact this
    have f1 : F.floorLog2 n = k := by rw [e1, hl, Int.floor_intCast]
    have f2 : F.ceilLog2 n = k := by rw [e2, hl, Int.ceil_intCast]
    refine ⟨⟨k, f1, k1, k2⟩, ⟨k, f2, heq.ge, fun j hj => ?_⟩, ?_⟩
    · rw [← heq] at hj
      exact (Nat.pow_le_pow_iff_right (by norm_num)).1 hj
    · unfold FloatOps.isPow2
      rw [f1, f2]
      simp only [decide_true, true_iff]
      exact ⟨k, heq.symm⟩
  · have hp : (0 : ℝ) < 2 ^ k := by positivity
    have hw := h.window (k := (k : ℤ)) (by omega) (by omega) hd
      (by
        have c1 : ((2 ^ k + 1 : ℕ) : ℝ) ≤ n := by exact_mod_cast hlt
        have c2 : (2 : ℝ) ^ k * 2 ^ (-44 : ℤ) ≤ 1 := by
          have : (2 : ℝ) ^ k ≤ 2 ^ 43 := pow_le_pow_right₀ (by norm_num) hk43
          calc (2 : ℝ) ^ k * 2 ^ (-44 : ℤ) ≤ 2 ^ 43 * 2 ^ (-44 : ℤ) := mul_le_mul_of_nonneg_right this (by positivity)
            _ ≤ 1 := by norm_num
        push_cast at c1
        rw [zpow_natCast, mul_add, mul_one]
        linarith)
      (by
        have c1 : ((n + 1 : ℕ) : ℝ) ≤ ((2 ^ (k + 1) : ℕ) : ℝ) := by exact_mod_cast k2
        have c2 : (2 : ℝ) ^ (k + 1) * 2 ^ (-44 : ℤ) ≤ 1 := by
          have : (2 : ℝ) ^ (k + 1) ≤ 2 ^ 44 := pow_le_pow_right₀ (by norm_num) (by omega)
          calc (2 : ℝ) ^ (k + 1) * 2 ^ (-44 : ℤ) ≤ 2 ^ 44 * 2 ^ (-44 : ℤ) :=
                mul_le_mul_of_nonneg_right this (by positivity)
            _ ≤ 1 := by norm_num
        push_cast at c1
        rw [show ((k : ℤ) + 1) = ((k + 1 : ℕ) : ℤ) by push_cast; ring, zpow_natCast, mul_sub, mul_one]
        linarith)
    have f1 : F.floorLog2 n = k := by rw [e1]; exact floor_eq_of hw.1.le hw.2
    have f2 : F.ceilLog2 n = ((k + 1 : ℕ) : ℤ) := by rw [e2]; push_cast; exact ceil_eq_of hw.1 hw.2.le
    refine ⟨⟨k, f1, k1, k2⟩, ⟨k + 1, f2, k2.le, fun j hj => ?_⟩, ?_⟩
    · by_contra hc
      have : 2 ^ j ≤ 2 ^ k := Nat.pow_le_pow_right (by norm_num) (by omega)
      omega
    · unfold FloatOps.isPow2
      rw [f1, f2]
      constructor
      · intro hc
        have := of_decide_eq_true hc
        omega
      · rintro ⟨j, hj⟩
        exfalso
        rw [hj] at hlt k2
        have a1 := (Nat.pow_lt_pow_iff_right (by norm_num : 1 < 2)).1 hlt
        have a2 := (Nat.pow_lt_pow_iff_right (by norm_num : 1 < 2)).1 k2
        omega

/-- In terms of the exact functions of the model. -/
theorem floorLog2_nat {F : FloatOps} (h : F.Sound) {n : ℕ} (h1 : 1 ≤ n) (h2 : n < 2 ^ 44) :
    F.floorLog2 n = floorLog2 n ∧ F.floorLog2 n = Nat.log 2 n ∧ F.ceilLog2 n = Nat.clog 2 n ∧ F.isPow2 n = isPow2 n := by
  obtain ⟨⟨k, hk, k1, k2⟩, ⟨c, hc, c1, c2⟩, hp⟩ := C120_log2_int h h1 h2
  have hlog : Nat.log 2 n = k := (Nat.log_eq_iff (Or.inr ⟨by norm_num, by omega⟩)).2 ⟨k1, k2⟩
  have hex : floorLog2 (n : Rat) = Nat.log 2 n := Int.log_natCast 2 n
  have hcl : Nat.clog 2 n = c := by
    refine le_antisymm ((Nat.clog_le_iff_le_pow (by norm_num)).2 c1) (c2 _ ?_)
    exact Nat.le_pow_clog (by norm_num) n
  refine ⟨by rw [hex, hlog, hk], by rw [hlog, hk], by rw [hcl, hc], ?_⟩
  rw [Bool.eq_iff_iff, hp]
  unfold isPow2
  rw [beq_iff_eq, hlog]
  constructor
  · rintro ⟨j, rfl⟩
    rw [Nat.log_pow (by norm_num)] at hlog
    rw [hlog]
  · intro hh
    exact ⟨k, hh.symm⟩

/-- `J_pad` is exact. -/
theorem jPad_float {F : FloatOps} (h : F.Sound) {N m : ℕ} (hN : 1 ≤ N) (hN2 : 3 * N < 2 ^ 44) (hm : N + 2 * m < 2 ^ 44) :
    F.jPad N m = jPad N m := by
  unfold FloatOps.jPad jPad
  rw [(floorLog2_nat h (n := 3 * N - 2) (by omega) (by omega)).2.1, (floorLog2_nat h (n := N + 2 * m) (by omega) hm).2.2.1]
  rw [← Nat.cast_min, Int.toNat_natCast]

/-! ## `T` -/

/-- A value of `T` (a double of at least 1, below `2^44`) which is a power of two, or is not within a relative distance
of `2^-44` of one.  All integers are (`clear_nat`). -/
def Clear (t : Rat) : Prop :=
  IsDouble (t : ℝ) ∧ ∃ k : ℕ, k ≤ 43 ∧
    (t = 2 ^ k ∨ (2 ^ k * (1 + 2 ^ (-44 : ℤ)) ≤ t ∧ t ≤ 2 ^ (k + 1) * (1 - 2 ^ (-44 : ℤ))))

theorem clear_nat {n : ℕ} (h1 : 1 ≤ n) (h2 : n < 2 ^ 44) : Clear n := by
  refine ⟨by rw [Rat.cast_natCast]; exact isDouble_natCast (lt_trans h2 (by norm_num)), Nat.log 2 n, ?_⟩
  have k1 : 2 ^ Nat.log 2 n ≤ n := Nat.pow_log_le_self 2 (by omega)
  have k2 : n < 2 ^ (Nat.log 2 n + 1) := Nat.lt_pow_succ_log_self (by norm_num) n
  generalize Nat.log 2 n = k at k1 k2
  have hk43 : k ≤ 43 := by
    by_contra hc
    have : 2 ^ 44 ≤ 2 ^ k := Nat.pow_le_pow_right (by norm_num) (by omega)
    omega
  refine ⟨hk43, ?_⟩
  rcases eq_or_lt_of_le k1 with heq | hlt
  · left
    rw [← heq]
    push_cast
    rfl
  · right
    constructor
    · have c1 : ((2 ^ k + 1 : ℕ) : Rat) ≤ n := by exact_mod_cast hlt
      have c2 : (2 : Rat) ^ k * 2 ^ (-44 : ℤ) ≤ 1 := by
        have : (2 : Rat) ^ k ≤ 2 ^ 43 := pow_le_pow_right₀ (by norm_num) hk43
        calc (2 : Rat) ^ k * 2 ^ (-44 : ℤ) ≤ 2 ^ 43 * 2 ^ (-44 : ℤ) := mul_le_mul_of_nonneg_right this (by positivity)
          _ ≤ 1 := by norm_num
      push_cast at c1
      rw [mul_add, mul_one]
      linarith
    · have c1 : ((n + 1 : ℕ) : Rat) ≤ ((2 ^ (k + 1) : ℕ) : Rat) := by exact_mod_cast k2
      have c2 : (2 : Rat) ^ (k + 1) * 2 ^ (-44 : ℤ) ≤ 1 := by
        have : (2 : Rat) ^ (k + 1) ≤ 2 ^ 44 := pow_le_pow_right₀ (by norm_num) (by omega)
        calc (2 : Rat) ^ (k + 1) * 2 ^ (-44 : ℤ) ≤ 2 ^ 44 * 2 ^ (-44 : ℤ) :=
              mul_le_mul_of_nonneg_right this (by positivity)
          _ ≤ 1 := by norm_num
      push_cast at c1
      rw [mul_sub, mul_one]
      linarith

theorem clear_pow {J : ℕ} (hJ : J ≤ 43) : Clear (2 ^ J) :=
  ⟨by push_cast; rw [← zpow_natCast]; exact isDouble_zpow _, J, hJ, Or.inl rfl⟩

/-- The floating-point `log2_T` is exact for a value which is clear of the powers of two. -/
theorem floorLog2_clear {F : FloatOps} (h : F.Sound) {t : Rat} (ht : Clear t) : F.floorLog2 t = floorLog2 t := by
  obtain ⟨hd, k, hk, hc⟩ := ht
  have hr : F.rnd (t : ℝ) = t := h.rnd _ hd
  unfold FloatOps.floorLog2 floorLog2
  rw [hr]
  rcases hc with rfl | ⟨c1, c2⟩
  · have e : (((2 : Rat) ^ k : Rat) : ℝ) = (2 : ℝ) ^ (k : ℤ) := by push_cast; rw [zpow_natCast]
    rw [e, h.pow _ (by rw [abs_of_nonneg (by positivity)]; omega), Int.floor_intCast]
    have := Int.log_zpow (R := Rat) (b := 2) (by norm_num) (k : ℤ)
    push_cast at this
    rw [zpow_natCast] at this
    exact this.symm
  · have c1' : ((2 ^ k * (1 + 2 ^ (-44 : ℤ)) : Rat) : ℝ) ≤ t := by exact_mod_cast c1
    have c2' : (t : ℝ) ≤ ((2 ^ (k + 1) * (1 - 2 ^ (-44 : ℤ)) : Rat) : ℝ) := by exact_mod_cast c2
    push_cast at c1' c2'
    have hw := h.window (k := (k : ℤ)) (by omega) (by omega) hd (by rw [zpow_natCast]; exact c1')
      (by rw [show ((k : ℤ) + 1) = ((k + 1 : ℕ) : ℤ) by push_cast; ring, zpow_natCast]; exact c2')
    rw [floor_eq_of hw.1.le hw.2]
    have b1 : (2 : Rat) ^ k ≤ t := by
      refine le_trans ?_ c1
      have : (0 : Rat) < 2 ^ k := by positivity
      have h44 : (0 : Rat) < 2 ^ (-44 : ℤ) := by positivity
      nlinarith
    have b2 : t < (2 : Rat) ^ (k + 1) := by
      refine lt_of_le_of_lt c2 ?_
      have : (0 : Rat) < 2 ^ (k + 1) := by positivity
      have h44 : (0 : Rat) < 2 ^ (-44 : ℤ) := by positivity
      nlinarith
    have ht0 : 0 < t := lt_of_lt_of_le (by positivity) b1
    refine le_antisymm ((Int.zpow_le_iff_le_log (by norm_num) ht0).1 ?_) (Int.lt_add_one_iff.1
      ((Int.lt_zpow_iff_log_lt (by norm_num) ht0).1 ?_))
    · push_cast
      rw [zpow_natCast]
      exact b1
    · have e : ((2 : ℕ) : Rat) ^ ((k : ℤ) + 1) = 2 ^ (k + 1) := by
        rw [show ((k : ℤ) + 1) = ((k + 1 : ℕ) : ℤ) by push_cast; ring, zpow_natCast]
        norm_num
      rw [e]
      exact b2

/-- **C120** (`log2_T` and `log2_stride`): they are those of exact arithmetic, when the value of `T` is clear of the
powers of two (all integers, `None` and `'global'` are) and a stride is below `2^44`. -/
theorem C120_log2_partial {F : FloatOps} (h : F.Sound) (stride : Option PyNum) (T : PyT) (J N : ℕ)
    (hT : ∀ p, parseT T J N = .ok p → Clear p.1) (hs : ∀ n : ℤ, stride = some (.int n) → n < 2 ^ 44) :
    F.log2T T J N = log2T T J N ∧ F.log2Stride stride T J N = log2Stride stride T J N := by
  have h1 : F.log2T T J N = log2T T J N := by
    unfold FloatOps.log2T log2T
    cases hp : parseT T J N with
    | error e => rfl
    | ok p =>
      show (Except.ok (F.floorLog2 p.1) : Py ℤ) = Except.ok (floorLog2 p.1)
      rw [floorLog2_clear h (hT p hp)]
  refine ⟨h1, ?_⟩
  unfold FloatOps.log2Stride log2Stride
  match stride, hs with
  | none, _ => exact h1
  | some (.flt _), _ => rfl
  | some (.int n), hs =>
    have hn := hs n rfl
    dsimp only
    split
    · rfl
    · have hn1 : 1 ≤ n.toNat := by omega
      have hn2 : n.toNat < 2 ^ 44 := by omega
      obtain ⟨-, e2, -, e4⟩ := floorLog2_nat h hn1 hn2
      have hc : ((n : ℤ) : Rat) = ((n.toNat : ℕ) : Rat) := by
        have : (n : ℤ) = ((n.toNat : ℕ) : ℤ) := by omega
        have := congrArg (fun z : ℤ => (z : Rat)) this
        simpa only [Int.cast_natCast] using this
      rw [e4, hc, e2]

/-- **C120** (`build`): everything that the constructor computes before the filters is what exact arithmetic gives. -/
theorem C120_build_partial {F : FloatOps} (h : F.Sound) (shape : PyShape) (J : ℕ) (T : PyT)
    (stride oversampling : Option PyNum) (m N : ℕ) (hN : parseShape shape = .ok N) (hN1 : 1 ≤ N) (hN2 : 3 * N < 2 ^ 44)
    (hm : N + 2 * m < 2 ^ 44) (hT : ∀ p, parseT T J N = .ok p → Clear p.1) :
    F.build1D shape J T stride oversampling m = build1D shape J T stride oversampling m := by
  have h1 : F.log2T T J N = log2T T J N := (C120_log2_partial h none T J N hT (by simp)).1
  have h2 : F.applyOversampling oversampling stride T J N = applyOversampling oversampling stride T J N := by
    unfold FloatOps.applyOversampling applyOversampling
    rw [h1]
    rfl
  unfold FloatOps.build1D build1D
  rw [hN]
  show (F.applyOversampling oversampling stride T J N >>= _) = (applyOversampling oversampling stride T J N >>= _)
  rw [h2, h1, jPad_float h hN1 hN2 hm]

/-- An integer `T`, `None` and `'global'` are clear. -/
theorem clear_parseT {T : PyT} {J N : ℕ} (hN : N < 2 ^ 44) (hJ : J ≤ 43)
    (hT : T = .none ∨ T = .global ∨ ∃ n : ℕ, T = .num n) (p : Rat × Average) (hp : parseT T J N = .ok p) : Clear p.1 := by
  rcases hT with rfl | rfl | ⟨n, rfl⟩
  · obtain rfl := Except.ok.inj hp
    exact clear_pow hJ
  · obtain rfl := Except.ok.inj hp
    exact clear_pow hJ
  · unfold parseT at hp
    dsimp only at hp
    split at hp
    · cases hp
    · rename_i hle
      split at hp
      · obtain rfl := Except.ok.inj hp
        exact clear_pow hJ
      · split at hp
        · cases hp
        · rename_i h0 h1
          obtain rfl := Except.ok.inj hp
          push Not at hle h1
          exact clear_nat (by exact_mod_cast h1) (lt_of_le_of_lt (by exact_mod_cast hle) hN)

/-- A signal of a million samples, `T=1000`, every sound platform: `J_pad`, `log2_T` and the paddings are exact. -/
example {F : FloatOps} (h : F.Sound) (m : ℕ) (hm : m ≤ 3000000) :
    F.build1D (.int 1000000) 8 (.num 1000) none none m = build1D (.int 1000000) 8 (.num 1000) none none m :=
  C120_build_partial h _ _ _ _ _ m 1000000 rfl (by norm_num) (by norm_num) (by omega)
    (clear_parseT (by norm_num) (by norm_num) (Or.inr (Or.inr ⟨1000, by norm_num⟩)))

/-! ## Where rounding shows -/

/-- **C120 is violated** for a `T` just below a power of two: for a double `T` in `[4, 8)`, correctly rounded
operations give `log2_T = 3`.  So `2**log2_T` can exceed `T`. -/
theorem C120_T_violated {F : FloatOps} (h : F.Correct) :
    ∃ t : Rat, IsDouble (t : ℝ) ∧ 4 ≤ t ∧ t < 8 ∧ F.floorLog2 t = 3 ∧ floorLog2 t = 2 := by
  have hd : IsDouble (((8 - 2 ^ (-50 : ℤ) : Rat)) : ℝ) := ⟨2 ^ 53 - 1, -50, by norm_num, by push_cast; norm_num⟩
  refine ⟨8 - 2 ^ (-50 : ℤ), hd, by norm_num, by norm_num, ?_, ?_⟩
  · set x : ℝ := (((8 - 2 ^ (-50 : ℤ) : Rat)) : ℝ) with hx
    have hx8 : x = 8 * (1 - 2 ^ (-53 : ℤ)) := by rw [hx]; push_cast; norm_num
    unfold FloatOps.floorLog2
    rw [← hx, h.sound.rnd _ hd]
    clear_value x
    have hx0 : 0 < x := by rw [hx8]; norm_num
    have hlog2 := Real.log_two_gt_d9
    have hpos : (0 : ℝ) < Real.log 2 := by linarith
    have hL : Real.logb 2 x = 3 + Real.log (1 - 2 ^ (-53 : ℤ)) / Real.log 2 := by
      rw [hx8, Real.logb_mul (by norm_num) (by norm_num), show (8 : ℝ) = 2 ^ (3 : ℤ) by norm_num, logb_zpow]
      simp [Real.logb]
    have hlo : 3 - 2 ^ (-52 : ℤ) < Real.logb 2 x := by
      rw [hL]
      have h1 : -(2 ^ (-53 : ℤ) / (1 - 2 ^ (-53 : ℤ))) ≤ Real.log (1 - 2 ^ (-53 : ℤ)) := by
        have := Real.one_sub_inv_le_log_of_pos (x := 1 - 2 ^ (-53 : ℤ)) (by norm_num)
        refine le_trans (le_of_eq ?_) this
        norm_num
      have h2 : -(2 ^ (-52 : ℤ)) < Real.log (1 - 2 ^ (-53 : ℤ)) / Real.log 2 := by
        rw [lt_div_iff₀ hpos]
        refine lt_of_lt_of_le ?_ h1
        have : (2 : ℝ) ^ (-52 : ℤ) * 0.69 < 2 ^ (-52 : ℤ) * Real.log 2 :=
          mul_lt_mul_of_pos_left (by linarith) (by positivity)
        have h3 : (2 : ℝ) ^ (-53 : ℤ) / (1 - 2 ^ (-53 : ℤ)) < 2 ^ (-52 : ℤ) * 0.69 := by norm_num
        linarith
      linarith
    have hhi : Real.logb 2 x < 3 := by
      rw [hL]
      have : Real.log (1 - 2 ^ (-53 : ℤ)) / Real.log 2 < 0 := div_neg_of_neg_of_pos (Real.log_neg (by norm_num) (by norm_num)) hpos
      linarith
    have hn := h.log2_near x 3 hd hx0 (by simpa using isDouble_intCast (m := 3) (by norm_num))
    have hdl := h.log2_double x hd hx0
    rw [abs_of_pos (by linarith : (0 : ℝ) < 3 - Real.logb 2 x), abs_le] at hn
    have h2 : (2 : ℝ) ^ (1 : ℤ) ≤ F.log2 x := by
      have h29 : (2.9 : ℝ) < Real.logb 2 x := lt_trans (by norm_num) hlo
      have h25 : (2.5 : ℝ) ≤ F.log2 x := by linarith [hn.1]
      refine le_trans (by norm_num) h25
    obtain ⟨m, hm⟩ := hdl.multiple h2
    have h3 : F.log2 x ≤ 3 := by linarith [hn.2]
    have h4 : 3 - 2 ^ (-51 : ℤ) < F.log2 x := by
      have e : (2 : ℝ) ^ (-51 : ℤ) = 2 * 2 ^ (-52 : ℤ) := by norm_num
      rw [e]
      linarith [hn.1]
    rw [show (1 : ℤ) - 52 = -51 by norm_num] at hm
    have hm3 : m = 3 * 2 ^ 51 := by
      rw [hm] at h3 h4
      have e3 : (3 : ℝ) = (3 * 2 ^ 51 : ℤ) * 2 ^ (-51 : ℤ) := by push_cast; norm_num
      have p51 : (0 : ℝ) < 2 ^ (-51 : ℤ) := by positivity
      have a1 : (m : ℝ) ≤ (3 * 2 ^ 51 : ℤ) := by
        rw [e3] at h3
        exact le_of_mul_le_mul_right h3 p51
      have a2 : ((3 * 2 ^ 51 - 1 : ℤ) : ℝ) < m := by
        refine lt_of_mul_lt_mul_right (a := (2 : ℝ) ^ (-51 : ℤ)) ?_ p51.le
        refine lt_of_le_of_lt (le_of_eq ?_) h4
        push_cast
        norm_num
      have a1' : m ≤ 3 * 2 ^ 51 := by exact_mod_cast a1
      have a2' : 3 * 2 ^ 51 - 1 < m := by exact_mod_cast a2
      omega
    have : F.log2 x = (3 : ℤ) := by
      rw [hm, hm3]
      push_cast
      norm_num
    rw [this, Int.floor_intCast]
  · unfold floorLog2
    have ht0 : (0 : Rat) < 8 - 2 ^ (-50 : ℤ) := by norm_num
    refine le_antisymm (Int.lt_add_one_iff.1 ((Int.lt_zpow_iff_log_lt (by norm_num) ht0).1 (by norm_num)))
      ((Int.zpow_le_iff_le_log (by norm_num) ht0).1 (by norm_num))

/-- The nearest double to `2^60 + 1` is `2^60`. -/
theorem rnd_pow60 {F : FloatOps} (h : F.Correct) : F.rnd ((2 : ℝ) ^ 60 + 1) = 2 ^ 60 := by
  have hn := h.rnd_near ((2 : ℝ) ^ 60 + 1) (2 ^ 60) (by
    have := isDouble_zpow 60
    norm_num at this ⊢
    exact this)
  have hd := h.rnd_double ((2 : ℝ) ^ 60 + 1)
  generalize F.rnd ((2 : ℝ) ^ 60 + 1) = r at hn hd
  have e : |(2 : ℝ) ^ 60 - (2 ^ 60 + 1)| = 1 := by norm_num
  rw [e, abs_le] at hn
  obtain ⟨m, hm⟩ := hd.multiple (a := 60) (by norm_num at hn ⊢; linarith [hn.1])
  norm_num at hm
  have a1 : ((2 ^ 52 : ℤ) : ℝ) ≤ m := by push_cast; linarith [hn.1]
  have a2 : (m : ℝ) < ((2 ^ 52 + 1 : ℤ) : ℝ) := by push_cast; linarith [hn.2]
  have a1' : (2 : ℤ) ^ 52 ≤ m := by exact_mod_cast a1
  have a2' : m < (2 : ℤ) ^ 52 + 1 := by exact_mod_cast a2
  have : m = 2 ^ 52 := by omega
  rw [hm, this]
  push_cast
  norm_num

/-- **C120 is violated** for huge strides: with correctly rounded operations `2**60 + 1` passes for a power of two,
and `log2_stride` is 60. -/
theorem C120_stride_violated {F : FloatOps} (h : F.Correct) (J N : ℕ) :
    F.log2Stride (some (.int (2 ^ 60 + 1))) .none J N = .ok 60 ∧
      log2Stride (some (.int (2 ^ 60 + 1))) .none J N = .error .value := by
  have hl : F.log2 ((2 : ℝ) ^ 60) = (60 : ℤ) := by
    have := h.sound.pow 60 (by norm_num)
    rw [← this]
    norm_num
  have f1 : F.floorLog2 ((2 ^ 60 + 1 : ℤ) : Rat) = 60 := by
    unfold FloatOps.floorLog2
    have e : ((((2 ^ 60 + 1 : ℤ) : Rat)) : ℝ) = 2 ^ 60 + 1 := by norm_num
    rw [e, rnd_pow60 h, hl, Int.floor_intCast]
  have f2 : F.isPow2 (2 ^ 60 + 1) = true := by
    unfold FloatOps.isPow2 FloatOps.ceilLog2
    have e : (((2 ^ 60 + 1 : ℕ)) : ℝ) = 2 ^ 60 + 1 := by norm_num
    have e' : ((2 ^ 60 + 1 : ℕ) : Rat) = ((2 ^ 60 + 1 : ℤ) : Rat) := by norm_num
    rw [e', f1, e, rnd_pow60 h, hl, Int.ceil_intCast]
    simp
  have hnat : ((2 : ℤ) ^ 60 + 1).toNat = 2 ^ 60 + 1 := by omega
  constructor
  · unfold FloatOps.log2Stride
    dsimp only
    rw [if_neg (by norm_num), hnat, f2, f1]
    rfl
  · unfold log2Stride
    dsimp only
    rw [if_neg (by norm_num), hnat]
    have : isPow2 (2 ^ 60 + 1) = false := by
      unfold isPow2
      rw [beq_eq_false_iff_ne]
      have : Nat.log 2 (2 ^ 60 + 1) = 60 := (Nat.log_eq_iff (Or.inl (by norm_num))).2 ⟨by norm_num, by norm_num⟩
      rw [this]
      norm_num
    rw [this]
    rfl

/-- Correctly rounded operations exist; they are exact at 1000 and not at `8 - 2^-50`. -/
example : ∃ F : FloatOps, F.Correct ∧ F.floorLog2 (1000 : ℕ) = 9 ∧ F.ceilLog2 1000 = 10 ∧ F.isPow2 1024 = true ∧
    ∃ t : Rat, t < 8 ∧ F.floorLog2 t = 3 := by
  obtain ⟨F, hF⟩ := exists_correct
  obtain ⟨t, -, -, h8, h3, -⟩ := C120_T_violated hF
  obtain ⟨-, h1, h2, -⟩ := floorLog2_nat hF.sound (n := 1000) (by norm_num) (by norm_num)
  refine ⟨F, hF, ?_, ?_, (C120_log2_int hF.sound (by norm_num) (by norm_num)).2.2.2 ⟨10, by norm_num⟩, t, h8, h3⟩
  · rw [h1, (Nat.log_eq_iff (Or.inr ⟨by norm_num, by norm_num⟩) : Nat.log 2 1000 = 9 ↔ _).2 ⟨by norm_num, by norm_num⟩]
    rfl
  · rw [h2]
    have : Nat.clog 2 1000 = 10 :=
      le_antisymm ((Nat.clog_le_iff_le_pow (by norm_num)).2 (by norm_num)) ((Nat.lt_clog_iff_pow_lt (by norm_num)).2 (by norm_num))
    rw [this]
    rfl

/-! ## The `j` of a filter -/

/-- **C120** (filters): the `j` of a filter, computed from an `upper_bound` with a relative error of at most `2^-46`, is
the exact one when `|xi| + alpha sigma` is at least one half (then `min` gives exactly one half), or is not within a
relative distance of `2^-43` of a power of two. -/
theorem C120_dyadic_partial {F : FloatOps} (h : F.Sound) (xi sigma alpha : ℝ) (u : ℝ) (hu : IsDouble u)
    (hnear : |u - min (|xi| + alpha * sigma) (1 / 2)| ≤ 2 ^ (-46 : ℤ) * min (|xi| + alpha * sigma) (1 / 2))
    (hc : (1 / 2 ≤ |xi| + alpha * sigma ∧ u = 1 / 2) ∨ ∃ k : ℕ, 1 ≤ k ∧ k ≤ 43 ∧
      (2 : ℝ) ^ (-(k : ℤ) - 1) * (1 + 2 ^ (-43 : ℤ)) ≤ |xi| + alpha * sigma ∧
      |xi| + alpha * sigma ≤ (2 : ℝ) ^ (-(k : ℤ)) * (1 - 2 ^ (-43 : ℤ))) :
    F.dyadic u = getMaxDyadicSubsampling xi sigma alpha := by
  unfold FloatOps.dyadic getMaxDyadicSubsampling
  dsimp only
  generalize |xi| + alpha * sigma = v at hnear hc
  congr 1
  rcases hc with ⟨hv, rfl⟩ | ⟨k, hk1, hk, h1, h2⟩
  · have e : (1 / 2 : ℝ) = 2 ^ (-1 : ℤ) := by norm_num
    rw [min_eq_right hv, e, h.pow (-1) (by norm_num), logb_zpow]
  · have hkz : (2 : ℝ) ^ (-(k : ℤ)) ≤ 1 / 2 := by
      have : (2 : ℝ) ^ (-(k : ℤ)) ≤ 2 ^ (-1 : ℤ) := zpow_le_zpow_right₀ (by norm_num) (by omega)
      refine this.trans (by norm_num)
    have hp : (0 : ℝ) < 2 ^ (-(k : ℤ)) := by positivity
    have hp1 : (0 : ℝ) < 2 ^ (-(k : ℤ) - 1) := by positivity
    have hv : v ≤ 1 / 2 := by
      refine h2.trans (le_trans ?_ hkz)
      exact mul_le_of_le_one_right hp.le (by norm_num)
    rw [min_eq_left hv] at hnear ⊢
    have hv0 : 0 < v := lt_of_lt_of_le (by positivity) h1
    have l1 := le_logb_of_ge (k := -(k : ℤ) - 1) (d := 2 ^ (-43 : ℤ)) (by positivity) (by norm_num) h1
    have l2 := logb_le_of_le (k := -(k : ℤ)) (d := 2 ^ (-43 : ℤ)) (by positivity) hv0 h2
    rw [abs_le] at hnear
    have w1 : (2 : ℝ) ^ (-(k : ℤ) - 1) * (1 + 2 ^ (-44 : ℤ)) ≤ u := by
      have a : v * (1 - 2 ^ (-46 : ℤ)) ≤ u := by linarith [hnear.1]
      refine le_trans ?_ ((mul_le_mul_of_nonneg_right h1 (by norm_num)).trans a)
      rw [mul_assoc]
      exact mul_le_mul_of_nonneg_left (by norm_num) hp1.le
    have w2 : u ≤ (2 : ℝ) ^ (-(k : ℤ) - 1 + 1) * (1 - 2 ^ (-44 : ℤ)) := by
      have a : u ≤ v * (1 + 2 ^ (-46 : ℤ)) := by linarith [hnear.2]
      refine (a.trans (mul_le_mul_of_nonneg_right h2 (by norm_num))).trans ?_
      rw [mul_assoc, show -(k : ℤ) - 1 + 1 = -(k : ℤ) by ring]
      exact mul_le_mul_of_nonneg_left (by norm_num) hp.le
    have hw := h.window (k := -(k : ℤ) - 1) (by omega) (by omega) hu w1 w2
    have p43 : (0 : ℝ) < 2 ^ (-43 : ℤ) := by positivity
    push_cast at hw l1 l2
    rw [floor_eq_of (k := (k : ℤ)) (y := -F.log2 u) (by push_cast; linarith [hw.2]) (by push_cast; linarith [hw.1]),
      floor_eq_of (k := (k : ℤ)) (y := -Real.logb 2 v) (by push_cast; linarith) (by push_cast; linarith)]

/-- A wavelet with `xi = 0.3`, `sigma = 0.01`, `alpha = 5`: the upper bound is `0.35`, and any double within `10^-14`
of it gives `j = 0`. -/
example {F : FloatOps} (h : F.Sound) (u : ℝ) (hu : IsDouble u) (hn : |u - 0.35| ≤ 2 ^ (-46 : ℤ) * 0.35) :
    F.dyadic u = getMaxDyadicSubsampling 0.3 0.01 5 := by
  have e : min (|(0.3 : ℝ)| + 5 * 0.01) (1 / 2) = 0.35 := by
    rw [abs_of_pos (by norm_num)]
    norm_num
  refine C120_dyadic_partial h 0.3 0.01 5 u hu (by rw [e]; exact hn) (Or.inr ⟨1, le_rfl, by norm_num, ?_, ?_⟩)
  · rw [abs_of_pos (by norm_num)]
    norm_num
  · rw [abs_of_pos (by norm_num)]
    norm_num

/-! ## Indices of `periodize_filter_fft` -/

theorem pyTrunc_div (a b : ℕ) : (pyTrunc ((a : ℝ) / b)).toNat = a / b := by
  unfold pyTrunc
  rw [if_pos (by positivity)]
  rw [Int.floor_div_natCast, Int.floor_natCast, ← Int.natCast_div, Int.toNat_natCast]

theorem cropLen_eq {F : FloatOps} (h : F.Sound) {M : ℕ} (hM : M < 2 ^ 53) (res : ℕ) : F.cropLen M res = M / 2 ^ res := by
  unfold FloatOps.cropLen
  rw [h.rnd _ (isDouble_dyadic hM res)]
  exact_mod_cast pyTrunc_div (M) (2 ^ res)

theorem maskStart_eq {F : FloatOps} (h : F.Sound) {M : ℕ} (hM : M < 2 ^ 53) (res : ℕ) :
    F.maskStart M res = M / 2 ^ (res + 1) := by
  have e : (2 : ℝ) ^ (-(res : ℤ) - 1) = 1 / 2 ^ (res + 1) := by
    rw [show -(res : ℤ) - 1 = -((res + 1 : ℕ) : ℤ) by push_cast; ring, zpow_neg, zpow_natCast, one_div]
  unfold FloatOps.maskStart
  rw [h.rnd _ (isDouble_zpow _), e, mul_one_div, h.rnd _ (isDouble_dyadic hM (res + 1))]
  exact_mod_cast pyTrunc_div (M) (2 ^ (res + 1))

theorem maskLen_eq {F : FloatOps} (h : F.Sound) {M res : ℕ} (hM : M * 2 ^ res < 2 ^ 53) (hM1 : 1 ≤ M) :
    F.maskLen M res = M * (2 ^ res - 1) / 2 ^ res := by
  have hp : 1 ≤ 2 ^ res := Nat.one_le_two_pow
  have e : (1 : ℝ) - 2 ^ (-(res : ℤ)) = ((2 ^ res - 1 : ℕ) : ℝ) / 2 ^ res := by
    rw [zpow_neg, zpow_natCast, Nat.cast_sub hp]
    push_cast
    field_simp
  have b1 : 2 ^ res - 1 < 2 ^ 53 := by
    have : 1 * 2 ^ res ≤ M * 2 ^ res := Nat.mul_le_mul_right _ hM1
    omega
  have b2 : M * (2 ^ res - 1) < 2 ^ 53 := lt_of_le_of_lt (Nat.mul_le_mul_left M (Nat.sub_le _ _)) hM
  unfold FloatOps.maskLen
  rw [h.rnd _ (isDouble_zpow _), e, h.rnd _ (isDouble_dyadic b1 res), ← mul_div_assoc, ← Nat.cast_mul,
    h.rnd _ (isDouble_dyadic b2 res)]
  exact_mod_cast pyTrunc_div (M * (2 ^ res - 1)) (2 ^ res)

/-- **C120** (2-D filters): the mask, the crop and the index of the middle angle are those of exact arithmetic, for
images whose sides times `2^res` are below `2^53`. -/
theorem C120_periodize {F : FloatOps} (h : F.Sound) (x : Img ℝ) (res : ℕ) (hh : x.h * 2 ^ res < 2 ^ 53)
    (hw : x.w * 2 ^ res < 2 ^ 53) (hh1 : 1 ≤ x.h) (hw1 : 1 ≤ x.w) :
    F.periodizeFilter x res = periodizeFilter x res := by
  have hp : 1 ≤ 2 ^ res := Nat.one_le_two_pow
  have a1 : x.h < 2 ^ 53 := by nlinarith
  have a2 : x.w < 2 ^ 53 := by nlinarith
  have m1 : ∀ i, F.masked x.h res i = masked x.h res i := fun i => by
    unfold FloatOps.masked masked
    rw [maskStart_eq h a1, maskLen_eq h hh hh1]
  have m2 : ∀ i, F.masked x.w res i = masked x.w res i := fun i => by
    unfold FloatOps.masked masked
    rw [maskStart_eq h a2, maskLen_eq h hw hw1]
  unfold FloatOps.periodizeFilter periodizeFilter
  simp only [cropLen_eq h a1, cropLen_eq h a2, m1, m2]

/-- `int(L-L/2-1)` is `(L-2)/2`, truncated to 0 for `L = 1`. -/
theorem C120_mid_angle {F : FloatOps} (h : F.Sound) {L : ℕ} (hL : 1 ≤ L) (hL2 : L < 2 ^ 53) :
    F.midAngle L = ((L - 2) / 2 : ℕ) := by
  have e1 : (L : ℝ) - (L : ℝ) / 2 = (L : ℝ) / 2 ^ 1 := by ring
  have e0 : (L : ℝ) / 2 = (L : ℝ) / 2 ^ 1 := by norm_num
  unfold FloatOps.midAngle
  rw [show F.rnd ((L : ℝ) / 2) = (L : ℝ) / 2 by rw [e0]; exact h.rnd _ (isDouble_dyadic hL2 1), e1,
    h.rnd _ (isDouble_dyadic hL2 1)]
  rcases Nat.lt_or_ge L 2 with h2 | h2
  · obtain rfl : L = 1 := by omega
    have : F.rnd (((1 : ℕ) : ℝ) / 2 ^ 1 - 1) = -(1 / 2) := by
      have e : (((1 : ℕ) : ℝ) / 2 ^ 1 - 1) = -(1 / 2) := by norm_num
      rw [e]
      exact h.rnd _ ⟨-1, -1, by norm_num, by norm_num⟩
    rw [this]
    unfold pyTrunc
    rw [if_neg (by norm_num), Int.ceil_eq_iff]
    norm_num
  · have e : (L : ℝ) / 2 ^ 1 - 1 = ((L - 2 : ℕ) : ℝ) / 2 ^ 1 := by
      rw [Nat.cast_sub h2]
      push_cast
      ring
    rw [e, h.rnd _ (isDouble_dyadic (by omega) 1)]
    unfold pyTrunc
    rw [if_pos (by positivity), pow_one]
    have := Int.floor_div_natCast ((L - 2 : ℕ) : ℝ) 2
    rw [Int.floor_natCast, ← Int.natCast_div] at this
    exact_mod_cast this

/-- A filter of 320 by 512 at the resolution 5, on a platform with correctly rounded operations. -/
example {F : FloatOps} (h : F.Correct) (f : ℕ → ℕ → ℝ) :
    F.periodizeFilter (Img.tab 320 512 f) 5 = periodizeFilter (Img.tab 320 512 f) 5 :=
  C120_periodize h.sound _ 5 (by show 320 * 2 ^ 5 < 2 ^ 53; norm_num) (by show 512 * 2 ^ 5 < 2 ^ 53; norm_num)
    (by show 1 ≤ 320; norm_num) (by show 1 ≤ 512; norm_num)

end Verif
