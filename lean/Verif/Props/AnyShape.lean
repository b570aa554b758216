import Verif.Model.AnyShape
import Verif.Props.Constructor

/-!
# C131: a length that is not positive is rejected when the object is constructed
-/

namespace Verif

namespace Spec

/-- `shape` announces the integer `N`. -/
def IsLengthZ (s : PyShapeZ) (N : ℤ) : Prop := s = .int N ∨ s = .tuple [N]

end Spec

theorem parseShapeZ_isLength {s : PyShapeZ} {N : ℤ} (h : Spec.IsLengthZ s N) : parseShapeZ s = .ok N := by
  rcases h with rfl | rfl <;> rfl

theorem parseTN_error {T : PyT} {J : Nat} {N : ℤ} {e : PyErr} (h : parseTN T J N = .error e) : e = .value := by
  unfold parseTN at h
  cases T with
  | none => cases h
  | global => cases h
  | num t =>
    dsimp only at h
    split at h
    · cases h; rfl
    · split at h
      · cases h
      · split at h
        · cases h; rfl
        · cases h

theorem applyOversamplingN_error {o st : Option PyNum} {T : PyT} {J : Nat} {N : ℤ} {e : PyErr}
    (h : applyOversamplingN o st T J N = .error e) : e = .value := by
  unfold applyOversamplingN at h
  rcases o with _ | o
  · cases h
  · dsimp only at h
    split at h
    · cases h; rfl
    · cases o with
      | flt _ => cases h; rfl
      | int o =>
        dsimp only at h
        split at h
        · cases hp : parseTN T J N with
          | error e' =>
            rw [hp] at h
            obtain rfl := parseTN_error hp
            cases h; rfl
          | ok p =>
            rw [hp] at h
            rcases st with _ | s
            · cases h
            · change (if _ then _ else _) = _ at h
              split at h
              · cases h
              · cases h; rfl
        · cases h

theorem periods_ge {sigma : ℝ} (h : 0 < sigma) : 2 ≤ min (adaptiveChoiceP sigma 1e-7) 5 := by
  refine le_min ?_ (by norm_num)
  unfold adaptiveChoiceP
  rw [show (2 : ℤ) = 1 + 1 from rfl, Int.add_one_le_iff, Int.lt_ceil]
  push_cast
  have : 0 < Real.sqrt (-2 * sigma ^ 2 * Real.log 1e-7) := by
    apply Real.sqrt_pos.2
    have hl : Real.log 1e-7 < 0 := Real.log_neg (by norm_num) (by norm_num)
    have : 0 < sigma ^ 2 := by positivity
    nlinarith
  linarith

theorem gauss1dN_pos {N : ℕ} (hN : 1 ≤ N) {sigma : ℝ} (h : 0 < sigma) : gauss1dN N sigma = .ok (gauss1d N sigma) := by
  have hP := periods_ge h
  unfold gauss1dN
  dsimp only
  set P := min (adaptiveChoiceP sigma 1e-7) 5
  have e : (P * (N : ℤ) - (1 - P) * N).toNat / (2 * P - 1).toNat = N := by
    have e1 : P * (N : ℤ) - (1 - P) * N = (2 * P - 1) * N := by ring
    rw [e1, Int.toNat_mul (by omega) (by omega), Int.toNat_natCast]
    exact Nat.mul_div_cancel_left _ (by omega)
  rw [e, if_neg (by omega)]

theorem gauss1dN_neg {N : ℤ} (hN : N ≤ 0) {sigma : ℝ} (h : 0 < sigma) : gauss1dN N sigma = .error .value := by
  have hP := periods_ge h
  unfold gauss1dN
  dsimp only
  set P := min (adaptiveChoiceP sigma 1e-7) 5
  have e : (P * N - (1 - P) * N).toNat = 0 := by
    rw [Int.toNat_eq_zero]
    nlinarith
  rw [e, Nat.zero_div, if_pos rfl]

theorem parseTN_pos {T : PyT} {J : Nat} {N : ℤ} {p : Rat × Average} (h : parseTN T J N = .ok p) : 0 < p.1 := by
  unfold parseTN at h
  cases T with
  | none => rw [← Except.ok.inj h]; show (0 : ℚ) < 2 ^ J; positivity
  | global => rw [← Except.ok.inj h]; show (0 : ℚ) < 2 ^ J; positivity
  | num t =>
    dsimp only at h
    split at h
    · cases h
    · split at h
      · rw [← Except.ok.inj h]; show (0 : ℚ) < 2 ^ J; positivity
      · split at h
        · cases h
        · rename_i h3
          rw [← Except.ok.inj h]
          push Not at h3
          exact lt_of_lt_of_le one_pos h3

theorem sigma_pos {t : Rat} (h : 0 < t) : (0 : ℝ) < 0.1 / t := by
  have : (0 : ℝ) < t := by exact_mod_cast h
  positivity

theorem prologueN_neg {shape : PyShapeZ} {N : ℤ} (hs : Spec.IsLengthZ shape N) (hN : N ≤ 0) (J : Nat) (T : PyT)
    (st o : Option PyNum) : prologueN shape J T st o = .error .value := by
  unfold prologueN
  rw [parseShapeZ_isLength hs]
  show (applyOversamplingN o st T J N >>= _) = _
  cases h1 : applyOversamplingN o st T J N with
  | error e => rw [applyOversamplingN_error h1]; rfl
  | ok u =>
    show (parseTN T J N >>= _) = _
    cases h2 : parseTN T J N with
    | error e => rw [parseTN_error h2]; rfl
    | ok p =>
      show (gauss1dN N (0.1 / p.1) >>= _) = _
      rw [gauss1dN_neg hN (sigma_pos (parseTN_pos h2))]
      rfl

/-- **C131.**  A shape that announces zero or a negative number of samples raises `ValueError`, whatever the other
arguments are. -/
theorem C131_rejected (a : Args1D) (b : JArgs) (shape : PyShapeZ) (N : ℤ) (hs : Spec.IsLengthZ shape N) (hN : N ≤ 0) :
    a.makeN shape = .error .value ∧ b.makeN shape = .error .value := by
  constructor
  · unfold Args1D.makeN
    rw [prologueN_neg hs hN]
    rfl
  · unfold JArgs.makeN
    rw [prologueN_neg hs hN]
    rfl

theorem parseTN_nat (T : PyT) (J N : Nat) : parseTN T J N = parseT T J N := by
  unfold parseTN parseT
  cases T <;> simp only [Int.cast_natCast]

theorem applyOversamplingN_nat (o st : Option PyNum) (T : PyT) (J N : Nat) :
    applyOversamplingN o st T J N = applyOversampling o st T J N := by
  unfold applyOversamplingN applyOversampling log2T
  rw [parseTN_nat]
  rcases o with _ | _ | _ <;> rcases st with _ | _ <;> cases parseT T J N <;> rfl

/-- For positive lengths the steps before the low-pass filter raise only what `build` raises. -/
theorem prologueN_nat {shape : PyShapeZ} {N : ℕ} (hs : Spec.IsLengthZ shape N) (hN : 1 ≤ N) (a : Args1D)
    (ha : a.shape = .int N) :
    prologueN shape a.J a.T a.stride a.oversampling = .ok ((N : ℤ), N) ∨
      (prologueN shape a.J a.T a.stride a.oversampling = .error .value ∧ a.make = .error .value) := by
  have hp : parseShape a.shape = .ok N := by rw [ha]; rfl
  unfold prologueN
  rw [parseShapeZ_isLength hs]
  show (applyOversamplingN a.oversampling a.stride a.T a.J N >>= _) = _ ∨
    ((applyOversamplingN a.oversampling a.stride a.T a.J N >>= _) = _ ∧ _)
  rw [applyOversamplingN_nat, parseTN_nat]
  cases h2 : parseT a.T a.J N with
  | error e =>
    obtain rfl := parseTN_error ((parseTN_nat _ _ _).trans h2)
    refine .inr ⟨?_, ?_⟩
    · cases h1 : applyOversampling a.oversampling a.stride a.T a.J N with
      | error e => rw [applyOversamplingN_error ((applyOversamplingN_nat _ _ _ _ _).trans h1)]; rfl
      | ok u => rfl
    · unfold Args1D.make
      rw [hp, ok_bind, h2]
      rfl
  | ok p =>
    have hs := sigma_pos (parseTN_pos ((parseTN_nat _ _ _).trans h2))
    cases h1 : applyOversampling a.oversampling a.stride a.T a.J N with
    | error e =>
      obtain rfl := applyOversamplingN_error ((applyOversamplingN_nat _ _ _ _ _).trans h1)
      refine .inr ⟨rfl, ?_⟩
      unfold Args1D.make build1D
      rw [hp, ok_bind, h2, ok_bind, ok_bind, h1]
      rfl
    | ok u =>
      refine .inl ?_
      show (gauss1dN N (0.1 / p.1) >>= _) = _
      rw [gauss1dN_pos hN hs]
      show Except.ok ((N : ℤ), (gauss1d N (0.1 / p.1)).length) = _
      rw [show (gauss1d N (0.1 / p.1)).length = N from length_morlet1d hs]

/-- **C131.**  A positive length gives what the natural number gives. -/
theorem C131_positive (a : Args1D) (b : JArgs) (shape : PyShapeZ) (N : ℕ) (hs : Spec.IsLengthZ shape N) (hN : 1 ≤ N)
    (ha : a.shape = .int N) (hb : b.shape = .int N) : a.makeN shape = a.make ∧ b.makeN shape = b.make := by
  constructor
  · unfold Args1D.makeN
    rcases prologueN_nat hs hN a ha with h | ⟨h, h'⟩
    · rw [h]
      show ({ a with shape := .int (N : ℤ).toNat } : Args1D).make = _
      rw [Int.toNat_natCast, ← ha]
    · rw [h, h']
      rfl
  · unfold JArgs.makeN
    rcases prologueN_nat hs hN b.base hb with h | ⟨h, h'⟩
    · rw [show prologueN shape b.J b.T b.stride none = _ from h]
      show ({ b with shape := .int (N : ℤ).toNat } : JArgs).make = _
      rw [Int.toNat_natCast, ← hb]
    · rw [show prologueN shape b.J b.T b.stride none = _ from h]
      unfold JArgs.make
      rw [h']
      rfl

/-- `Scattering1D(J=3, Q=8, shape=0)` and `TimeFrequencyScattering(J=3, J_fr=2, Q=8, shape=(-5,), T='global')` are
rejected; `Scattering1D(J=3, Q=(8, 1), shape=(1000,))` is built. -/
example :
    (Args1D.mk 3 (.int 1000) (.int 8) .none none 2 none .array).makeN (.int 0) = .error .value ∧
      (JArgs.mk 3 2 (.int 8) (.int 1000) .global none (.int 1) .none none .list .time).makeN (.tuple [-5]) = .error .value ∧
      ∃ s, (exArgs .none .list).makeN (.tuple [1000]) = .ok s := by
  let b := JArgs.mk 3 2 (.int 8) (.int 1000) .global none (.int 1) .none none .list .time
  refine ⟨(C131_rejected _ b (.int 0) 0 (.inl rfl) le_rfl).1,
    (C131_rejected (exArgs .none .list) b (.tuple [-5]) (-5) (.inr rfl) (by norm_num)).2, ?_⟩
  obtain ⟨s, h, -⟩ := C17_construction (exArgs .none .list) 1000 rfl (by norm_num) (2 ^ 3)
    .loc rfl 8 1 rfl (by norm_num) (le_jPad_of_pow (by norm_num) (by norm_num [exArgs])) (Or.inr rfl)
  exact ⟨s, ((C131_positive _ b (.tuple [1000]) 1000 (.inr rfl) (by norm_num) rfl rfl).1).trans h⟩

end Verif
