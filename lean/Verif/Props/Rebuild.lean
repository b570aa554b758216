import Verif.Model.Rebuild
import Verif.Props.Params
import Verif.Lemmas.Sizes1D

/-!
# C125: calling `build` and `create_filters` again
-/

namespace Verif

/-- Two sets of attributes that differ in how shape is written. -/
def Args1D.Same (a b : Args1D) : Prop :=
  parseShape b.shape = parseShape a.shape ∧ b = { a with shape := b.shape }

theorem Args1D.Same.assign {a b : Args1D} (h : a.Same b) (e : Assign1) : (a.assign e).Same (b.assign e) := by
  obtain ⟨h1, h2⟩ := h
  rw [h2]
  cases e <;> exact ⟨by first | exact h1 | rfl, rfl⟩

theorem Args1D.Same.assignAll {a b : Args1D} (h : a.Same b) (es : List Assign1) : (a.assignAll es).Same (b.assignAll es) := by
  induction es generalizing a b with
  | nil => exact h
  | cons e es ih => exact ih (h.assign e)

theorem Args1D.Same.make {a b : Args1D} (h : a.Same b) : b.make = a.make := by
  obtain ⟨h1, h2⟩ := h
  rw [h2]
  unfold Args1D.make build1D
  simp only [h1]

theorem Args1D.Same.obj {a b : Args1D} (h : a.Same b) (s : Sc1D) : b.obj s = a.obj s := by
  rw [h.2]
  rfl

/-- What `build` stores of the shape and the stride. -/
theorem make_stored {a : Args1D} {s : Sc1D} (h : a.make = .ok s) : parseShape a.shape = .ok s.built.Ninput ∧
    applyOversampling a.oversampling a.stride a.T a.J s.built.Ninput = .ok s.built.stride := by
  obtain ⟨N, hN, h⟩ := bind_eq_ok.1 h
  obtain ⟨T', hT'', h⟩ := bind_eq_ok.1 h
  obtain ⟨bd, hb, h⟩ := bind_eq_ok.1 h
  obtain ⟨Q', hQ', h⟩ := bind_eq_ok.1 h
  obtain ⟨f, hf, h⟩ := bind_eq_ok.1 h
  cases h
  unfold build1D at hb
  obtain ⟨N', hN'', hb⟩ := bind_eq_ok.1 hb
  rw [hN] at hN''
  cases hN''
  obtain ⟨st, hst, hb⟩ := bind_eq_ok.1 hb
  obtain ⟨lT, hlT, hb⟩ := bind_eq_ok.1 hb
  obtain ⟨lr, hlr, hb⟩ := bind_eq_ok.1 hb
  cases hb
  exact ⟨hN, hst⟩

theorem attrs_same {a : Args1D} {s : Sc1D} (h : a.make = .ok s)
    (ho : a.oversampling = none ∨ a.oversampling = some (.int 0)) : a.Same (a.attrs s) := by
  obtain ⟨h1, h2⟩ := make_stored h
  have h3 : s.built.stride = a.stride := by
    rcases ho with ho | ho <;> rw [ho] at h2
    · exact (Except.ok.inj h2).symm
    · simpa [applyOversampling, PyNum.val] using h2.symm
  exact ⟨h1.symm ▸ rfl, by simp [Args1D.attrs, h3]⟩

/-- **1-D.**  Without oversampling, assigning attributes and calling `build` and `create_filters` again gives the object that
the constructor makes of the new values, or the error it raises; in particular nothing changes if nothing is assigned.  The
full claim has no hypothesis on `oversampling`; it is false (below). -/
theorem C125_1d_partial (a : Args1D) (s : Sc1D) (hs : a.make = .ok s)
    (ho : a.oversampling = none ∨ a.oversampling = some (.int 0)) (es : List Assign1) :
    a.rebuild s es = (a.assignAll es).make ∧ ∀ x, a.rerun s es x = (a.assignAll es).run x := by
  have h := (attrs_same hs ho).assignAll es
  refine ⟨h.make, fun x => ?_⟩
  unfold Args1D.rerun Args1D.rebuild Args1D.run
  rw [h.make]
  simp only [h.obj]

/-- Nothing changes if nothing is assigned. -/
theorem C125_idempotent_partial (a : Args1D) (s : Sc1D) (hs : a.make = .ok s)
    (ho : a.oversampling = none ∨ a.oversampling = some (.int 0)) : a.rebuild s [] = .ok s :=
  (C125_1d_partial a s hs ho []).1.trans hs

/-- With oversampling `build` stores this stride whatever the stride given. -/
theorem stored_stride {a : Args1D} {s : Sc1D} {o : Int} (hs : a.make = .ok s) (h0 : 0 < o)
    (ho : a.oversampling = some (.int o)) :
    ∃ l, log2T a.T a.J s.built.Ninput = .ok l ∧ s.built.stride = some (pyTwoPow (l - o)) := by
  obtain ⟨-, h⟩ := make_stored hs
  rw [ho] at h
  unfold applyOversampling at h
  simp only at h
  rw [if_neg (by simp [PyNum.val]; omega), if_pos h0] at h
  obtain ⟨l, hl, h⟩ := bind_eq_ok.1 h
  refine ⟨l, hl, ?_⟩
  split at h
  · exact (Except.ok.inj h).symm
  · split at h
    · exact (Except.ok.inj h).symm
    · cases h

/-- Assignments other than that of `_stride`. -/
def Spec.KeepsStride : List Assign1 → Prop
  | [] => True
  | .stride _ :: _ => False
  | _ :: es => Spec.KeepsStride es

theorem assignAll_keeps (es : List Assign1) (he : Spec.KeepsStride es) (a : Args1D) :
    (a.assignAll es).stride = a.stride ∧ (a.assignAll es).oversampling = a.oversampling := by
  induction es generalizing a with
  | nil => exact ⟨rfl, rfl⟩
  | cons e es ih =>
    cases e <;> first | exact he.elim | exact ih he _

theorem make_error {b : Args1D} {N : Nat} (hN : parseShape b.shape = .ok N)
    (h : applyOversampling b.oversampling b.stride b.T b.J N = .error .value) : b.make = .error .value := by
  unfold Args1D.make
  rw [hN]
  show (parseT b.T b.J N >>= _ : Py _) = _
  cases hp : parseT b.T b.J N with
  | error e =>
    have : e = .value := by
      unfold parseT at hp
      split at hp
      · cases hp
      · cases hp
      · split at hp
        · cases hp; rfl
        · split at hp
          · cases hp
          · split at hp
            · cases hp; rfl
            · cases hp
    rw [this]
    rfl
  | ok T =>
    show (build1D b.shape b.J b.T b.stride b.oversampling (minToPad N T.1) >>= _ : Py _) = _
    unfold build1D
    rw [hN]
    show ((applyOversampling b.oversampling b.stride b.T b.J N >>= _) >>= _ : Py _) = _
    rw [h]
    rfl

/-- With oversampling a second `build` takes the stride stored by the first one for a stride of the user, and refuses it:
`ValueError`, whether or not attributes have been assigned, unless the new averaging scale is twice the old one (in powers of
two). -/
theorem C125_oversampling_violated (a : Args1D) (s : Sc1D) (hs : a.make = .ok s) (o : Int) (h0 : 0 < o)
    (ho : a.oversampling = some (.int o)) (l : Int) (hl : log2T a.T a.J s.built.Ninput = .ok l) (es : List Assign1)
    (he : Spec.KeepsStride es) (N : Nat) (hN : parseShape ((a.attrs s).assignAll es).shape = .ok N)
    (hl' : log2T ((a.attrs s).assignAll es).T ((a.attrs s).assignAll es).J N ≠ .ok (l + 1)) :
    a.rebuild s es = .error .value := by
  refine make_error hN ?_
  obtain ⟨l', hl'', hst⟩ := stored_stride hs h0 ho
  rw [hl] at hl''
  cases hl''
  obtain ⟨h1, h2⟩ := assignAll_keeps es he (a.attrs s)
  rw [h1, h2]
  show applyOversampling a.oversampling s.built.stride _ _ N = _
  rw [ho, hst]
  unfold applyOversampling
  simp only
  rw [if_neg (by simp [PyNum.val]; omega), if_pos h0]
  cases hL : log2T ((a.attrs s).assignAll es).T ((a.attrs s).assignAll es).J N with
  | error e =>
    have : e = .value := by
      unfold log2T parseT at hL
      split at hL
      · cases hL
      · cases hL
      · split at hL
        · cases hL; rfl
        · split at hL
          · cases hL
          · split at hL
            · cases hL; rfl
            · cases hL
    rw [this]
    rfl
  | ok m =>
    show (if (pyTwoPow (l - o)).val = (pyTwoPow (m - o - 1)).val then _ else Except.error .value : Py (Option PyNum)) = _
    rw [if_neg]
    rw [pyTwoPow_val, pyTwoPow_val]
    intro h
    have := zpow_right_injective₀ (by norm_num : (0 : Rat) < 2) (by norm_num) h
    exact hl' (by rw [hL]; congr 1; omega)

/-- In particular calling `build` again on an object with oversampling raises a `ValueError`. -/
theorem C125_again_violated (a : Args1D) (s : Sc1D) (hs : a.make = .ok s) (o : Int) (h0 : 0 < o)
    (ho : a.oversampling = some (.int o)) : a.rebuild s [] = .error .value := by
  obtain ⟨l, hl, -⟩ := stored_stride hs h0 ho
  refine C125_oversampling_violated a s hs o h0 ho l hl [] trivial s.built.Ninput rfl ?_
  intro h
  have h : log2T a.T a.J s.built.Ninput = .ok (l + 1) := h
  rw [hl] at h
  have := Except.ok.inj h
  omega

theorem make_stride_congr {a : Args1D} {N : Nat} {st : Option PyNum} (hN : parseShape a.shape = .ok N)
    (h : applyOversampling a.oversampling st a.T a.J N = applyOversampling a.oversampling a.stride a.T a.J N) :
    ({ a with stride := st } : Args1D).make = a.make := by
  unfold Args1D.make build1D
  simp only [hN]
  show (parseT a.T a.J N >>= fun T => (applyOversampling a.oversampling st a.T a.J N >>= _) >>= _ : Py _) =
    (parseT a.T a.J N >>= fun T => (applyOversampling a.oversampling a.stride a.T a.J N >>= _) >>= _ : Py _)
  rw [h]

/-- The other case: the stored stride happens to be the one that goes with the new averaging scale, and if none was given the
new object is that of the constructor. -/
theorem C125_doubled (a : Args1D) (s : Sc1D) (hs : a.make = .ok s) (o : Int) (h0 : 0 < o)
    (ho : a.oversampling = some (.int o)) (hst : a.stride = none) (l : Int) (hl : log2T a.T a.J s.built.Ninput = .ok l)
    (es : List Assign1) (he : Spec.KeepsStride es) (N : Nat) (hN : parseShape ((a.attrs s).assignAll es).shape = .ok N)
    (hl' : log2T ((a.attrs s).assignAll es).T ((a.attrs s).assignAll es).J N = .ok (l + 1)) :
    a.rebuild s es = (a.assignAll es).make := by
  obtain ⟨l', hl'', hst'⟩ := stored_stride hs h0 ho
  rw [hl] at hl''
  cases hl''
  have e1 : a.Same { a.attrs s with stride := none } := by
    refine ⟨(make_stored hs).1.symm ▸ rfl, ?_⟩
    simp [Args1D.attrs, hst]
  have e2 : ∀ (es : List Assign1) (b : Args1D), Spec.KeepsStride es →
      ({ b with stride := none } : Args1D).assignAll es = { b.assignAll es with stride := none } := by
    intro es
    induction es with
    | nil => exact fun _ _ => rfl
    | cons e es ih =>
      intro b he
      cases e <;> first | exact he.elim | skip
      case J n => exact ih (b.assign (.J n)) he
      case shape n => exact ih (b.assign (.shape n)) he
      case Q n => exact ih (b.assign (.Q n)) he
      case T n => exact ih (b.assign (.T n)) he
      case maxOrder n => exact ih (b.assign (.maxOrder n)) he
      case outType n => exact ih (b.assign (.outType n)) he
  rw [← (e1.assignAll es).make, e2 es _ he]
  refine (make_stride_congr hN ?_).symm
  obtain ⟨h1, h2⟩ := assignAll_keeps es he (a.attrs s)
  rw [h1, h2]
  show applyOversampling a.oversampling none _ _ N = applyOversampling a.oversampling s.built.stride _ _ N
  rw [ho, hst']
  unfold applyOversampling
  simp only
  rw [if_neg (by simp [PyNum.val]; omega), if_pos h0, if_neg (by simp [PyNum.val]; omega), if_pos h0, hl']
  show Except.ok _ = (if (pyTwoPow (l - o)).val = (pyTwoPow (l + 1 - o - 1)).val then _ else Except.error .value : Py (Option PyNum))
  rw [if_pos (by congr 2; omega)]

/-! ## Joint time-frequency scattering -/

/-- Two sets of attributes that differ in how shape and `Q_fr` are written. -/
def JArgs.Same (a b : JArgs) : Prop :=
  parseShape b.shape = parseShape a.shape ∧ parseQfr b.Qfr = parseQfr a.Qfr ∧
    b = { a with shape := b.shape, Qfr := b.Qfr }

theorem JArgs.Same.assign {a b : JArgs} (h : a.Same b) (e : AssignJ) : (a.assign e).Same (b.assign e) := by
  obtain ⟨h1, h2, h3⟩ := h
  rw [h3]
  cases e <;> exact ⟨by first | exact h1 | rfl, by first | exact h2 | rfl, rfl⟩

theorem JArgs.Same.assignAll {a b : JArgs} (h : a.Same b) (es : List AssignJ) : (a.assignAll es).Same (b.assignAll es) := by
  induction es generalizing a b with
  | nil => exact h
  | cons e es ih => exact ih (h.assign e)

theorem JArgs.Same.make {a b : JArgs} (h : a.Same b) : b.make = a.make := by
  obtain ⟨h1, h2, h3⟩ := h
  have h4 : b.base.make = a.base.make := Args1D.Same.make ⟨h1, by rw [h3]; rfl⟩
  unfold JArgs.make
  rw [h4, h2, h3]

/-- **Time-frequency scattering.**  Assigning attributes and calling `build` and `create_filters` again gives the object that
the constructor makes of the new values, or the error it raises. -/
theorem C125_jtfs (a : JArgs) (s : ScJ) (hs : a.make = .ok s) (es : List AssignJ) :
    a.rebuild s es = (a.assignAll es).make ∧ ∀ x, a.rerun s es x = (a.assignAll es).run x := by
  obtain ⟨s0, hs0, h⟩ := bind_eq_ok.1 hs
  obtain ⟨Q, hQ, h⟩ := bind_eq_ok.1 h
  obtain ⟨q, hq, h⟩ := bind_eq_ok.1 h
  obtain ⟨F, hF, h⟩ := bind_eq_ok.1 h
  obtain ⟨f, hf, h⟩ := bind_eq_ok.1 h
  cases h
  have h1 := attrs_same hs0 (.inl rfl)
  have hb : a.attrs ⟨s0, f.1, f.2, nPaddedFr a.Jfr ((a.J + 1) * Q.1.toNat) F.1, F.2⟩ =
      .ok { a with shape := .tuple [s0.built.Ninput], stride := s0.built.stride, Qfr := .tuple [q] } := by
    unfold JArgs.attrs
    rw [hq]
    rfl
  have hst : s0.built.stride = a.stride := congrArg Args1D.stride h1.2
  have h : a.Same { a with shape := .tuple [s0.built.Ninput], stride := s0.built.stride, Qfr := .tuple [q] } :=
    ⟨h1.1, (parseQfr_params hq).trans hq.symm, by rw [hst]⟩
  have h := h.assignAll es
  constructor
  · unfold JArgs.rebuild
    rw [hb]
    exact h.make
  · intro x
    unfold JArgs.rerun
    rw [hb]
    show ((JArgs.assignAll _ es).make >>= _ : Py _) = _
    rw [h.make]
    unfold JArgs.run
    have e := h.2.2
    congr 1
    funext s'
    rw [e]
    rfl

/-! ## Concrete cases -/

/-- `S = Scattering1D(J=3, shape=1000, Q=8); S.J = 5; S._Q = 4; S.build(); S.create_filters()`. -/
example : ∃ s s', (exArgs .none .array).make = .ok s ∧ (exArgs .none .array).rebuild s [] = .ok s ∧
    (exArgs .none .array).rebuild s [.J 5, .Q (.int 4)] = .ok s' ∧
    ({ exArgs .none .array with J := 5, Q := .int 4 } : Args1D).make = .ok s' := by
  obtain ⟨s, hs, -⟩ := exArgs_run (T := .none) (av := .loc) .array (Or.inl ⟨rfl, rfl⟩) (Or.inr (Or.inr ⟨rfl, by simp⟩))
  obtain ⟨s', hs', -⟩ := C17_no_error ({ exArgs .none .array with J := 5, Q := .int 4 } : Args1D) 1000 rfl (by norm_num) (2 ^ 5)
    .loc rfl 4 1 rfl (by norm_num)
    (le_min ((Nat.lt_clog_iff_pow_lt (by norm_num)).2 (show 2 ^ 4 < _ by omega)) (Nat.le_log_of_pow_le (by norm_num) (by norm_num)))
    rfl (by norm_num [exArgs]) (Or.inl rfl) (Or.inr (Or.inr ⟨rfl, by simp⟩))
  exact ⟨s, s', hs, C125_idempotent_partial _ s hs (.inr rfl),
    ((C125_1d_partial _ s hs (.inr rfl) [.J 5, .Q (.int 4)]).1).trans hs', hs'⟩

/-- `S = Scattering1D(J=3, shape=1000, Q=8, oversampling=1)`: `S.build()` raises a `ValueError`; so does
`S.J = 5; S.build()`, but `S.J = 4; S.build(); S.create_filters()` does what it should. -/
example : ∃ s, ({ exArgs .none .list with oversampling := some (.int 1) } : Args1D).make = .ok s ∧
    ({ exArgs .none .list with oversampling := some (.int 1) } : Args1D).rebuild s [] = .error .value ∧
    ({ exArgs .none .list with oversampling := some (.int 1) } : Args1D).rebuild s [.J 5] = .error .value ∧
    ({ exArgs .none .list with oversampling := some (.int 1) } : Args1D).rebuild s [.J 4] =
      ({ exArgs .none .list with oversampling := some (.int 1), J := 4 } : Args1D).make := by
  obtain ⟨s, hs, hN, -⟩ := exArgs_run (T := .none) (av := .loc) .list (Or.inl ⟨rfl, rfl⟩) (Or.inl rfl)
  obtain ⟨t, lT, hsh, -⟩ := make_sizes hs
  have hl : ∀ J N, log2T .none J N = .ok (J : ℤ) := fun J N => congrArg Except.ok (floorLog2_twoPow J)
  have hm := make_congr (b := { exArgs .none .list with oversampling := some (.int 1) }) (st := some (.int 4)) hs rfl hsh rfl rfl
    (by
      unfold applyOversampling log2T
      show ((if (1 : Rat) < 0 then _ else if (0 : Int) < 1 then _ else _) : Py _) = _
      rw [if_neg (by norm_num), if_pos (by norm_num)]
      show Except.ok (some (pyTwoPow (floorLog2 (2 ^ 3) - 1))) = _
      rw [floorLog2_twoPow]
      rfl)
  refine ⟨_, hm, C125_again_violated _ _ hm 1 (by norm_num) rfl,
    C125_oversampling_violated _ _ hm 1 (by norm_num) rfl 3 (hl 3 _) [.J 5] trivial _ rfl ?_,
    C125_doubled _ _ hm 1 (by norm_num) rfl rfl 3 (hl 3 _) [.J 4] trivial _ rfl (hl 4 _)⟩
  show log2T .none 5 _ ≠ _
  rw [hl 5]
  intro h
  have := Except.ok.inj h
  norm_num at this

/-- `S = TimeFrequencyScattering(J=3, J_fr=2, Q=8, shape=1000); S.format = 'time'; S.build(); S.create_filters()`. -/
example (x : List ℝ) : ∃ s, (exJ .array .joint).make = .ok s ∧ (exJ .array .joint).rebuild s [] = .ok s ∧
    (exJ .array .joint).rerun s [.format .time] x = (exJ .array .time).run x := by
  obtain ⟨s, -, -, hs, -⟩ := exJ_run .array (by simp) .joint (by simp) (List.replicate 1000 0) List.length_replicate
  exact ⟨s, hs, (C125_jtfs _ s hs []).1.trans hs, (C125_jtfs _ s hs [.format .time]).2 x⟩

end Verif
