import Verif.Model.NegativeJfr
import Verif.Props.NegativeJ
import Verif.Props.FloatF

/-!
# C130: any integer as `J_fr`

For natural `J_fr` the constructor and the calls are those of `JArgs`.  For negative `J_fr` the constructor returns with
the default `F`, and no call does.
-/

namespace Verif

open FrontJ JTFS

/-! ## Natural `J_fr` -/

theorem nPaddedFrZ_nat (Jfr N : Nat) (F : Rat) : nPaddedFrZ Jfr N F = nPaddedFr Jfr N F := by
  unfold nPaddedFrZ nPaddedFr
  simp only [zpow_natCast, Int.toNat_natCast]

theorem createFiltersFrZ_nat (N Jfr Q : Nat) (F : Rat) : createFiltersFrZ N Jfr Q F = createFiltersFr N Jfr Q F := by
  have e : ∀ (Qs : List Nat) (T : Rat), filterFactory false N 0 Qs T (spin fun _ Q => andenZ Jfr Q) 5 0.1 =
      filterFactory false N Jfr Qs T (spin anden) 5 0.1 := by
    intro Qs T
    have hs : (spin fun _ Q => andenZ Jfr Q) 0 = spin anden Jfr := by
      funext Q
      unfold spin
      simp only [andenZ_nat]
    unfold filterFactory
    rw [hs]
  unfold createFiltersFrZ createFiltersFr
  rw [e, e, zpow_natCast]
  refine congrArg _ (funext fun r0 => congrArg _ (funext fun r1 => ?_))
  rcases r1.2 with _ | ⟨p, _ | ⟨q, l⟩⟩ <;> rfl

theorem makeJfr_nat (a : JArgs) : a.toZ.make = a.make := by
  unfold JArgsZ.make JArgs.make
  show (a.base.make >>= _) = (a.base.make >>= _)
  refine congrArg _ (funext fun s => ?_)
  show (parseQ a.Q >>= _) = (parseQ a.Q >>= _)
  refine congrArg _ (funext fun Q => ?_)
  show (parseQfr a.Qfr >>= _) = (parseQfr a.Qfr >>= _)
  refine congrArg _ (funext fun q => ?_)
  show (parseTZ a.F a.Jfr ((a.J + 1) * Q.1.toNat) >>= _) = (parseT a.F a.Jfr ((a.J + 1) * Q.1.toNat) >>= _)
  rw [parseTZ_nat]
  refine congrArg _ (funext fun F => ?_)
  show (createFiltersFrZ (nPaddedFrZ a.Jfr ((a.J + 1) * Q.1.toNat) F.1) a.Jfr q.toNat F.1 >>= _) =
    (createFiltersFr (nPaddedFr a.Jfr ((a.J + 1) * Q.1.toNat) F.1) a.Jfr q.toNat F.1 >>= _)
  rw [nPaddedFrZ_nat, createFiltersFrZ_nat]
  rfl

/-- **C130**, the part that holds: for natural `J_fr` nothing changes. -/
theorem C130_natural_partial (a : JArgs) (x : List ℝ) :
    a.toZ.make = a.make ∧ a.toZ.run x = a.run x ∧ a.toZ.runTorch x = a.runTorch x := by
  have ho : ∀ s Q1, a.toZ.obj s Q1 = a.obj s Q1 := fun s Q1 => by
    unfold JArgsZ.obj JArgs.obj
    rw [show log2StrideZ a.toZ.strideFr a.toZ.F a.toZ.Jfr ((a.toZ.J + 1) * Q1) =
      log2Stride a.strideFr a.F a.Jfr ((a.J + 1) * Q1) from log2StrideZ_nat _ _ _ _]
    rfl
  have hn : ¬ (a.toZ.Jfr < 0) := by show ¬ ((a.Jfr : ℤ) < 0); omega
  refine ⟨makeJfr_nat a, ?_, ?_⟩
  · unfold JArgsZ.run JArgs.run
    rw [makeJfr_nat]
    simp only [hn, ho]
    rfl
  · unfold JArgsZ.runTorch JArgs.runTorch
    rw [makeJfr_nat]
    simp only [hn, if_false, ho]
    rfl

/-! ## Negative `J_fr`: the constructor -/

/-- All frequential wavelets have scale 0. -/
theorem spinZ_scale {J : ℤ} (hJ : J < 0) {Q : Nat} (hQ : 1 ≤ Q) {p : ℝ × ℝ}
    (hp : p ∈ (spin fun _ Q => andenZ J Q) 0 Q) : |p.1| < 1 / 2 ∧ getMaxDyadicSubsampling p.1 p.2 5 = 0 := by
  rcases List.mem_append.1 hp with hp | hp
  · obtain ⟨-, h1, h2, h3⟩ := andenZ_scale hJ hQ hp
    exact ⟨by rwa [abs_of_pos h1], h3⟩
  · obtain ⟨p, hp', rfl⟩ := List.mem_map.1 hp
    obtain ⟨-, h1, h2, -⟩ := andenZ_scale hJ hQ hp'
    obtain ⟨-, h3, -⟩ := (C127_bank hJ hQ).2 p hp'
    have e : |(-p.1)| = p.1 := by rw [abs_neg, abs_of_pos h1]
    exact ⟨by rwa [e], (C26_max_dyadic_subsampling _ _ _ (by rw [e]; linarith)).2.2.2 (by rw [e]; linarith)⟩

/-- A low-pass filter of negative scale has one level. -/
theorem makeLevels_one {h : List ℝ} {b : ℤ} (hb : b ≤ 1) : makeLevels false h b = .ok [h] := by
  have e : (b - 1).toNat = 0 := by omega
  unfold makeLevels
  simp only [e, List.range'_zero, List.mapM_nil]
  rfl

theorem createFiltersFrZ_neg {J : ℤ} (hJ : J < 0) {Q : Nat} (hQ : 1 ≤ Q) (N : Nat) :
    ∃ r, createFiltersFrZ N J Q ((2 : Rat) ^ J) = .ok r := by
  set bank := (spin fun _ Q => andenZ J Q) 0 Q with hbank
  set psis := bank.map fun p : ℝ × ℝ => (⟨[morlet1d N (some p.1) p.2], p.1, p.2, 0⟩ : FiltX) with hpsis
  have hz : ∀ f ∈ psis, f.j = 0 := by
    intro f hf
    obtain ⟨p, -, rfl⟩ := List.mem_map.1 hf
    rfl
  have hl : floorLog2 ((2 : Rat) ^ J) = J := floorLog2_zpow J
  have h0 : ∃ phi, filterFactory false N 0 [] ((2 : Rat) ^ J) (spin fun _ Q => andenZ J Q) 5 0.1 = .ok (phi, []) := by
    unfold filterFactory
    exact ⟨_, bind_eq_ok.2 ⟨([], 0), rfl, bind_eq_ok.2 ⟨_, makeLevels_one (by rw [hl]; show max 0 (1 + J) ≤ 1; omega), rfl⟩⟩⟩
  have h1 : ∃ phi, filterFactory false N 0 [Q] ((2 : Rat) ^ J) (spin fun _ Q => andenZ J Q) 5 0.1 = .ok (phi, [psis]) := by
    unfold filterFactory
    refine ⟨_, bind_eq_ok.2 ⟨([psis], 0), ?_, bind_eq_ok.2 ⟨_, makeLevels_one
      (by rw [hl]; show max 0 (1 + J) ≤ 1; omega), rfl⟩⟩⟩
    simp only [List.map_cons, List.map_nil, makeLayers]
    refine bind_eq_ok.2 ⟨psis, mapM_eq_ok.2 ?_, bind_eq_ok.2 ⟨([], 0), by rw [foldl_max_zero hz], rfl⟩⟩
    rw [hpsis, List.forall₂_map_right_iff, List.forall₂_same]
    exact fun p hp => makePsi_neg (spinZ_scale hJ hQ hp).2 _
  obtain ⟨phi0, h0⟩ := h0
  obtain ⟨phi1, h1⟩ := h1
  refine ⟨(phi0, phi1 :: psis), ?_⟩
  unfold createFiltersFrZ
  refine bind_eq_ok.2 ⟨_, h0, bind_eq_ok.2 ⟨_, h1, ?_⟩⟩
  show (if ∀ p ∈ psis, |p.xi| < 0.5 / (2 : ℝ) ^ p.j then _ else _) = _
  rw [if_pos]
  intro f hf
  rw [hz f hf]
  obtain ⟨p, hp, rfl⟩ := List.mem_map.1 hf
  have := (spinZ_scale hJ hQ hp).1
  norm_num
  linarith

/-- The constructor returns for every negative `J_fr` unless `F` is a positive number, if it does for `J_fr=0`. -/
theorem C130_construction (a : JArgsZ) (hJ : a.Jfr < 0) (hF : a.F = .none ∨ a.F = .global ∨ a.F = .num 0)
    (s0 : ScJ) (h0 : (a.withJfr 0).make = .ok s0) : ∃ s, a.make = .ok s := by
  obtain ⟨⟨Q1, Q2⟩, q, F, hb, hQ, hq, -⟩ := JArgs.make_eq_ok h0
  have hq1 := parseQfr_pos hq
  obtain ⟨av, hT⟩ : ∃ av, parseTZ a.F a.Jfr ((a.J + 1) * Q1.toNat) = .ok ((2 : Rat) ^ a.Jfr, av) := by
    rcases hF with h | h | h <;> rw [h]
    · exact ⟨_, rfl⟩
    · exact ⟨_, rfl⟩
    · refine ⟨.no, ?_⟩
      unfold parseTZ
      dsimp only
      rw [if_neg (by push Not; positivity), if_pos rfl]
  obtain ⟨r, hr⟩ := createFiltersFrZ_neg hJ (Q := q.toNat) (by omega)
    (nPaddedFrZ a.Jfr ((a.J + 1) * Q1.toNat) ((2 : Rat) ^ a.Jfr))
  exact ⟨_, bind_eq_ok.2 ⟨_, hb, bind_eq_ok.2 ⟨_, hQ, bind_eq_ok.2 ⟨_, hq, bind_eq_ok.2 ⟨_, hT,
    bind_eq_ok.2 ⟨r, hr, rfl⟩⟩⟩⟩⟩⟩

/-! ## Negative `J_fr`: the calls -/

/-- The frequency axis is padded right after the transform over time. -/
theorem joint_floatPad_width {B : JBackend} {U0 : B.R} {phi : Filt B.F} {psi1 psi2 : List (Filt B.F)} {ls : Nat} {avg : Bool}
    {phiFr : PhiFr B.F} {psisFr : List (FiltFr B.F)} {lsFr : Nat} {avgFr : Bool} {t : B.R × TPath B.RS × List (TPath B.CS)}
    (hw : widthFirst B U0 phi psi1 psi2 ls avg = .ok t) {XT : B.RS} (hs : B.swapR t.2.1.coef = .ok XT) :
    joint B.floatPad U0 phi psi1 psi2 ls avg phiFr psisFr lsFr avgFr = .error .type := by
  have hw' : widthFirst B.floatPad U0 phi psi1 psi2 ls avg = .ok t := hw
  have hy : frequencyReal B.floatPad phiFr psisFr lsFr avgFr t.2.1 = .error .type := by
    show (B.swapR t.2.1.coef >>= _) = _
    rw [hs]
    rfl
  unfold joint
  rw [hw']
  show (frequencyReal B.floatPad phiFr psisFr lsFr avgFr t.2.1 >>= _) = _
  rw [hy]
  rfl

/-- `average_fr` does not depend on `J_fr`. -/
theorem parseTZ_average {T : PyT} {J K : ℤ} {N : Nat} {p q : Rat × Average} (h : parseTZ T J N = .ok p)
    (h' : parseTZ T K N = .ok q) : p.2 = q.2 := by
  cases T with
  | none => rw [← Except.ok.inj h, ← Except.ok.inj h']
  | global => rw [← Except.ok.inj h, ← Except.ok.inj h']
  | num t =>
    unfold parseTZ at h h'
    dsimp only at h h'
    split at h
    · cases h
    · rename_i h1
      rw [if_neg h1] at h'
      split at h
      · rename_i h2
        rw [if_pos h2] at h'
        rw [← Except.ok.inj h, ← Except.ok.inj h']
      · rename_i h2
        rw [if_neg h2] at h'
        split at h
        · cases h
        · rename_i h3
          rw [if_neg h3] at h'
          rw [← Except.ok.inj h, ← Except.ok.inj h']

/-- Whether `log2_stride_fr` raises does not depend on `J_fr`. -/
theorem log2StrideZ_ok {st : Option PyNum} {T : PyT} {J K : ℤ} {N : Nat} {p q : Rat × Average} (h : parseTZ T J N = .ok p)
    (h' : parseTZ T K N = .ok q) {ls : ℤ} (hl : log2StrideZ st T J N = .ok ls) : ∃ ls', log2StrideZ st T K N = .ok ls' := by
  have e := parseTZ_average h h'
  rcases st with _ | n | r
  · exact ⟨_, bind_eq_ok.2 ⟨q, h', rfl⟩⟩
  · unfold log2StrideZ at hl ⊢
    rw [h] at hl
    rw [h']
    dsimp only at hl ⊢
    by_cases k1 : n ≤ 0
    · rw [if_pos k1] at hl; cases hl
    · rw [if_neg k1] at hl ⊢
      by_cases k2 : (!isPow2 n.toNat) = true
      · rw [if_pos k2] at hl; cases hl
      · rw [if_neg k2] at hl ⊢
        change (if p.2 = .no ∨ p.2 = .glob then _ else _) = _ at hl
        rw [e] at hl
        exact ⟨ls, hl⟩
  · cases hl

/-- **C130 is violated**: for negative `J_fr` no call of a constructed object returns, with numpy and with torch; and a
call that would return with `J_fr=0` raises `TypeError` with numpy. -/
theorem C130_violated (a : JArgsZ) (hJ : a.Jfr < 0) (s : ScJ) (hmake : a.make = .ok s) (x : List ℝ) :
    (∀ r, a.run x ≠ .ok r) ∧ (∀ r, a.runTorch x ≠ .ok r) ∧
      ∀ r, (a.withJfr 0).run x = .ok r → a.run x = .error .type := by
  obtain ⟨b, hb, h⟩ := bind_eq_ok.1 hmake
  obtain ⟨⟨Q1, Q2⟩, hQ, h⟩ := bind_eq_ok.1 h
  obtain ⟨q, hq, h⟩ := bind_eq_ok.1 h
  obtain ⟨F, hF, h⟩ := bind_eq_ok.1 h
  obtain ⟨f, hf, h⟩ := bind_eq_ok.1 h
  obtain rfl := (Except.ok.inj h).symm
  set s : ScJ := ⟨b, f.1, f.2, nPaddedFrZ a.Jfr ((a.J + 1) * Q1.toNat) F.1, F.2⟩ with hs
  have e1 : a.run x = unassembled npJ.floatPad npFrontJ (a.obj s Q1.toNat) x >>= assemble npFrontJ (a.obj s Q1.toNat) := by
    unfold JArgsZ.run
    rw [hmake]
    show (parseQ a.Q >>= _) = _
    rw [hQ]
    simp only [hJ]
    exact scattering_eq _ _ _ _
  refine ⟨fun r hr => ?_, fun r hr => ?_, fun r hr => ?_⟩
  · rw [e1] at hr
    obtain ⟨P, hP, -⟩ := bind_eq_ok.1 hr
    exact unassembled_floatPad_ne P hP
  · unfold JArgsZ.runTorch at hr
    rw [hmake] at hr
    obtain ⟨_, -, hr⟩ := bind_eq_ok.1 (show (parseQ a.Q >>= _) = _ from hr)
    simp only [hJ, if_true] at hr
    obtain ⟨P, hP, -⟩ := bind_eq_ok.1 hr
    exact unassembled_floatPad_ne P hP
  · obtain ⟨s0, hs0, hr⟩ := bind_eq_ok.1 hr
    obtain ⟨Q, hQ', hr⟩ := bind_eq_ok.1 hr
    obtain rfl := Except.ok.inj ((show parseQ a.Q = .ok Q from hQ').symm.trans hQ)
    obtain ⟨hc, P, ⟨U, ls, lsFr, S, h1, h2, h3, h4, -⟩, -⟩ := scattering_eq_ok hr
    obtain ⟨Q', q', F0, hb0, hQ0, -, hF0, hav0, -⟩ := JArgs.make_eq_ok hs0
    obtain rfl := Except.ok.inj ((show parseQ a.Q = .ok Q' from hQ0).symm.trans hQ)
    have eb : s0.base = b := Except.ok.inj ((show a.base.make = .ok s0.base from hb0).symm.trans hb)
    have hF0' : parseTZ a.F (0 : ℕ) ((a.J + 1) * Q1.toNat) = .ok F0 := by rw [parseTZ_nat]; exact hF0
    have eav : s0.averageFr = F.2 := hav0.trans (parseTZ_average hF0' hF)
    have hc' : checkRuntimeArgs (a.obj s Q1.toNat) = .ok () := by
      have h : checkRuntimeArgs ((a.withJfr 0).obj s0 Q1.toNat) = .ok () := hc
      unfold checkRuntimeArgs JArgs.obj at h
      unfold checkRuntimeArgs JArgsZ.obj
      rw [eb, eav] at h
      exact h
    obtain ⟨lz, hlz⟩ : ∃ lz, log2StrideZ a.strideFr a.F a.Jfr ((a.J + 1) * Q1.toNat) = .ok lz := by
      have h : log2Stride a.strideFr a.F 0 ((a.J + 1) * Q1.toNat) = .ok lsFr := h3
      rw [← log2StrideZ_nat] at h
      exact log2StrideZ_ok hF0' hF h
    obtain ⟨g, hg, -⟩ := bind_eq_ok.1 h4
    obtain ⟨t, y1, y2, hw, hy1, -, -⟩ := joint_eq_ok npJ hg
    obtain ⟨XT, Xp, Xhat, hsw, -, -, -⟩ := frequencyReal_eq_ok npJ hy1
    have hw' : widthFirst npJ U (a.obj s Q1.toNat).phi (a.obj s Q1.toNat).psi1 (a.obj s Q1.toNat).psi2 ls.toNat
        (decide ((a.obj s Q1.toNat).average = .loc)) = .ok t := by
      have h : widthFirst npJ U ((a.withJfr 0).obj s0 Q1.toNat).phi ((a.withJfr 0).obj s0 Q1.toNat).psi1
        ((a.withJfr 0).obj s0 Q1.toNat).psi2 ls.toNat (decide (((a.withJfr 0).obj s0 Q1.toNat).average = .loc)) = .ok t := hw
      unfold JArgs.obj at h
      rw [eb] at h
      exact h
    have h1' : npPad x b.built.padLeft b.built.padRight = .ok U := by rw [← eb]; exact h1
    have h2' : log2Stride b.built.stride a.T a.J b.built.Ninput = .ok ls := by rw [← eb]; exact h2
    rw [e1]
    unfold unassembled
    show ((@checkRuntimeArgs (List ℝ) (a.obj s Q1.toNat) >>= _) >>= _) = _
    rw [hc']
    show ((npPad x b.built.padLeft b.built.padRight >>= _) >>= _) = _
    rw [h1']
    show ((log2Stride b.built.stride a.T a.J b.built.Ninput >>= _) >>= _) = _
    rw [h2']
    show ((log2StrideZ a.strideFr a.F a.Jfr ((a.J + 1) * Q1.toNat) >>= _) >>= _) = _
    rw [hlz]
    show (((joint npJ.floatPad U (a.obj s Q1.toNat).phi (a.obj s Q1.toNat).psi1 (a.obj s Q1.toNat).psi2 ls.toNat
      (decide ((a.obj s Q1.toNat).average = .loc)) (a.obj s Q1.toNat).phiFr (a.obj s Q1.toNat).psisFr lz.toNat
      (decide ((a.obj s Q1.toNat).averageFr = .loc)) >>= _) >>= _) >>= _) = _
    rw [joint_floatPad_width hw' hsw]
    rfl

/-- `TimeFrequencyScattering(J=3, J_fr=-2, Q=8, shape=1000)` is constructed; every call on 1000 samples raises
`TypeError`. -/
example (x : List ℝ) (hx : x.length = 1000) (o : OutType) (ho : o ≠ .other) (f : Format) (hf : f ≠ .other) :
    ∃ s, (⟨3, -2, .int 8, .int (1000 : ℕ), .none, none, .int 1, .none, none, o, f⟩ : JArgsZ).make = .ok s ∧
      (⟨3, -2, .int 8, .int (1000 : ℕ), .none, none, .int 1, .none, none, o, f⟩ : JArgsZ).run x = .error .type := by
  set a : JArgsZ := ⟨3, -2, .int 8, .int (1000 : ℕ), .none, none, .int 1, .none, none, o, f⟩ with ha
  obtain ⟨r, hr⟩ := C76_defaults 3 0 1000 8 1 (by norm_num) (by norm_num) (by norm_num) o ho f hf x hx
  have hr' : (a.withJfr 0).run x = .ok r := hr
  obtain ⟨s0, h0, -⟩ := bind_eq_ok.1 hr'
  have hJ : a.Jfr < 0 := by norm_num [ha]
  obtain ⟨s, hs⟩ := C130_construction a hJ (Or.inl rfl) s0 h0
  exact ⟨s, hs, (C130_violated a hJ s hs x).2.2 r hr'⟩

end Verif
