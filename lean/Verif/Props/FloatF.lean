import Verif.Model.FloatF
import Verif.Props.InstancesJTFS

/-!
# C119: a float `F`

`parse_T` (utils.py L71-108), which parses both, documents `T` and `F` as "None, string, integer 0, or float >= 1".
`T` may be a float.  A float `F` is accepted by the constructor, and every call then raises `TypeError`, unless `F` is
0 or larger than `2**J_fr`.
-/

namespace Verif

open FrontJ JTFS

/-- With a float width, `joint_timefrequency_scattering` raises `TypeError` where it would return. -/
theorem joint_floatPad {B : JBackend} {U0 : B.R} {phi : Filt B.F} {psi1 psi2 : List (Filt B.F)} {ls : Nat} {avg : Bool}
    {phiFr : PhiFr B.F} {psisFr : List (FiltFr B.F)} {lsFr : Nat} {avgFr : Bool} {g : B.R × List (FPath B.CS)}
    (h : joint B U0 phi psi1 psi2 ls avg phiFr psisFr lsFr avgFr = .ok g) :
    joint B.floatPad U0 phi psi1 psi2 ls avg phiFr psisFr lsFr avgFr = .error .type := by
  obtain ⟨t, y1, y2, hw, hy1, -, -⟩ := joint_eq_ok B h
  obtain ⟨XT, Xp, Xhat, hsw, -, -, -⟩ := frequencyReal_eq_ok B hy1
  have hw' : widthFirst B.floatPad U0 phi psi1 psi2 ls avg = .ok t := hw
  have hy : frequencyReal B.floatPad phiFr psisFr lsFr avgFr t.2.1 = .error .type := by
    show (B.swapR t.2.1.coef >>= _) = _
    rw [hsw]
    rfl
  unfold joint
  rw [hw']
  show (frequencyReal B.floatPad phiFr psisFr lsFr avgFr t.2.1 >>= _) = _
  rw [hy]
  rfl

/-- With a float width it never returns. -/
theorem joint_floatPad_ne {B : JBackend} {U0 : B.R} {phi : Filt B.F} {psi1 psi2 : List (Filt B.F)} {ls : Nat} {avg : Bool}
    {phiFr : PhiFr B.F} {psisFr : List (FiltFr B.F)} {lsFr : Nat} {avgFr : Bool} (g : B.R × List (FPath B.CS)) :
    joint B.floatPad U0 phi psi1 psi2 ls avg phiFr psisFr lsFr avgFr ≠ .ok g := by
  intro h
  obtain ⟨t, y1, y2, -, hy1, -, -⟩ := joint_eq_ok B.floatPad h
  obtain ⟨XT, Xp, Xhat, -, hp, -, -⟩ := frequencyReal_eq_ok B.floatPad hy1
  cases hp

theorem unassembled_floatPad {B : JBackend} {ops : JFrontOps B.R B.RS} {o : JObj B.F} {x : B.R}
    {P : List (JPath B.R B.RS)} (h : unassembled B ops o x = .ok P) :
    unassembled B.floatPad ops o x = .error .type := by
  unfold unassembled at h
  obtain ⟨u, hc, h⟩ := bind_eq_ok.1 h
  obtain ⟨U0, hU, h⟩ := bind_eq_ok.1 h
  obtain ⟨ls, hls, h⟩ := bind_eq_ok.1 h
  obtain ⟨lsFr, hlf, h⟩ := bind_eq_ok.1 h
  obtain ⟨S, hS, -⟩ := bind_eq_ok.1 h
  obtain ⟨g, hg, -⟩ := bind_eq_ok.1 hS
  have hj := joint_floatPad hg
  unfold unassembled
  show (@checkRuntimeArgs B.F o >>= _) = _
  rw [hc]
  show (ops.pad x o.padLeft o.padRight >>= _) = _
  rw [hU]
  show (o.log2Stride >>= _) = _
  rw [hls]
  show (o.log2StrideFr >>= _) = _
  rw [hlf]
  show ((joint B.floatPad U0 o.phi o.psi1 o.psi2 ls.toNat (decide (o.average = .loc)) o.phiFr o.psisFr lsFr.toNat
    (decide (o.averageFr = .loc)) >>= _) >>= _) = _
  rw [hj]
  rfl

theorem unassembled_floatPad_ne {B : JBackend} {ops : JFrontOps B.R B.RS} {o : JObj B.F} {x : B.R}
    (P : List (JPath B.R B.RS)) : unassembled B.floatPad ops o x ≠ .ok P := by
  intro h
  unfold unassembled at h
  obtain ⟨u, -, h⟩ := bind_eq_ok.1 h
  obtain ⟨U0, -, h⟩ := bind_eq_ok.1 h
  obtain ⟨ls, -, h⟩ := bind_eq_ok.1 h
  obtain ⟨lsFr, -, h⟩ := bind_eq_ok.1 h
  obtain ⟨S, hS, -⟩ := bind_eq_ok.1 h
  obtain ⟨g, hg, -⟩ := bind_eq_ok.1 hS
  exact joint_floatPad_ne g hg

/-- The number `F` makes the padded width a float exactly when it is a float between 1 and `2**J_fr` (the constructor
has checked that it is 0 or at least 1). -/
theorem floatWidth_iff {a : JArgs} {s : ScJ} (hmake : a.make = .ok s) (ty : NumType) :
    a.floatWidth ty = true ↔ ty = .float ∧ ∃ t : Rat, a.F = .num t ∧ 1 ≤ t ∧ t ≤ 2 ^ a.Jfr := by
  obtain ⟨Q, q, F, -, -, -, hF, -⟩ := JArgs.make_eq_ok hmake
  unfold JArgs.floatWidth
  cases ty with
  | int => simp
  | float =>
    cases hF' : a.F with
    | none => simp
    | global => simp
    | num t =>
      rw [hF'] at hF
      unfold parseT at hF
      simp only [decide_eq_true_eq, true_and, PyT.num.injEq, exists_eq_left']
      constructor
      · rintro ⟨h0, h1⟩
        refine ⟨?_, h1⟩
        by_contra hlt
        push Not at hlt
        dsimp only at hF
        split at hF
        · cases hF
        · cases hF
      · rintro ⟨h0, h1⟩
        exact ⟨by intro h; rw [h] at h0; norm_num at h0, h1⟩

/-- **C119**, the part that holds: an integer `F`, and every `F` other than a float between 1 and `2**J_fr`, gives
what the number gives. -/
theorem C119_number_partial {a : JArgs} {s : ScJ} (hmake : a.make = .ok s) (ty : NumType)
    (hF : ¬ (ty = .float ∧ ∃ t : Rat, a.F = .num t ∧ 1 ≤ t ∧ t ≤ 2 ^ a.Jfr)) (x : List ℝ) :
    a.runTyped ty x = a.run x ∧ a.runTypedTorch ty x = a.runTorch x := by
  have hw : a.floatWidth ty = false := by
    rw [← Bool.not_eq_true, floatWidth_iff hmake]
    exact hF
  unfold JArgs.runTyped JArgs.runTypedTorch
  simp only [hw, Bool.false_eq_true, if_false]
  exact ⟨rfl, rfl⟩

/-- **C119 is violated**: after a float `F` between 1 and `2**J_fr` the constructor returns and no call does; a call
that would return with an integer raises `TypeError`.  Both backends. -/
theorem C119_float_violated {a : JArgs} {s : ScJ} (hmake : a.make = .ok s) {t : Rat} (hF : a.F = .num t) (h1 : 1 ≤ t)
    (h2 : t ≤ 2 ^ a.Jfr) (x : List ℝ) :
    (∀ r, a.runTyped .float x ≠ .ok r) ∧ (∀ r, a.runTypedTorch .float x ≠ .ok r) ∧
      (∀ r, a.run x = .ok r → a.runTyped .float x = .error .type) ∧
      (∀ r, a.runTorch x = .ok r → a.runTypedTorch .float x = .error .type) := by
  obtain ⟨⟨Q1, Q2⟩, _, _, -, hQ, -⟩ := JArgs.make_eq_ok hmake
  have hw : a.floatWidth .float = true := (floatWidth_iff hmake _).2 ⟨rfl, t, hF, h1, h2⟩
  have e1 : a.runTyped .float x =
      unassembled npJ.floatPad npFrontJ (a.obj s Q1.toNat) x >>= assemble npFrontJ (a.obj s Q1.toNat) := by
    unfold JArgs.runTyped
    rw [hmake]
    show (parseQ a.Q >>= _) = _
    rw [hQ]
    simp only [hw]
    exact scattering_eq _ _ _ _
  have e2 : a.runTypedTorch .float x = unassembled torchJ.floatPad torchFrontJ (a.obj s Q1.toNat) x >>= fun S =>
      S.mapM (torchReshape (a.obj s Q1.toNat)) >>= assemble torchFrontJ (a.obj s Q1.toNat) := by
    unfold JArgs.runTypedTorch
    rw [hmake]
    show (parseQ a.Q >>= _) = _
    rw [hQ]
    simp only [hw, if_true]
    rfl
  refine ⟨fun r h => ?_, fun r h => ?_, fun r h => ?_, fun r h => ?_⟩
  · rw [e1] at h
    obtain ⟨P, hP, -⟩ := bind_eq_ok.1 h
    exact unassembled_floatPad_ne P hP
  · rw [e2] at h
    obtain ⟨P, hP, -⟩ := bind_eq_ok.1 h
    exact unassembled_floatPad_ne P hP
  · obtain ⟨P, hP, -⟩ := (run_eq_unassembled hmake hQ).1 h
    rw [e1, unassembled_floatPad hP]
    rfl
  · unfold JArgs.runTorch at h
    rw [hmake] at h
    obtain ⟨_, rfl, h⟩ : ∃ Q, Q = (Q1, Q2) ∧ _ := by
      obtain ⟨s', hs', h⟩ := bind_eq_ok.1 h
      obtain rfl := Except.ok.inj hs'
      obtain ⟨Q, hQ', h⟩ := bind_eq_ok.1 h
      rw [hQ] at hQ'
      exact ⟨Q, (Except.ok.inj hQ').symm, h⟩
    obtain ⟨P, hP, -⟩ := bind_eq_ok.1 h
    rw [e2, unassembled_floatPad hP]
    rfl

/-- `TimeFrequencyScattering(J=3, J_fr=2, Q=8, shape=1000, F=4)`: an integer and a float. -/
example (x : List ℝ) (hx : x.length = 1000) : ∃ (s : ScJ) (r : JOut (List ℝ) (Img ℝ)),
    ({ exJ .list .time with F := .num 4 } : JArgs).make = .ok s ∧
    ({ exJ .list .time with F := .num 4 } : JArgs).runTyped .int x = .ok r ∧
    ({ exJ .list .time with F := .num 4 } : JArgs).runTyped .float x = .error .type := by
  obtain ⟨s, hs, -, -, -, hr⟩ := C76_no_error { exJ .list .time with F := .num 4 } 1000 rfl (by norm_num)
    (2 ^ 3) .loc rfl 8 1 rfl (by norm_num) (le_jPad_of_pow (by norm_num) (show 2 ^ 3 ≤ 1000 by norm_num)) 3
    ((C07_log2_stride_ok _ _ _ _ _).2 (Or.inl ⟨rfl, by
      show (Except.ok (floorLog2 ((2 : Rat) ^ 3)) : Py ℤ) = _
      rw [floorLog2_twoPow]⟩)) le_rfl (fun _ => by norm_num [exJ]) 1 rfl 4 .loc
    (by norm_num [parseT, exJ]) (by norm_num [exJ]) (by norm_num [exJ]) rfl (Or.inl rfl) (Or.inl rfl)
  obtain ⟨r, hr⟩ := hr x hx
  refine ⟨s, r, hs, ?_, ?_⟩
  · rw [(C119_number_partial hs .int (by rintro ⟨h, -⟩; cases h) x).1]
    exact hr
  · exact (C119_float_violated hs rfl (by norm_num) (by norm_num [exJ]) x).2.2.1 r hr

end Verif
