import Verif.Lemmas.TorchJTFS
import Verif.Props.StrideJTFS

/-!
# C80: joint time-frequency scattering with torch and with numpy
-/

namespace Verif

open JTFS FrontJ

theorem averageFreq_glob_w {phiFr : PhiFr (List ℝ)} {lsFr : Nat} {av : Average} {p : FPath (Img ℂ)} {U : Img ℝ}
    {S : Img ℝ × Nat} (h : averageFreq npJ phiFr lsFr av p U = .ok S) : S.1.w = U.w := by
  unfold averageFreq at h
  split at h
  · unfold frequencyAveraging at h
    obtain ⟨UT, hUT, h⟩ := bind_eq_ok.1 h
    injection hUT with hUT
    have hh : UT.h = U.w := by rw [← hUT]; rfl
    split at h
    · obtain ⟨A, hA, h⟩ := bind_eq_ok.1 h
      obtain ⟨A', hA', h⟩ := bind_eq_ok.1 h
      injection hA with hA
      injection hA' with hA'
      injection h with h
      rw [← h, ← hA', ← hA, ← hh]
      rfl
    · obtain ⟨H, hH, h⟩ := bind_eq_ok.1 h
      obtain ⟨f, -, h⟩ := bind_eq_ok.1 h
      obtain ⟨c, hc, h⟩ := bind_eq_ok.1 h
      obtain ⟨s, hs, h⟩ := bind_eq_ok.1 h
      obtain ⟨A, hA, h⟩ := bind_eq_ok.1 h
      obtain ⟨A', hA', h⟩ := bind_eq_ok.1 h
      injection hH with hH
      injection hA with hA
      injection hA' with hA'
      injection h with h
      have h1 : c.h = H.h := (row_cdgmm hc).2.1
      have h2 : s.h = c.h := by
        have hs : rowSubsample c _ = .ok s := hs
        unfold rowSubsample at hs
        split at hs
        · cases hs
        · split at hs
          · cases hs
          · injection hs with hs
            rw [← hs]
            rfl
      rw [← h, ← hA', ← hA]
      show s.h = U.w
      rw [h2, h1, ← hH, ← hh]
      rfl
  · injection h with h
    rw [← h]

/-- With global averaging along time every coefficient has one time sample. -/
theorem glob_one_sample {o : JObj (List ℝ)} {x : List ℝ} {P : List (JPath (List ℝ) (Img ℝ))}
    (h : unassembled npJ npFrontJ o x = .ok P) (hg : o.average = .glob) {p : JPath (List ℝ) (Img ℝ)} (hp : p ∈ P) :
    (∀ r, p.coef = .sig r → r.length = 1) ∧ (∀ X, p.coef = .stk X → X.w = 1 ∧ o.fmt = .joint) := by
  unfold unassembled at h
  obtain ⟨-, -, h⟩ := bind_eq_ok.1 h
  obtain ⟨U0, -, h⟩ := bind_eq_ok.1 h
  obtain ⟨ls, -, h⟩ := bind_eq_ok.1 h
  obtain ⟨lsFr, -, h⟩ := bind_eq_ok.1 h
  obtain ⟨S, hS, h⟩ := bind_eq_ok.1 h
  obtain ⟨p0, hp0, hpp⟩ := forall₂_mem_right (mapM_eq_ok.1 h) hp
  unfold post at hpp
  rw [if_pos hg] at hpp
  injection hpp with hpp
  subst hpp
  unfold paths at hS
  obtain ⟨g, -, hS⟩ := bind_eq_ok.1 hS
  rw [hg] at hS
  obtain ⟨z, l, hz, hl, rfl⟩ := averageAndFormat_eq_ok npJ hS
  rcases List.mem_cons.1 hp0 with rfl | hp0
  · refine ⟨fun r hr => ?_, fun X hX => by cases hX⟩
    injection hr with hr
    subst hr
    unfold averageZeroth at hz
    rw [if_pos rfl] at hz
    injection hz with hz
    rw [← hz]
    rfl
  obtain ⟨l0, hl0, hpl⟩ := List.mem_flatten.1 hp0
  obtain ⟨q, -, hq⟩ := forall₂_mem_right (mapM_eq_ok.1 hl) hl0
  obtain ⟨U, U', A, A', -, h2, h3, -, h5, h6⟩ := averageBody_eq_ok npJ hq
  have hU : U'.w = 1 := by
    unfold averageTime at h2
    rw [if_pos rfl] at h2
    injection h2 with h2
    rw [← h2]
    rfl
  have hA : A'.w = 1 := by
    rw [← hU, ← averageFreq_glob_w h3]
    unfold unpadFr at h5
    split at h5
    · have h5 : unpadFrequencyImg A.1 q.n1Max A.2 = .ok A' := h5
      unfold unpadFrequencyImg at h5
      split at h5
      · cases h5
      · injection h5 with h5
        rw [← h5]
        rfl
    · injection h5 with h5
      rw [h5]
  unfold formatPath at h6
  cases hf : o.fmt with
  | joint =>
    rw [hf] at h6
    injection h6 with h6
    subst h6
    rw [List.mem_singleton] at hpl
    subst hpl
    refine ⟨(fun r hr => nomatch hr), fun X hX => ?_⟩
    injection hX with hX
    exact ⟨hX ▸ hA, rfl⟩
  | time =>
    rw [hf] at h6
    obtain ⟨m, hm, hfl⟩ := timeFormatting_eq_ok npJ h6
    obtain ⟨y, -, c, hc, rfl⟩ := forall₂_mem_right hfl hpl
    refine ⟨fun r hr => ?_, fun X hX => by cases hX⟩
    injection hr with hr
    subst hr
    injection hm with hm
    have hmem : c ∈ splitImg A' := by
      rw [hm]
      exact List.mem_of_getElem? hc
    unfold splitImg tab at hmem
    obtain ⟨i, -, hi⟩ := List.mem_map.1 hmem
    rw [← hi]
    simp [hA]
  | other =>
    rw [hf] at h6
    injection h6 with h6
    subst h6
    cases hpl

theorem runTorch_eq_ok {a : JArgs} {s : ScJ} (hmake : a.make = .ok s) {Q1 Q2 : Int}
    (hQ : parseQ a.Q = .ok (Q1, Q2)) (hroom : s.base.psi1.length ≤ s.nFr) {x : List ℝ}
    {w : JOut (List ℝ) (Img ℝ)} :
    a.runTorch x = .ok w ↔ ∃ P P', unassembled npJ npFrontJ (a.obj s Q1.toNat) x = .ok P ∧
      P.mapM (torchReshape (a.obj s Q1.toNat)) = .ok P' ∧ assemble npFrontJ (a.obj s Q1.toNat) P' = .ok w := by
  have hroom' : (a.obj s Q1.toNat).psi1.length ≤ (a.obj s Q1.toNat).phiFr.N := by
    show (s.base.psi1.map FiltX.toFilt).length ≤ s.nFr
    rw [List.length_map]
    exact hroom
  constructor
  · intro h
    obtain ⟨s', hs', h⟩ := bind_eq_ok.1 h
    rw [hmake] at hs'
    cases hs'
    obtain ⟨Q', hQ', h⟩ := bind_eq_ok.1 h
    rw [hQ] at hQ'
    cases hQ'
    obtain ⟨P, hP, h⟩ := bind_eq_ok.1 h
    obtain ⟨P', hP', h⟩ := bind_eq_ok.1 h
    exact ⟨P, P', (unassembled_torch hroom' x P).1 hP, hP', h⟩
  · rintro ⟨P, P', h1, h2, h3⟩
    exact bind_eq_ok.2 ⟨s, hmake, bind_eq_ok.2 ⟨_, hQ, bind_eq_ok.2 ⟨P, (unassembled_torch hroom' x P).2 h1,
      bind_eq_ok.2 ⟨P', h2, h3⟩⟩⟩⟩

theorem run_eq_unassembled {a : JArgs} {s : ScJ} (hmake : a.make = .ok s) {Q1 Q2 : Int}
    (hQ : parseQ a.Q = .ok (Q1, Q2)) {x : List ℝ} {w : JOut (List ℝ) (Img ℝ)} :
    a.run x = .ok w ↔ ∃ P, unassembled npJ npFrontJ (a.obj s Q1.toNat) x = .ok P ∧
      assemble npFrontJ (a.obj s Q1.toNat) P = .ok w := by
  have : a.run x = unassembled npJ npFrontJ (a.obj s Q1.toNat) x >>= assemble npFrontJ (a.obj s Q1.toNat) := by
    unfold JArgs.run
    rw [hmake]
    show (parseQ a.Q >>= _) = _
    rw [hQ]
    exact scattering_eq _ _ _ _
  rw [this]
  exact bind_eq_ok

/-- **C80.** `TimeFrequencyScattering` with torch returns exactly when it does with numpy, and the same output,
provided the padded frequency axis has room for the first-order wavelets and not both `T='global'` and
`format='joint'`.  (Without these conditions the claim is false: below, and `C74`.) -/
theorem C80_torch_eq_numpy_partial {a : JArgs} {s : ScJ} (hmake : a.make = .ok s)
    (hroom : s.base.psi1.length ≤ s.nFr) (hgj : ¬ (s.base.average = .glob ∧ a.fmt = .joint)) (x : List ℝ)
    (w : JOut (List ℝ) (Img ℝ)) : a.runTorch x = .ok w ↔ a.run x = .ok w := by
  obtain ⟨⟨Q1, Q2⟩, _, _, -, hQ, -⟩ := JArgs.make_eq_ok hmake
  rw [runTorch_eq_ok hmake hQ hroom, run_eq_unassembled hmake hQ]
  have key : ∀ P, unassembled npJ npFrontJ (a.obj s Q1.toNat) x = .ok P →
      P.mapM (torchReshape (a.obj s Q1.toNat)) = .ok P := by
    intro P hP
    refine mapM_eq_ok.2 ?_
    have : ∀ p ∈ P, torchReshape (a.obj s Q1.toNat) p = .ok p := by
      intro p hp
      unfold torchReshape
      split
      · rename_i hg
        obtain ⟨h1, h2⟩ := glob_one_sample hP hg hp
        split
        · rename_i r hr
          rw [if_neg (by rw [h1 r hr]; simp)]
        · rename_i X hX
          exact absurd ⟨hg, (h2 X hX).2⟩ hgj
      · rfl
    clear hP
    induction P with
    | nil => exact .nil
    | cons p P ih => exact .cons (this p (by simp)) (ih fun q hq => this q (by simp [hq]))
  constructor
  · rintro ⟨P, P', h1, h2, h3⟩
    rw [key P h1] at h2
    cases h2
    exact ⟨P, h1, h3⟩
  · rintro ⟨P, h1, h3⟩
    exact ⟨P, P, h1, key P h1, h3⟩

/-- **C80.** In particular with the default `T`, `stride`, `F`, `stride_fr`: both return, and the same. -/
theorem C80_defaults_partial (J Jfr N : Nat) (Q q : Int) (hQ : 1 ≤ Q) (hq : 1 ≤ q) (hN : 2 ^ J ≤ N) (o : OutType)
    (ho : o ≠ .other) (f : Format) (hf : f ≠ .other) (x : List ℝ) (hx : x.length = N) :
    ∃ r, (⟨J, Jfr, .int Q, .int N, .none, none, .int q, .none, none, o, f⟩ : JArgs).run x = .ok r ∧
      (⟨J, Jfr, .int Q, .int N, .none, none, .int q, .none, none, o, f⟩ : JArgs).runTorch x = .ok r := by
  obtain ⟨r, hr⟩ := C76_defaults J Jfr N Q q hQ hq hN o ho f hf x hx
  refine ⟨r, hr, ?_⟩
  obtain ⟨s, hmake, h⟩ := bind_eq_ok.1 hr
  obtain ⟨⟨Q1, Q2⟩, hQ', -⟩ := bind_eq_ok.1 h
  have h2 : (1 : Rat) ≤ 2 ^ Jfr := one_le_pow₀ (by norm_num)
  refine (C80_torch_eq_numpy_partial hmake ((C74_room_partial hmake hQ' (F := 2 ^ Jfr) (avF := .loc) rfl).1
    (by show (2 : Rat) ^ Jfr ≤ _; linarith)) ?_ x r).2 hr
  rintro ⟨hg, -⟩
  obtain ⟨_, _, _, hbase, -⟩ := JArgs.make_eq_ok hmake
  obtain ⟨t, R1, R2, lT, M1, M2, -, -, -, hT, -⟩ := make_filters hbase
  have hT : (Except.ok ((2 : Rat) ^ J, Average.loc) : Py _) = .ok (t, s.base.average) := hT
  injection hT with hT
  injection hT with _ hT
  rw [hg] at hT
  cases hT

/-- With global averaging and joint format, if torch returns then every stack numpy computes has a single
row. -/
theorem glob_joint_one_row {a : JArgs} {s : ScJ} (hmake : a.make = .ok s) {Q1 Q2 : Int}
    (hQ : parseQ a.Q = .ok (Q1, Q2)) (hroom : s.base.psi1.length ≤ s.nFr) (hg : s.base.average = .glob) {x : List ℝ}
    {w : JOut (List ℝ) (Img ℝ)} (h : a.runTorch x = .ok w) {P : List (JPath (List ℝ) (Img ℝ))}
    (hP : unassembled npJ npFrontJ (a.obj s Q1.toNat) x = .ok P) {p : JPath (List ℝ) (Img ℝ)} (hp : p ∈ P) {X : Img ℝ}
    (hX : p.coef = .stk X) : X.h = 1 := by
  obtain ⟨P0, P', h1, h2, -⟩ := (runTorch_eq_ok hmake hQ hroom).1 h
  rw [hP] at h1
  cases h1
  obtain ⟨p', -, hpp⟩ := forall₂_mem_left (mapM_eq_ok.1 h2) hp
  unfold torchReshape at hpp
  rw [if_pos (show (a.obj s Q1.toNat).average = .glob from hg), hX] at hpp
  simp only at hpp
  split at hpp
  · cases hpp
  · rename_i hc
    push Not at hc
    rw [((glob_one_sample hP hg hp).2 X hX).1, mul_one] at hc
    exact hc

/-- **C80 is violated** with `T='global'`, `format='joint'` and `out_type='array'` (default `F` and `stride_fr`):
the torch frontend never returns, for any `J`, `J_fr`, `Q`, `shape`, `Q_fr` and any signal, since the
coefficients keep their trailing dimension and cannot be reshaped. -/
theorem C80_global_joint_never {a : JArgs} (hT : a.T = .global) (hF : a.F = .none) (hs : a.strideFr = none)
    (hf : a.fmt = .joint) (ho : a.outType = .array) (x : List ℝ) (w : JOut (List ℝ) (Img ℝ)) :
    a.runTorch x ≠ .ok w := by
  intro hr
  obtain ⟨s, hmake, -⟩ := bind_eq_ok.1 hr
  obtain ⟨⟨Q1, Q2⟩, q, F, hbase, hQ, -, hF', havF, hnFr, -⟩ := JArgs.make_eq_ok hmake
  rw [hF] at hF'
  injection hF' with hF'
  subst hF'
  have h2 : (1 : Rat) ≤ 2 ^ a.Jfr := one_le_pow₀ (by norm_num)
  have hroom := (C74_room_partial hmake hQ (F := 2 ^ a.Jfr) (avF := .loc) (by rw [hF]; rfl)).1 (by linarith)
  have hg : s.base.average = .glob := by
    obtain ⟨t, R1, R2, lT, M1, M2, -, -, -, hT', -⟩ := make_filters hbase
    have hT' : parseT a.T a.J s.base.built.Ninput = .ok (t, s.base.average) := hT'
    rw [hT] at hT'
    injection hT' with hT'
    injection hT' with _ hT'
    exact hT'.symm
  obtain ⟨P, P', hP, -, -⟩ := (runTorch_eq_ok hmake hQ hroom).1 hr
  have hP' := hP
  unfold unassembled at hP'
  obtain ⟨-, -, hP'⟩ := bind_eq_ok.1 hP'
  obtain ⟨U0, h1, hP'⟩ := bind_eq_ok.1 hP'
  obtain ⟨ls, h2, hP'⟩ := bind_eq_ok.1 hP'
  obtain ⟨lsFr, h3, hP'⟩ := bind_eq_ok.1 hP'
  obtain ⟨S, h4, h5⟩ := bind_eq_ok.1 hP'
  have hst : Stages npJ npFrontJ (a.obj s Q1.toNat) x P := ⟨U0, ls, lsFr, S, h1, h2, h3, h4, h5⟩
  have hlsFr : (a.obj s Q1.toNat).log2StrideFr = .ok (a.Jfr : ℤ) := by
    show log2Stride a.strideFr a.F a.Jfr ((a.J + 1) * Q1.toNat) = _
    rw [hs, hF]
    refine (C07_log2_stride_ok _ _ _ _ _).2 (.inl ⟨rfl, ?_⟩)
    show (Except.ok (floorLog2 ((2 : Rat) ^ a.Jfr)) : Py ℤ) = _
    rw [floorLog2_twoPow]
  obtain ⟨⟨p, hp, hn⟩, -⟩ := joint_first hmake hst hf
  have hp := List.mem_of_mem_tail hp
  obtain ⟨X, hX, hXh⟩ := C36_rows_partial hmake hQ hst hlsFr hf ho havF le_rfl hp (by rw [hn]; simp)
  rw [glob_joint_one_row hmake hQ hroom hg hr hP hp hX, one_mul] at hXh
  have h8 : 8 * 2 ^ a.Jfr ≤ s.nFr := by
    rw [hnFr]
    unfold nPaddedFr
    refine Nat.mul_le_mul_right _ ?_
    rw [Int.le_toNat, Int.le_ediv_iff_mul_le (by positivity), Int.le_floor]
    · push_cast
      simp only [min_self]
      have : (0 : Rat) ≤ (a.J + 1) * Q1.toNat := by positivity
      linarith
    · positivity
  have : 0 < 2 ^ a.Jfr := by positivity
  omega

/-- **C80 is violated**: `TimeFrequencyScattering(J=5, J_fr=2, Q=8, shape=1000, T='global', format='joint')`
returns for every signal of 1000 samples with numpy and for none with torch. -/
theorem C80_violated (x : List ℝ) (hx : x.length = 1000) :
    (∃ r, (⟨5, 2, .int 8, .int (1000 : ℕ), .global, none, .int 1, .none, none, .array, .joint⟩ : JArgs).run x = .ok r) ∧
      ∀ r, (⟨5, 2, .int 8, .int (1000 : ℕ), .global, none, .int 1, .none, none, .array, .joint⟩ : JArgs).runTorch x ≠
        .ok r := by
  refine ⟨?_, fun r => C80_global_joint_never rfl rfl rfl rfl rfl x r⟩
  have hls : log2Stride none .global 5 1000 = .ok ((5 : ℕ) : ℤ) := by
    refine (C07_log2_stride_ok _ _ _ _ _).2 (.inl ⟨rfl, ?_⟩)
    show (Except.ok (floorLog2 ((2 : Rat) ^ 5)) : Py ℤ) = _
    rw [floorLog2_twoPow]
  obtain ⟨s, -, -, -, -, h⟩ := C76_no_error
    ⟨5, 2, .int 8, .int (1000 : ℕ), .global, none, .int 1, .none, none, .array, .joint⟩ 1000
    rfl (by norm_num) (2 ^ 5) .glob rfl 8 1 rfl (by norm_num) (le_jPad_of_pow (by norm_num) (by norm_num)) 5 hls le_rfl
    (fun h => by cases h) 1 rfl (2 ^ 2) .loc rfl (by norm_num) (by norm_num) rfl (.inr rfl)
    (.inr (.inr ⟨rfl, by simp, .inr rfl⟩))
  exact h x hx

end Verif
