import Verif.Lemmas.RollJTFS
import Verif.Props.StrideJTFS
import Verif.Props.LawsJTFS

/-!
# C82: translation covariance of joint time-frequency scattering
-/

namespace Verif

open Finset JTFS FrontJ

/-- The second coefficient is the first one, rolled along time by the translation `s0` of a signal of `N0` samples,
counted in samples of its own grid, whenever it is a whole number of them. -/
def JCoef.Rolls (s0 : ℤ) (N0 : Nat) : JCoef (List ℝ) (Img ℝ) → JCoef (List ℝ) (Img ℝ) → Prop
  | .sig x, .sig y => y.length = x.length ∧ ∀ s : ℤ, s * N0 = s0 * x.length → Spec.IsRoll s x y
  | .stk X, .stk Y => Y.h = X.h ∧ Y.w = X.w ∧ ∀ s : ℤ, s * N0 = s0 * X.w → ∀ i t, i < X.h → t < X.w →
      Y.px i t = X.px i (((t : ℤ) - s) % X.w).toNat
  | _, _ => False

/-- The labels of two paths agree. -/
def SameLabels (p q : JPath (List ℝ) (Img ℝ)) : Prop :=
  p.j = q.j ∧ p.n = q.n ∧ p.order = q.order ∧ p.fr = q.fr ∧ p.n1 = q.n1

theorem rolls_of_coef {s0 : ℤ} {N0 i : Nat} {c d : JCoef (List ℝ) (Img ℝ)} (h : (rollRelJ s0 N0).coef i c d) :
    c.Rolls s0 N0 d := by
  cases c with
  | sig x =>
    cases d with
    | sig y => exact h
    | stk Y => exact h.elim
  | stk X =>
    cases d with
    | sig y => exact h.elim
    | stk Y =>
      have h : RollRows s0 N0 X Y := h
      exact ⟨h.1, h.2.1, fun s hs i t hi ht => (isRoll_row_iff h.2.1).1 (h.2.2 s hs i hi) t ht⟩

theorem rollJ_start {x y : List ℝ} {s0 : ℤ} (h : Spec.IsRoll s0 x y) : (rollRelJ s0 x.length).rR 0 x y := by
  refine ⟨h.1, fun s hs => ?_⟩
  rcases Nat.eq_zero_or_pos x.length with h0 | h0
  · exact ⟨h.1, fun n hn => by omega⟩
  · have : s = s0 := mul_right_cancel₀ (show (x.length : ℤ) ≠ 0 by omega) hs
    rw [this]
    exact h

theorem rollJ_obj (s0 : ℤ) (N0 : Nat) (o : JObj (List ℝ)) : ObjRelJ (rollRelJ s0 N0) o o :=
  objJ_refl (S := rollRelJ s0 N0) (fun _ => rfl) (fun _ => trivial) o

/-- **C82.** If the padded signal is rolled by `s0`, joint time-frequency scattering returns the same paths, and
every coefficient is rolled along time by `s0` counted in samples of its grid, if that is a whole number; nothing
moves along the frequency axis. -/
theorem C82_covariant (o : JObj (List ℝ)) (ls lsFr : Nat) (x y : List ℝ) (s0 : ℤ) (hroll : Spec.IsRoll s0 x y)
    (out : List (JPath (List ℝ) (Img ℝ))) (h : paths npJ o ls lsFr x = .ok out) :
    ∃ out', paths npJ o ls lsFr y = .ok out' ∧
      List.Forall₂ (fun p q => SameLabels p q ∧ p.coef.Rolls s0 x.length q.coef) out out' := by
  obtain ⟨out', h', hr⟩ := sim_paths (rollJ_obj s0 x.length o) ls lsFr (rollJ_start hroll) out h
  exact ⟨out', h', hr.imp fun p q hpq => ⟨hpq.2, rolls_of_coef hpq.1⟩⟩

/-- Step of the grid on which a path is computed before a global average: the signal itself at order zero, the stride
at order one, the scale of the second wavelet at order two. -/
def gridStep (ls : Nat) (j : List Int) : Nat :=
  match j with
  | [] => 1
  | [_] => 2 ^ ls
  | _ :: j2 :: _ => 2 ^ j2.toNat

theorem averageBody_j {phi : Filt (List ℝ)} {ls : Nat} {average : Average} {phiFr : PhiFr (List ℝ)} {lsFr : Nat}
    {averageFr : Average} {arrayOut : Bool} {fmt : Format} {p : FPath (Img ℂ)} {r : List (JPath (List ℝ) (Img ℝ))}
    (h : averageBody npJ phi ls average phiFr lsFr averageFr arrayOut fmt p = .ok r) : ∀ q ∈ r, q.j = p.j := by
  obtain ⟨U, U', S, S', -, -, -, -, -, h⟩ := averageBody_eq_ok npJ h
  intro q hq
  unfold formatPath at h
  split at h
  · injection h with h
    subst h
    rw [List.mem_singleton] at hq
    rw [hq]
  · obtain ⟨l, hl, h⟩ := bind_eq_ok.1 h
    obtain ⟨i, n1, o, -, ho, hqo⟩ := (Core1D.forEnum_mem h q).1 hq
    obtain ⟨c, -, ho⟩ := bind_eq_ok.1 ho
    injection ho with ho
    subst ho
    rw [List.mem_singleton] at hqo
    rw [hqo]
  · injection h with h
    subst h
    cases hq

/-- With a global average, two stacks rolled by a whole number of samples give the same output. -/
theorem averageBody_glob {phi : Filt (List ℝ)} {ls : Nat} {phiFr : PhiFr (List ℝ)} {lsFr : Nat} {averageFr : Average}
    {arrayOut : Bool} {fmt : Format} {p q : FPath (Img ℂ)} {s0 s : ℤ} {N0 : Nat}
    (h : JRel.fpath (RollRows (α := ℂ) s0 N0) p q) (hs : s * N0 = s0 * p.coef.w) :
    averageBody npJ phi ls .glob phiFr lsFr averageFr arrayOut fmt q =
      averageBody npJ phi ls .glob phiFr lsFr averageFr arrayOut fmt p := by
  obtain ⟨h0, h1, h2, h3, h4, h5, h6, h7⟩ := h
  have hU := h0.map (fun z : ℂ => ‖z‖) norm_zero
  have e : rowAverage (q.coef.map fun z => ‖z‖) = rowAverage (p.coef.map fun z => ‖z‖) := by
    unfold rowAverage
    rw [hU.1]
    refine Img.tab_congr fun i j hi _ => ?_
    exact hU.average hs hi
  have ht : averageTime npJ phi ls .glob q (q.coef.map fun z => ‖z‖) =
      averageTime npJ phi ls .glob p (p.coef.map fun z => ‖z‖) := by
    show (Except.ok _ : Py _) = Except.ok _
    rw [e]
  have hf : averageFreq npJ phiFr lsFr averageFr q = averageFreq npJ phiFr lsFr averageFr p := by
    funext U
    unfold averageFreq
    rw [← h3, ← h4, ← h6, ← h7]
  have hb : ∀ r : FPath (Img ℂ), averageBody npJ phi ls .glob phiFr lsFr averageFr arrayOut fmt r =
      (averageTime npJ phi ls .glob r (r.coef.map fun z => ‖z‖) >>= fun U' => averageFreq npJ phiFr lsFr averageFr r U' >>=
        fun S => unpadFr npJ arrayOut fmt r.n1Max S.2 S.1 >>= fun S' =>
          formatPath npJ fmt ⟨S', r.j, r.n, r.n1Max, r.jFr, r.nFr, S.2, r.spin⟩) := fun r => rfl
  rw [hb, hb, ht, hf, h1, h2, h3, h4, h5, h7]

theorem forall₂_and_left {α β : Type} {R : α → β → Prop} {P : α → Prop} {l : List α} {m : List β}
    (h : List.Forall₂ R l m) (hP : ∀ a ∈ l, P a) : List.Forall₂ (fun a b => R a b ∧ P a) l m := by
  induction h with
  | nil => exact .nil
  | cons hab _ ih =>
    exact .cons ⟨hab, hP _ List.mem_cons_self⟩ (ih fun a ha => hP a (List.mem_cons_of_mem _ ha))

/-- **C82 with a global average in time**: the coefficients of a path do not change when the padded signal is rolled by
a multiple of the step of its grid.  (For other shifts this fails: `C82_global_violated`.) -/
theorem C82_global_partial {o : JObj (List ℝ)} {v : Spec.Wavelet} (hv : Realises o.phi v)
    {W1 W2 : List Spec.Wavelet} (h1 : List.Forall₂ Realises o.psi1 W1) (h2 : List.Forall₂ Realises o.psi2 W2)
    {ω : FiltFr (List ℝ) → Spec.Wavelet} (hω : ∀ f ∈ o.psisFr, RealisesFr f (ω f)) (hglob : o.average = .glob)
    (ls lsFr : Nat) (x y : List ℝ) (s0 : ℤ) (hroll : Spec.IsRoll s0 x y)
    (out : List (JPath (List ℝ) (Img ℝ))) (h : paths npJ o ls lsFr x = .ok out) :
    ∃ out', paths npJ o ls lsFr y = .ok out' ∧
      List.Forall₂ (fun p q => SameLabels p q ∧ ((gridStep ls p.j : ℤ) ∣ s0 → q.coef = p.coef)) out out' := by
  have hO := rollJ_obj s0 x.length o
  unfold paths at h ⊢
  rw [hglob] at h ⊢
  obtain ⟨g, hg, h⟩ := bind_eq_ok.1 h
  obtain ⟨g', hg', hr0, hr⟩ := sim_joint (rollRelJ s0 x.length) hO.phi hO.psi1 hO.psi2 ls _ hO.phiFr hO.psisFr lsFr _
    (rollJ_start hroll) hO.padFr g hg
  obtain ⟨hz0, hP⟩ := joint_closed hv h1 h2 hω hg
  have hstep : ∀ p ∈ g.2, (gridStep ls p.j : ℤ) ∣ s0 → ∃ s : ℤ, s * x.length = s0 * p.coef.w := by
    intro p hp hd
    obtain ⟨s, hs⟩ := hd
    refine ⟨s, ?_⟩
    rcases hP p hp with ⟨T, hT, ⟨i, psi, -, -, -, -, -, -, H, -, hI⟩, hj, -⟩ |
      ⟨n2, w2, T, -, hne, hT, ⟨i, psi, -, -, -, -, -, -, H, -, hI⟩, hj, -⟩
    · rw [hj] at hs
      rw [hI.2.1, hs, ← hT]
      show s * ((T * 2 ^ ls : ℕ) : ℤ) = ((2 ^ ls : ℕ) : ℤ) * s * T
      push_cast
      ring
    · rw [hj] at hs
      obtain ⟨w, hw⟩ := List.exists_mem_of_ne_nil _ hne
      have hlt : w.2 < w2.2 := by
        have := (List.mem_filter.1 hw).2
        simpa using this
      have hTw := hT w hw
      have e : sub1 ls (decide (Average.glob = Average.loc)) w.2 + sub2 ls (decide (Average.glob = Average.loc)) w.2 w2.2
          = w2.2 := by
        simp only [sub1, sub2]
        simp
        omega
      rw [e] at hTw
      rw [hI.2.1, hs, ← hTw]
      show s * ((T * 2 ^ w2.2 : ℕ) : ℤ) = ((2 ^ w2.2 : ℕ) : ℤ) * s * T
      push_cast
      ring
  have key : Sim (List.Forall₂ fun p q => SameLabels p q ∧ ((gridStep ls p.j : ℤ) ∣ s0 → q.coef = p.coef))
      (averageAndFormat npJ g o.phi ls .glob o.phiFr lsFr o.averageFr (decide (o.outType = .array)) o.fmt)
      (averageAndFormat npJ g' o.phi ls .glob o.phiFr lsFr o.averageFr (decide (o.outType = .array)) o.fmt) := by
    unfold averageAndFormat
    refine Sim.bind (R := Eq) ?_ fun z z' hz => ?_
    · refine Sim.ok ?_
      have e0 : g.1 = x := by
        have : (Except.ok x : Py (List ℝ)) = .ok g.1 := hz0
        exact (Except.ok.inj this).symm
      show npAverageGlobal g.1 = npAverageGlobal g'.1
      unfold npAverageGlobal
      rw [roll_sum (hr0.2 s0 (by rw [e0]))]
    refine Sim.bind (Front1D.sim_mapM (R := fun p q => (rollRelJ s0 x.length).fpath1 p q ∧
        ((gridStep ls p.j : ℤ) ∣ s0 → ∃ s : ℤ, s * x.length = s0 * p.coef.w))
      (P := List.Forall₂ fun p q => SameLabels p q ∧ ((gridStep ls p.j : ℤ) ∣ s0 → q.coef = p.coef))
      (fun p q hpq => ?_) (forall₂_and_left hr hstep)) fun l m hlm => ?_
    · by_cases hd : (gridStep ls p.j : ℤ) ∣ s0
      · obtain ⟨s, hs⟩ := hpq.2 hd
        rw [averageBody_glob hpq.1.1 hs]
        intro r hr
        exact ⟨r, hr, List.forall₂_same.2 fun _ _ => ⟨⟨rfl, rfl, rfl, rfl, rfl⟩, fun _ => rfl⟩⟩
      · intro r hr
        obtain ⟨r', hr', hrr⟩ := sim_averageBody (rollRelJ s0 x.length) hO.phi ls .glob hO.phiFr lsFr o.averageFr
          (decide (o.outType = .array)) o.fmt hpq.1.1 hpq.1.2 r hr
        refine ⟨r', hr', (forall₂_and_left hrr (averageBody_j hr)).imp fun a b hab => ⟨hab.1.2, fun hd' => ?_⟩⟩
        rw [hab.2] at hd'
        exact absurd hd' hd
    · rw [hz]
      exact Sim.ok (List.Forall₂.cons ⟨⟨rfl, rfl, rfl, rfl, rfl⟩, fun _ => rfl⟩ (List.rel_flatten hlm))
  obtain ⟨out', h', hout⟩ := key out h
  exact ⟨out', bind_eq_ok.2 ⟨g', hg', h'⟩, hout⟩

/-- With local averaging, the stride divides the length of the padded signal whenever the transform returns. -/
theorem stride_dvd {a : JArgs} {s : ScJ} (hmake : a.make = .ok s) {Q1 Q2 q : Int}
    (hQ : parseQ a.Q = .ok (Q1, Q2)) (hq : parseQfr a.Qfr = .ok q) {t F : Rat} {av avF : Average}
    (hT : parseT a.T a.J s.base.built.Ninput = .ok (t, av))
    (hF : parseT a.F a.Jfr ((a.J + 1) * Q1.toNat) = .ok (F, avF)) (havo : (a.obj s Q1.toNat).average = .loc)
    {ls lsFr : Nat} {X : List ℝ} {out : List (JPath (List ℝ) (Img ℝ))}
    (h : paths npJ (a.obj s Q1.toNat) ls lsFr X = .ok out) : 2 ^ ls ∣ X.length := by
  have hlab := paths_labels npJ h
  cases out with
  | nil => simp [pathLabels] at hlab
  | cons p S =>
    unfold pathLabels at hlab
    rw [List.map_cons] at hlab
    injection hlab with hpn
    have hE : ∀ (n : List Int) (n1 s' H T : Nat) (B : ℕ → ℕ → ℝ), n ≠ [] →
        ¬ Entry (a.obj s Q1.toNat).fmt (decide ((a.obj s Q1.toNat).outType = .array)) n n1 s' H T B p := by
      intro n n1 s' H T B hn hE
      unfold Entry at hE
      split at hE
      · exact hn (hE.1.symm.trans hpn)
      · obtain ⟨i, -, -, hc, -⟩ := hE
        rw [hpn] at hc
        cases hc
      · exact hE
    rcases paths_closedJ hmake hQ hq hT hF h (List.mem_cons_self) with
      ⟨-, z, hz, hzz⟩ | ⟨i, psi, w, -, -, -, -, h⟩ | ⟨n2, i, w2, psi, w, -, -, -, -, -, -, h⟩
    · rw [havo] at hzz
      rw [← hzz.1]
      exact Dvd.intro_left _ rfl
    · exact absurd h (hE _ _ _ _ _ _ (by simp))
    · exact absurd h (hE _ _ _ _ _ _ (by simp))

/-- **C82 with local averaging in time**, for a constructed object and any stride `2^ls`: every coefficient is
rolled by `s0 / 2^ls` when the stride divides the translation. -/
theorem C82_local {a : JArgs} {s : ScJ} (hmake : a.make = .ok s) {Q1 Q2 : Int} (hQ : parseQ a.Q = .ok (Q1, Q2))
    (hQ12 : Q2 ≤ Q1) (hav : s.base.average = .loc) (ls lsFr : Nat) (x y : List ℝ) (s0 : ℤ) (hroll : Spec.IsRoll s0 x y)
    (hs : (2 : ℤ) ^ ls ∣ s0) (out : List (JPath (List ℝ) (Img ℝ)))
    (h : paths npJ (a.obj s Q1.toNat) ls lsFr x = .ok out) :
    ∃ out', paths npJ (a.obj s Q1.toNat) ls lsFr y = .ok out' ∧
      List.Forall₂ (fun p q => SameLabels p q ∧ match p.coef, q.coef with
        | .sig r, .sig r' => Spec.IsRoll (s0 / 2 ^ ls) r r'
        | .stk X, .stk Y => Y.h = X.h ∧ Y.w = X.w ∧ ∀ i t, i < X.h → t < X.w →
            Y.px i t = X.px i (((t : ℤ) - s0 / 2 ^ ls) % X.w).toNat
        | _, _ => False) out out' := by
  obtain ⟨out', h', hr⟩ := C82_covariant _ ls lsFr x y s0 hroll out h
  obtain ⟨Q', q, F, hbase, hQ', hq, hF, -⟩ := JArgs.make_eq_ok hmake
  rw [hQ] at hQ'
  injection hQ' with hQ'
  subst hQ'
  obtain ⟨t, lT, hT, -⟩ := base_facts hbase hQ hQ12
  have hT : parseT a.T a.J s.base.built.Ninput = .ok (t, s.base.average) := hT
  have havo : (a.obj s Q1.toNat).average = .loc := hav
  obtain ⟨L, hL⟩ := stride_dvd hmake hQ hq hT hF havo h
  have hcols : ∀ p ∈ out, (coefSize p.coef).2 = L := by
    intro p hp
    rw [cols_of_closedJ havo (paths_closedJ hmake hQ hq hT hF h hp), hL]
    exact Nat.mul_div_cancel_left _ (pow_pos two_pos _)
  obtain ⟨k, rfl⟩ := hs
  rw [Int.mul_ediv_cancel_left _ (pow_ne_zero _ two_ne_zero)]
  have hk : k * x.length = 2 ^ ls * k * L := by
    rw [hL]
    push_cast
    ring
  refine ⟨out', h', (forall₂_and_left hr hcols).imp fun p q hpq => ⟨hpq.1.1, ?_⟩⟩
  obtain ⟨⟨-, hc⟩, hw⟩ := hpq
  cases hp : p.coef <;> cases hq : q.coef <;> rw [hp, hq] at hc <;> rw [hp] at hw
  · exact hc.2 k (by rw [show List.length _ = L from hw]; exact hk)
  · exact hc
  · exact hc
  · exact ⟨hc.1, hc.2.1, hc.2.2 k (by rw [show Img.w _ = L from hw]; exact hk)⟩

/-- `np.roll`. -/
theorem isRoll_tab (x : List ℝ) (s : ℤ) :
    Spec.IsRoll s x (tab x.length fun n => x.getD (((n : ℤ) - s) % x.length).toNat 0) :=
  ⟨by simp, fun n hn => by rw [getD_tab_lt hn]⟩

/-- `J=5, J_fr=2, Q=8` on 1000 samples, every output type and format: the padded signal rolled by 64 samples. -/
example (o : OutType) (ho : o ≠ .other) (f : Format) (hf : f ≠ .other) (x : List ℝ) (hx : x.length = 1000) :
    ∃ s U ls lsFr out out', (⟨5, 2, .int 8, .int (1000 : ℕ), .none, none, .int 1, .none, none, o, f⟩ : JArgs).make = .ok s ∧
      npPad x s.base.built.padLeft s.base.built.padRight = .ok U ∧
      paths npJ ((⟨5, 2, .int 8, .int (1000 : ℕ), .none, none, .int 1, .none, none, o, f⟩ : JArgs).obj s 8) ls lsFr U = .ok out ∧
      paths npJ ((⟨5, 2, .int 8, .int (1000 : ℕ), .none, none, .int 1, .none, none, o, f⟩ : JArgs).obj s 8) ls lsFr
        (tab U.length fun n => U.getD (((n : ℤ) - 64) % U.length).toNat 0) = .ok out' ∧
      List.Forall₂ (fun p q => SameLabels p q ∧ p.coef.Rolls 64 U.length q.coef) out out' := by
  obtain ⟨w, hw⟩ := C76_defaults 5 2 1000 8 1 (by norm_num) (by norm_num) (by norm_num) o ho f hf x hx
  obtain ⟨s, hmake, h'⟩ := bind_eq_ok.1 hw
  obtain ⟨⟨Q1, Q2⟩, hQ, h'⟩ := bind_eq_ok.1 h'
  have hQ8 : parseQ (.int 8) = .ok (Q1, Q2) := hQ
  have e : Q1 = 8 := by
    have : (Except.ok ((8 : Int), (1 : Int)) : Py _) = .ok (Q1, Q2) := hQ8
    exact (congrArg Prod.fst (Except.ok.inj this)).symm
  subst e
  obtain ⟨-, P, ⟨U, ls, lsFr, S, h1, -, -, h4, -⟩, -⟩ := scattering_eq_ok h'
  obtain ⟨out', h5, h6⟩ := C82_covariant _ ls.toNat lsFr.toNat U _ 64 (isRoll_tab U 64) S h4
  exact ⟨s, U, ls.toNat, lsFr.toNat, S, out', hmake, h1, h4, h5, h6⟩

/-- One first-order wavelet and one frequential filter that do nothing; stride 2, global average. -/
noncomputable def obj82 : JObj (List ℝ) :=
  { padLeft := 0, padRight := 0, indStart := fun _ => none, indEnd := fun _ => none, phi := ⟨[[1, 1]], 1⟩,
    psi1 := [⟨[[1, 1]], 0⟩], psi2 := [], log2Stride := .ok 1, average := .glob, phiFr := ⟨[[1]], 0, 1⟩,
    psisFr := [⟨[[1]], 0, 0⟩], log2StrideFr := .ok 0, averageFr := .no, outType := .list, fmt := .joint }

theorem impulse_two : Spec.impulseR [1, 1] 0 = 1 ∧ Spec.impulseR [1, 1] (-1) = 0 ∧ Spec.impulseR [1, 1] 1 = 0 := by
  refine ⟨?_, ?_, ?_⟩ <;> simp [Spec.impulseR, Spec.impulse, sum_range_succ]
  · rw [show (-(2 * Real.pi * Complex.I) / 2 : ℂ) = -(Real.pi * Complex.I) by ring, Complex.exp_neg,
      Complex.exp_pi_mul_I]
    norm_num
  · rw [show (2 * Real.pi * Complex.I / 2 : ℂ) = Real.pi * Complex.I by ring, Complex.exp_pi_mul_I]
    norm_num

theorem obj82_value (x : List ℝ) (hx : x.length = 2) : ∃ out, paths npJ obj82 1 0 x = .ok out ∧
    ∃ p ∈ out, p.n = [0] ∧ ∃ X : Img ℝ, p.coef = .stk X ∧ 0 < X.h ∧ 0 < X.w ∧ X.px 0 0 = |x.getD 0 0| := by
  have hone : ∀ (l : ℕ) (y : List ℝ), [[(1 : ℝ), 1]][l]? = some y → y.length * 2 ^ l = 2 := by
    intro l y h
    rcases l with _ | l
    · simp at h; subst h; rfl
    · simp at h
  have F : Fits obj82 2 1 0 := by
    refine ⟨?_, ?_, ?_, ?_, ?_, ?_, ?_, ?_, ?_⟩ <;> simp [obj82, Sized, sub1] <;> exact hone
  obtain ⟨out, ho⟩ := paths_ok F hx
  refine ⟨out, ho, ?_⟩
  have hn : out.map (fun q => q.n) = [[], [0]] := by
    obtain ⟨g, hg, h⟩ := bind_eq_ok.1 ho
    rw [averageAndFormat_labels npJ h, joint_labels npJ hg]
    simp [obj82, labels]
    rfl
  have hm : [(0 : ℤ)] ∈ out.map (fun q => q.n) := by rw [hn]; simp
  obtain ⟨p, hp, hpn⟩ := List.mem_map.1 hm
  refine ⟨p, hp, hpn, ?_⟩
  have hR : ∀ f : Filt (List ℝ), ∀ h, f.levels = [h] → Realises f (Spec.impulseR h, f.j) := by
    intro f h hf
    refine ⟨rfl, h, ⟨0, ?_⟩, rfl⟩
    rw [hf]; rfl
  have := C72_closed_form (o := obj82) (hR obj82.phi _ rfl) (W1 := [(Spec.impulseR [1, 1], 0)]) (W2 := [])
    (List.Forall₂.cons (hR _ _ rfl) .nil) .nil (vFr := Spec.impulseR [1]) ⟨[1], rfl, ⟨0, rfl⟩, rfl⟩
    (ω := fun _ => (Spec.impulseR [1], 0)) (by
      intro f hf
      simp only [obj82, List.mem_singleton] at hf
      subst hf
      exact hR ⟨[[1]], 0⟩ _ rfl) ho hp
  rcases this with ⟨h, -⟩ | ⟨i, psi, hi, h⟩ | ⟨n2, i, w2, psi, h, -⟩
  · rw [hpn] at h; simp at h
  · have hi' : i = 0 ∧ psi = ⟨[[1]], 0, 0⟩ := by
      simp [obj82, upward] at hi
      rcases i with _ | i
      · simpa using hi.symm
      · simp at hi
    obtain ⟨rfl, rfl⟩ := hi'
    obtain ⟨-, X, hX, h1, h2, h3⟩ := h
    refine ⟨X, hX, ?_, ?_, ?_⟩
    · rw [h1]; simp [obj82, freqRows]
    · rw [h2]; simp [obj82, timeCols]
    · rw [h3 0 0]
      · simp [firstRows, obj82, freqAvg, timeAvg, hx, Spec.frConv, Spec.rows1, Spec.S1, sum_range_succ, Spec.U1]
        obtain ⟨e0, e1, e2⟩ := impulse_two
        rw [e0, e1, e2]
        simp [Spec.impulseR, Spec.impulse]
      · simp [obj82, freqRows]
      · simp [obj82, timeCols]
  · simp at h

/-- **C82 (violated).** With a global average in time the coefficients do change under a shift that is not a multiple of
the step of the grid on which they are summed: here the signal `[1, 0]` and its shift by one sample, with stride 2. -/
theorem C82_global_violated : ∃ (o : JObj (List ℝ)) (x y : List ℝ) (out out' : List (JPath (List ℝ) (Img ℝ))),
    o.average = .glob ∧ Spec.IsRoll 1 x y ∧ paths npJ o 1 0 x = .ok out ∧ paths npJ o 1 0 y = .ok out' ∧
    ∃ p ∈ out, ∃ q ∈ out', p.n = q.n ∧ p.coef ≠ q.coef := by
  obtain ⟨out, h, p, hp, hn, X, hX, -, -, hv⟩ := obj82_value [1, 0] rfl
  obtain ⟨out', h', q, hq, hn', Y, hY, -, -, hv'⟩ := obj82_value [0, 1] rfl
  refine ⟨obj82, [1, 0], [0, 1], out, out', rfl, ?_, h, h', p, hp, q, hq, hn.trans hn'.symm, ?_⟩
  · refine ⟨rfl, ?_⟩
    intro t ht
    rcases t with _ | _ | t
    · rfl
    · rfl
    · simp at ht
  · rw [hX, hY]
    intro he
    have : X = Y := JCoef.stk.inj he
    rw [this, hv'] at hv
    simp at hv

/-- **C82 with a global average in time**, for a constructed object. -/
theorem C82_global_object_partial {a : JArgs} {s : ScJ} (hmake : a.make = .ok s) {Q1 Q2 : Int}
    (hQ : parseQ a.Q = .ok (Q1, Q2)) (hQ12 : Q2 ≤ Q1) (hav : s.base.average = .glob) (ls lsFr : Nat) (x y : List ℝ)
    (s0 : ℤ) (hroll : Spec.IsRoll s0 x y) (out : List (JPath (List ℝ) (Img ℝ)))
    (h : paths npJ (a.obj s Q1.toNat) ls lsFr x = .ok out) :
    ∃ out', paths npJ (a.obj s Q1.toNat) ls lsFr y = .ok out' ∧
      List.Forall₂ (fun p q => SameLabels p q ∧ ((gridStep ls p.j : ℤ) ∣ s0 → q.coef = p.coef)) out out' := by
  obtain ⟨Q', q, F, hbase, hQ', hq, hF, -⟩ := JArgs.make_eq_ok hmake
  rw [hQ] at hQ'
  injection hQ' with hQ'
  subst hQ'
  obtain ⟨t, lT, hT, -⟩ := base_facts hbase hQ hQ12
  obtain ⟨r1, r2, r3, -, r5, -⟩ := make_realises hmake hQ hq hT hF
  exact C82_global_partial r1 r2 r3 r5 hav ls lsFr x y s0 hroll out h

/-- `T='global'`: the padded signal rolled by 64 samples; the steps of the grids are at most `2^5`. -/
example (x : List ℝ) (hx : x.length = 1000) :
    ∃ s U ls lsFr out out',
      (⟨5, 2, .int 8, .int (1000 : ℕ), .global, none, .int 1, .none, none, .array, .joint⟩ : JArgs).make = .ok s ∧
      npPad x s.base.built.padLeft s.base.built.padRight = .ok U ∧
      paths npJ ((⟨5, 2, .int 8, .int (1000 : ℕ), .global, none, .int 1, .none, none, .array, .joint⟩ : JArgs).obj s 8)
        ls lsFr U = .ok out ∧
      paths npJ ((⟨5, 2, .int 8, .int (1000 : ℕ), .global, none, .int 1, .none, none, .array, .joint⟩ : JArgs).obj s 8)
        ls lsFr (tab U.length fun n => U.getD (((n : ℤ) - 64) % U.length).toNat 0) = .ok out' ∧
      List.Forall₂ (fun p q => SameLabels p q ∧ ((gridStep ls p.j : ℤ) ∣ 64 → q.coef = p.coef)) out out' := by
  have hls : log2Stride none .global 5 1000 = .ok ((5 : ℕ) : ℤ) := by
    refine (C07_log2_stride_ok _ _ _ _ _).2 (.inl ⟨rfl, ?_⟩)
    show (Except.ok (floorLog2 ((2 : Rat) ^ 5)) : Py ℤ) = _
    rw [floorLog2_twoPow]
  obtain ⟨s, hmake, -, hav, -, h⟩ := C76_no_error
    ⟨5, 2, .int 8, .int (1000 : ℕ), .global, none, .int 1, .none, none, .array, .joint⟩ 1000
    rfl (by norm_num) (2 ^ 5) .glob rfl 8 1 rfl (by norm_num) (le_jPad_of_pow (by norm_num) (by norm_num)) 5 hls le_rfl
    (fun h => by cases h) 1 rfl (2 ^ 2) .loc rfl (by norm_num) (by norm_num) rfl (.inr rfl)
    (.inr (.inr ⟨rfl, by simp, .inr rfl⟩))
  obtain ⟨w, hw⟩ := h x hx
  obtain ⟨s', hmake', hw⟩ := bind_eq_ok.1 hw
  obtain rfl : s = s' := Except.ok.inj (hmake.symm.trans hmake')
  obtain ⟨⟨Q1, Q2⟩, hQ, h'⟩ := bind_eq_ok.1 hw
  have hQ8 : parseQ (.int 8) = .ok (Q1, Q2) := hQ
  have e : (8, 1) = (Q1, Q2) := by
    have : (Except.ok ((8 : Int), (1 : Int)) : Py _) = .ok (Q1, Q2) := hQ8
    exact Except.ok.inj this
  have e1 : (8 : Int) = Q1 := congrArg Prod.fst e
  subst e1
  obtain ⟨-, P, ⟨U, ls, lsFr, S, h1, -, -, h4, -⟩, -⟩ := scattering_eq_ok h'
  obtain ⟨out', h5, h6⟩ := C82_global_object_partial hmake (Q1 := 8) (Q2 := 1) rfl (by norm_num) hav ls.toNat lsFr.toNat U _ 64
    (isRoll_tab U 64) S h4
  exact ⟨s, U, ls.toNat, lsFr.toNat, S, out', hmake, h1, h4, h5, h6⟩

end Verif
