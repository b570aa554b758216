import Verif.Lemmas.ScaleJTFS
import Verif.Props.TorchJTFS

/-!
# C81: joint time-frequency scattering of a multiple of a signal
-/

namespace Verif

open JTFS FrontJ

/-- A coefficient multiplied by a number. -/
noncomputable def JCoef.times (c : ℝ) : JCoef (List ℝ) (Img ℝ) → JCoef (List ℝ) (Img ℝ)
  | .sig r => .sig (r.map (c * ·))
  | .stk X => .stk (X.map (c * ·))

/-- The factor of the coefficient of index `n`: the zeroth order is linear, the others are moduli. -/
noncomputable def factor (c : ℝ) (n : List Int) : ℝ := if n = [] then c else |c|

/-- The output for `c x` that the output for `x` should give: in a time array the zeroth order is the first
row; a joint array has none. -/
noncomputable def JOut.times (c : ℝ) : JOut (List ℝ) (Img ℝ) → JOut (List ℝ) (Img ℝ)
  | .arrayJoint rows => .arrayJoint (rows.map (Img.map (|c| * ·)))
  | .arrayTime [] => .arrayTime []
  | .arrayTime (r :: rows) => .arrayTime (r.map (c * ·) :: rows.map (List.map (|c| * ·)))
  | .list P => .list (P.map fun p => { p with coef := p.coef.times (factor c p.n) })
  | .dict d => .dict (d.map fun e => (e.1, e.2.times (factor c e.1)))

theorem stages_of_unassembled {B : JBackend} {ops : JFrontOps B.R B.RS} {o : JObj B.F} {x : B.R}
    {P : List (JPath B.R B.RS)} (h : unassembled B ops o x = .ok P) :
    checkRuntimeArgs o = .ok () ∧ Stages B ops o x P := by
  unfold unassembled at h
  obtain ⟨u, hu, h⟩ := bind_eq_ok.1 h
  obtain ⟨U0, h1, h⟩ := bind_eq_ok.1 h
  obtain ⟨ls, h2, h⟩ := bind_eq_ok.1 h
  obtain ⟨lsFr, h3, h⟩ := bind_eq_ok.1 h
  obtain ⟨S, h4, h⟩ := bind_eq_ok.1 h
  exact ⟨hu, U0, ls, lsFr, S, h1, h2, h3, h4, h⟩

/-- The zeroth order comes first, and is the only path without indices. -/
theorem stages_head {B : JBackend} {ops : JFrontOps B.R B.RS} {o : JObj B.F} {x : B.R}
    {P : List (JPath B.R B.RS)} (h : Stages B ops o x P) :
    ∃ p0 P', P = p0 :: P' ∧ p0.n = [] ∧ (∃ r, p0.coef = .sig r) ∧ ∀ p ∈ P', p.n ≠ [] := by
  have hst := h
  obtain ⟨U0, ls, lsFr, S, -, -, h3, h4, h5⟩ := h
  have hl := stages_labels hst h3
  unfold paths at h4
  obtain ⟨g, -, h4⟩ := bind_eq_ok.1 h4
  obtain ⟨z, l, -, -, rfl⟩ := averageAndFormat_eq_ok B h4
  have h5 := mapM_eq_ok.1 h5
  cases h5 with
  | @cons _ p0 _ P' h0 ht =>
    refine ⟨p0, P', rfl, (List.cons.inj hl).1, ?_, ?_⟩
    · unfold post at h0
      split at h0
      · injection h0 with h0
        exact ⟨z, by rw [← h0]⟩
      · obtain ⟨_, -, h0⟩ := bind_eq_ok.1 h0
        obtain ⟨i0, -, h0⟩ := bind_eq_ok.1 h0
        obtain ⟨i1, -, h0⟩ := bind_eq_ok.1 h0
        injection h0 with h0
        exact ⟨ops.unpad z i0 i1, by rw [← h0]; rfl⟩
    · intro p hp
      have hm : p.n ∈ P'.map fun q => q.n := List.mem_map_of_mem hp
      rw [(List.cons.inj hl).2, List.mem_flatMap] at hm
      obtain ⟨q, hq, hm⟩ := hm
      have hqn : q.n ≠ [] := by
        unfold labels at hq
        rcases List.mem_append.1 hq with hq | hq
        · obtain ⟨_, -, rfl⟩ := List.mem_map.1 hq
          simp
        · obtain ⟨_, -, hq⟩ := List.mem_flatMap.1 hq
          obtain ⟨_, -, rfl⟩ := List.mem_map.1 hq
          simp
      unfold fmtLabels at hm
      split at hm
      · rw [List.mem_singleton] at hm
        rw [hm]
        exact hqn
      · obtain ⟨_, -, hm⟩ := List.mem_map.1 hm
        rw [← hm]
        simp
      · cases hm

noncomputable def pathTimes (c : ℝ) (p : JPath (List ℝ) (Img ℝ)) : JPath (List ℝ) (Img ℝ) :=
  { p with coef := p.coef.times (factor c p.n) }

theorem unassembled_scale (o : JObj (List ℝ)) (c : ℝ) (x : List ℝ) {P : List (JPath (List ℝ) (Img ℝ))}
    (h : unassembled npJ npFrontJ o x = .ok P) :
    unassembled npJ npFrontJ o (x.map (c * ·)) = .ok (P.map (pathTimes c)) := by
  obtain ⟨P', hP', hPP⟩ := sim_unassembled (scaleFrontJ c) (objJ_refl (S := scaleRelJ c) (fun _ => rfl)
    (fun _ => trivial) o) (x := x) rfl P h
  have hPP : List.Forall₂ (fun p q => q = pathTimes c p) P P' := hPP.imp fun p q hpq => by
    obtain ⟨hc, h1, h2, h3, h4, h5⟩ := hpq
    have hfac : ampl c (if p.n = [] then 0 else 2) = factor c p.n := by
      unfold factor
      split
      · rfl
      · rfl
    obtain ⟨pc, pj, pn, po, pf, pn1⟩ := p
    obtain ⟨qc, qj, qn, qo, qf, qn1⟩ := q
    simp only at h1 h2 h3 h4 h5 hfac
    subst h1 h2 h3 h4 h5
    unfold pathTimes
    congr 1
    cases pc with
    | sig r =>
      cases qc with
      | sig r' =>
        have hc : r' = List.map (fun v : ℝ => ampl c (if pn = [] then 0 else 2) * v) r := hc
        rw [hc, hfac]
        rfl
      | stk X => exact hc.elim
    | stk X =>
      cases qc with
      | sig r' => exact hc.elim
      | stk X' =>
        have hc : X' = Img.map (fun v : ℝ => ampl c (if pn = [] then 0 else 2) * v) X := hc
        rw [hc, hfac]
        rfl
  rw [hP', forall₂_eq_map hPP]

theorem stackEq_map {α β : Type} [DecidableEq β] (size : α → β) (f : α → α) (hf : ∀ a, size (f a) = size a)
    {l r : List α} (h : stackEq size l = .ok r) : stackEq size (l.map f) = .ok (r.map f) := by
  cases l with
  | nil => cases h
  | cons a l =>
    unfold stackEq at h ⊢
    simp only at h
    split at h
    · rename_i hall
      injection h with h
      subst h
      show (if ((a :: l).map f).all (fun b => size b == size (f a)) = true then _ else _) = _
      have : ((a :: l).map f).all (fun b => size b == size (f a)) = true := by
        rw [List.all_map, hf]
        rw [← hall]
        congr 1
        funext b
        simp [hf]
      exact if_pos this
    · cases h

/-- Replacing the values of a dictionary by functions of their keys commutes with insertion. -/
theorem dictInsertI_map {α β : Type} (g : List Int → α → β) (d : List (List Int × α)) (k : List Int) (v : α) :
    dictInsertI (d.map fun e => (e.1, g e.1 e.2)) k (g k v) =
      (dictInsertI d k v).map fun e => (e.1, g e.1 e.2) := by
  unfold dictInsertI
  have : (d.map fun e => (e.1, g e.1 e.2)).any (fun e => e.1 == k) = d.any fun e => e.1 == k := by
    rw [List.any_map]; rfl
  rw [this]
  split
  · rw [List.map_map, List.map_map]
    refine List.map_congr_left fun e _ => ?_
    simp only [Function.comp_apply]
    split <;> rfl
  · rw [List.map_append]
    rfl

theorem dict_foldl_map {α β : Type} (g : List Int → α → β) (l : List (List Int × α)) (d : List (List Int × α)) :
    l.foldl (fun d e => dictInsertI d e.1 (g e.1 e.2)) (d.map fun e => (e.1, g e.1 e.2)) =
      (l.foldl (fun d e => dictInsertI d e.1 e.2) d).map fun e => (e.1, g e.1 e.2) := by
  induction l generalizing d with
  | nil => rfl
  | cons e l ih =>
    rw [List.foldl_cons, List.foldl_cons, dictInsertI_map, ih]

/-- **C81.** If `TimeFrequencyScattering(...)(x)` returns, then for every real `c` the scattering of `c x`
returns: the zeroth order is multiplied by `c`, the others by `|c|`, whatever the output type, format and
averaging. -/
theorem C81_homogeneous (a : JArgs) (c : ℝ) (x : List ℝ) (w : JOut (List ℝ) (Img ℝ)) (h : a.run x = .ok w) :
    a.run (x.map (c * ·)) = .ok (w.times c) := by
  obtain ⟨s, hmake, h'⟩ := bind_eq_ok.1 h
  obtain ⟨⟨Q1, Q2⟩, hQ, -⟩ := bind_eq_ok.1 h'
  obtain ⟨P, hP, hw⟩ := (run_eq_unassembled hmake hQ).1 h
  refine (run_eq_unassembled hmake hQ).2 ⟨_, unassembled_scale _ c x hP, ?_⟩
  obtain ⟨hchk, hst⟩ := stages_of_unassembled hP
  obtain ⟨p0, P', rfl, hn0, ⟨r0, hr0⟩, hn⟩ := stages_head hst
  generalize a.obj s Q1.toNat = o at hw hchk
  have htail : ∀ p ∈ P', pathTimes c p = { p with coef := p.coef.times |c| } := fun p hp => by
    unfold pathTimes factor
    rw [if_neg (hn p hp)]
  unfold assemble at hw ⊢
  split at hw
  · obtain ⟨rows, hrows, hw⟩ := bind_eq_ok.1 hw
    injection hw with hw
    subst hw
    refine bind_eq_ok.2 ⟨rows.map (Img.map (|c| * ·)), ?_, rfl⟩
    have hs : stks ((p0 :: P').map (pathTimes c)).tail = (stks P').map (Img.map (|c| * ·)) := by
      show stks (P'.map (pathTimes c)) = _
      unfold stks
      rw [List.filterMap_map, List.map_filterMap]
      refine List.filterMap_congr fun p hp => ?_
      simp only [Function.comp_apply, htail p hp]
      cases p.coef <;> rfl
    rw [hs]
    exact stackEq_map npFrontJ.sizeS (Img.map (|c| * ·)) (fun _ => rfl) hrows
  · obtain ⟨rows, hrows, hw⟩ := bind_eq_ok.1 hw
    injection hw with hw
    subst hw
    have hrows' := (stackEq_eq_ok hrows).1
    have hsig : sigs (p0 :: P') = r0 :: sigs P' := by
      unfold sigs
      rw [List.filterMap_cons, hr0]
    have hs : sigs ((p0 :: P').map (pathTimes c)) = r0.map (c * ·) :: (sigs P').map (List.map (|c| * ·)) := by
      have h0 : (pathTimes c p0).coef = .sig (r0.map (c * ·)) := by
        unfold pathTimes factor
        rw [if_pos hn0, hr0]
        rfl
      unfold sigs
      rw [List.map_cons, List.filterMap_cons, h0]
      simp only
      rw [List.filterMap_map, List.map_filterMap]
      congr 1
      refine List.filterMap_congr fun p hp => ?_
      simp only [Function.comp_apply, htail p hp]
      cases p.coef <;> rfl
    have hsz : ∀ b ∈ sigs P', b.length = r0.length := by
      intro b hb
      have := (stackEq_eq_ok hrows).2.2
      exact this b (by rw [hsig]; simp [hb]) r0 (by rw [hsig]; simp)
    rw [hrows', hsig]
    refine bind_eq_ok.2 ⟨r0.map (c * ·) :: (sigs P').map (List.map (|c| * ·)), ?_, rfl⟩
    rw [hs]
    unfold stackEq
    refine if_pos ?_
    rw [List.all_eq_true]
    intro b hb
    rw [beq_iff_eq]
    show b.length = (r0.map (c * ·)).length
    rw [List.length_map]
    rcases List.mem_cons.1 hb with rfl | hb
    · rw [List.length_map]
    · obtain ⟨b', hb', rfl⟩ := List.mem_map.1 hb
      rw [List.length_map]
      exact hsz b' hb'
  · injection hw with hw
    subst hw
    show Except.ok (JOut.dict _) = Except.ok (JOut.dict _)
    congr 2
    have h1 : ∀ (l : List (JPath (List ℝ) (Img ℝ))) (d : List (List Int × JCoef (List ℝ) (Img ℝ))),
        l.foldl (fun d p => dictInsertI d p.n p.coef) d =
          (l.map fun p => (p.n, p.coef)).foldl (fun d e => dictInsertI d e.1 e.2) d := fun l d => by
      rw [List.foldl_map]
    have h2 := dict_foldl_map (fun n v => JCoef.times (factor c n) v) ((p0 :: P').map fun p => (p.n, p.coef)) []
    rw [h1 (p0 :: P'), ← h2, List.foldl_map, List.foldl_map]
    rfl
  · injection hw with hw
    subst hw
    rfl

/-- **C81.** Above order zero, the sign of the signal does not matter. -/
theorem C81_sign (a : JArgs) (x : List ℝ) (w : JOut (List ℝ) (Img ℝ)) (h : a.run x = .ok w) :
    a.run (x.map fun v => -v) = .ok (w.times (-1)) := by
  have := C81_homogeneous a (-1) x w h
  rwa [show (fun v : ℝ => -1 * v) = fun v => -v from funext fun v => by ring] at this

/-- All the entries of a coefficient vanish. -/
def JCoef.Vanishes : JCoef (List ℝ) (Img ℝ) → Prop
  | .sig r => ∀ v ∈ r, v = 0
  | .stk X => ∀ i < X.h, ∀ j < X.w, X.px i j = 0

/-- All the entries of an output vanish. -/
def JOut.Vanishes : JOut (List ℝ) (Img ℝ) → Prop
  | .arrayJoint rows => ∀ X ∈ rows, ∀ i < X.h, ∀ j < X.w, X.px i j = 0
  | .arrayTime rows => ∀ r ∈ rows, ∀ v ∈ r, v = 0
  | .list P => ∀ p ∈ P, p.coef.Vanishes
  | .dict d => ∀ e ∈ d, e.2.Vanishes

theorem JCoef.times_zero_vanishes (k : JCoef (List ℝ) (Img ℝ)) : (k.times 0).Vanishes := by
  cases k with
  | sig r =>
    intro v hv
    obtain ⟨_, -, rfl⟩ := List.mem_map.1 hv
    exact zero_mul _
  | stk X =>
    intro i hi j hj
    show (X.map (0 * ·)).px i j = 0
    rw [Img.px_map _ X hi hj]
    exact zero_mul _

theorem factor_zero (n : List Int) : factor 0 n = 0 := by
  unfold factor
  split <;> simp

theorem JOut.times_zero_vanishes (w : JOut (List ℝ) (Img ℝ)) : (w.times 0).Vanishes := by
  cases w with
  | arrayJoint rows =>
    intro X hX
    obtain ⟨Y, -, rfl⟩ := List.mem_map.1 hX
    have := JCoef.times_zero_vanishes (.stk Y)
    rw [abs_zero]
    exact this
  | arrayTime rows =>
    cases rows with
    | nil => intro r hr; cases hr
    | cons r rows =>
      intro q hq
      rcases List.mem_cons.1 hq with rfl | hq
      · exact JCoef.times_zero_vanishes (.sig r)
      · obtain ⟨y, -, rfl⟩ := List.mem_map.1 hq
        rw [abs_zero]
        exact JCoef.times_zero_vanishes (.sig y)
  | list P =>
    intro p hp
    obtain ⟨q, -, rfl⟩ := List.mem_map.1 hp
    simp only [factor_zero]
    exact JCoef.times_zero_vanishes _
  | dict d =>
    intro e he
    obtain ⟨q, -, rfl⟩ := List.mem_map.1 he
    simp only [factor_zero]
    exact JCoef.times_zero_vanishes _

/-- **C81.** The zero signal has zero coefficients. -/
theorem C81_zero (a : JArgs) (N : Nat) (w : JOut (List ℝ) (Img ℝ)) (h : a.run (List.replicate N 0) = .ok w) :
    w.Vanishes := by
  have h2 := C81_homogeneous a 0 _ w h
  rw [show (List.replicate N (0 : ℝ)).map ((0 : ℝ) * ·) = List.replicate N 0 by simp, h] at h2
  rw [Except.ok.inj h2]
  exact JOut.times_zero_vanishes w

/-- `J=5, J_fr=2, Q=8` on 1000 samples, every output type and format: the signal `x` and its opposite. -/
example (o : OutType) (ho : o ≠ .other) (f : Format) (hf : f ≠ .other) (x : List ℝ) (hx : x.length = 1000) :
    ∃ w, (⟨5, 2, .int 8, .int (1000 : ℕ), .none, none, .int 1, .none, none, o, f⟩ : JArgs).run x = .ok w ∧
      (⟨5, 2, .int 8, .int (1000 : ℕ), .none, none, .int 1, .none, none, o, f⟩ : JArgs).run (x.map fun v => -v) =
        .ok (w.times (-1)) := by
  obtain ⟨w, hw⟩ := C76_defaults 5 2 1000 8 1 (by norm_num) (by norm_num) (by norm_num) o ho f hf x hx
  exact ⟨w, hw, C81_sign _ x w hw⟩

end Verif
