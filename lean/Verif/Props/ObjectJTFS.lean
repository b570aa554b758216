import Verif.Lemmas.FitsJTFS

/-!
# `TimeFrequencyScattering` objects: closed form and absence of errors

C72, C76 of `properties.jsonl`.
-/

namespace Verif

open JTFS FrontJ

/-! ## Filters of a constructed object -/

/-- The temporal wavelets: impulse response and exponent of the sampling step. -/
noncomputable def timeWavelets (N J Q : Nat) : List Spec.Wavelet :=
  (anden J Q).map fun p => (waveletResponse N p, (getMaxDyadicSubsampling p.1 p.2 5).toNat)

/-- The frequential filters: the low-pass of support `2^J_fr`, the wavelets, their mirror images. -/
noncomputable def freqWavelets (N Jfr Qfr : Nat) : List Spec.Wavelet :=
  (lowpassResponse N (2 ^ Jfr), Jfr) ::
    (spin anden Jfr Qfr).map fun p => (waveletResponse N p, (getMaxDyadicSubsampling p.1 p.2 5).toNat)

/-- The filter read from its stored table. -/
noncomputable def storedWavelet (f : FiltFr (List ℝ)) : Spec.Wavelet := (Spec.impulseR (f.levels.headD []), f.j)

theorem realises_map {N J Q : Nat} {M lT : ℤ} {psi : List FiltX}
    (h : List.Forall₂ (fun p f => makePsi false N 5 M lT p = .ok f) (anden J Q) psi) :
    List.Forall₂ Realises (psi.map FiltX.toFilt) (timeWavelets N J Q) := by
  unfold timeWavelets
  rw [List.forall₂_map_left_iff, List.forall₂_map_right_iff]
  have h' := h.flip
  refine h'.imp fun f p hpf => ?_
  obtain ⟨-, -, e3, e4⟩ := makePsi_fields hpf
  exact ⟨by rw [← e3]; rfl, _, ⟨_, e4⟩, rfl⟩

/-- The tables of a constructed object hold the filters of the library. -/
theorem make_realises {a : JArgs} {s : ScJ} (hmake : a.make = .ok s) {Q1 Q2 q : Int}
    (hQ : parseQ a.Q = .ok (Q1, Q2)) (hq : parseQfr a.Qfr = .ok q) {t F : Rat} {av avF : Average}
    (hT : parseT a.T a.J s.base.built.Ninput = .ok (t, av))
    (hF : parseT a.F a.Jfr ((a.J + 1) * Q1.toNat) = .ok (F, avF)) :
    let o := a.obj s Q1.toNat
    let N := s.base.built.Npadded
    Realises o.phi (lowpassResponse N t, o.phi.j) ∧
    List.Forall₂ Realises o.psi1 (timeWavelets N a.J Q1.toNat) ∧
    List.Forall₂ Realises o.psi2 (timeWavelets N a.J Q2.toNat) ∧
    RealisesPhi o.phiFr (lowpassResponse s.nFr F) ∧
    (∀ f ∈ o.psisFr, RealisesFr f (storedWavelet f)) ∧
    List.Forall₂ (fun f w => storedWavelet f = w) o.psisFr (freqWavelets s.nFr a.Jfr q.toNat) := by
  obtain ⟨Q', q', F', hbase, hQ', hq', hF', -, -, hfr⟩ := JArgs.make_eq_ok hmake
  rw [hQ] at hQ'
  injection hQ' with hQ'
  subst hQ'
  rw [hq] at hq'
  injection hq' with hq'
  subst hq'
  rw [hF] at hF'
  injection hF' with hF'
  subst hF'
  obtain ⟨t', R1, R2, lT, M1, M2, hR1, hR2, ht, hT', hR, hfl, h1, h2, hM1, hM2, hlv, hphij, -⟩ :=
    make_filters hbase
  change parseT a.T a.J s.base.built.Ninput = _ at hT'
  rw [hT] at hT'
  injection hT' with hT'
  injection hT' with e1 e2
  subst e1
  have hR : parseQ a.Q = .ok ((R1 : Int), (R2 : Int)) := hR
  rw [hQ] at hR
  injection hR with hR
  injection hR with e3 e4
  subst e3 e4
  have hF1 := parseT_ge_one hF
  have hF0 : (0 : ℝ) < 0.1 / F := by
    have : (0 : ℝ) < F := by exact_mod_cast (by linarith : (0 : ℚ) < F)
    positivity
  obtain ⟨phi1, psis, M, hr, hlv0, hj0, hpsi, hlv1, hx1, hj1, -⟩ := createFiltersFr_eq_ok hfr
  have hr : s.psisFr = phi1 :: psis := hr
  have hhead : ∀ (h : List ℝ) (b : ℤ) (lv : List (List ℝ)), makeLevels false h b = .ok lv →
      lv.headD [] = h := by
    intro h b lv hlv
    have := makeLevels_zero hlv
    cases lv with
    | nil => simp at this
    | cons c l => simpa using this
  have hstored : ∀ f ∈ s.psisFr, ∃ h b, makeLevels false h b = .ok f.levels := by
    intro f hf
    rw [hr] at hf
    rcases List.mem_cons.1 hf with rfl | hf
    · exact ⟨_, _, hlv1⟩
    · obtain ⟨p, hp, hpf⟩ := forall₂_mem_right hpsi hf
      exact ⟨_, _, (makePsi_fields hpf).2.2.2⟩
  simp only
  refine ⟨⟨rfl, _, ⟨_, hlv⟩, rfl⟩, realises_map h1, realises_map h2,
    ⟨_, length_morlet1d hF0, ⟨_, hlv0⟩, rfl⟩, ?_, ?_⟩
  · intro f hf
    obtain ⟨g, hg, rfl⟩ := List.mem_map.1 hf
    obtain ⟨h, b, hb⟩ := hstored g hg
    refine ⟨rfl, h, ⟨b, hb⟩, ?_⟩
    show Spec.impulseR (g.levels.headD []) = _
    rw [hhead h b _ hb]
  · show List.Forall₂ _ (s.psisFr.map FiltX.toFiltFr) _
    rw [hr, List.map_cons]
    refine .cons ?_ ?_
    · show (Spec.impulseR (phi1.levels.headD []), phi1.j.toNat) = _
      rw [hhead _ _ _ hlv1, hj1, floorLog2_twoPow, Int.toNat_natCast]
      rfl
    · rw [List.forall₂_map_left_iff, List.forall₂_map_right_iff]
      refine hpsi.flip.imp fun f p hpf => ?_
      obtain ⟨-, -, e3, e4⟩ := makePsi_fields hpf
      show (Spec.impulseR (f.levels.headD []), f.j.toNat) = _
      rw [hhead _ _ _ e4, e3]
      rfl

/-! ## C72 for constructed objects -/

/-- The closed form of a path before temporal unpadding: `X` is the padded signal; `φ`, `φFr` are the
low-pass filters; `W1`, `W2`, `WFr` the wavelets. -/
def ClosedJ (o : JObj (List ℝ)) (X : List ℝ) (φ φFr : ℤ → ℂ) (W1 W2 WFr : List Spec.Wavelet) (ls lsFr : Nat)
    (q : JPath (List ℝ) (Img ℝ)) : Prop :=
  (q.n = [] ∧ ∃ z, q.coef = .sig z ∧
    match o.average with
    | .loc => z.length * 2 ^ ls = X.length ∧ ∀ t, t < z.length → z.getD t 0 = Spec.S0 X φ ls t
    | .glob => z = [X.sum]
    | .no => z = X) ∨
  (∃ (i : ℕ) (psi : FiltFr (List ℝ)) (w : Spec.Wavelet), o.psisFr[i]? = some psi ∧ WFr[i]? = some w ∧
    psi.j = w.2 ∧ 0 ≤ psi.spin ∧
    Entry o.fmt (decide (o.outType = .array)) [(i : ℤ)] W1.length
      (freqStride o.averageFr psi.spin psi.j W1.length lsFr)
      (freqRows o.averageFr psi.spin o.phiFr.N (if o.averageFr = .loc then min psi.j lsFr else psi.j) lsFr)
      (timeCols o.average false (X.length / 2 ^ ls) X.length ls)
      (firstRows o X W1 φ φFr w.1 ls lsFr psi) q) ∨
  (∃ (n2 i : ℕ) (w2 : Spec.Wavelet) (psi : FiltFr (List ℝ)) (w : Spec.Wavelet), W2[n2]? = some w2 ∧
    o.psisFr[i]? = some psi ∧ WFr[i]? = some w ∧ psi.j = w.2 ∧ below W1 w2.2 ≠ [] ∧
    (o.average = .loc → w2.2 ≤ ls) ∧
    Entry o.fmt (decide (o.outType = .array)) [(n2 : ℤ), (i : ℤ)] (below W1 w2.2).length
      (freqStride o.averageFr psi.spin psi.j (below W1 w2.2).length lsFr)
      (freqRows o.averageFr psi.spin o.phiFr.N (if o.averageFr = .loc then min psi.j lsFr else psi.j) lsFr)
      (timeCols o.average true (X.length / 2 ^ w2.2) X.length ls)
      (secondRows o X W1 φ φFr w2.1 w.1 ls lsFr w2.2 psi) q)

/-- In a constructed bank the filters of nonnegative spin come first. -/
theorem upward_get {a : JArgs} {s : ScJ} (hmake : a.make = .ok s) {Q1 : Nat} {i : Nat} {psi : FiltFr (List ℝ)}
    (h : (upward (a.obj s Q1).psisFr)[i]? = some psi) : (a.obj s Q1).psisFr[i]? = some psi ∧ 0 ≤ psi.spin := by
  obtain ⟨low, pos, neg, hb, h0, hp, hn, -⟩ := C32_bank hmake Q1
  have hu : upward (a.obj s Q1).psisFr = low :: pos := by
    unfold upward
    rw [hb, List.filter_append, List.filter_eq_self.2, List.filter_eq_nil_iff.2, List.append_nil]
    · intro f hf
      simp [hn f hf]
    · intro f hf
      rcases List.mem_cons.1 hf with rfl | hf
      · simp [h0]
      · simp [hp f hf]
  have hmem := List.mem_of_getElem? h
  rw [hu] at h
  refine ⟨?_, of_decide_eq_true (List.mem_filter.1 hmem).2⟩
  rw [hb, List.getElem?_append_left (List.getElem?_eq_some_iff.1 h).1]
  exact h

theorem paths_closedJ {a : JArgs} {s : ScJ} (hmake : a.make = .ok s) {Q1 Q2 q : Int}
    (hQ : parseQ a.Q = .ok (Q1, Q2)) (hq : parseQfr a.Qfr = .ok q) {t F : Rat} {av avF : Average}
    (hT : parseT a.T a.J s.base.built.Ninput = .ok (t, av))
    (hF : parseT a.F a.Jfr ((a.J + 1) * Q1.toNat) = .ok (F, avF)) {ls lsFr : Nat} {X : List ℝ}
    {out : List (JPath (List ℝ) (Img ℝ))} (h : paths npJ (a.obj s Q1.toNat) ls lsFr X = .ok out)
    {p : JPath (List ℝ) (Img ℝ)} (hp : p ∈ out) :
    ClosedJ (a.obj s Q1.toNat) X (lowpassResponse s.base.built.Npadded t) (lowpassResponse s.nFr F)
      (timeWavelets s.base.built.Npadded a.J Q1.toNat) (timeWavelets s.base.built.Npadded a.J Q2.toNat)
      (freqWavelets s.nFr a.Jfr q.toNat) ls lsFr p := by
  obtain ⟨r1, r2, r3, r4, r5, r6⟩ := make_realises hmake hQ hq hT hF
  have hget : ∀ (i : Nat) (psi : FiltFr (List ℝ)), (a.obj s Q1.toNat).psisFr[i]? = some psi →
      (freqWavelets s.nFr a.Jfr q.toNat)[i]? = some (storedWavelet psi) := by
    intro i psi hi
    obtain ⟨w, hw, hpw⟩ := forall₂_get' r6 hi
    rw [hw, hpw]
  rcases C72_closed_form r1 r2 r3 r4 r5 h hp with h1 | ⟨i, psi, h1, h2⟩ | ⟨n2, i, w2, psi, h1, h2, h3, h4, h5⟩
  · exact .inl h1
  · obtain ⟨g1, g2⟩ := upward_get hmake h1
    exact .inr (.inl ⟨i, psi, _, g1, hget i psi g1, rfl, g2, h2⟩)
  · exact .inr (.inr ⟨n2, i, w2, psi, _, h1, h2, hget i psi h2, rfl, h3, h4, h5⟩)

/-- **C72** for a constructed object: when the transform of `x` runs, every path of the output is the
temporal crop of a path in closed form, for the signal padded by reflection and the filters of the
library. -/
theorem C72_object {a : JArgs} {s : ScJ} (hmake : a.make = .ok s) {Q1 Q2 q : Int}
    (hQ : parseQ a.Q = .ok (Q1, Q2)) (hQ12 : Q2 ≤ Q1) (hq : parseQfr a.Qfr = .ok q) {t F : Rat} {av avF : Average}
    (hT : parseT a.T a.J s.base.built.Ninput = .ok (t, av))
    (hF : parseT a.F a.Jfr ((a.J + 1) * Q1.toNat) = .ok (F, avF)) {ls lsFr : Int} {x : List ℝ}
    (hx : x.length = s.base.built.Ninput) {P : List (JPath (List ℝ) (Img ℝ))}
    (hst : Stages npJ npFrontJ (a.obj s Q1.toNat) x P) (hls : (a.obj s Q1.toNat).log2Stride = .ok ls)
    (hlsFr : (a.obj s Q1.toNat).log2StrideFr = .ok lsFr) {p : JPath (List ℝ) (Img ℝ)} (hp : p ∈ P) :
    ∃ X p0, Spec.IsPadded x s.base.built.padLeft s.base.built.Npadded X ∧
      ClosedJ (a.obj s Q1.toNat) X (lowpassResponse s.base.built.Npadded t) (lowpassResponse s.nFr F)
        (timeWavelets s.base.built.Npadded a.J Q1.toNat) (timeWavelets s.base.built.Npadded a.J Q2.toNat)
        (freqWavelets s.nFr a.Jfr q.toNat) ls.toNat lsFr.toNat p0 ∧
      p.n = p0.n ∧ p.j = p0.j ∧ (av = .glob → p.coef = p0.coef) ∧
      (av ≠ .glob → ∃ res : Nat, resolution (a.obj s Q1.toNat) ls.toNat p0 = .ok res ∧
        p.coef = unpadCoef npFrontJ ((s.base.built.padLeft + (2 ^ res - 1)) / 2 ^ res)
          ((s.base.built.padLeft + s.base.built.Ninput + (2 ^ res - 1)) / 2 ^ res) p0.coef) := by
  obtain ⟨U0, ls', lsFr', S, h1, h2, h3, h4, h5⟩ := hst
  rw [hls] at h2
  injection h2 with h2
  subst h2
  rw [hlsFr] at h3
  injection h3 with h3
  subst h3
  obtain ⟨_, _, _, hbase, -⟩ := JArgs.make_eq_ok hmake
  obtain ⟨t', lT, hT', -, -, -, -, -, -, -, -, hpad, hi0, hi1⟩ := base_facts hbase hQ hQ12
  have hT' : parseT a.T a.J s.base.built.Ninput = .ok (t', s.base.average) := hT'
  rw [hT] at hT'
  injection hT' with hT'
  injection hT' with e1 e2
  obtain ⟨U, hU, hUl⟩ := hpad x hx
  have hU0 : npPad x s.base.built.padLeft s.base.built.padRight = .ok U0 := h1
  have hUU : U = U0 := by rw [hU0] at hU; injection hU with hU; exact hU.symm
  obtain ⟨p0, hp0, hpp⟩ := forall₂_mem_right (mapM_eq_ok.1 h5) hp
  have hl := length_npPad hU0
  refine ⟨U0, p0, ?_, paths_closedJ hmake hQ hq hT hF h4 hp0, ?_⟩
  · have := padded_of_npPad hU0
    rw [← hl, ← hUU, hUl, hUU] at this
    exact this
  obtain ⟨c, hc⟩ := post_eq_ok hpp
  refine ⟨by rw [hc], by rw [hc], ?_, ?_⟩
  · intro hg
    unfold post at hpp
    rw [if_pos (show (a.obj s Q1.toNat).average = .glob from e2.symm.trans hg)] at hpp
    injection hpp with hpp
    rw [hpp]
  · intro hg
    unfold post at hpp
    rw [if_neg (show ¬ (a.obj s Q1.toNat).average = .glob from fun h => hg (e2.trans h))] at hpp
    obtain ⟨res, g1, hpp⟩ := bind_eq_ok.1 hpp
    obtain ⟨i0, g2, hpp⟩ := bind_eq_ok.1 hpp
    obtain ⟨i1, g3, hpp⟩ := bind_eq_ok.1 hpp
    injection hpp with hpp
    have g2 : dictGet s.base.built.indStart res = .ok i0 := g2
    have g3 : dictGet s.base.built.indEnd res = .ok i1 := g3
    rw [hi0] at g2
    rw [hi1] at g3
    rw [dictGet_eq_ok, borderDict_get] at g2 g3
    split at g2
    · rename_i hle
      rw [if_pos hle] at g3
      injection g2 with g2
      injection g3 with g3
      exact ⟨res, g1, by rw [← hpp, g2, g3]⟩
    · cases g2

/-! ## C76: absence of errors -/

/-- The `j` of a path. -/
theorem paths_j {B : JBackend} {o : JObj B.F} {ls lsFr : Nat} {U0 : B.R} {out : List (JPath B.R B.RS)}
    (h : paths B o ls lsFr U0 = .ok out) {q : JPath B.R B.RS} (hq : q ∈ out) :
    (q.n = [] ∧ q.j = []) ∨ q.j = [-1] ∨ ∃ f ∈ o.psi2, q.j = [-1, (f.j : Int)] := by
  unfold paths at h
  obtain ⟨g, hg, h⟩ := bind_eq_ok.1 h
  obtain ⟨z, l, -, hl, rfl⟩ := averageAndFormat_eq_ok B h
  rcases List.mem_cons.1 hq with rfl | hq
  · exact .inl ⟨rfl, rfl⟩
  right
  obtain ⟨r, hr, hqr⟩ := List.mem_flatten.1 hq
  obtain ⟨p, hp, hpr⟩ := forall₂_mem_right (mapM_eq_ok.1 hl) hr
  obtain ⟨_, _, S, S', _, _, _, _, _, h6⟩ := averageBody_eq_ok B hpr
  have hj : q.j = p.j := by
    unfold formatPath at h6
    cases hf : o.fmt with
    | joint =>
      rw [hf] at h6
      injection h6 with h6
      subst h6
      rw [List.mem_singleton] at hqr
      rw [hqr]
    | other =>
      rw [hf] at h6
      injection h6 with h6
      subst h6
      cases hqr
    | time =>
      rw [hf] at h6
      obtain ⟨l', -, hfl⟩ := timeFormatting_eq_ok B h6
      obtain ⟨x, -, c, -, rfl⟩ := forall₂_mem_right hfl hqr
      rfl
  rw [hj]
  have hlab : label p ∈ labels o.psi1 o.psi2 o.psisFr := by
    rw [← joint_labels B hg]; exact List.mem_map_of_mem hp
  unfold labels at hlab
  rcases List.mem_append.1 hlab with hlab | hlab
  · obtain ⟨x, -, hx⟩ := List.mem_map.1 hlab
    exact .inl (congrArg Label.j hx).symm
  · obtain ⟨y, hy, hlab⟩ := List.mem_flatMap.1 hlab
    obtain ⟨x, -, hx⟩ := List.mem_map.1 hlab
    obtain ⟨r, hr, rfl⟩ := List.mem_map.1 hy
    have hmem := (List.mem_filter.1 hr).1
    refine .inr ⟨r.1, ?_, (congrArg Label.j hx).symm⟩
    exact List.mem_of_getElem? (List.mem_zipIdx_iff_getElem?.1 hmem)

/-- Temporal unpadding finds its borders. -/
theorem post_ok {o : JObj (List ℝ)} {ls K l r : Nat} (h0 : o.indStart = borderDict K l)
    (h1 : o.indEnd = borderDict K r) (hls : ls ≤ K) {q : JPath (List ℝ) (Img ℝ)}
    (hj : ∀ j, q.j.getLast? = some j → j.toNat ≤ K) (hne : q.n.length > 1 → q.j ≠ []) :
    ∃ q', post npFrontJ o ls q = .ok q' := by
  unfold post
  split
  · exact ⟨_, rfl⟩
  · have hres : ∃ res, resolution o ls q = .ok res ∧ res ≤ K := by
      unfold resolution
      split
      · split
        · exact ⟨0, rfl, Nat.zero_le _⟩
        · exact ⟨ls, rfl, hls⟩
      · split
        · rename_i hc
          cases hg : q.j.getLast? with
          | none => exact absurd (List.getLast?_eq_none_iff.1 hg) (hne hc.2)
          | some j => exact ⟨_, rfl, hj j hg⟩
        · exact ⟨ls, rfl, hls⟩
    obtain ⟨res, hr, hle⟩ := hres
    have g : ∀ i, dictGet (borderDict K i) res = .ok ((i + (2 ^ res - 1)) / 2 ^ res) := fun i =>
      dictGet_eq_ok.2 (by rw [borderDict_get, if_pos hle])
    exact ⟨_, bind_eq_ok.2 ⟨res, hr, bind_eq_ok.2 ⟨_, by rw [h0]; exact g l, bind_eq_ok.2 ⟨_, by rw [h1]; exact g r, rfl⟩⟩⟩⟩

theorem stackEq_ok {α β : Type} [DecidableEq β] {size : α → β} {l : List α} {b : β} (hne : l ≠ [])
    (h : ∀ x ∈ l, size x = b) : stackEq size l = .ok l := by
  cases l with
  | nil => exact absurd rfl hne
  | cons a l =>
    unfold stackEq
    simp only
    rw [if_pos]
    rw [List.all_eq_true]
    intro c hc
    rw [beq_iff_eq, h c hc, h a (by simp)]

/-- The size of a coefficient. -/
def coefSize : JCoef (List ℝ) (Img ℝ) → Nat × Nat
  | .sig r => (1, r.length)
  | .stk X => (X.h, X.w)

/-- Unpadding with the same borders keeps equal sizes equal. -/
theorem coefSize_unpad (i0 i1 : Nat) (c : JCoef (List ℝ) (Img ℝ)) :
    coefSize (unpadCoef npFrontJ i0 i1 c) = ((coefSize c).1, min i1 (coefSize c).2 - i0) := by
  cases c with
  | sig r =>
    show (1, ((r.take i1).drop i0).length) = _
    rw [List.length_drop, List.length_take]
    rfl
  | stk X => rfl

theorem coefKind_unpad (i0 i1 : Nat) (c : JCoef (List ℝ) (Img ℝ)) :
    ((∃ r, c = .sig r) → ∃ r, unpadCoef npFrontJ i0 i1 c = .sig r) ∧
      ((∃ X, c = .stk X) → ∃ X, unpadCoef npFrontJ i0 i1 c = .stk X) := by
  refine ⟨?_, ?_⟩
  · rintro ⟨r, rfl⟩; exact ⟨_, rfl⟩
  · rintro ⟨X, rfl⟩; exact ⟨_, rfl⟩

/-- In a constructed bank only the low-pass has spin 0, and its scale is `J_fr`. -/
theorem spin_zero_j {a : JArgs} {s : ScJ} (hmake : a.make = .ok s) {Q1 : Nat} {psi : FiltFr (List ℝ)}
    (hpsi : psi ∈ (a.obj s Q1).psisFr) (hsp : psi.spin = 0) : psi.j = a.Jfr := by
  obtain ⟨f, hf', rfl⟩ := List.mem_map.1 hpsi
  obtain ⟨Qx, qx, Fx, -, -, hqx, -, -, -, hfr⟩ := JArgs.make_eq_ok hmake
  obtain ⟨phi1, psis, M, hr, -, -, hpsi', -, hx1, hj1, -⟩ := createFiltersFr_eq_ok hfr
  have hr : s.psisFr = phi1 :: psis := hr
  rw [hr] at hf'
  have hqx1 := parseQfr_pos hqx
  rcases List.mem_cons.1 hf' with rfl | hf'
  · rw [floorLog2_twoPow] at hj1
    have : (FiltX.toFiltFr f).j = a.Jfr := by
      show f.j.toNat = a.Jfr
      rw [hj1]; simp
    exact this
  · exfalso
    obtain ⟨p', hp', hpf'⟩ := forall₂_mem_right hpsi' hf'
    obtain ⟨q', hq', e1, -, -⟩ := mem_spin hp'
    have hpos := (anden_pos (by omega : 1 ≤ qx.toNat) hq').1
    have hxi := (makePsi_fields hpf').1
    have hs0 : SignType.sign f.xi = 0 := by
      change ((SignType.sign f.xi : SignType) : ℤ) = 0 at hsp
      cases hs : SignType.sign f.xi with
      | zero => rfl
      | pos => rw [hs] at hsp; simp at hsp
      | neg => rw [hs] at hsp; simp at hsp
    rw [sign_eq_zero_iff] at hs0
    rw [← hxi, hs0, abs_zero] at e1
    rw [abs_of_pos hpos] at e1
    linarith

/-- **C76, construction.** The constructor succeeds for an integer or one-element `shape` of at least one
sample, `Q1 ≥ Q2 ≥ 1`, admissible `T`, `Q_fr` and `F`, `2^J` at most the padded length and `F < 2^(J_fr + 1)`. -/
theorem C76_construction (a : JArgs) (N : Nat) (hshape : parseShape a.shape = .ok N) (hN : 1 ≤ N)
    (t : Rat) (av : Average) (hT : parseT a.T a.J N = .ok (t, av)) (Q1 Q2 : Int)
    (hQ : parseQ a.Q = .ok (Q1, Q2)) (hQ12 : Q2 ≤ Q1) (hJ : a.J ≤ jPad N (minToPad N t))
    (q : Int) (hq : parseQfr a.Qfr = .ok q) (F : Rat) (avF : Average)
    (hF : parseT a.F a.Jfr ((a.J + 1) * Q1.toNat) = .ok (F, avF)) (hFJ : floorLog2 F ≤ a.Jfr) :
    ∃ s, a.make = .ok s ∧ s.base.built.Ninput = N ∧ s.base.average = av ∧ s.averageFr = avF ∧
      s.base.built.stride = a.stride := by
  obtain ⟨b, hb, hbN, hbav, hbs⟩ :=
    C17_construction a.base N hshape hN t av hT Q1 Q2 hQ hQ12 hJ (Or.inl rfl)
  have hq1 := parseQfr_pos hq
  obtain ⟨r, hr⟩ := createFiltersFr_ok (N := nPaddedFr a.Jfr ((a.J + 1) * Q1.toNat) F) (Jfr := a.Jfr)
    (Qfr := q.toNat) (F := F) (nPaddedFr_dvd _ _ _) (by omega) (parseT_ge_one hF) hFJ
  exact ⟨⟨b, r.1, r.2, _, avF⟩, bind_eq_ok.2 ⟨b, hb, bind_eq_ok.2 ⟨_, hQ, bind_eq_ok.2 ⟨q, hq, bind_eq_ok.2 ⟨_, hF,
    bind_eq_ok.2 ⟨r, hr, rfl⟩⟩⟩⟩⟩, hbN, hbav, rfl, hbs⟩

/-- The run of a constructed object up to the assembly of the output. -/
theorem run_stages {a : JArgs} {s : ScJ} (hmake : a.make = .ok s) {Q1 Q2 : Int} (hQ : parseQ a.Q = .ok (Q1, Q2))
    (hQ12 : Q2 ≤ Q1) {ls lsFr : Nat} (hls : (a.obj s Q1.toNat).log2Stride = .ok (ls : ℤ))
    (hlsT : ∀ lT : ℤ, log2T a.T a.J s.base.built.Ninput = .ok lT → (ls : ℤ) ≤ lT)
    (hlsJ : s.base.average = .loc → ∀ f ∈ s.base.psi2, ∀ g ∈ s.base.psi1, g.j < f.j → f.j ≤ ls)
    {F : Rat} {avF : Average} (hF : parseT a.F a.Jfr ((a.J + 1) * Q1.toNat) = .ok (F, avF))
    (hF8 : (2 : Rat) ^ a.Jfr ≤ 8 * F) (hlsFr : (a.obj s Q1.toNat).log2StrideFr = .ok (lsFr : ℤ))
    (hlF : avF = .loc → (lsFr : ℤ) = floorLog2 F) {x : List ℝ} (hx : x.length = s.base.built.Ninput) :
    ∃ P, Stages npJ npFrontJ (a.obj s Q1.toNat) x P := by
  have hfit := make_fits hmake hQ hQ12 hls hlsT hlsJ hF hF8 hlF
  obtain ⟨_, _, _, hbase, -⟩ := JArgs.make_eq_ok hmake
  obtain ⟨t, lT, -, hlT, -, -, -, -, -, -, f2, hpad, hi0, hi1⟩ := base_facts hbase hQ hQ12
  obtain ⟨U, hU, hUl⟩ := hpad x hx
  obtain ⟨S, hS⟩ := paths_ok hfit hUl
  have hle : ls ≤ lT := by have := hlsT _ hlT; omega
  have hpost : ∀ q ∈ S, ∃ q', post npFrontJ (a.obj s Q1.toNat) ls q = .ok q' := by
    intro q hq
    have hj := paths_j (B := npJ) hS hq
    refine post_ok hi0 hi1 (by omega) ?_ ?_
    · intro j hjl
      rcases hj with ⟨-, h⟩ | h | ⟨f, hf, h⟩
      · rw [h] at hjl; cases hjl
      · rw [h] at hjl
        injection hjl with hjl
        rw [← hjl]
        exact Nat.zero_le _
      · rw [h] at hjl
        injection hjl with hjl
        obtain ⟨g, hg, rfl⟩ := List.mem_map.1 hf
        have h2 := (f2 g hg).2.2.1
        change g.j ≤ max ((a.J : ℤ) - 1) 0 at h2
        rw [← hjl]
        change ((g.j.toNat : ℕ) : ℤ).toNat ≤ max lT a.J
        omega
    · intro hn
      rcases hj with ⟨h, -⟩ | h | ⟨f, hf, h⟩
      · rw [h] at hn; simp at hn
      · rw [h]; simp
      · rw [h]; simp
  obtain ⟨P, hP⟩ := mapM_ok_of_forall hpost
  exact ⟨P, U, ls, lsFr, S, hU, hls, hlsFr, hS, hP⟩

/-- **C76.** Let `TimeFrequencyScattering` be called with an integer or one-element `shape` of at least one
sample, `Q1 ≥ Q2 ≥ 1`, an admissible `T`, `2^J` not above the padded length, `2^ls` the temporal stride
(not above `T`, and at least `2^(J-1)` when averaging is local: automatic for `T=None` and no stride), an
admissible `Q_fr`, `F` with `2^J_fr ≤ 8 F`, `F < 2^(J_fr + 1)` (automatic for `F` None, 'global' or 0), no
`stride_fr`, and a valid format.  Then the constructor succeeds and the transform of every signal of that
length returns, for `out_type` 'list' and 'dict', and for 'array' if averaging is on in time and, with
format 'joint', local in frequency. -/
theorem C76_no_error (a : JArgs) (N : Nat) (hshape : parseShape a.shape = .ok N) (hN : 1 ≤ N)
    (t : Rat) (av : Average) (hT : parseT a.T a.J N = .ok (t, av)) (Q1 Q2 : Int)
    (hQ : parseQ a.Q = .ok (Q1, Q2)) (hQ12 : Q2 ≤ Q1) (hJ : a.J ≤ jPad N (minToPad N t))
    (ls : Nat) (hls : log2Stride a.stride a.T a.J N = .ok (ls : ℤ)) (hlst : (2 : Rat) ^ ls ≤ t)
    (hlsJ : av = .loc → a.J ≤ ls + 1)
    (q : Int) (hq : parseQfr a.Qfr = .ok q) (F : Rat) (avF : Average)
    (hF : parseT a.F a.Jfr ((a.J + 1) * Q1.toNat) = .ok (F, avF)) (hF8 : (2 : Rat) ^ a.Jfr ≤ 8 * F)
    (hFJ : F < 2 ^ (a.Jfr + 1)) (hstrideFr : a.strideFr = none) (hfmt : a.fmt = .time ∨ a.fmt = .joint)
    (hout : a.outType = .list ∨ a.outType = .dict ∨ (a.outType = .array ∧ av ≠ .no ∧
      (a.fmt = .time ∨ avF = .loc))) :
    ∃ s, a.make = .ok s ∧ s.base.built.Ninput = N ∧ s.base.average = av ∧ s.averageFr = avF ∧
      ∀ x : List ℝ, x.length = N → ∃ r, a.run x = .ok r := by
  obtain ⟨kF, hkF, hkF1, hkF2⟩ := C06_log2_T a.F a.Jfr ((a.J + 1) * Q1.toNat) _ hF
  have hflF : floorLog2 F = (kF : ℤ) := by
    unfold log2T at hkF
    rw [hF] at hkF
    injection hkF
  have hkJ : kF ≤ a.Jfr := by
    have := lt_of_le_of_lt hkF1 hFJ
    have := (pow_lt_pow_iff_right₀ (by norm_num : (1 : Rat) < 2)).1 this
    omega
  obtain ⟨s, hmake, hNi, hav, havF, hst⟩ := C76_construction a N hshape hN t av hT Q1 Q2 hQ hQ12 hJ q hq F avF hF
    (by omega)
  refine ⟨s, hmake, hNi, hav, havF, fun x hx => ?_⟩
  subst hNi
  obtain ⟨k, hk, hk1, hk2⟩ := C06_log2_T a.T a.J s.base.built.Ninput _ hT
  have hlo : (a.obj s Q1.toNat).log2Stride = .ok (ls : ℤ) := by
    show log2Stride s.base.built.stride a.T a.J s.base.built.Ninput = _
    rw [hst]; exact hls
  have hlF : (a.obj s Q1.toNat).log2StrideFr = .ok (kF : ℤ) := by
    show log2Stride a.strideFr a.F a.Jfr _ = _
    rw [hstrideFr]; exact hkF
  have hlsk : (ls : ℤ) ≤ k := by
    have := lt_of_le_of_lt hlst hk2
    have := (pow_lt_pow_iff_right₀ (by norm_num : (1 : Rat) < 2)).1 this
    omega
  have hj2 : a.J ≤ ls + 1 → ∀ f ∈ s.base.psi2, ∀ g ∈ s.base.psi1, g.j < f.j → f.j ≤ ls := by
    intro hle f hf g hg hlt
    obtain ⟨_, _, _, hbase, -⟩ := JArgs.make_eq_ok hmake
    obtain ⟨_, _, -, -, -, -, -, -, -, f1, f2, -⟩ := base_facts hbase hQ hQ12
    have h2 := (f2 f hf).2.2.1
    have h1 := (f1 g hg).2.2.1
    change f.j ≤ max ((a.J : ℤ) - 1) 0 at h2
    omega
  obtain ⟨P, hP⟩ := run_stages hmake hQ hQ12 hlo
    (fun lT h => by rw [hk] at h; injection h with h; omega) (fun h => hj2 (hlsJ (hav.symm.trans h))) hF hF8 hlF
    (fun _ => hflF.symm) hx
  have hcheck : checkRuntimeArgs (a.obj s Q1.toNat) = .ok () := by
    unfold checkRuntimeArgs
    rw [if_neg, if_neg, if_neg, if_neg]
    · show ¬ a.fmt = .other
      rcases hfmt with h | h <;> rw [h] <;> simp
    · rintro ⟨h1, h2, h3⟩
      have h1 : a.fmt = .joint := h1
      have h2 : s.averageFr = .no := h2
      have h3 : a.outType = .array := h3
      rcases hout with h | h | ⟨-, -, h | h⟩
      · rw [h] at h3; cases h3
      · rw [h] at h3; cases h3
      · rw [h] at h1; cases h1
      · rw [havF, h] at h2; cases h2
    · rintro ⟨h1, h2⟩
      have h1 : s.base.average = .no := h1
      have h2 : a.outType = .array := h2
      rcases hout with h | h | ⟨-, h, -⟩
      · rw [h] at h2; cases h2
      · rw [h] at h2; cases h2
      · exact h (hav.symm.trans h1)
    · show ¬ a.outType = .other
      rcases hout with h | h | ⟨h, -⟩ <;> rw [h] <;> simp
  have hasm : ∃ r, assemble npFrontJ (a.obj s Q1.toNat) P = .ok r := by
    rcases hout with h | h | ⟨h, hno, hcase⟩
    · refine ⟨.list P, ?_⟩
      unfold assemble
      rw [show (a.obj s Q1.toNat).outType = .list from h]
    · unfold assemble
      rw [show (a.obj s Q1.toNat).outType = .dict from h]
      exact ⟨_, rfl⟩
    · -- sizes
      obtain ⟨U0, ls', lsFr', S, g1, g2, g3, g4, g5⟩ := hP
      rw [hlo] at g2
      injection g2 with g2
      subst g2
      rw [hlF] at g3
      injection g3 with g3
      subst g3
      simp only [Int.toNat_natCast] at g4 g5
      obtain ⟨b0, c0, hB⟩ : ∃ b0 c0 : Nat, ∀ p ∈ S, coefSize p.coef = (if p.n = [] ∨ a.fmt = .time then 1 else b0, c0) ∧
          (p.n = [] ∨ a.fmt = .time → ∃ r, p.coef = .sig r) ∧ (p.n ≠ [] ∧ a.fmt = .joint → ∃ X, p.coef = .stk X) := by
        refine ⟨s.nFr / 2 ^ kF, if av = .glob then 1 else U0.length / 2 ^ ls, fun p hp => ?_⟩
        have hcl := paths_closedJ hmake hQ hq hT hF g4 hp
        have havo : (a.obj s Q1.toNat).average = av := hav
        have havFo : (a.obj s Q1.toNat).averageFr = avF := havF
        have hfo : (a.obj s Q1.toNat).fmt = a.fmt := rfl
        have hoo : (a.obj s Q1.toNat).outType = .array := h
        have hcols : ∀ b T, (b = true ∨ T = U0.length / 2 ^ ls) → timeCols av b T U0.length ls =
            if av = .glob then 1 else U0.length / 2 ^ ls := by
          intro b T hbT
          cases av with
          | no => exact absurd rfl hno
          | glob => rfl
          | loc =>
            cases b with
            | true => rfl
            | false =>
              rcases hbT with hb | hb
              · cases hb
              · exact hb
        have hent : ∀ (n : List Int) (n1 s' H T : Nat) (B : ℕ → ℕ → ℝ), n ≠ [] →
            (a.fmt = .joint → H = s.nFr / 2 ^ kF) →
            Entry a.fmt true n n1 s' H T B p →
            coefSize p.coef = (if p.n = [] ∨ a.fmt = .time then 1 else s.nFr / 2 ^ kF, T) ∧
            (p.n = [] ∨ a.fmt = .time → ∃ r, p.coef = .sig r) ∧
            (p.n ≠ [] ∧ a.fmt = .joint → ∃ X, p.coef = .stk X) := by
          intro n n1 s' H T B hn hH hE
          rcases hfmt with hf | hf
          · rw [hf] at hE
            obtain ⟨i, -, -, -, y, hy, hyl, -⟩ := hE
            rw [hf, hy]
            exact ⟨by simp [coefSize, hyl], fun _ => ⟨y, rfl⟩, fun hh => by cases hh.2⟩
          · have hH := hH hf
            rw [hf] at hE
            obtain ⟨hpn, X, hX, hI⟩ := hE
            have hpn' : ¬ p.n = [] := by rw [hpn]; exact hn
            obtain ⟨hXh, hXw, -⟩ := hI
            rw [hf, hX]
            refine ⟨?_, fun hh => ?_, fun _ => ⟨X, rfl⟩⟩
            · have e : (if p.n = [] ∨ Format.joint = Format.time then 1 else s.nFr / 2 ^ kF) = s.nFr / 2 ^ kF :=
                if_neg (by rintro (hh | hh); exacts [hpn' hh, by cases hh])
              rw [e]
              show (X.h, X.w) = _
              rw [hXh, hXw, ← hH]
              rfl
            · rcases hh with hh | hh
              · exact absurd hh hpn'
              · cases hh
        have hrows : ∀ psi : FiltFr (List ℝ), psi ∈ (a.obj s Q1.toNat).psisFr → a.fmt = .joint →
            freqRows avF psi.spin s.nFr (if avF = .loc then min psi.j kF else psi.j) kF = s.nFr / 2 ^ kF := by
          intro psi hpsi hj
          rcases hcase with hf | hf
          · rw [hf] at hj; cases hj
          unfold freqRows
          rw [hf]
          simp only [reduceCtorEq, false_or, if_true, if_false]
          split
          · rename_i hsp
            rw [spin_zero_j hmake hpsi hsp, Nat.min_eq_right hkJ]
          · rfl
        rcases hcl with ⟨hn, z, hz, hzz⟩ | ⟨i, psi, w, h1, -, -, -, hE⟩ | ⟨n2, i, w2, psi, w, -, h1, -, -, -, -, hE⟩
        · rw [havo] at hzz
          have hzl : z.length = if av = .glob then 1 else U0.length / 2 ^ ls := by
            cases av with
            | no => exact absurd rfl hno
            | glob => simp only at hzz; rw [hzz]; rfl
            | loc => simp only at hzz; rw [if_neg (by simp), ← length_div_of_mul hzz.1]
          rw [hz]
          refine ⟨?_, fun _ => ⟨z, rfl⟩, fun hh => absurd hn hh.1⟩
          rw [if_pos (.inl hn), ← hzl]
          rfl
        · rw [havo, havFo, hoo, hcols false _ (.inr rfl)] at hE
          exact hent _ _ _ _ _ _ (by simp) (fun hj => hrows psi (List.mem_of_getElem? h1) hj) hE
        · rw [havo, havFo, hoo, hcols true _ (.inl rfl)] at hE
          exact hent _ _ _ _ _ _ (by simp) (fun hj => hrows psi (List.mem_of_getElem? h1) hj) hE
      obtain ⟨c1, hB'⟩ : ∃ c1 : Nat, ∀ p ∈ P, coefSize p.coef = (if p.n = [] ∨ a.fmt = .time then 1 else b0, c1) ∧
          (p.n = [] ∨ a.fmt = .time → ∃ r, p.coef = .sig r) ∧ (p.n ≠ [] ∧ a.fmt = .joint → ∃ X, p.coef = .stk X) := by
        by_cases hg : (a.obj s Q1.toNat).average = .glob
        · refine ⟨c0, fun p hp => ?_⟩
          obtain ⟨p0, hp0, hpp⟩ := forall₂_mem_right (mapM_eq_ok.1 g5) hp
          unfold post at hpp
          rw [if_pos hg] at hpp
          injection hpp with hpp
          rw [← hpp]
          exact hB p0 hp0
        · have hno' : ¬ (a.obj s Q1.toNat).average = .no := fun hh => hno (hav.symm.trans hh)
          cases hd0 : dictGet (a.obj s Q1.toNat).indStart ls with
          | error e =>
            refine ⟨0, fun p hp => ?_⟩
            obtain ⟨p0, hp0, hpp⟩ := forall₂_mem_right (mapM_eq_ok.1 g5) hp
            unfold post at hpp
            rw [if_neg hg] at hpp
            obtain ⟨res, r1, hpp⟩ := bind_eq_ok.1 hpp
            have : res = ls := by
              unfold resolution at r1
              simp only [hno', if_false, false_and] at r1
              split at r1 <;> (injection r1 with r1; exact r1.symm)
            rw [this, hd0] at hpp
            cases hpp
          | ok i0 =>
            cases hd1 : dictGet (a.obj s Q1.toNat).indEnd ls with
            | error e =>
              refine ⟨0, fun p hp => ?_⟩
              obtain ⟨p0, hp0, hpp⟩ := forall₂_mem_right (mapM_eq_ok.1 g5) hp
              unfold post at hpp
              rw [if_neg hg] at hpp
              obtain ⟨res, r1, hpp⟩ := bind_eq_ok.1 hpp
              have : res = ls := by
                unfold resolution at r1
                simp only [hno', if_false, false_and] at r1
                split at r1 <;> (injection r1 with r1; exact r1.symm)
              rw [this, hd0, hd1] at hpp
              cases hpp
            | ok i1 =>
              refine ⟨min i1 c0 - i0, fun p hp => ?_⟩
              obtain ⟨p0, hp0, hpp⟩ := forall₂_mem_right (mapM_eq_ok.1 g5) hp
              unfold post at hpp
              rw [if_neg hg] at hpp
              obtain ⟨res, r1, hpp⟩ := bind_eq_ok.1 hpp
              have : res = ls := by
                unfold resolution at r1
                simp only [hno', if_false, false_and] at r1
                split at r1 <;> (injection r1 with r1; exact r1.symm)
              rw [this, hd0, hd1] at hpp
              injection hpp with hpp
              rw [← hpp]
              obtain ⟨m1, m2, m3⟩ := hB p0 hp0
              have k1 := coefKind_unpad i0 i1 p0.coef
              refine ⟨?_, fun hh => k1.1 (m2 hh), fun hh => k1.2 (m3 hh)⟩
              show coefSize (unpadCoef npFrontJ i0 i1 p0.coef) = _
              rw [coefSize_unpad, m1]
      have hlab : P.map (fun q => q.n) = pathLabels (a.obj s Q1.toNat) kF := by
        rw [post_labels g5, paths_labels npJ g4]
      rcases hfmt with hf | hf
      · have hall : ∀ y ∈ sigs P, y.length = c1 := by
          intro y hy
          obtain ⟨p, hp, hpy⟩ := List.mem_filterMap.1 hy
          obtain ⟨m1, m2, -⟩ := hB' p hp
          obtain ⟨r, hr⟩ := m2 (.inr hf)
          rw [hr] at hpy m1
          injection hpy with hpy
          rw [← hpy]
          rw [if_pos (.inr hf)] at m1
          exact congrArg Prod.snd m1
        have hne : sigs P ≠ [] := by
          cases P with
          | nil => simp [pathLabels] at hlab
          | cons p P =>
            obtain ⟨r, hr⟩ := (hB' p (by simp)).2.1 (.inr hf)
            unfold sigs
            rw [List.filterMap_cons, hr]
            simp
        refine ⟨.arrayTime (sigs P), ?_⟩
        unfold assemble
        rw [show (a.obj s Q1.toNat).outType = .array from h, show (a.obj s Q1.toNat).fmt = .time from hf]
        exact bind_eq_ok.2 ⟨_, stackEq_ok (b := c1) hne hall, rfl⟩
      · have hnt : ∀ p ∈ P.tail, p.n ≠ [] := by
          intro p hp
          have : p.n ∈ (P.map fun q => q.n).tail := by
            rw [← List.map_tail]; exact List.mem_map_of_mem hp
          rw [hlab] at this
          unfold pathLabels at this
          rw [List.tail_cons, List.mem_flatMap] at this
          obtain ⟨l, hl, hpl⟩ := this
          unfold fmtLabels at hpl
          rw [show (a.obj s Q1.toNat).fmt = .joint from hf] at hpl
          simp only [List.mem_singleton] at hpl
          rw [hpl]
          unfold labels at hl
          rcases List.mem_append.1 hl with hl | hl
          · obtain ⟨_, -, rfl⟩ := List.mem_map.1 hl
            simp
          · obtain ⟨_, -, hl⟩ := List.mem_flatMap.1 hl
            obtain ⟨_, -, rfl⟩ := List.mem_map.1 hl
            simp
        have hall : ∀ X ∈ stks P.tail, (X.h, X.w) = (b0, c1) := by
          intro X hX
          obtain ⟨p, hp, hpX⟩ := List.mem_filterMap.1 hX
          obtain ⟨m1, -, m3⟩ := hB' p (List.mem_of_mem_tail hp)
          have hpn := hnt p hp
          obtain ⟨Y, hY⟩ := m3 ⟨hpn, hf⟩
          rw [hY] at hpX m1
          injection hpX with hpX
          rw [← hpX]
          rw [if_neg (by rintro (hh | hh); exacts [hpn hh, by rw [hf] at hh; cases hh])] at m1
          exact m1
        have hne : stks P.tail ≠ [] := by
          obtain ⟨low, pos, neg, hb, h0, -⟩ := C32_bank hmake Q1.toNat
          have hlen : 1 ≤ (P.map fun q => q.n).tail.length := by
            rw [hlab]
            unfold pathLabels
            rw [List.tail_cons, Nat.one_le_iff_ne_zero, Ne, List.length_eq_zero_iff]
            intro hnil
            rw [List.flatMap_eq_nil_iff] at hnil
            have hmem : (⟨[-1], [0], (a.obj s Q1.toNat).psi1.length, low.j, 0, 2 ^ low.j, low.spin⟩ : Label) ∈
                labels (a.obj s Q1.toNat).psi1 (a.obj s Q1.toNat).psi2 (a.obj s Q1.toNat).psisFr := by
              unfold labels
              refine List.mem_append_left _ ?_
              unfold frLabels
              rw [hb, List.cons_append, List.filter_cons_of_pos (by simp [h0]), List.zipIdx_cons, List.map_cons]
              exact List.mem_cons_self
            have := hnil _ hmem
            unfold fmtLabels at this
            rw [show (a.obj s Q1.toNat).fmt = .joint from hf] at this
            cases this
          cases hPt : P.tail with
          | nil => rw [← List.map_tail, hPt] at hlen; simp at hlen
          | cons p P' =>
            have hp : p ∈ P.tail := by rw [hPt]; simp
            obtain ⟨X, hX⟩ := (hB' p (List.mem_of_mem_tail hp)).2.2 ⟨hnt p hp, hf⟩
            unfold stks
            rw [List.filterMap_cons, hX]
            simp
        refine ⟨.arrayJoint (stks P.tail), ?_⟩
        unfold assemble
        rw [show (a.obj s Q1.toNat).outType = .array from h, show (a.obj s Q1.toNat).fmt = .joint from hf]
        exact bind_eq_ok.2 ⟨_, stackEq_ok (b := (b0, c1)) hne hall, rfl⟩
  obtain ⟨r, hr⟩ := hasm
  obtain ⟨U0, ls', lsFr', S, g1, g2, g3, g4, g5⟩ := hP
  exact ⟨r, bind_eq_ok.2 ⟨s, hmake, bind_eq_ok.2 ⟨_, hQ, bind_eq_ok.2 ⟨(), hcheck, bind_eq_ok.2 ⟨U0, g1,
    bind_eq_ok.2 ⟨ls', g2, bind_eq_ok.2 ⟨lsFr', g3, bind_eq_ok.2 ⟨S, g4, bind_eq_ok.2 ⟨P, g5, hr⟩⟩⟩⟩⟩⟩⟩⟩⟩

/-- **C76.** In particular nothing fails with the default `T`, `stride`, `F` and `stride_fr`, for any `J`
with `2^J ≤ N`, any `J_fr`, any `Q ≥ 1` and `Q_fr ≥ 1`, in both formats and the three output types. -/
theorem C76_defaults (J Jfr N : Nat) (Q q : Int) (hQ : 1 ≤ Q) (hq : 1 ≤ q) (hN : 2 ^ J ≤ N) (o : OutType)
    (ho : o ≠ .other) (f : Format) (hf : f ≠ .other) (x : List ℝ) (hx : x.length = N) :
    ∃ r, (⟨J, Jfr, .int Q, .int N, .none, none, .int q, .none, none, o, f⟩ : JArgs).run x = .ok r := by
  have h1 : 1 ≤ N := le_trans Nat.one_le_two_pow hN
  have hls : log2Stride none .none J N = .ok (J : ℤ) := by
    refine (C07_log2_stride_ok _ _ _ _ _).2 (Or.inl ⟨rfl, ?_⟩)
    show (Except.ok (floorLog2 ((2 : Rat) ^ J)) : Py ℤ) = _
    rw [floorLog2_twoPow]
  have h2 : (1 : Rat) ≤ 2 ^ Jfr := one_le_pow₀ (by norm_num)
  obtain ⟨s, -, -, -, -, h⟩ := C76_no_error
    ⟨J, Jfr, .int Q, .int N, .none, none, .int q, .none, none, o, f⟩ N
    rfl h1 (2 ^ J) .loc rfl Q 1
    (if_neg (by omega : ¬ Q < 1)) hQ (le_jPad_of_pow h1 hN) J hls le_rfl
    (fun _ => by show J ≤ J + 1; omega) q
    (if_neg (by omega : ¬ q < 1)) (2 ^ Jfr) .loc rfl
    (by show (2 : Rat) ^ Jfr ≤ 8 * 2 ^ Jfr; linarith)
    (by show (2 : Rat) ^ Jfr < 2 ^ (Jfr + 1); rw [pow_succ]; linarith) rfl
    (by show f = .time ∨ f = .joint; cases f <;> simp at hf ⊢)
    (by
      show o = .list ∨ o = .dict ∨ (o = .array ∧ _ ∧ (f = .time ∨ _))
      cases o <;> simp at ho ⊢)
  exact h x hx

/-- A concrete object (`J = 3`, `J_fr = 2`, `Q = 8`, 1000 samples): its paths exist, so that `C72_object`
speaks about something, and a first-order path is among them. -/
example (x : List ℝ) (hx : x.length = 1000) : ∃ s P, (⟨3, 2, .int 8, .int 1000, .none, none, .int 1, .none, none,
      .list, .joint⟩ : JArgs).make = .ok s ∧ (⟨3, 2, .int 8, .int 1000, .none, none, .int 1, .none, none,
      .list, .joint⟩ : JArgs).run x = .ok (.list P) ∧ ∃ p ∈ P, p.n = [0] := by
  obtain ⟨r, hr⟩ := C76_defaults 3 2 1000 8 1 (by norm_num) (by norm_num) (by norm_num) .list (by simp) .joint (by simp) x hx
  obtain ⟨s, hs, h⟩ := bind_eq_ok.1 hr
  obtain ⟨Q, hQ, h⟩ := bind_eq_ok.1 h
  obtain ⟨-, P, ⟨U0, ls, lsFr, S, g1, g2, g3, g4, g5⟩, hP⟩ := scattering_eq_ok h
  injection hP with hP
  refine ⟨s, P, hs, by rw [hr, hP], ?_⟩
  have hlab := (post_labels g5).trans (paths_labels npJ g4)
  obtain ⟨low, pos, neg, hb, h0, -⟩ := C32_bank hs Q.1.toNat
  have : [0] ∈ P.map fun q => q.n := by
    rw [hlab]
    unfold pathLabels
    refine List.mem_cons_of_mem _ (List.mem_flatMap.2 ⟨⟨[-1], [0], (s.base.psi1.map FiltX.toFilt).length, low.j, 0, 2 ^ low.j, low.spin⟩, ?_, List.mem_singleton.2 rfl⟩)
    unfold labels
    refine List.mem_append_left _ ?_
    unfold frLabels
    rw [hb, List.cons_append, List.filter_cons_of_pos (by simp [h0]), List.zipIdx_cons, List.map_cons]
    exact List.mem_cons_self
  obtain ⟨p, hp, he⟩ := List.mem_map.1 this
  exact ⟨p, hp, he⟩

end Verif
