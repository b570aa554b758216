import Verif.Props.ObjectJTFS

/-!
# C34, C36, C73, C74: strides, crops and padding of joint time-frequency scattering
-/

namespace Verif

open Finset JTFS FrontJ

/-! ## C34: temporal stride -/

/-- With local averaging, a run that returns has no second-order wavelet with an admissible first-order
wavelet and a scale above the stride: `time_averaging` would have to subsample by `2^(ls - j2) < 1`. -/
theorem scale_le_stride {o : JObj (List ℝ)} {v : Spec.Wavelet} (hv : Realises o.phi v)
    (hloc : o.average = .loc) (hne : o.psisFr ≠ []) {x : List ℝ} {ls lsFr : Nat}
    {out : List (JPath (List ℝ) (Img ℝ))} (h : paths npJ o ls lsFr x = .ok out) :
    ∀ f ∈ o.psi2, ∀ g ∈ o.psi1, g.j < f.j → f.j ≤ ls := by
  intro f hf g hg hlt
  unfold paths at h
  obtain ⟨G, hG, h⟩ := bind_eq_ok.1 h
  obtain ⟨z, l, hz, hl, rfl⟩ := averageAndFormat_eq_ok npJ h
  obtain ⟨n2, hn2⟩ := List.mem_iff_getElem?.1 hf
  obtain ⟨psi, hpsi⟩ := List.exists_mem_of_ne_nil _ hne
  obtain ⟨i, hi⟩ := List.mem_iff_getElem?.1 hpsi
  have hadm : 0 < admissible o.psi1 f.j := by
    unfold admissible
    exact List.length_pos_of_mem (List.mem_filter.2 ⟨hg, by simpa using hlt⟩)
  have hmem : (⟨[-1, (f.j : Int)], [(n2 : Int), (i : Int)], admissible o.psi1 f.j, psi.j, i, 2 ^ psi.j, psi.spin⟩ : Label) ∈
      labels o.psi1 o.psi2 o.psisFr := by
    unfold labels
    refine List.mem_append_right _ (List.mem_flatMap.2 ⟨(f.j, n2, admissible o.psi1 f.j), ?_, ?_⟩)
    · unfold stackLabels
      refine List.mem_map.2 ⟨(f, n2), List.mem_filter.2 ⟨List.mem_zipIdx_iff_getElem?.2 hn2, by simpa using hadm⟩, rfl⟩
    · unfold frLabels
      exact List.mem_map.2 ⟨(psi, i), List.mem_zipIdx_iff_getElem?.2 hi, rfl⟩
  rw [← joint_labels npJ hG] at hmem
  obtain ⟨p, hp, hlab⟩ := List.mem_map.1 hmem
  have hj : p.j = [-1, (f.j : Int)] := congrArg Label.j hlab
  have hn : p.n = [(n2 : Int), (i : Int)] := congrArg Label.n hlab
  obtain ⟨r, hr, hpr⟩ := forall₂_mem_left (mapM_eq_ok.1 hl) hp
  obtain ⟨U, U', S, S', b1, b2, -⟩ := averageBody_eq_ok npJ hpr
  have hU : Is U U.h U.w U.px := ⟨rfl, rfl, fun _ _ _ _ => rfl⟩
  exact (averageTime_second (N := 0) hv hj (by rw [hn]; simp) hU b2).1 hloc

/-- The time axis of every coefficient before unpadding, with local averaging. -/
theorem cols_of_closedJ {o : JObj (List ℝ)} {X : List ℝ} {φ φFr : ℤ → ℂ} {W1 W2 WFr : List Spec.Wavelet}
    {ls lsFr : Nat} {q : JPath (List ℝ) (Img ℝ)} (hloc : o.average = .loc)
    (h : ClosedJ o X φ φFr W1 W2 WFr ls lsFr q) : (coefSize q.coef).2 = X.length / 2 ^ ls := by
  have hent : ∀ (n : List Int) (n1 s' H T : Nat) (B : ℕ → ℕ → ℝ),
      Entry o.fmt (decide (o.outType = .array)) n n1 s' H T B q → (coefSize q.coef).2 = T := by
    intro n n1 s' H T B hE
    unfold Entry at hE
    split at hE
    · obtain ⟨-, Y, hY, hI⟩ := hE
      rw [hY]
      exact hI.2.1
    · obtain ⟨i, -, -, -, y, hy, hyl, -⟩ := hE
      rw [hy]
      exact hyl
    · exact hE.elim
  rcases h with ⟨-, z, hz, hzz⟩ | ⟨i, psi, w, -, -, -, -, hE⟩ | ⟨n2, i, w2, psi, w, -, -, -, -, -, -, hE⟩
  · rw [hloc] at hzz
    rw [hz]
    exact (length_div_of_mul hzz.1).symm
  · rw [hloc] at hE
    exact hent _ _ _ _ _ _ hE
  · rw [hloc] at hE
    exact hent _ _ _ _ _ _ hE

/-- **C34.** With local averaging and any stride `2^ls`: whenever the transform returns, every coefficient,
of every order and in both formats, has its time axis decimated by exactly `2^ls`: as many time samples as
there are multiples of the stride in the original range of the padded signal. -/
theorem C34_decimation_partial {a : JArgs} {s : ScJ} (hmake : a.make = .ok s) {Q1 Q2 : Int}
    (hQ : parseQ a.Q = .ok (Q1, Q2)) (hQ12 : Q2 ≤ Q1) (hav : s.base.average = .loc) {ls : Nat}
    (hls : (a.obj s Q1.toNat).log2Stride = .ok (ls : ℤ)) {x : List ℝ} (hx : x.length = s.base.built.Ninput)
    {P : List (JPath (List ℝ) (Img ℝ))} (hst : Stages npJ npFrontJ (a.obj s Q1.toNat) x P) :
    ∃ L, (∀ p ∈ P, (coefSize p.coef).2 = L) ∧
      L = ((Finset.range s.base.built.Npadded).filter fun i => 2 ^ ls ∣ i ∧ s.base.built.padLeft ≤ i ∧
        i < s.base.built.padLeft + x.length).card ∧
      L * 2 ^ ls < x.length + 2 ^ ls ∧ x.length < L * 2 ^ ls + 2 ^ ls ∧
      (2 ^ ls ∣ x.length → L = x.length / 2 ^ ls) := by
  obtain ⟨U0, ls', lsFr, S, h1, h2, h3, h4, h5⟩ := hst
  rw [hls] at h2
  injection h2 with h2
  subst h2
  rw [Int.toNat_natCast] at h4 h5
  obtain ⟨Q', q, F, hbase, hQ', hq, hF, -⟩ := JArgs.make_eq_ok hmake
  rw [hQ] at hQ'
  injection hQ' with hQ'
  subst hQ'
  obtain ⟨t, lT, hT, -, -, -, -, -, -, -, -, hpad, hi0, hi1⟩ := base_facts hbase hQ hQ12
  have hT : parseT a.T a.J s.base.built.Ninput = .ok (t, s.base.average) := hT
  obtain ⟨U, hU, hUl⟩ := hpad x hx
  have hU0 : npPad x s.base.built.padLeft s.base.built.padRight = .ok U0 := h1
  have hUU : U = U0 := by rw [hU0] at hU; injection hU with hU; exact hU.symm
  subst hUU
  have havo : (a.obj s Q1.toNat).average = .loc := hav
  have hcl : ∀ p ∈ S, (coefSize p.coef).2 = s.base.built.Npadded / 2 ^ ls := by
    intro p hp
    rw [← hUl]
    exact cols_of_closedJ havo (paths_closedJ hmake hQ hq hT hF h4 hp)
  have hdiv : 2 ^ ls ∣ s.base.built.Npadded := by
    have hlab := paths_labels npJ h4
    cases S with
    | nil => simp [pathLabels] at hlab
    | cons p S =>
      unfold pathLabels at hlab
      rw [List.map_cons] at hlab
      injection hlab with hpn
      have hE : ∀ (n : List Int) (n1 s' H T : Nat) (B : ℕ → ℕ → ℝ), n ≠ [] →
          ¬ Entry (a.obj s Q1.toNat).fmt (decide ((a.obj s Q1.toNat).outType = .array)) n n1 s' H T B p := by
        intro n n1 s' H T B hn hE
        unfold Entry at hE
        split at hE
        · exact hn (hE.1.symm.trans hpn)
        · obtain ⟨i, -, -, hc, -⟩ := hE
          rw [hpn] at hc
          cases hc
        · exact hE
      rcases paths_closedJ hmake hQ hq hT hF h4 (List.mem_cons_self) with
        ⟨-, z, hz, hzz⟩ | ⟨i, psi, w, -, -, -, -, h⟩ | ⟨n2, i, w2, psi, w, -, -, -, -, -, -, h⟩
      · rw [havo] at hzz
        rw [← hUl, ← hzz.1]
        exact Dvd.intro_left _ rfl
      · exact absurd h (hE _ _ _ _ _ _ (by simp))
      · exact absurd h (hE _ _ _ _ _ _ (by simp))
  have hres : ∀ p : JPath (List ℝ) (Img ℝ), resolution (a.obj s Q1.toNat) ls p = .ok ls := by
    intro p
    unfold resolution
    rw [havo]
    simp
  have hg : ¬ (a.obj s Q1.toNat).average = .glob := by rw [havo]; simp
  have hpost : ∀ p ∈ P, ∃ p0 ∈ S, ∃ i0 i1, dictGet s.base.built.indStart ls = .ok i0 ∧
      dictGet s.base.built.indEnd ls = .ok i1 ∧ p.coef = unpadCoef npFrontJ i0 i1 p0.coef := by
    intro p hp
    obtain ⟨p0, hp0, hpp⟩ := forall₂_mem_right (mapM_eq_ok.1 h5) hp
    unfold post at hpp
    rw [if_neg hg, hres] at hpp
    obtain ⟨_, e, hpp⟩ := bind_eq_ok.1 hpp
    injection e with e
    subst e
    obtain ⟨i0, g2, hpp⟩ := bind_eq_ok.1 hpp
    obtain ⟨i1, g3, hpp⟩ := bind_eq_ok.1 hpp
    injection hpp with hpp
    exact ⟨p0, hp0, i0, i1, g2, g3, by rw [← hpp]⟩
  have hne : P ≠ [] := by
    intro h
    subst h
    have := (post_labels h5).trans (paths_labels npJ h4)
    simp [pathLabels] at this
  obtain ⟨p, hp⟩ := List.exists_mem_of_ne_nil _ hne
  obtain ⟨-, -, i0, -, g2, -⟩ := hpost p hp
  have hjle : ls ≤ max lT a.J := by
    rw [hi0, dictGet_eq_ok, borderDict_get] at g2
    by_contra hc
    rw [if_neg (show ¬ ls ≤ max lT a.base.J from hc)] at g2
    cases g2
  have hsum : s.base.built.padLeft + s.base.built.Ninput + s.base.built.padRight = s.base.built.Npadded := by
    rw [← hUl, ← hx]
    exact (npPad_length hU0).2.2.symm
  obtain ⟨st, e, hst, he, hse, hle, hcard, hlt1, hlt2, hdv⟩ :=
    C05_unpadded_length lT a.J s.base.built.Ninput s.base.built.padLeft s.base.built.padRight ls hjle
      (by rw [hsum]; exact hdiv)
  rw [hsum] at hcard hle
  rw [hx]
  refine ⟨e - st, ?_, hcard, hlt1, hlt2, hdv⟩
  intro p hp
  obtain ⟨p0, hp0, i0, i1, g2, g3, hc⟩ := hpost p hp
  have e0 : i0 = st := by
    rw [hi0, dictGet_eq_ok] at g2
    have := g2.symm.trans hst
    injection this
  have e1 : i1 = e := by
    rw [hi1, dictGet_eq_ok] at g3
    have := g3.symm.trans he
    injection this
  rw [hc, coefSize_unpad, hcl p0 hp0, e0, e1]
  show min e _ - st = e - st
  rw [min_eq_left hle]

theorem psisFr_ne_nil {a : JArgs} {s : ScJ} (hmake : a.make = .ok s) (Q1 : Nat) : (a.obj s Q1).psisFr ≠ [] := by
  obtain ⟨low, pos, neg, hb, -⟩ := C32_bank hmake Q1
  rw [hb]
  simp

/-- **C34.** With local averaging the transform returns exactly when no second-order wavelet that has an
admissible first-order wavelet has its scale above the stride. -/
theorem C34_returns_iff {a : JArgs} {s : ScJ} (hmake : a.make = .ok s) {Q1 Q2 : Int}
    (hQ : parseQ a.Q = .ok (Q1, Q2)) (hQ12 : Q2 ≤ Q1) (hav : s.base.average = .loc) {ls lsFr : Nat}
    (hls : (a.obj s Q1.toNat).log2Stride = .ok (ls : ℤ)) {t : Rat} {av : Average}
    (hT : parseT a.T a.J s.base.built.Ninput = .ok (t, av)) (hlst : (2 : Rat) ^ ls ≤ t)
    {F : Rat} {avF : Average} (hF : parseT a.F a.Jfr ((a.J + 1) * Q1.toNat) = .ok (F, avF))
    (hF8 : (2 : Rat) ^ a.Jfr ≤ 8 * F) (hlsFr : (a.obj s Q1.toNat).log2StrideFr = .ok (lsFr : ℤ))
    (hlF : avF = .loc → (lsFr : ℤ) = floorLog2 F) {x : List ℝ} (hx : x.length = s.base.built.Ninput) :
    (∃ P, Stages npJ npFrontJ (a.obj s Q1.toNat) x P) ↔
      ∀ f ∈ s.base.psi2, ∀ g ∈ s.base.psi1, g.j < f.j → f.j ≤ ls := by
  obtain ⟨_, q, _, hbase, -, hq, -⟩ := JArgs.make_eq_ok hmake
  constructor
  · rintro ⟨P, U0, ls', lsFr', S, -, h2, -, h4, -⟩ f hf g hg hlt
    rw [hls] at h2
    injection h2 with h2
    subst h2
    rw [Int.toNat_natCast] at h4
    obtain ⟨r1, -⟩ := make_realises hmake hQ hq hT hF
    obtain ⟨_, _, -, -, -, -, -, -, -, f1, f2, -⟩ := base_facts hbase hQ hQ12
    have h0 := (f1 g hg).2.2.1
    have := scale_le_stride r1 hav (psisFr_ne_nil hmake _) h4 f.toFilt (List.mem_map_of_mem hf) g.toFilt
      (List.mem_map_of_mem hg) (by show g.j.toNat < f.j.toNat; omega)
    change f.j.toNat ≤ ls at this
    omega
  · intro h
    refine run_stages hmake hQ hQ12 hls (fun lT hlT => ?_) (fun _ => h) hF hF8 hlsFr hlF hx
    obtain ⟨k, hk, -, hk2⟩ := C06_log2_T a.T a.J s.base.built.Ninput _ hT
    rw [hk] at hlT
    injection hlT with hlT
    have := lt_of_le_of_lt hlst hk2
    have := (pow_lt_pow_iff_right₀ (by norm_num : (1 : Rat) < 2)).1 this
    omega

/-- The first wavelet of a bank that is not too fine has scale zero. -/
theorem scale_zero_mem {J Q : Nat} (hQ : 1 ≤ Q) (h : 10 * Q < 7 * 2 ^ J) :
    ∃ p ∈ anden J Q, getMaxDyadicSubsampling p.1 p.2 5 = 0 := by
  have hQ0 : (0 : ℝ) < Q := by exact_mod_cast (by omega : 0 < Q)
  have hrho : 1 ≤ 5 * Q * rho Q := by
    rcases Nat.lt_or_ge Q 2 with h2 | h2
    · have : Q = 1 := by omega
      subst this
      have := rho_one_ge
      norm_num at this ⊢
      linarith
    · exact (qr_gt_one hQ).le.trans (rho_ge h2)
  have hx := computeXiMax_ge Q
  have hr := rho_pos hQ
  have hh : (10 : ℝ) * Q < 7 * 2 ^ J := by exact_mod_cast h
  have hp : (0 : ℝ) < 2 ^ J := by positivity
  refine ⟨_, geo_mem_anden hQ 0 ?_, ?_⟩
  · rw [pow_zero, div_one, div_lt_iff₀ hp]
    have h1 : 0.35 * rho Q ≤ rho Q * computeXiMax Q := by rw [mul_comm]; gcongr
    have h2 : 0.35 * rho Q * 2 ^ J ≤ rho Q * computeXiMax Q * 2 ^ J := by gcongr
    have h3 : 10 * Q * rho Q < 7 * 2 ^ J * rho Q := by gcongr
    norm_num at h1 h2 ⊢
    nlinarith
  · simp only [pow_zero, div_one]
    have hs : 0 < rho Q * computeXiMax Q := by
      norm_num at hx
      have : 0 < computeXiMax Q := by linarith
      positivity
    have hpos : 0 < |computeXiMax Q| + 5 * (rho Q * computeXiMax Q) := by positivity
    obtain ⟨g1, g2, -, g4⟩ := C26_max_dyadic_subsampling (computeXiMax Q) (rho Q * computeXiMax Q) 5 hpos
    by_contra hne
    have h1 : 1 ≤ getMaxDyadicSubsampling (computeXiMax Q) (rho Q * computeXiMax Q) 5 := by omega
    have h2 : |computeXiMax Q| + 5 * (rho Q * computeXiMax Q) ≤ 1 / 2 := by
      by_contra hc
      exact hne (g4 (not_le.1 hc))
    have h3 := g2 h2
    have h4 : (2 : ℝ) ^ (-(getMaxDyadicSubsampling (computeXiMax Q) (rho Q * computeXiMax Q) 5 + 1)) ≤ 2 ^ (-2 : ℤ) :=
      zpow_le_zpow_right₀ (by norm_num) (by omega)
    have h5 := le_abs_self (computeXiMax Q)
    have h6 : (2 : ℝ) ^ (-2 : ℤ) = 1 / 4 := by norm_num
    rw [h6] at h4
    norm_num at hx
    linarith

/-- With `Q = 1` the scale `J - 2` is attained. -/
theorem scale_attained_one {J : Nat} (hJ : 1 ≤ J) :
    ∃ p ∈ anden J 1, (J : ℤ) - 2 ≤ getMaxDyadicSubsampling p.1 p.2 5 := by
  have hc := (andenGenerator_closed J 1 le_rfl 0.1 (Real.sqrt 0.5) (by norm_num)).2
  simp only [sigmaRatio_lib, qr_one] at hc
  have hr1 := rho_one_ge
  have hx := computeXiMax_ge 1
  have hxp : 0 < computeXiMax 1 := by norm_num at hx; linarith
  have hrp := rho_pos (le_refl 1)
  have hlt : 0.1 / 2 ^ J < rho 1 * computeXiMax 1 := by
    have h2 : (2 : ℝ) ≤ 2 ^ J := by
      calc (2 : ℝ) = 2 ^ 1 := by norm_num
        _ ≤ 2 ^ J := pow_le_pow_right₀ (by norm_num) hJ
    have h3 : (0.1 : ℝ) / 2 ^ J ≤ 0.1 / 2 := by gcongr
    norm_num at hr1 hx h3 ⊢
    nlinarith
  obtain ⟨K, hK, -, heq⟩ := hc hlt
  refine ⟨(computeXiMax 1 / 2 ^ K, rho 1 * computeXiMax 1 / 2 ^ K), ?_, ?_⟩
  · unfold anden
    rw [heq, Option.getD_some]
    exact List.mem_append_left _ (List.mem_map.2 ⟨K, List.mem_range.2 (by omega), rfl⟩)
  · have hsm : (0 : ℝ) < 0.1 / 2 ^ J := by positivity
    have hpos : 0 < |computeXiMax 1 / 2 ^ K| + 5 * (rho 1 * computeXiMax 1 / 2 ^ K) := by positivity
    obtain ⟨-, -, g3, -⟩ := C26_max_dyadic_subsampling _ _ 5 hpos
    by_contra hcon
    push Not at hcon
    have h3 := g3 _ hcon
    have h4 : (2 : ℝ) ^ (-((J : ℤ) - 2 + 1)) = 20 * (0.1 / 2 ^ J) := by
      rw [show -((J : ℤ) - 2 + 1) = 1 + -(J : ℤ) by ring, zpow_add₀ (by norm_num), zpow_neg, zpow_natCast]
      norm_num
      ring
    rw [h4, abs_of_pos (by positivity)] at h3
    set u := computeXiMax 1 / 2 ^ K with hu
    have hu0 : 0 < u := by positivity
    have e : rho 1 * computeXiMax 1 / 2 ^ K = rho 1 * u := by rw [hu]; ring
    rw [e] at h3 hK
    have h6 : 0.39 * u ≤ rho 1 * u := by gcongr
    norm_num at h6 hK h3
    linarith

/-- **C34, violated.** Take local averaging and `10 Q1 < 7 * 2^J`.  If the
stride `2^ls` is below `2^(J-2)` — below `2^(J-1)` is enough if `Q2 ≥ 2` — the constructed object fails on
every signal, although such strides are valid. -/
theorem C34_violated {a : JArgs} {s : ScJ} (hmake : a.make = .ok s) {Q1 Q2 : Int}
    (hQ : parseQ a.Q = .ok (Q1, Q2)) (hav : s.base.average = .loc) {ls : Nat}
    (hls : (a.obj s Q1.toNat).log2Stride = .ok (ls : ℤ)) (hfine : 10 * Q1 < 7 * 2 ^ a.J)
    (hJ : ls + 2 < a.J ∨ (2 ≤ Q2 ∧ ls + 1 < a.J)) (x : List ℝ) (r : JOut (List ℝ) (Img ℝ)) :
    a.run x ≠ .ok r := by
  intro hr
  obtain ⟨s', hs', h⟩ := bind_eq_ok.1 hr
  rw [hmake] at hs'
  injection hs' with hs'
  subst hs'
  obtain ⟨Q', hQ', h⟩ := bind_eq_ok.1 h
  rw [hQ] at hQ'
  injection hQ' with hQ'
  subst hQ'
  obtain ⟨-, P, ⟨U0, ls', lsFr', S, -, h2, -, h4, -⟩, -⟩ := scattering_eq_ok h
  rw [hls] at h2
  injection h2 with h2
  subst h2
  rw [Int.toNat_natCast] at h4
  obtain ⟨Q', q, F, hbase, hQ', hq, hF, -⟩ := JArgs.make_eq_ok hmake
  rw [hQ] at hQ'
  injection hQ' with hQ'
  subst hQ'
  obtain ⟨t, R1, R2, lT, M1, M2, hR1, hR2, ht, hT, hR, hfl, h1, h2, -⟩ := make_filters hbase
  have hT : parseT a.T a.J s.base.built.Ninput = .ok (t, s.base.average) := hT
  have hR : parseQ a.Q = .ok ((R1 : ℤ), (R2 : ℤ)) := hR
  rw [hQ] at hR
  injection hR with hR
  injection hR with e1 e2
  obtain ⟨r1, -⟩ := make_realises hmake hQ hq hT hF
  obtain ⟨p1, hp1, hs1⟩ := scale_zero_mem (J := a.J) hR1 (by
    have : (10 * R1 : ℤ) < 7 * 2 ^ a.J := by rw [← e1]; exact hfine
    exact_mod_cast this)
  obtain ⟨p2, hp2, hs2⟩ : ∃ p ∈ anden a.J R2, (ls : ℤ) + 1 ≤ getMaxDyadicSubsampling p.1 p.2 5 := by
    rcases Nat.lt_or_ge R2 2 with h2 | h2
    · have : R2 = 1 := by omega
      subst this
      obtain ⟨p, hp, hsc⟩ := scale_attained_one (J := a.J) (by omega)
      exact ⟨p, hp, by omega⟩
    · obtain ⟨p, hp, hsc⟩ := scale_attained (J := a.J) h2
      exact ⟨p, hp, by omega⟩
  obtain ⟨g, hg, hpg⟩ := forall₂_mem_left h1 hp1
  obtain ⟨f, hf, hpf⟩ := forall₂_mem_left h2 hp2
  have hgj := (makePsi_fields hpg).2.2.1
  have hfj := (makePsi_fields hpf).2.2.1
  have := scale_le_stride r1 hav (psisFr_ne_nil hmake _) h4 f.toFilt (List.mem_map_of_mem hf) g.toFilt
    (List.mem_map_of_mem hg) (by show g.j.toNat < f.j.toNat; omega)
  change f.j.toNat ≤ ls at this
  omega

/-- `TimeFrequencyScattering(J=5, J_fr=2, Q=8, shape=1000, stride=2)`: constructed, and every call fails.
The largest temporal scale of a second-order wavelet is 3 or 4, and the stride is `2^1`. -/
theorem C34_witness : ∃ s, (⟨5, 2, .int 8, .int 1000, .none, some (.int 2), .int 1, .none, none, .list,
    .joint⟩ : JArgs).make = .ok s ∧ ∀ x r, (⟨5, 2, .int 8, .int 1000, .none, some (.int 2), .int 1, .none, none, .list,
    .joint⟩ : JArgs).run x ≠ .ok r := by
  obtain ⟨s, hmake, hNi, hav, havF, hst⟩ := C76_construction
    ⟨5, 2, .int 8, .int 1000, .none, some (.int 2), .int 1, .none, none, .list, .joint⟩ 1000 rfl (by norm_num)
    (2 ^ 5) .loc rfl 8 1 rfl (by norm_num) (le_jPad_of_pow (by norm_num) (by norm_num)) 1 rfl (2 ^ 2) .loc rfl
    (by rw [floorLog2_twoPow])
  refine ⟨s, hmake, fun x r => C34_violated hmake (Q1 := 8) (Q2 := 1) rfl hav (ls := 1) ?_ (by norm_num)
    (.inl (by norm_num)) x r⟩
  show log2Stride s.base.built.stride .none 5 s.base.built.Ninput = _
  rw [hst, hNi]
  exact (C07_log2_stride_ok _ _ _ _ _).2 (.inr ⟨1, rfl, rfl, 2 ^ 5, rfl⟩)

/-! ## C36: frequential stride -/

/-- The frequential bookkeeping of a path in joint format. -/
theorem joint_entry {o : JObj (List ℝ)} {v : Spec.Wavelet} (hv : Realises o.phi v)
    {W1 W2 : List Spec.Wavelet} (h1 : List.Forall₂ Realises o.psi1 W1) (h2 : List.Forall₂ Realises o.psi2 W2)
    {vFr : ℤ → ℂ} (hvFr : RealisesPhi o.phiFr vFr) {ω : FiltFr (List ℝ) → Spec.Wavelet}
    (hω : ∀ f ∈ o.psisFr, RealisesFr f (ω f)) {x : List ℝ} {ls lsFr : Nat}
    {out : List (JPath (List ℝ) (Img ℝ))} (h : paths npJ o ls lsFr x = .ok out) (hf : o.fmt = .joint)
    {q : JPath (List ℝ) (Img ℝ)} (hq : q ∈ out) (hn : q.n ≠ []) :
    ∃ (psi : FiltFr (List ℝ)) (i n1 : Nat) (X : Img ℝ), (o.psisFr[i]? = some psi ∨ (upward o.psisFr)[i]? = some psi) ∧
      q.n.getLast? = some (i : Int) ∧ q.fr = some (psi.j, i, psi.spin) ∧
      q.n1 = some (n1, freqStride o.averageFr psi.spin psi.j n1 lsFr) ∧ q.coef = .stk X ∧
      2 ^ (if o.averageFr = .loc then min psi.j lsFr else psi.j) ∣ o.phiFr.N ∧
      (o.averageFr = .loc → psi.spin ≠ 0 → 2 ^ lsFr ∣ o.phiFr.N) ∧
      (o.outType = .array → X.h = freqRows o.averageFr psi.spin o.phiFr.N
        (if o.averageFr = .loc then min psi.j lsFr else psi.j) lsFr) ∧
      (o.outType ≠ .array → X.h = min (freqRows o.averageFr psi.spin o.phiFr.N
        (if o.averageFr = .loc then min psi.j lsFr else psi.j) lsFr)
        (1 + n1 / freqStride o.averageFr psi.spin psi.j n1 lsFr)) := by
  unfold paths at h
  obtain ⟨g, hg, h⟩ := bind_eq_ok.1 h
  obtain ⟨z, l, hz, hl, rfl⟩ := averageAndFormat_eq_ok npJ h
  obtain ⟨hz0, hP⟩ := joint_closed hv h1 h2 hω hg
  rcases List.mem_cons.1 hq with rfl | hq
  · exact absurd rfl hn
  obtain ⟨r, hr, hqr⟩ := List.mem_flatten.1 hq
  obtain ⟨p, hp, hpr⟩ := forall₂_mem_right (mapM_eq_ok.1 hl) hr
  obtain ⟨U, U', S, S', b1, b2, b3, -, b5, b6⟩ := averageBody_eq_ok npJ hpr
  have b1 : U = p.coef.map fun z => ‖z‖ := by injection b1 with b1; exact b1.symm
  subst b1
  have key : ∀ (psi : FiltFr (List ℝ)) (H T' : Nat) (B : Nat → Nat → ℝ), (o.psisFr[p.nFr]? = some psi ∨
      (upward o.psisFr)[p.nFr]? = some psi) → p.n.getLast? = some (p.nFr : Int) →
      p.jFr = psi.j → p.spin = psi.spin → p.n1Stride = 2 ^ psi.j →
      H * 2 ^ subFr lsFr (decide (o.averageFr = .loc)) psi.j = o.phiFr.N → Is U' H T' B →
      ∃ (psi : FiltFr (List ℝ)) (i n1 : Nat) (X : Img ℝ), (o.psisFr[i]? = some psi ∨ (upward o.psisFr)[i]? = some psi) ∧
      q.n.getLast? = some (i : Int) ∧ q.fr = some (psi.j, i, psi.spin) ∧
      q.n1 = some (n1, freqStride o.averageFr psi.spin psi.j n1 lsFr) ∧ q.coef = .stk X ∧
      2 ^ (if o.averageFr = .loc then min psi.j lsFr else psi.j) ∣ o.phiFr.N ∧
      (o.averageFr = .loc → psi.spin ≠ 0 → 2 ^ lsFr ∣ o.phiFr.N) ∧
      (o.outType = .array → X.h = freqRows o.averageFr psi.spin o.phiFr.N
        (if o.averageFr = .loc then min psi.j lsFr else psi.j) lsFr) ∧
      (o.outType ≠ .array → X.h = min (freqRows o.averageFr psi.spin o.phiFr.N
        (if o.averageFr = .loc then min psi.j lsFr else psi.j) lsFr)
        (1 + n1 / freqStride o.averageFr psi.spin psi.j n1 lsFr)) := by
    intro psi H T' B hmem hlast c4 c5 c6 c7 hU'
    obtain ⟨d2, d3⟩ := averageFreq_closed hvFr c7 hU' (by rw [c6, c4]) b3
    rw [c4, c5] at d2
    rw [c5] at d3
    rw [hf] at b6
    injection b6 with b6
    rw [← b6, List.mem_singleton] at hqr
    subst hqr
    refine ⟨psi, p.nFr, p.n1Max, S', hmem, hlast, ?_, ?_, rfl, ?_, ?_, ?_, ?_⟩
    · show some (p.jFr, p.nFr, p.spin) = _
      rw [c4, c5]
    · show some (p.n1Max, S.2) = _
      rw [d2]
    · rw [← subFr_eq, ← c7]
      exact Dvd.intro_left _ rfl
    · intro hloc hsp
      unfold averageFreq at b3
      rw [if_pos ⟨by rw [hloc]; simp, by rw [c5]; exact hsp⟩] at b3
      unfold frequencyAveraging at b3
      obtain ⟨UT, hUT, b3⟩ := bind_eq_ok.1 b3
      rw [if_neg (by rw [hloc]; simp)] at b3
      obtain ⟨hh, e1, b3⟩ := bind_eq_ok.1 b3
      obtain ⟨f, e2, b3⟩ := bind_eq_ok.1 b3
      obtain ⟨c, e3, b3⟩ := bind_eq_ok.1 b3
      obtain ⟨s, e4, b3⟩ := bind_eq_ok.1 b3
      obtain ⟨A, e5, b3⟩ := bind_eq_ok.1 b3
      injection e1 with e1
      injection e5 with e5
      subst e1
      have hUT : UT = U'.swap := by injection hUT with hUT; exact hUT.symm
      subst hUT
      obtain ⟨hphi, hN, hfull, -⟩ := hvFr
      have hIs : Is U'.swap U'.swap.h U'.swap.w U'.swap.px := ⟨rfl, rfl, fun _ _ _ _ => rfl⟩
      obtain ⟨g1, g2, g3, -⟩ := smooth_closed hfull (listGet_eq_ok.1 e2) hIs e3 e4 e5.symm
      rw [← hN, ← g2, ← g3, mul_assoc, ← pow_add, Nat.sub_add_cancel g1]
      exact Dvd.intro_left _ rfl
    · intro ho
      unfold unpadFr at b5
      rw [if_neg (by simp [ho, hf])] at b5
      injection b5 with b5
      rw [← b5]
      rw [← subFr_eq]
      exact d3.1
    · intro ho
      unfold unpadFr at b5
      rw [if_pos (by simp [ho])] at b5
      have b5 : unpadFrequencyImg S.1 p.n1Max S.2 = .ok S' := b5
      unfold unpadFrequencyImg at b5
      split at b5
      · cases b5
      · injection b5 with b5
        rw [← b5, ← subFr_eq, ← d2]
        exact congrArg (fun n => min n (1 + p.n1Max / S.2)) d3.1
  rcases hP p hp with ⟨T, hT, hpre⟩ | ⟨n2, w2, T, hw2, hne, hT, hpre⟩
  · obtain ⟨⟨i, psi, c1, c2, c3, c4, c5, c6, H, c7, c8⟩, cj, cn⟩ := hpre
    rw [List.nil_append] at c3
    exact key psi H _ _ (.inr (by rw [c2]; exact c1)) (by rw [c3, c2]; rfl) c4 c5 c6 c7
      (averageTime_first (N := x.length) (k := 0) (φ := v.1) (by rw [c3]; rfl) (c8.map fun z => ‖z‖) b2)
  · obtain ⟨⟨i, psi, c1, c2, c3, c4, c5, c6, H, c7, c8⟩, cj, cn⟩ := hpre
    obtain ⟨d0, d1⟩ := averageTime_second (N := x.length) hv cj (by rw [c3]; simp) (c8.map fun z => ‖z‖) b2
    have hav : decide (o.average = .loc) = true → w2.2 ≤ ls := fun h => d0 (of_decide_eq_true h)
    have hTj : T * 2 ^ w2.2 = x.length := by
      obtain ⟨w, hw⟩ := List.exists_mem_of_ne_nil _ hne
      have hlt : w.2 < w2.2 := of_decide_eq_true (List.mem_filter.1 hw).2
      rw [← hT w hw, (sub_collapse hav hlt).2]
    exact key psi H _ _ (.inl (by rw [c2]; exact c1)) (by rw [c3, c2]; rfl) c4 c5 c6 c7 (d1 hTj)

/-- The same for a constructed object, after temporal unpadding. -/
theorem joint_entry_rows {a : JArgs} {s : ScJ} (hmake : a.make = .ok s) {Q1 Q2 : Int}
    (hQ : parseQ a.Q = .ok (Q1, Q2)) {x : List ℝ} {P : List (JPath (List ℝ) (Img ℝ))}
    (hst : Stages npJ npFrontJ (a.obj s Q1.toNat) x P) {lsFr : Nat}
    (hlsFr : (a.obj s Q1.toNat).log2StrideFr = .ok (lsFr : ℤ)) (hf : a.fmt = .joint)
    {p : JPath (List ℝ) (Img ℝ)} (hp : p ∈ P) (hn : p.n ≠ []) :
    ∃ (psi : FiltFr (List ℝ)) (i n1 : Nat) (X : Img ℝ), (a.obj s Q1.toNat).psisFr[i]? = some psi ∧
      p.n.getLast? = some (i : Int) ∧ p.fr = some (psi.j, i, psi.spin) ∧
      p.n1 = some (n1, freqStride s.averageFr psi.spin psi.j n1 lsFr) ∧ p.coef = .stk X ∧
      2 ^ (if s.averageFr = .loc then min psi.j lsFr else psi.j) ∣ s.nFr ∧
      (s.averageFr = .loc → psi.spin ≠ 0 → 2 ^ lsFr ∣ s.nFr) ∧
      (a.outType = .array → X.h = freqRows s.averageFr psi.spin s.nFr
        (if s.averageFr = .loc then min psi.j lsFr else psi.j) lsFr) ∧
      (a.outType ≠ .array → X.h = min (freqRows s.averageFr psi.spin s.nFr
        (if s.averageFr = .loc then min psi.j lsFr else psi.j) lsFr)
        (1 + n1 / freqStride s.averageFr psi.spin psi.j n1 lsFr)) := by
  obtain ⟨U0, ls, lsFr', S, h1, h2, h3, h4, h5⟩ := hst
  rw [hlsFr] at h3
  injection h3 with h3
  subst h3
  rw [Int.toNat_natCast] at h4
  obtain ⟨Q', q, F, hbase, hQ', hq, hF, -⟩ := JArgs.make_eq_ok hmake
  rw [hQ] at hQ'
  injection hQ' with hQ'
  subst hQ'
  obtain ⟨t, R1, R2, lT, M1, M2, -, -, -, hT, -⟩ := make_filters hbase
  have hT : parseT a.T a.J s.base.built.Ninput = .ok (t, s.base.average) := hT
  obtain ⟨r1, r2, r3, r4, r5, r6⟩ := make_realises hmake hQ hq hT hF
  obtain ⟨p0, hp0, hpp⟩ := forall₂_mem_right (mapM_eq_ok.1 h5) hp
  have hcoef : ∃ c, p = { p0 with coef := c } ∧ ∀ X, p0.coef = .stk X → ∃ Y, c = .stk Y ∧ Y.h = X.h := by
    unfold post at hpp
    split at hpp
    · injection hpp with hpp
      subst hpp
      exact ⟨_, rfl, fun X hX => ⟨X, hX, rfl⟩⟩
    · obtain ⟨res, g1, hpp⟩ := bind_eq_ok.1 hpp
      obtain ⟨i0, g2, hpp⟩ := bind_eq_ok.1 hpp
      obtain ⟨i1, g3, hpp⟩ := bind_eq_ok.1 hpp
      injection hpp with hpp
      subst hpp
      refine ⟨_, rfl, fun X hX => ?_⟩
      rw [hX]
      exact ⟨_, rfl, rfl⟩
  obtain ⟨c, rfl, hc⟩ := hcoef
  obtain ⟨psi, i, n1, X, g1, g2, g3, g4, g5, g6, g7, g8, g9⟩ := joint_entry r1 r2 r3 r4 r5 h4 hf hp0 hn
  obtain ⟨Y, rfl, hY⟩ := hc X g5
  refine ⟨psi, i, n1, Y, ?_, g2, g3, g4, rfl, g6, g7, fun ho => hY.trans (g8 ho), fun ho => hY.trans (g9 ho)⟩
  rcases g1 with g1 | g1
  · exact g1
  · exact (upward_get hmake g1).1

theorem joint_entry_object {a : JArgs} {s : ScJ} (hmake : a.make = .ok s) {Q1 Q2 : Int}
    (hQ : parseQ a.Q = .ok (Q1, Q2)) {x : List ℝ} {P : List (JPath (List ℝ) (Img ℝ))}
    (hst : Stages npJ npFrontJ (a.obj s Q1.toNat) x P) {lsFr : Nat}
    (hlsFr : (a.obj s Q1.toNat).log2StrideFr = .ok (lsFr : ℤ)) (hf : a.fmt = .joint) (ho : a.outType = .array)
    {p : JPath (List ℝ) (Img ℝ)} (hp : p ∈ P) (hn : p.n ≠ []) :
    ∃ (psi : FiltFr (List ℝ)) (i n1 : Nat) (X : Img ℝ), (a.obj s Q1.toNat).psisFr[i]? = some psi ∧
      p.n.getLast? = some (i : Int) ∧ p.fr = some (psi.j, i, psi.spin) ∧
      p.n1 = some (n1, freqStride s.averageFr psi.spin psi.j n1 lsFr) ∧ p.coef = .stk X ∧
      2 ^ (if s.averageFr = .loc then min psi.j lsFr else psi.j) ∣ s.nFr ∧
      (s.averageFr = .loc → psi.spin ≠ 0 → 2 ^ lsFr ∣ s.nFr) ∧
      X.h = freqRows s.averageFr psi.spin s.nFr
        (if s.averageFr = .loc then min psi.j lsFr else psi.j) lsFr := by
  obtain ⟨psi, i, n1, X, g1, g2, g3, g4, g5, g6, g7, g8, -⟩ := joint_entry_rows hmake hQ hst hlsFr hf hp hn
  exact ⟨psi, i, n1, X, g1, g2, g3, g4, g5, g6, g7, g8 ho⟩

/-- The first filters of a constructed bank: the low-pass, then a wavelet of spin 1. -/
theorem bank_head {a : JArgs} {s : ScJ} (hmake : a.make = .ok s) (Q1 : Nat) :
    ∃ low f rest, (a.obj s Q1).psisFr = low :: f :: rest ∧ low.spin = 0 ∧ low.j = a.Jfr ∧ f.spin = 1 := by
  obtain ⟨low, pos, neg, hb, h0, h1, -, hpn⟩ := C32_bank hmake Q1
  have hj : low.j = a.Jfr := spin_zero_j hmake (Q1 := Q1) (by rw [hb]; simp) h0
  have hlen : (a.obj s Q1).psisFr.length = 1 + 2 * pos.length := by
    rw [hb]
    simp [← hpn.length_eq]
    omega
  cases pos with
  | cons f pos => exact ⟨low, f, pos ++ neg, by rw [hb]; rfl, h0, hj, h1 f (by simp)⟩
  | nil =>
    exfalso
    obtain ⟨Q, q, F, -, -, hq, -, -, -, hf⟩ := JArgs.make_eq_ok hmake
    have hq1 := parseQfr_pos hq
    obtain ⟨phi1, pos', neg', hr, -, hl, hl', -⟩ := createFiltersFr_spins (by omega) hf
    have hr : s.psisFr = phi1 :: pos' ++ neg' := hr
    obtain ⟨p, hp⟩ := anden_nonempty (J := a.Jfr) (by omega : 1 ≤ q.toNat)
    have hpos : 0 < (anden a.Jfr q.toNat).length := (List.getElem?_eq_some_iff.1 hp).1
    have : (a.obj s Q1).psisFr.length = s.psisFr.length := List.length_map _
    rw [hlen, hr, List.length_append, List.length_cons, List.length_nil] at this
    omega

/-- In joint format the first two first-order paths exist. -/
theorem joint_first {a : JArgs} {s : ScJ} (hmake : a.make = .ok s) {Q1 : Nat} {x : List ℝ}
    {P : List (JPath (List ℝ) (Img ℝ))} (hst : Stages npJ npFrontJ (a.obj s Q1) x P) (hf : a.fmt = .joint) :
    (∃ p ∈ P.tail, p.n = [0]) ∧ ∃ p ∈ P.tail, p.n = [1] := by
  obtain ⟨U0, ls, lsFr, S, h1, h2, h3, h4, h5⟩ := hst
  have hlab := (post_labels h5).trans (paths_labels npJ h4)
  obtain ⟨low, f, rest, hb, h0, -, hf1⟩ := bank_head hmake Q1
  have hl : (P.map fun q => q.n).tail = (labels (a.obj s Q1).psi1 (a.obj s Q1).psi2 (a.obj s Q1).psisFr).map
      fun l => l.n := by
    rw [hlab]
    unfold pathLabels
    rw [List.tail_cons, show (a.obj s Q1).fmt = .joint from hf, ← flatMap_singleton']
    rfl
  rw [← List.map_tail] at hl
  have key : ∀ n, n ∈ P.tail.map (fun q => q.n) → ∃ p ∈ P.tail, p.n = n := by
    intro n hn
    obtain ⟨p, hp, he⟩ := List.mem_map.1 hn
    exact ⟨p, hp, he⟩
  have hcons : ∃ n1 rest', labels (a.obj s Q1).psi1 (a.obj s Q1).psi2 (a.obj s Q1).psisFr =
      ⟨[-1], [0], n1, low.j, 0, 2 ^ low.j, low.spin⟩ :: ⟨[-1], [1], n1, f.j, 1, 2 ^ f.j, f.spin⟩ :: rest' := by
    unfold labels frLabels
    rw [hb, List.filter_cons_of_pos (by simp [h0]), List.filter_cons_of_pos (by simp [hf1]), List.zipIdx_cons,
      List.zipIdx_cons, List.map_cons, List.map_cons]
    exact ⟨_, _, rfl⟩
  obtain ⟨n1, rest', hcons⟩ := hcons
  rw [hcons] at hl
  exact ⟨key [0] (by rw [hl]; simp), key [1] (by rw [hl]; simp)⟩

/-- **C36.** The rows of a joint array: with local averaging along frequency at a stride `2^lsFr` not above
`2^J_fr`, whenever the coefficients are computed, all of them have `N_padded_fr / 2^lsFr` frequency samples.
(With `lsFr` above `J_fr`, and with `F='global'`, they differ: below.) -/
theorem C36_rows_partial {a : JArgs} {s : ScJ} (hmake : a.make = .ok s) {Q1 Q2 : Int}
    (hQ : parseQ a.Q = .ok (Q1, Q2)) {x : List ℝ} {P : List (JPath (List ℝ) (Img ℝ))}
    (hst : Stages npJ npFrontJ (a.obj s Q1.toNat) x P) {lsFr : Nat}
    (hlsFr : (a.obj s Q1.toNat).log2StrideFr = .ok (lsFr : ℤ)) (hf : a.fmt = .joint) (ho : a.outType = .array)
    (hloc : s.averageFr = .loc) (hle : lsFr ≤ a.Jfr) {p : JPath (List ℝ) (Img ℝ)} (hp : p ∈ P) (hn : p.n ≠ []) :
    ∃ X, p.coef = .stk X ∧ X.h * 2 ^ lsFr = s.nFr := by
  obtain ⟨psi, i, n1, X, g1, g2, g3, g4, g5, g6, g7, g8⟩ := joint_entry_object hmake hQ hst hlsFr hf ho hp hn
  refine ⟨X, g5, ?_⟩
  have hpsi := List.mem_of_getElem? g1
  rw [g8]
  unfold freqRows
  by_cases hsp : psi.spin = 0
  · rw [if_pos (.inr hsp), if_pos hloc]
    rw [if_pos hloc] at g6
    have hj := spin_zero_j hmake hpsi hsp
    rw [hj, min_eq_right hle] at g6 ⊢
    exact Nat.div_mul_cancel g6
  · rw [if_neg (by rw [hloc]; simp [hsp]), if_neg (by rw [hloc]; simp)]
    exact Nat.div_mul_cancel (g7 hloc hsp)

/-- **C36.** The stride a path carries is the decimation applied along the frequency axis (rows times stride
is the padded length), except for the low-pass along frequency when `2^lsFr < 2^J_fr`, and, with
`F='global'`, for the wavelets (a single row). -/
theorem C36_stride_partial {a : JArgs} {s : ScJ} (hmake : a.make = .ok s) {Q1 Q2 : Int}
    (hQ : parseQ a.Q = .ok (Q1, Q2)) {x : List ℝ} {P : List (JPath (List ℝ) (Img ℝ))}
    (hst : Stages npJ npFrontJ (a.obj s Q1.toNat) x P) {lsFr : Nat}
    (hlsFr : (a.obj s Q1.toNat).log2StrideFr = .ok (lsFr : ℤ)) (hf : a.fmt = .joint) (ho : a.outType = .array)
    {p : JPath (List ℝ) (Img ℝ)} (hp : p ∈ P) (hn : p.n ≠ []) :
    ∃ (X : Img ℝ) (n1 stride i : Nat) (spin : ℤ) (jFr : Nat), p.coef = .stk X ∧ p.n1 = some (n1, stride) ∧
      p.fr = some (jFr, i, spin) ∧
      (¬ (s.averageFr = .loc ∧ spin = 0 ∧ lsFr < a.Jfr) → ¬ (s.averageFr = .glob ∧ spin ≠ 0) →
        X.h * stride = s.nFr) ∧
      (s.averageFr = .glob → spin ≠ 0 → X.h = 1 ∧ stride = n1) := by
  obtain ⟨psi, i, n1, X, g1, g2, g3, g4, g5, g6, g7, g8⟩ := joint_entry_object hmake hQ hst hlsFr hf ho hp hn
  have hpsi := List.mem_of_getElem? g1
  refine ⟨X, n1, _, i, psi.spin, psi.j, g5, g4, g3, fun hA hB => ?_, fun hg hsp => ?_⟩
  · rw [g8]
    unfold freqRows freqStride
    by_cases hc : s.averageFr = .no ∨ psi.spin = 0
    · rw [if_pos hc, if_pos hc]
      by_cases hloc : s.averageFr = .loc
      · rw [if_pos hloc] at g6 ⊢
        have hsp : psi.spin = 0 := by
          rcases hc with hc | hc
          · rw [hloc] at hc; cases hc
          · exact hc
        have hj := spin_zero_j hmake hpsi hsp
        have : a.Jfr ≤ lsFr := by
          by_contra hlt
          exact hA ⟨hloc, hsp, by omega⟩
        rw [hj, min_eq_left this] at g6
        rw [hj, min_eq_left this]
        exact Nat.div_mul_cancel g6
      · rw [if_neg hloc] at g6 ⊢
        exact Nat.div_mul_cancel g6
    · rw [if_neg hc, if_neg hc]
      rw [not_or] at hc
      have hng : ¬ s.averageFr = .glob := fun h => hB ⟨h, hc.2⟩
      rw [if_neg hng, if_neg hng]
      refine Nat.div_mul_cancel (g7 ?_ hc.2)
      cases h : s.averageFr with
      | loc => rfl
      | no => exact absurd h hc.1
      | glob => exact absurd h hng
  · have hc : ¬ (s.averageFr = .no ∨ psi.spin = 0) := by
      rw [hg]; simp [hsp]
    rw [g8]
    unfold freqRows freqStride
    rw [if_neg hc, if_neg hc, if_pos hg, if_pos hg]
    exact ⟨rfl, rfl⟩

/-- **C36 is violated** when `2^lsFr < 2^J_fr` with local averaging (for instance `F < 2^J_fr`): the path of
the low-pass along frequency carries the stride `2^J_fr`, but its rows are decimated by `2^lsFr` only. -/
theorem C36_violated_stride {a : JArgs} {s : ScJ} (hmake : a.make = .ok s) {Q1 Q2 : Int}
    (hQ : parseQ a.Q = .ok (Q1, Q2)) {x : List ℝ} {P : List (JPath (List ℝ) (Img ℝ))}
    (hst : Stages npJ npFrontJ (a.obj s Q1.toNat) x P) {lsFr : Nat}
    (hlsFr : (a.obj s Q1.toNat).log2StrideFr = .ok (lsFr : ℤ)) (hf : a.fmt = .joint) (ho : a.outType = .array)
    (hloc : s.averageFr = .loc) (hlt : lsFr < a.Jfr) :
    ∃ p ∈ P, ∃ X n1, p.n = [0] ∧ p.coef = .stk X ∧ p.n1 = some (n1, 2 ^ a.Jfr) ∧ X.h * 2 ^ lsFr = s.nFr ∧
      (0 < s.nFr → X.h * 2 ^ a.Jfr ≠ s.nFr) := by
  obtain ⟨⟨p, hp, hn⟩, -⟩ := joint_first hmake hst hf
  have hp := List.mem_of_mem_tail hp
  obtain ⟨psi, i, n1, X, g1, g2, g3, g4, g5, g6, g7, g8⟩ :=
    joint_entry_object hmake hQ hst hlsFr hf ho hp (by rw [hn]; simp)
  obtain ⟨low, f, rest, hb, h0, hj, hf1⟩ := bank_head hmake Q1.toNat
  rw [hn] at g2
  have hi : i = 0 := by
    have g2 : some (0 : Int) = some (i : Int) := g2
    injection g2 with g2
    omega
  rw [hi, hb] at g1
  injection g1 with g1
  subst g1
  rw [if_pos hloc, hj, min_eq_right hlt.le] at g6
  have hX : X.h * 2 ^ lsFr = s.nFr := by
    rw [g8]
    unfold freqRows
    rw [if_pos (.inr h0), if_pos hloc, hj, min_eq_right hlt.le]
    exact Nat.div_mul_cancel g6
  refine ⟨p, hp, X, n1, hn, g5, ?_, hX, fun h => ?_⟩
  · rw [g4]
    unfold freqStride
    rw [if_pos (.inr h0), hj]
  · rw [← hX]
    have h1 : 0 < X.h := by
      rcases Nat.eq_zero_or_pos X.h with h' | h'
      · rw [h', Nat.zero_mul] at hX; omega
      · exact h'
    have h2 : 2 ^ lsFr < 2 ^ a.Jfr := Nat.pow_lt_pow_right (by norm_num) hlt
    have := Nat.mul_lt_mul_of_pos_left h2 h1
    omega

/-- **C36 is violated** for `F='global'`: a joint array is never returned, since the row of the low-pass
along frequency has at least eight samples and the other rows have one. -/
theorem C36_violated_global (a : JArgs) (hF : a.F = .global) (hf : a.fmt = .joint) (ho : a.outType = .array)
    (x : List ℝ) (r : JOut (List ℝ) (Img ℝ)) : a.run x ≠ .ok r := by
  intro hr
  obtain ⟨s, hmake, h⟩ := bind_eq_ok.1 hr
  obtain ⟨⟨Q1, Q2⟩, hQ, h⟩ := bind_eq_ok.1 h
  obtain ⟨-, P, hst, hasm⟩ := scattering_eq_ok h
  unfold assemble at hasm
  rw [show (a.obj s Q1.toNat).outType = .array from ho, show (a.obj s Q1.toNat).fmt = .joint from hf] at hasm
  obtain ⟨rows, hrows, -⟩ := bind_eq_ok.1 hasm
  obtain ⟨Q', q, F, -, hQ', hq, hF', havF, hnFr, -⟩ := JArgs.make_eq_ok hmake
  rw [hF] at hF'
  injection hF' with hF'
  rw [← hF'] at havF hnFr
  have hlsFr : ∃ lsFr : Nat, (a.obj s Q1.toNat).log2StrideFr = .ok (lsFr : ℤ) := by
    obtain ⟨U0, ls, lsFr, S, h1, h2, h3, h4, h5⟩ := hst
    rcases (C07_log2_stride_ok _ _ _ _ _).1 h3 with ⟨-, h⟩ | ⟨m, rfl, -⟩
    · have h : log2T a.F a.Jfr ((a.J + 1) * Q1.toNat) = .ok lsFr := h
      rw [hF] at h
      have h : (Except.ok (floorLog2 ((2 : Rat) ^ a.Jfr)) : Py ℤ) = .ok lsFr := h
      injection h with h
      rw [floorLog2_twoPow] at h
      exact ⟨a.Jfr, by rw [h3, h]⟩
    · exact ⟨m, h3⟩
  obtain ⟨lsFr, hlsFr⟩ := hlsFr
  obtain ⟨⟨p, hp, hn⟩, p', hp', hn'⟩ := joint_first hmake hst hf
  obtain ⟨psi, i, n1, X, g1, g2, g3, g4, g5, g6, g7, g8⟩ :=
    joint_entry_object hmake hQ hst hlsFr hf ho (List.mem_of_mem_tail hp) (by rw [hn]; simp)
  obtain ⟨psi', i', n1', X', g1', g2', g3', g4', g5', g6', g7', g8'⟩ :=
    joint_entry_object hmake hQ hst hlsFr hf ho (List.mem_of_mem_tail hp') (by rw [hn']; simp)
  obtain ⟨low, f, rest, hb, h0, hj, hf1⟩ := bank_head hmake Q1.toNat
  rw [hn] at g2
  rw [hn'] at g2'
  have hi : i = 0 := by
    have g2 : some (0 : Int) = some (i : Int) := g2
    injection g2 with g2
    omega
  have hi' : i' = 1 := by
    have g2' : some (1 : Int) = some (i' : Int) := g2'
    injection g2' with g2'
    omega
  rw [hi, hb] at g1
  injection g1 with g1
  subst g1
  rw [hi', hb] at g1'
  injection g1' with g1'
  subst g1'
  have hmem : ∀ p ∈ P.tail, ∀ X, p.coef = .stk X → X ∈ stks P.tail := by
    intro p hp X hX
    exact List.mem_filterMap.2 ⟨p, hp, by rw [hX]⟩
  have hsz : X.h = X'.h := congrArg Prod.fst
    ((stackEq_eq_ok hrows).2.2 X (hmem p hp X g5) X' (hmem p' hp' X' g5'))
  have hng : s.averageFr = .glob := havF
  have hX : X.h = s.nFr / 2 ^ a.Jfr := by
    rw [g8]
    unfold freqRows
    rw [if_pos (.inr h0), if_neg (by rw [hng]; simp), hj]
  have hX' : X'.h = 1 := by
    rw [g8']
    unfold freqRows
    rw [if_neg (by rw [hng, hf1]; simp), if_pos hng]
  have h8 : 8 ≤ s.nFr / 2 ^ a.Jfr := by
    rw [Nat.le_div_iff_mul_le (by positivity), hnFr]
    unfold nPaddedFr
    refine Nat.mul_le_mul_right _ ?_
    rw [Int.le_toNat, Int.le_ediv_iff_mul_le (by positivity), Int.le_floor]
    · push_cast
      simp only [min_self]
      have : (0 : Rat) ≤ (a.J + 1) * Q'.1.toNat := by positivity
      linarith
    · positivity
  omega

/-! ## C73: crop of first-order paths -/

/-- In time format the paths with two indices `(n1, n_fr)` are the first-order ones: `j = (-1,)`. -/
theorem time_first_j {B : JBackend} {o : JObj B.F} {ls lsFr : Nat} {U0 : B.R} {out : List (JPath B.R B.RS)}
    (h : paths B o ls lsFr U0 = .ok out) (hf : o.fmt = .time) {q : JPath B.R B.RS} (hq : q ∈ out)
    (hn : q.n.length = 2) : q.j = [-1] := by
  unfold paths at h
  obtain ⟨g, hg, h⟩ := bind_eq_ok.1 h
  obtain ⟨z, l, -, hl, rfl⟩ := averageAndFormat_eq_ok B h
  rcases List.mem_cons.1 hq with rfl | hq
  · cases hn
  obtain ⟨r, hr, hqr⟩ := List.mem_flatten.1 hq
  obtain ⟨p, hp, hpr⟩ := forall₂_mem_right (mapM_eq_ok.1 hl) hr
  obtain ⟨_, _, S, S', _, _, _, _, _, h6⟩ := averageBody_eq_ok B hpr
  unfold formatPath at h6
  rw [hf] at h6
  obtain ⟨l', -, hfl⟩ := timeFormatting_eq_ok B h6
  obtain ⟨x, -, c, -, rfl⟩ := forall₂_mem_right hfl hqr
  have hn : p.n.length = 1 := by simpa using hn
  show p.j = [-1]
  have hlab : label p ∈ labels o.psi1 o.psi2 o.psisFr := by
    rw [← joint_labels B hg]; exact List.mem_map_of_mem hp
  unfold labels at hlab
  rcases List.mem_append.1 hlab with hlab | hlab
  · obtain ⟨x, -, hx⟩ := List.mem_map.1 hlab
    exact (congrArg Label.j hx).symm
  · exfalso
    obtain ⟨y, hy, hlab⟩ := List.mem_flatMap.1 hlab
    obtain ⟨x, -, hx⟩ := List.mem_map.1 hlab
    have : p.n = [(y.2.1 : Int)] ++ [(x.2 : Int)] := (congrArg Label.n hx).symm
    rw [this] at hn
    simp at hn

/-- With `T=0`: the crop of a first-order path, which the core produces at resolution `ls`, is made with the
borders of resolution `ls` in joint format and with those of resolution 0 in time format. -/
theorem first_crop {a : JArgs} {s : ScJ} (hmake : a.make = .ok s) {Q1 Q2 : Int}
    (hQ : parseQ a.Q = .ok (Q1, Q2)) (hQ12 : Q2 ≤ Q1) (hno : s.base.average = .no) {ls : Nat}
    (hls : (a.obj s Q1.toNat).log2Stride = .ok (ls : ℤ)) {x : List ℝ} (hx : x.length = s.base.built.Ninput)
    {P : List (JPath (List ℝ) (Img ℝ))} (hst : Stages npJ npFrontJ (a.obj s Q1.toNat) x P)
    {p : JPath (List ℝ) (Img ℝ)} (hp : p ∈ P)
    (hn : p.n.length = if a.fmt = .time then 2 else 1) :
    ∃ (c : JCoef (List ℝ) (Img ℝ)) (res : Nat), (coefSize c).2 = s.base.built.Npadded / 2 ^ ls ∧
      (res = if a.fmt = .time then 0 else ls) ∧
      p.coef = unpadCoef npFrontJ ((s.base.built.padLeft + (2 ^ res - 1)) / 2 ^ res)
        ((s.base.built.padLeft + s.base.built.Ninput + (2 ^ res - 1)) / 2 ^ res) c := by
  obtain ⟨U0, ls', lsFr, S, h1, h2, h3, h4, h5⟩ := hst
  rw [hls] at h2
  injection h2 with h2
  subst h2
  rw [Int.toNat_natCast] at h4 h5
  obtain ⟨Q', q, F, hbase, hQ', hq, hF, -⟩ := JArgs.make_eq_ok hmake
  rw [hQ] at hQ'
  injection hQ' with hQ'
  subst hQ'
  obtain ⟨t, lT, hT, -, -, -, -, -, -, -, -, hpad, hi0, hi1⟩ := base_facts hbase hQ hQ12
  have hT : parseT a.T a.J s.base.built.Ninput = .ok (t, s.base.average) := hT
  obtain ⟨U, hU, hUl⟩ := hpad x hx
  have hU0 : npPad x s.base.built.padLeft s.base.built.padRight = .ok U0 := h1
  have hUU : U = U0 := by rw [hU0] at hU; injection hU with hU; exact hU.symm
  subst hUU
  have hnoo : (a.obj s Q1.toNat).average = .no := hno
  obtain ⟨p0, hp0, hpp⟩ := forall₂_mem_right (mapM_eq_ok.1 h5) hp
  have hn0 : p0.n = p.n := by
    obtain ⟨c, hc⟩ := post_eq_ok hpp
    rw [hc]
  rw [← hn0] at hn
  have hent : ∀ (n : List Int) (n1 s' H T : Nat) (B : ℕ → ℕ → ℝ),
      Entry (a.obj s Q1.toNat).fmt (decide ((a.obj s Q1.toNat).outType = .array)) n n1 s' H T B p0 →
      (coefSize p0.coef).2 = T ∧ n.length = 1 := by
    intro n n1 s' H T B hE
    unfold Entry at hE
    split at hE
    · rename_i hf
      rw [if_neg (by rw [show a.fmt = .joint from hf]; simp)] at hn
      obtain ⟨e, Y, hY, hI⟩ := hE
      rw [hY, ← e]
      exact ⟨hI.2.1, hn⟩
    · rename_i hf
      rw [if_pos (show a.fmt = .time from hf)] at hn
      obtain ⟨i, -, -, e, y, hy, hyl, -⟩ := hE
      rw [e] at hn
      rw [hy]
      exact ⟨hyl, by simpa using hn⟩
    · exact hE.elim
  have hcols : (coefSize p0.coef).2 = s.base.built.Npadded / 2 ^ ls := by
    rcases paths_closedJ hmake hQ hq hT hF h4 hp0 with
      ⟨e, -⟩ | ⟨i, psi, w, -, -, -, -, hE⟩ | ⟨n2, i, w2, psi, w, -, -, -, -, -, -, hE⟩
    · rw [e] at hn
      split at hn <;> cases hn
    · rw [hnoo] at hE
      rw [(hent _ _ _ _ _ _ hE).1, ← hUl]
      rfl
    · cases (hent _ _ _ _ _ _ hE).2
  have hres : resolution (a.obj s Q1.toNat) ls p0 = .ok (if a.fmt = .time then 0 else ls) := by
    unfold resolution
    by_cases hf : a.fmt = .time
    · rw [if_pos hf] at hn ⊢
      rw [if_neg (by rw [hn]; simp), if_pos ⟨hnoo, by rw [hn]; simp⟩, time_first_j h4 hf hp0 hn]
      rfl
    · rw [if_neg hf] at hn ⊢
      rw [if_neg (by rw [hn]; simp), if_neg (by rw [hn]; simp)]
  refine ⟨p0.coef, _, hcols, rfl, ?_⟩
  unfold post at hpp
  rw [if_neg (by rw [hnoo]; simp), hres] at hpp
  obtain ⟨res, g1, hpp⟩ := bind_eq_ok.1 hpp
  obtain ⟨i0, g2, hpp⟩ := bind_eq_ok.1 hpp
  obtain ⟨i1, g3, hpp⟩ := bind_eq_ok.1 hpp
  injection g1 with g1
  injection hpp with hpp
  have g2 : dictGet s.base.built.indStart res = .ok i0 := g2
  have g3 : dictGet s.base.built.indEnd res = .ok i1 := g3
  rw [hi0, dictGet_eq_ok, borderDict_get] at g2
  rw [hi1, dictGet_eq_ok, borderDict_get] at g3
  split at g2
  · rename_i hle
    rw [if_pos hle] at g3
    injection g2 with g2
    injection g3 with g3
    rw [g1, g2, g3, ← hpp]
  · cases g2

/-- **C73**, joint format: with `T=0` a first-order path has as many time samples as there are multiples of
`2^ls` in the original range of the padded signal.  (In time format the property fails: below.) -/
theorem C73_joint_partial {a : JArgs} {s : ScJ} (hmake : a.make = .ok s) {Q1 Q2 : Int}
    (hQ : parseQ a.Q = .ok (Q1, Q2)) (hQ12 : Q2 ≤ Q1) (hno : s.base.average = .no) {ls : Nat}
    (hls : (a.obj s Q1.toNat).log2Stride = .ok (ls : ℤ)) {x : List ℝ} (hx : x.length = s.base.built.Ninput)
    {P : List (JPath (List ℝ) (Img ℝ))} (hst : Stages npJ npFrontJ (a.obj s Q1.toNat) x P)
    (hf : a.fmt = .joint) {p : JPath (List ℝ) (Img ℝ)} (hp : p ∈ P) (hn : p.n.length = 1) :
    (coefSize p.coef).2 = ((Finset.range s.base.built.Npadded).filter fun i => 2 ^ ls ∣ i ∧
        s.base.built.padLeft ≤ i ∧ i < s.base.built.padLeft + x.length).card ∧
      (2 ^ ls ∣ x.length → (coefSize p.coef).2 = x.length / 2 ^ ls) := by
  have hft : ¬ a.fmt = .time := by rw [hf]; simp
  obtain ⟨c, res, hc, hres, hcoef⟩ := first_crop hmake hQ hQ12 hno hls hx hst hp (by rw [if_neg hft]; exact hn)
  rw [if_neg hft] at hres
  rw [hres] at hcoef
  obtain ⟨_, _, _, hbase, -⟩ := JArgs.make_eq_ok hmake
  obtain ⟨t, lT, hT, hlT, hdiv, -, -, -, -, -, -, hpad, -⟩ := base_facts hbase hQ hQ12
  have hT : parseT a.T a.J s.base.built.Ninput = .ok (t, s.base.average) := hT
  have hlT : log2T a.T a.J s.base.built.Ninput = .ok (lT : ℤ) := hlT
  have he : ls = lT := by
    rcases (C07_log2_stride_ok _ _ _ _ _).1 hls with ⟨-, h⟩ | ⟨m, -, -, t', h⟩
    · have h : log2T a.T a.J s.base.built.Ninput = .ok (ls : ℤ) := h
      rw [hlT] at h
      injection h with h
      omega
    · have h : parseT a.T a.J s.base.built.Ninput = .ok (t', .loc) := h
      rw [hT, hno] at h
      injection h with h
      injection h with _ h
      cases h
  rw [← he] at hdiv
  obtain ⟨U, hU, hUl⟩ := hpad x hx
  have hsum : s.base.built.padLeft + s.base.built.Ninput + s.base.built.padRight = s.base.built.Npadded := by
    rw [← hUl, ← hx]
    exact (npPad_length hU).2.2.symm
  obtain ⟨st, e, h1, h2, hse, hle, hcard, hlt1, hlt2, hdv⟩ :=
    C05_unpadded_length lT a.J s.base.built.Ninput s.base.built.padLeft s.base.built.padRight ls
      (by omega) (by rw [hsum]; exact hdiv)
  have h1 : borderDict (max lT a.J) s.base.built.padLeft ls = some st := h1
  have h2 : borderDict (max lT a.J) (s.base.built.padLeft + s.base.built.Ninput) ls = some e := h2
  rw [borderDict_get, if_pos (by omega)] at h1 h2
  injection h1 with h1
  injection h2 with h2
  rw [hsum] at hcard hle
  have : (coefSize p.coef).2 = e - st := by
    rw [hcoef, coefSize_unpad, hc, h1, h2]
    show min e _ - st = e - st
    rw [min_eq_left hle]
  rw [this, hx]
  exact ⟨hcard, hdv⟩

/-- **C73 is violated** in time format: with `T=0` the samples `padLeft, padLeft + 1, ...` of a first-order
path of resolution `2^ls` are kept, as if it had the resolution of the signal. -/
theorem C73_time_violated {a : JArgs} {s : ScJ} (hmake : a.make = .ok s) {Q1 Q2 : Int}
    (hQ : parseQ a.Q = .ok (Q1, Q2)) (hQ12 : Q2 ≤ Q1) (hno : s.base.average = .no) {ls : Nat}
    (hls : (a.obj s Q1.toNat).log2Stride = .ok (ls : ℤ)) {x : List ℝ} (hx : x.length = s.base.built.Ninput)
    {P : List (JPath (List ℝ) (Img ℝ))} (hst : Stages npJ npFrontJ (a.obj s Q1.toNat) x P)
    (hf : a.fmt = .time) {p : JPath (List ℝ) (Img ℝ)} (hp : p ∈ P) (hn : p.n.length = 2) :
    (coefSize p.coef).2 = min (s.base.built.padLeft + x.length) (s.base.built.Npadded / 2 ^ ls) -
      s.base.built.padLeft := by
  obtain ⟨c, res, hc, hres, hcoef⟩ := first_crop hmake hQ hQ12 hno hls hx hst hp (by rw [if_pos hf]; exact hn)
  rw [if_pos hf] at hres
  subst hres
  rw [hcoef, coefSize_unpad, hc, hx]
  simp

/-- `TimeFrequencyScattering(J=3, J_fr=2, Q=8, shape=1000, T=0, format='time', out_type='list')`: there are
first-order paths, and none has the `125 = 1000 / 2^3` time samples that the joint format gives. -/
theorem C73_witness (x : List ℝ) (hx : x.length = 1000) :
    ∃ P, (⟨3, 2, .int 8, .int 1000, .num 0, none, .int 1, .none, none, .list, .time⟩ : JArgs).run x = .ok (.list P) ∧
      (∃ p ∈ P, p.n.length = 2) ∧ ∀ p ∈ P, p.n.length = 2 → (coefSize p.coef).2 ≠ 125 := by
  have hT : parseT (.num 0) 3 1000 = .ok ((2 : Rat) ^ 3, .no) := by
    unfold parseT
    norm_num
  have hlog : log2T (.num 0) 3 1000 = .ok (3 : ℤ) := by
    unfold log2T
    rw [hT]
    show (Except.ok (floorLog2 ((2 : Rat) ^ 3)) : Py ℤ) = _
    rw [floorLog2_twoPow]
    rfl
  obtain ⟨s, hmake, hNi, hav, havF, h⟩ := C76_no_error
    ⟨3, 2, .int 8, .int 1000, .num 0, none, .int 1, .none, none, .list, .time⟩ 1000 rfl (by norm_num)
    (2 ^ 3) .no hT 8 1 rfl (by norm_num) (le_jPad_of_pow (by norm_num) (by norm_num)) 3
    ((C07_log2_stride_ok _ _ _ _ _).2 (.inl ⟨rfl, hlog⟩)) le_rfl (fun h => by cases h) 1 rfl (2 ^ 2) .loc rfl
    (by norm_num) (by norm_num) rfl (.inl rfl) (.inl rfl)
  obtain ⟨r, hr⟩ := h x hx
  obtain ⟨s', hs', h⟩ := bind_eq_ok.1 hr
  rw [hmake] at hs'
  injection hs' with hs'
  subst hs'
  obtain ⟨Q', hQ', h⟩ := bind_eq_ok.1 h
  injection hQ' with hQ'
  subst hQ'
  obtain ⟨-, P, hst, hP⟩ := scattering_eq_ok h
  injection hP with hP
  refine ⟨P, by rw [hr, hP], ?_, ?_⟩
  · obtain ⟨U0, ls, lsFr, S, h1, h2, h3, h4, h5⟩ := hst
    have hlab := (post_labels h5).trans (paths_labels npJ h4)
    obtain ⟨low, f, rest, hb, h0, -, hf1⟩ := bank_head hmake 8
    have hmem : (([0, 0] : List Int)) ∈ P.map fun q => q.n := by
      rw [hlab]
      unfold pathLabels
      refine List.mem_cons_of_mem _ (List.mem_flatMap.2
        ⟨⟨[-1], [0], (s.base.psi1.map FiltX.toFilt).length, low.j, 0, 2 ^ low.j, low.spin⟩, ?_, ?_⟩)
      · unfold labels
        refine List.mem_append_left _ ?_
        unfold frLabels
        have hb : ((⟨3, 2, .int 8, .int 1000, .num 0, none, .int 1, .none, none, .list, .time⟩ : JArgs).obj s
          (8 : ℤ).toNat).psisFr = low :: f :: rest := hb
        rw [hb, List.filter_cons_of_pos (by simp [h0]), List.zipIdx_cons, List.map_cons]
        exact List.mem_cons_self
      · refine List.mem_map.2 ⟨0, List.mem_map.2 ⟨0, List.mem_range.2 ?_, Nat.zero_mul _⟩, rfl⟩
        have hst : strideOf lsFr.toNat .loc ⟨[-1], [0], (s.base.psi1.map FiltX.toFilt).length, low.j, 0, 2 ^ low.j,
            low.spin⟩ = 2 ^ low.j := by
          unfold strideOf
          simp [h0]
        have hpos : 0 < s.base.psi1.length := by
          obtain ⟨_, _, _, hbase, -⟩ := JArgs.make_eq_ok hmake
          obtain ⟨t, R1, R2, lT, M1, M2, hR1, hR2, ht, hT, hR, -, h1, h2, -⟩ := make_filters hbase
          rw [← h1.length_eq]
          exact (C25_number_of_filters_partial _ _ hR1).1
        have havFo : ((⟨3, 2, .int 8, .int 1000, .num 0, none, .int 1, .none, none, .list, .time⟩ : JArgs).obj s
          (8 : ℤ).toNat).averageFr = .loc := havF
        rw [havFo, hst, List.length_map]
        refine Nat.div_pos ?_ (by positivity)
        show 2 ^ low.j ≤ s.base.psi1.length + 2 ^ low.j - 1
        omega
    obtain ⟨p, hp, he⟩ := List.mem_map.1 hmem
    exact ⟨p, hp, by rw [he]; rfl⟩
  · intro p hp hn
    have hlo : ((⟨3, 2, .int 8, .int 1000, .num 0, none, .int 1, .none, none, .list, .time⟩ : JArgs).obj s
        (8 : ℤ).toNat).log2Stride = .ok ((3 : ℕ) : ℤ) := by
      show log2Stride s.base.built.stride (.num 0) 3 s.base.built.Ninput = _
      obtain ⟨s', hs', -, -, -, hstr⟩ := C76_construction
        ⟨3, 2, .int 8, .int 1000, .num 0, none, .int 1, .none, none, .list, .time⟩ 1000 rfl (by norm_num)
        (2 ^ 3) .no hT 8 1 rfl (by norm_num) (le_jPad_of_pow (by norm_num) (by norm_num)) 1 rfl (2 ^ 2) .loc rfl
        (by rw [floorLog2_twoPow])
      rw [Except.ok.inj (hmake.symm.trans hs'), hstr, ← Except.ok.inj (hmake.symm.trans hs'), hNi]
      exact (C07_log2_stride_ok _ _ _ _ _).2 (.inl ⟨rfl, hlog⟩)
    have := C73_time_violated hmake (Q1 := 8) (Q2 := 1) rfl (by norm_num) hav hlo (by rw [hx, hNi]) hst rfl hp hn
    rw [this]
    obtain ⟨_, _, _, hbase, -⟩ := JArgs.make_eq_ok hmake
    obtain ⟨t, lT, -, -, -, hsum, hlr, hrl, hrN, hNp, -⟩ := make_sizes hbase
    have hcase : s.base.built.Npadded = 1024 ∨ s.base.built.Npadded = 2048 := by
      rw [hNi] at hsum hrN
      rw [hNp] at hsum ⊢
      generalize jPad s.base.built.Ninput (minToPad s.base.built.Ninput t) = k at hsum
      have h1 : 10 ≤ k := by
        by_contra hc
        have : 2 ^ k ≤ 2 ^ 9 := Nat.pow_le_pow_right (by norm_num) (by omega)
        omega
      have h2 : k ≤ 11 := by
        by_contra hc
        have : 2 ^ 12 ≤ 2 ^ k := Nat.pow_le_pow_right (by norm_num) (by omega)
        omega
      have : k = 10 ∨ k = 11 := by omega
      rcases this with rfl | rfl <;> norm_num
    rw [hx]
    rw [hNi] at hsum
    rcases hcase with h | h
    · rw [h] at hsum ⊢
      norm_num
      omega
    · rw [h] at hsum ⊢
      norm_num
      omega

/-! ## C74: room along frequency -/

/-- **C74.** With `2^J_fr ≤ 8 F` (as for `F` None, 'global' or 0) the padded frequency axis has at least one
row per first-order wavelet, and for every `F` it misses the requested margin of
`8 min(F, 2^J_fr)` rows by less than `2^J_fr`; for `F = 2^J_fr` the margin exceeds `7 * 2^J_fr`. -/
theorem C74_room_partial {a : JArgs} {s : ScJ} (hmake : a.make = .ok s) {Q1 Q2 : Int}
    (hQ : parseQ a.Q = .ok (Q1, Q2)) {F : Rat} {avF : Average}
    (hF : parseT a.F a.Jfr ((a.J + 1) * Q1.toNat) = .ok (F, avF)) :
    ((2 : Rat) ^ a.Jfr ≤ 8 * F → s.base.psi1.length ≤ s.nFr) ∧
      (s.base.psi1.length : Rat) + 8 * min F (2 ^ a.Jfr) - 2 ^ a.Jfr < s.nFr ∧ 2 ^ a.Jfr ∣ s.nFr := by
  obtain ⟨Q', q, F', hbase, hQ', hq, hF', -, hnFr, -⟩ := JArgs.make_eq_ok hmake
  rw [hQ] at hQ'
  injection hQ' with hQ'
  subst hQ'
  rw [hF] at hF'
  injection hF' with hF'
  subst hF'
  obtain ⟨t, R1, R2, lT, M1, M2, hR1, hR2, ht, hT, hR, hfl, h1, h2, -⟩ := make_filters hbase
  have hR : parseQ a.Q = .ok ((R1 : Int), (R2 : Int)) := hR
  rw [hQ] at hR
  injection hR with hR
  injection hR with e3 e4
  subst e3
  have hlen : s.base.psi1.length ≤ (a.J + 1) * R1 := by
    rw [← h1.length_eq]
    exact (C25_number_of_filters_partial a.J R1 hR1).2
  have hF1 := parseT_ge_one hF
  rw [hnFr]
  refine ⟨fun h8 => hlen.trans (nPaddedFr_ge h8), ?_, nPaddedFr_dvd _ _ _⟩
  have hlen' : (s.base.psi1.length : Rat) ≤ ((a.J + 1) * R1 : ℕ) := by exact_mod_cast hlen
  have hmin : 0 ≤ min F (2 ^ a.Jfr) := le_min (by linarith) (by positivity)
  show _ < ((nPaddedFr a.Jfr ((a.J + 1) * R1) F : ℕ) : Rat)
  unfold nPaddedFr
  set y := ((((a.J + 1) * R1 : ℕ) : Rat) + 8 * min F (2 ^ a.Jfr)) with hy
  have hy0 : 0 ≤ y := by positivity
  have hp : (0 : ℤ) < 2 ^ a.Jfr := by positivity
  have h5 : 0 ≤ ⌊y⌋ / 2 ^ a.Jfr := Int.ediv_nonneg (Int.floor_nonneg.2 hy0) hp.le
  have h6 : ((((⌊y⌋ / 2 ^ a.Jfr).toNat * 2 ^ a.Jfr : ℕ) : ℤ) : Rat) = ((⌊y⌋ / 2 ^ a.Jfr * 2 ^ a.Jfr : ℤ) : Rat) := by
    congr 1
    rw [Nat.cast_mul, Int.toNat_of_nonneg h5]
    push_cast
    rfl
  have h7 : ⌊y⌋ + 1 ≤ ⌊y⌋ / 2 ^ a.Jfr * 2 ^ a.Jfr + 2 ^ a.Jfr := by
    have h1 := Int.emod_add_mul_ediv ⌊y⌋ (2 ^ a.Jfr)
    have h2 := Int.emod_lt_of_pos ⌊y⌋ hp
    have : ⌊y⌋ / 2 ^ a.Jfr * 2 ^ a.Jfr = 2 ^ a.Jfr * (⌊y⌋ / 2 ^ a.Jfr) := mul_comm _ _
    omega
  have h8 := Int.lt_floor_add_one y
  have h9 : ((⌊y⌋ : Rat) + 1) ≤ ((⌊y⌋ / 2 ^ a.Jfr * 2 ^ a.Jfr : ℤ) : Rat) + 2 ^ a.Jfr := by exact_mod_cast h7
  rw [← h6] at h9
  push_cast at h9 ⊢
  linarith

/-- With `Q = 1` there are exactly `J + 1` wavelets. -/
theorem length_anden_one (J : Nat) : (anden J 1).length = J + 1 := by
  have hub := (C25_number_of_filters_partial J 1 le_rfl).2
  have hc := (andenGenerator_closed J 1 le_rfl 0.1 (Real.sqrt 0.5) (by norm_num)).2
  simp only [sigmaRatio_lib, qr_one] at hc
  have hs : (0.1365 : ℝ) ≤ rho 1 * computeXiMax 1 := by
    have h1 := rho_one_ge
    have h2 := computeXiMax_ge 1
    calc (0.1365 : ℝ) = 0.39 * 0.35 := by norm_num
      _ ≤ rho 1 * computeXiMax 1 := mul_le_mul h1 h2 (by norm_num) (by norm_num at h1; linarith)
  obtain ⟨K, hK, -, heq⟩ := hc (by
    have : (0.1 : ℝ) / 2 ^ J ≤ 0.1 := div_le_self (by norm_num) (one_le_pow₀ (by norm_num))
    norm_num at this hs ⊢
    linarith)
  have hlen : (anden J 1).length = K + 1 := by
    unfold anden
    rw [heq, Option.getD_some]
    simp
  have hKJ : J ≤ K := by
    by_contra hlt
    have h1 : (2 : ℝ) ^ (K + 1) ≤ 2 ^ J := pow_le_pow_right₀ (by norm_num) (by omega)
    have hp : (0 : ℝ) < 2 ^ K := by positivity
    have hpJ : (0 : ℝ) < 2 ^ J := by positivity
    rw [div_mul_eq_mul_div, div_le_div_iff₀ hp hpJ] at hK
    rw [pow_succ] at h1
    norm_num at hK hs
    nlinarith
  omega

/-- If there are more first-order wavelets than padded rows, every call fails: `np.pad` rejects the negative
width. -/
theorem C74_fails {a : JArgs} {s : ScJ} (hmake : a.make = .ok s) (hlt : s.nFr < s.base.psi1.length) (x : List ℝ)
    (r : JOut (List ℝ) (Img ℝ)) : a.run x ≠ .ok r := by
  intro hr
  obtain ⟨s', hs', h⟩ := bind_eq_ok.1 hr
  rw [hmake] at hs'
  injection hs' with hs'
  subst hs'
  obtain ⟨Q', hQ', h⟩ := bind_eq_ok.1 h
  obtain ⟨-, P, ⟨U0, ls', lsFr', S, -, -, -, h4, -⟩, -⟩ := scattering_eq_ok h
  unfold paths at h4
  obtain ⟨g, hg, -⟩ := bind_eq_ok.1 h4
  obtain ⟨t, y1, y2, hw, hy1, -⟩ := joint_eq_ok npJ hg
  have hn1 := (widthFirst_labels npJ hw).1.2.2
  unfold frequencyReal at hy1
  obtain ⟨XT, -, hy1⟩ := bind_eq_ok.1 hy1
  obtain ⟨Xp, hXp, -⟩ := bind_eq_ok.1 hy1
  have hN : (a.obj s Q'.1.toNat).phiFr.N = s.nFr := rfl
  have hl : (a.obj s Q'.1.toNat).psi1.length = s.base.psi1.length := List.length_map _
  have hXp : padFrequencyImg XT (((a.obj s Q'.1.toNat).phiFr.N : Int) - t.2.1.n1Max) = .ok Xp := hXp
  rw [hn1, hN, hl] at hXp
  unfold padFrequencyImg at hXp
  rw [if_pos (by omega)] at hXp
  cases hXp

/-- **C74 is violated**: `TimeFrequencyScattering(J=16, J_fr=4, Q=1, shape=2**16, F=1)` is constructed with
16 padded rows for 17 first-order wavelets, and every call fails. -/
theorem C74_violated : ∃ s, (⟨16, 4, .int 1, .int (2 ^ 16 : ℕ), .none, none, .int 1, .num 1, none, .list,
      .joint⟩ : JArgs).make = .ok s ∧ s.nFr = 16 ∧ s.base.psi1.length = 17 ∧
    ∀ x r, (⟨16, 4, .int 1, .int (2 ^ 16 : ℕ), .none, none, .int 1, .num 1, none, .list,
      .joint⟩ : JArgs).run x ≠ .ok r := by
  have hF : parseT (.num 1) 4 ((16 + 1) * (1 : ℤ).toNat) = .ok ((1 : Rat), .loc) := by
    unfold parseT
    norm_num
  have hfl : floorLog2 (1 : Rat) = 0 := by
    have := floorLog2_twoPow 0
    simpa using this
  obtain ⟨s, hmake, hNi, hav, havF, hst⟩ := C76_construction
    ⟨16, 4, .int 1, .int (2 ^ 16 : ℕ), .none, none, .int 1, .num 1, none, .list, .joint⟩ (2 ^ 16) rfl (by norm_num)
    (2 ^ 16) .loc rfl 1 1 rfl le_rfl (le_jPad_of_pow (by norm_num) (by norm_num)) 1 rfl 1 .loc hF
    (by rw [hfl]; norm_num)
  obtain ⟨Q', q, F', hbase, hQ', hq, hF', -, hnFr, -⟩ := JArgs.make_eq_ok hmake
  injection hQ' with hQ'
  subst hQ'
  rw [show parseT (.num 1) 4 ((16 + 1) * (1 : ℤ).toNat) = .ok F' from hF'] at hF
  injection hF with hF
  subst hF
  have hn : s.nFr = 16 := by
    rw [hnFr]
    show nPaddedFr 4 ((16 + 1) * (1 : ℤ).toNat) 1 = 16
    unfold nPaddedFr
    norm_num
  obtain ⟨t, R1, R2, lT, M1, M2, hR1, hR2, ht, hT, hR, -, h1, h2, -⟩ := make_filters hbase
  injection hR with hR
  injection hR with e1 e2
  have e1 : R1 = 1 := by
    have e1 : (1 : ℤ) = R1 := e1
    omega
  subst e1
  have hl : s.base.psi1.length = 17 := by
    rw [← h1.length_eq]
    exact length_anden_one 16
  exact ⟨s, hmake, hn, hl, fun x r => C74_fails hmake (by omega) x r⟩

/-- **C25, consequence violated**: the frequency axis of joint time-frequency scattering does not always have room for
the first-order wavelets (here 16 rows for 17 wavelets); `C74_room_partial` says when it does. -/
theorem C25_room_violated : ∃ (a : JArgs) (s : ScJ), a.make = .ok s ∧ s.nFr < s.base.psi1.length := by
  obtain ⟨s, h1, h2, h3, -⟩ := C74_violated
  exact ⟨_, s, h1, by omega⟩

/-- **C35 (constructed objects).** For every constructed object, whatever its averaging, the rows stacked by the
width-first algorithm are the first-order coefficients of `scattering1d` with local averaging and the same stride, and
with local averaging so is the zeroth order. -/
theorem C35_object {a : JArgs} {s : ScJ} (hmake : a.make = .ok s) {Q1 ls : Nat}
    (hls : (a.obj s Q1).log2Stride = .ok (ls : ℤ)) {U0 : List ℝ} {t : List ℝ × TPath (Img ℝ) × List (TPath (Img ℂ))}
    (h : widthFirst npJ U0 (a.obj s Q1).phi (a.obj s Q1).psi1 (a.obj s Q1).psi2 ls
      (decide (s.base.average = .loc)) = .ok t) {psis : List (List (Filt (List ℝ)))}
    (hp : psis[0]? = some (a.obj s Q1).psi1) {out : List (Path (List ℝ))}
    (ho : Core1D.scattering1d npBackend U0 (a.obj s Q1).phi psis ls true = .ok out) :
    ∃ rows, npJ.stackR rows = .ok t.2.1.coef ∧
      rows = (out.filter fun p => decide (p.n.length = 1)).map (fun p => p.coef) ∧
      (s.base.average = .loc → out.head? = some ⟨t.1, [], []⟩) := by
  have hk : decide (s.base.average = .loc) = true ∨ ∀ p ∈ (a.obj s Q1).psi1, p.j ≤ ls := by
    by_cases hav : s.base.average = .loc
    · exact .inl (by simpa using hav)
    right
    obtain ⟨_, _, _, hbase, -⟩ := JArgs.make_eq_ok hmake
    obtain ⟨T, R1, R2, lT, M1, M2, hR1, hR2, -, hT, -⟩ := make_filters hbase
    have hT : parseT a.T a.J s.base.built.Ninput = .ok (T, s.base.average) := hT
    have hlJ : ls = a.J := by
      rcases (C07_log2_stride_ok _ _ _ _ _).1 hls with ⟨-, h2⟩ | ⟨m, -, -, t', h2⟩
      · unfold log2T at h2
        rw [hT] at h2
        have h2 : (Except.ok (floorLog2 T) : Py ℤ) = .ok (ls : ℤ) := h2
        have hT2 : T = 2 ^ a.J := by
          cases hc : a.T with
          | none => rw [hc] at hT; simp [parseT] at hT; exact hT.1.symm
          | global => rw [hc] at hT; simp [parseT] at hT; exact hT.1.symm
          | num q =>
            rw [hc] at hT
            simp only [parseT] at hT
            split at hT
            · cases hT
            · split at hT
              · injection hT with hT; injection hT with hT _; exact hT.symm
              · split at hT
                · cases hT
                · injection hT with hT; injection hT with _ hT; exact absurd hT.symm hav
        rw [hT2, floorLog2_twoPow] at h2
        injection h2 with h2
        omega
      · rw [hT] at h2
        injection h2 with h2
        injection h2 with _ h2
        exact absurd h2 hav
    intro p hp'
    obtain ⟨f, hf, rfl⟩ := List.mem_map.1 hp'
    obtain ⟨Q, w, b, hQ, hw, -, -, hj, -⟩ := make_wavelet hbase (List.mem_append_left _ hf)
    have hw : w ∈ anden a.J Q := hw
    have := (C26_scale_le a.J Q hQ w hw).2
    show f.j.toNat ≤ ls
    rw [hj]
    omega
  obtain ⟨rows, h1, h2, h3⟩ := C35_first_order (B := npJ) hk h hp ho
  exact ⟨rows, h1, h2, fun hav => h3 (by simpa using hav)⟩

/-! ## Concrete objects meeting the hypotheses -/

/-- `F = 2 < 2^J_fr = 4`: the array in joint format is computed, so that `C36_violated_stride` and
`C36_rows_partial` speak about something. -/
example (x : List ℝ) (hx : x.length = 1000) : ∃ s P, (⟨3, 2, .int 8, .int 1000, .none, none, .int 1, .num 2, none,
      .array, .joint⟩ : JArgs).make = .ok s ∧ s.averageFr = .loc ∧ 0 < s.nFr ∧
      Stages npJ npFrontJ ((⟨3, 2, .int 8, .int 1000, .none, none, .int 1, .num 2, none,
      .array, .joint⟩ : JArgs).obj s (8 : ℤ).toNat) x P ∧ ((⟨3, 2, .int 8, .int 1000, .none, none, .int 1, .num 2,
      none, .array, .joint⟩ : JArgs).obj s (8 : ℤ).toNat).log2StrideFr = .ok ((1 : ℕ) : ℤ) := by
  have hF : parseT (.num 2) 2 ((3 + 1) * (8 : ℤ).toNat) = .ok ((2 : Rat), .loc) := by
    show parseT (.num 2) 2 32 = _
    unfold parseT
    norm_num
  have hfl : floorLog2 (2 : Rat) = 1 := by
    have := floorLog2_twoPow 1
    simpa using this
  have hls : log2Stride none .none 3 1000 = .ok ((3 : ℕ) : ℤ) := by
    refine (C07_log2_stride_ok _ _ _ _ _).2 (Or.inl ⟨rfl, ?_⟩)
    show (Except.ok (floorLog2 ((2 : Rat) ^ 3)) : Py ℤ) = _
    rw [floorLog2_twoPow]
  obtain ⟨s, hmake, hNi, hav, havF, h⟩ := C76_no_error
    ⟨3, 2, .int 8, .int 1000, .none, none, .int 1, .num 2, none, .array, .joint⟩ 1000 rfl (by norm_num)
    (2 ^ 3) .loc rfl 8 1 rfl (by norm_num) (le_jPad_of_pow (by norm_num) (by norm_num)) 3 hls le_rfl
    (fun _ => by norm_num) 1 rfl 2 .loc hF (by norm_num) (by norm_num) rfl (.inr rfl)
    (.inr (.inr ⟨rfl, by simp, .inr rfl⟩))
  obtain ⟨r, hr⟩ := h x hx
  obtain ⟨s', hs', h⟩ := bind_eq_ok.1 hr
  have hs' := Except.ok.inj (hmake.symm.trans hs')
  subst hs'
  obtain ⟨Q', hQ', h⟩ := bind_eq_ok.1 h
  have hQ' : (Except.ok (8, 1) : Py (ℤ × ℤ)) = .ok Q' := hQ'
  injection hQ' with hQ'
  subst hQ'
  obtain ⟨-, P, hst, -⟩ := scattering_eq_ok h
  refine ⟨s, P, hmake, havF, ?_, hst, ?_⟩
  · obtain ⟨Q', q, F', -, hQ', -, hF', -, hnFr, -⟩ := JArgs.make_eq_ok hmake
    have hQ' : (Except.ok (8, 1) : Py (ℤ × ℤ)) = .ok Q' := hQ'
    injection hQ' with hQ'
    subst hQ'
    have hF'' := Except.ok.inj (hF.symm.trans hF')
    subst hF''
    rw [hnFr]
    exact lt_of_lt_of_le (by norm_num) (nPaddedFr_ge (Nin := (3 + 1) * (8 : ℤ).toNat) (by norm_num))
  · show log2Stride none (.num 2) 2 ((3 + 1) * (8 : ℤ).toNat) = _
    refine (C07_log2_stride_ok _ _ _ _ _).2 (Or.inl ⟨rfl, ?_⟩)
    unfold log2T
    rw [hF]
    show (Except.ok (floorLog2 (2 : Rat)) : Py ℤ) = _
    rw [hfl]
    rfl

end Verif
