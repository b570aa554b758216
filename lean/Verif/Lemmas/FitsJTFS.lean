import Verif.Lemmas.NoErrorJTFS
import Verif.Props.ClosedObject1D

/-!
# Constructed objects of joint time-frequency scattering: sizes and impulse responses
-/

namespace Verif

open JTFS Core1D

/-- Facts on the temporal part of a constructed object. -/
theorem base_facts {a : Args1D} {s : Sc1D} (hmake : a.make = .ok s) {Q1 Q2 : Int}
    (hQ : parseQ a.Q = .ok (Q1, Q2)) (hQ12 : Q2 ≤ Q1) :
    ∃ (t : Rat) (lT : Nat), parseT a.T a.J s.built.Ninput = .ok (t, s.average) ∧
      log2T a.T a.J s.built.Ninput = .ok (lT : ℤ) ∧ 2 ^ lT ∣ s.built.Npadded ∧ lT < s.phi.levels.length ∧
      (s.average ≠ .loc → lT = a.J) ∧ Sized s.built.Npadded s.phi.toFilt ∧
      s.psi1.length = (anden a.J Q1.toNat).length ∧
      (∀ f ∈ s.psi1, Sized s.built.Npadded f.toFilt ∧ 0 < f.levels.length ∧ 0 ≤ f.j ∧
        f.j ≤ max ((a.J : ℤ) - 1) 0) ∧
      (∀ f ∈ s.psi2, Sized s.built.Npadded f.toFilt ∧ 0 ≤ f.j ∧ f.j ≤ max ((a.J : ℤ) - 1) 0 ∧
        ∀ g ∈ s.psi1, g.j < f.j → g.j ≤ lT → g.j.toNat < f.levels.length) ∧
      (∀ x : List ℝ, x.length = s.built.Ninput → ∃ U : List ℝ,
        npPad x s.built.padLeft s.built.padRight = .ok U ∧ U.length = s.built.Npadded) ∧
      s.built.indStart = borderDict (max lT a.J) s.built.padLeft ∧
      s.built.indEnd = borderDict (max lT a.J) (s.built.padLeft + s.built.Ninput) := by
  obtain ⟨t, R1, R2, lT, M1, M2, hR1, hR2, ht, hT, hR, hfl, h1, h2, hM1, hM2, hlv, hphij, -⟩ :=
    make_filters hmake
  obtain ⟨t', lT', -, hT', hlT', hsum, hlr, hrl, hrN, hNp, hi0, hi1, -⟩ := make_sizes hmake
  rw [hT] at hT'
  injection hT' with hT'
  injection hT' with hT'
  subst hT'
  have hlTe : lT' = lT := by rw [hlT', hfl]; simp
  subst hlTe
  rw [hQ] at hR
  injection hR with hR
  injection hR with e1 e2
  have hR12 : R2 ≤ R1 := by omega
  have hlogT : log2T a.T a.J s.built.Ninput = .ok (lT' : ℤ) := by
    unfold log2T
    rw [hT]
    show Except.ok (floorLog2 t) = _
    rw [hfl]
  have hs : (0 : ℝ) < 0.1 / t := by
    have : (0 : ℝ) < t := by exact_mod_cast (by linarith : (0 : ℚ) < t)
    positivity
  have hgl : (gauss1d s.built.Npadded (0.1 / t)).length = s.built.Npadded := length_morlet1d hs
  have hpl := makeLevels_length hlv
  have hdiv : 2 ^ lT' ∣ s.built.Npadded := by
    have hlt : lT' < s.phi.levels.length := by omega
    have := length_reduceLevel (makeLevels_get hlv (List.getElem?_eq_getElem hlt))
    rw [hgl] at this
    exact ⟨_, by rw [← this, mul_comm]⟩
  have hpos : ∀ Q, 1 ≤ Q → ∀ p ∈ anden a.J Q, 0 < p.2 := fun Q hq p hp =>
    lt_of_lt_of_le (by positivity) (anden_pos hq hp).2.2
  have hJ2 : s.average ≠ .loc → lT' = a.J := by
    intro hav
    have : t = (2 : Rat) ^ a.J := by
      cases hTc : a.T with
      | none =>
        rw [hTc] at hT
        simp only [parseT, Except.ok.injEq, Prod.mk.injEq] at hT
        exact absurd hT.2.symm hav
      | global =>
        rw [hTc] at hT
        simp only [parseT, Except.ok.injEq, Prod.mk.injEq] at hT
        exact hT.1.symm
      | num q =>
        rw [hTc] at hT
        simp only [parseT] at hT
        split at hT
        · cases hT
        · split at hT
          · simp only [Except.ok.injEq, Prod.mk.injEq] at hT
            exact hT.1.symm
          · split at hT
            · cases hT
            · simp only [Except.ok.injEq, Prod.mk.injEq] at hT
              exact absurd hT.2.symm hav
    rw [this, floorLog2_twoPow] at hfl
    omega
  have hscale := scale2_le hR2 hR12 h1 h2 hM1
  refine ⟨t, lT', hT, hlogT, hdiv, by omega, hJ2, ?_, ?_, ?_, ?_, ?_, hi0, hi1⟩
  · have := makeLevels_sized (j := s.phi.j.toNat) hlv
    rw [hgl] at this
    exact this
  · rw [e1, Int.toNat_natCast]
    exact h1.length_eq.symm
  · intro f hf
    obtain ⟨p, hp, hpf⟩ := forall₂_mem_right h1 hf
    obtain ⟨-, -, e3, e4⟩ := makePsi_fields hpf
    have hl : (morlet1d s.built.Npadded (some p.1) p.2).length = s.built.Npadded :=
      length_morlet1d (hpos R1 hR1 p hp)
    have := makeLevels_sized (j := f.j.toNat) e4
    rw [hl] at this
    refine ⟨this, by rw [makeLevels_length e4]; omega, ?_, ?_⟩
    · rw [e3]; exact (C26_scale_le _ _ hR1 p hp).1
    · rw [e3]; exact (C26_scale_le _ _ hR1 p hp).2
  · intro f hf
    obtain ⟨p, hp, hpf⟩ := forall₂_mem_right h2 hf
    obtain ⟨-, -, e3, e4⟩ := makePsi_fields hpf
    have hl : (morlet1d s.built.Npadded (some p.1) p.2).length = s.built.Npadded :=
      length_morlet1d (hpos R2 hR2 p hp)
    have := makeLevels_sized (j := f.j.toNat) e4
    rw [hl] at this
    have hnn : 0 ≤ f.j := by rw [e3]; exact (C26_scale_le _ _ hR2 p hp).1
    have hle : f.j ≤ max ((a.J : ℤ) - 1) 0 := by rw [e3]; exact (C26_scale_le _ _ hR2 p hp).2
    refine ⟨this, hnn, hle, fun g hg hlt hgT => ?_⟩
    have hlen : f.levels.length = 1 + (min (min M1 f.j) (1 + lT') - 1).toNat := by
      rw [makeLevels_length e4, e3]
    have := hscale f hf
    have hg0 : 0 ≤ g.j := by
      obtain ⟨p', hp', hpf'⟩ := forall₂_mem_right h1 hg
      rw [(makePsi_fields hpf').2.2.1]
      exact (C26_scale_le _ _ hR1 p' hp').1
    omega
  · intro x hx
    obtain ⟨U, hU⟩ : ∃ U, npPad x s.built.padLeft s.built.padRight = .ok U := by
      unfold npPad
      rw [if_neg (by omega)]
      exact ⟨_, rfl⟩
    exact ⟨U, hU, by rw [length_npPad hU, hx, hsum]⟩

/-- The number of rows after padding. -/
theorem nPaddedFr_ge {Jfr Nin : Nat} {F : Rat} (hF : (2 : Rat) ^ Jfr ≤ 8 * F) :
    Nin ≤ nPaddedFr Jfr Nin F := by
  unfold nPaddedFr
  have hp : (0 : ℤ) < 2 ^ Jfr := by positivity
  have h1 : (Nin : ℤ) + 2 ^ Jfr ≤ ⌊(Nin : Rat) + 8 * min F (2 ^ Jfr)⌋ := by
    rw [Int.le_floor]
    push_cast
    have h2 : (2 : Rat) ^ Jfr ≤ 8 * min F (2 ^ Jfr) := by
      rcases min_choice F ((2 : Rat) ^ Jfr) with h | h
      · rw [h]; exact hF
      · rw [h]
        have : (0 : Rat) < 2 ^ Jfr := by positivity
        linarith
    linarith
  set z := ⌊(Nin : Rat) + 8 * min F (2 ^ Jfr)⌋
  have h3 : (Nin : ℤ) ≤ z / 2 ^ Jfr * 2 ^ Jfr := by
    have := Int.emod_add_mul_ediv z (2 ^ Jfr)
    have h4 := Int.emod_lt_of_pos z hp
    have : z / 2 ^ Jfr * 2 ^ Jfr = 2 ^ Jfr * (z / 2 ^ Jfr) := mul_comm _ _
    omega
  have h5 : 0 ≤ z / 2 ^ Jfr := Int.ediv_nonneg (by omega) hp.le
  have h6 : (((z / 2 ^ Jfr).toNat * 2 ^ Jfr : ℕ) : ℤ) = z / 2 ^ Jfr * 2 ^ Jfr := by
    push_cast
    rw [Int.toNat_of_nonneg h5]
  omega

theorem nPaddedFr_dvd (Jfr Nin : Nat) (F : Rat) : 2 ^ Jfr ∣ nPaddedFr Jfr Nin F := Dvd.intro_left _ rfl

theorem mem_spin {Jfr Qfr : Nat} {p : ℝ × ℝ} (hp : p ∈ spin anden Jfr Qfr) :
    ∃ q ∈ anden Jfr Qfr, |p.1| = |q.1| ∧ p.2 = q.2 ∧
      getMaxDyadicSubsampling p.1 p.2 5 = getMaxDyadicSubsampling q.1 q.2 5 := by
  unfold spin at hp
  rcases List.mem_append.1 hp with hp | hp
  · exact ⟨p, hp, rfl, rfl, rfl⟩
  · obtain ⟨q, hq, rfl⟩ := List.mem_map.1 hp
    refine ⟨q, hq, abs_neg _, rfl, ?_⟩
    unfold getMaxDyadicSubsampling
    simp

/-- Success of the construction of the frequential filters. -/
theorem createFiltersFr_ok {N Jfr Qfr : Nat} {F : Rat} (hN : 2 ^ Jfr ∣ N) (hQ : 1 ≤ Qfr) (hF : 1 ≤ F)
    (hFl : floorLog2 F ≤ Jfr) : ∃ r, createFiltersFr N Jfr Qfr F = .ok r := by
  have hF0 : (0 : ℝ) < 0.1 / F := by
    have : (0 : ℝ) < F := by exact_mod_cast (by linarith : (0 : ℚ) < F)
    positivity
  have hl0 : (gauss1d N (0.1 / F)).length = N := length_morlet1d hF0
  obtain ⟨lv0, h0⟩ := makeLevels_ok (mean := false) (h := gauss1d N (0.1 / F)) (b := max 0 (1 + floorLog2 F))
    (d := Jfr) (by rw [hl0]; exact hN) (by omega)
  have hr0 : filterFactory false N Jfr [] F (spin anden) 5 0.1 = .ok (⟨lv0, 0, 0.1 / F, floorLog2 F⟩, []) :=
    bind_eq_ok.2 ⟨([], 0), rfl, bind_eq_ok.2 ⟨lv0, h0, rfl⟩⟩
  have hl1 : ∀ p ∈ spin anden Jfr Qfr, ∃ f, makePsi false N 5 0 (floorLog2 (2 ^ Jfr)) p = .ok f := by
    intro p hp
    obtain ⟨lv, hlv⟩ := makeLevels_ok (mean := false) (h := morlet1d N (some p.1) p.2)
      (b := min (min 0 (getMaxDyadicSubsampling p.1 p.2 5)) (1 + floorLog2 (2 ^ Jfr))) (d := 0) (by simp) (by omega)
    exact ⟨_, bind_eq_ok.2 ⟨lv, hlv, rfl⟩⟩
  obtain ⟨psis, hpsis⟩ := mapM_ok_of_forall hl1
  have hscale : ∀ f ∈ psis, f.j ≤ max ((Jfr : ℤ) - 1) 0 ∧ |f.xi| < 0.5 / (2 : ℝ) ^ f.j := by
    intro f hf
    obtain ⟨p, hp, hpf⟩ := forall₂_mem_right (mapM_eq_ok.1 hpsis) hf
    obtain ⟨q, hq, e1, e2, e3⟩ := mem_spin hp
    obtain ⟨d1, -, d3, -⟩ := makePsi_fields hpf
    refine ⟨by rw [d3, e3]; exact (C26_scale_le _ _ hQ q hq).2, ?_⟩
    rw [d1, d3, e3, e1, abs_of_pos (anden_pos hQ hq).1]
    exact C27_below_nyquist Jfr Qfr hQ q hq
  set M := psis.foldl (fun m f => max f.j m) 0 with hM
  have hMle : M ≤ max ((Jfr : ℤ) - 1) 0 :=
    (foldl_max_ge psis 0).2.2 _ (le_max_right _ _) fun f hf => (hscale f hf).1
  have h2 : (0 : ℝ) < 0.1 / ((2 ^ Jfr : Rat) : ℝ) := by
    have : (0 : ℝ) < ((2 ^ Jfr : Rat) : ℝ) := by push_cast; positivity
    positivity
  have hl2 : (gauss1d N (0.1 / ((2 ^ Jfr : Rat) : ℝ))).length = N := length_morlet1d h2
  obtain ⟨lv1, h1⟩ := makeLevels_ok (mean := false) (h := gauss1d N (0.1 / ((2 ^ Jfr : Rat) : ℝ)))
    (b := max M (1 + floorLog2 (2 ^ Jfr))) (d := Jfr) (by rw [hl2]; exact hN)
    (by rw [floorLog2_twoPow]; omega)
  have hr1 : filterFactory false N Jfr [Qfr] (2 ^ Jfr) (spin anden) 5 0.1 =
      .ok (⟨lv1, 0, 0.1 / ((2 ^ Jfr : Rat) : ℝ), floorLog2 (2 ^ Jfr)⟩, [psis]) := by
    refine bind_eq_ok.2 ⟨([psis], M), ?_, bind_eq_ok.2 ⟨lv1, h1, rfl⟩⟩
    simp only [List.map_cons, List.map_nil]
    unfold makeLayers
    exact bind_eq_ok.2 ⟨psis, hpsis, bind_eq_ok.2 ⟨([], M), rfl, rfl⟩⟩
  unfold createFiltersFr
  exact ⟨_, bind_eq_ok.2 ⟨_, hr0, bind_eq_ok.2 ⟨_, hr1, if_pos fun p hp => (hscale p hp).2⟩⟩⟩

/-- What a run needs of the frequential filters. -/
theorem fr_facts {a : JArgs} {s : ScJ} (hmake : a.make = .ok s) {Q : Int × Int} (hQ : parseQ a.Q = .ok Q)
    {F : Rat} {avF : Average} (hF : parseT a.F a.Jfr ((a.J + 1) * Q.1.toNat) = .ok (F, avF)) :
    s.averageFr = avF ∧ s.nFr = nPaddedFr a.Jfr ((a.J + 1) * Q.1.toNat) F ∧ s.phiFr.j = floorLog2 F ∧
      FromFull ⟨s.phiFr.levels, s.phiFr.j.toNat⟩ (gauss1d s.nFr (0.1 / F)) ∧
      (floorLog2 F).toNat < s.phiFr.levels.length ∧ Sized s.nFr ⟨s.phiFr.levels, s.phiFr.j.toNat⟩ ∧
      (∀ f ∈ s.psisFr, 0 ≤ f.j ∧ (f.j ≤ max ((a.Jfr : ℤ) - 1) 0 ∨ (f.j = a.Jfr ∧ f.xi = 0)) ∧
        ∃ h, f.levels[0]? = some h ∧ h.length = s.nFr ∧ FromFull ⟨f.levels, f.j.toNat⟩ h) := by
  obtain ⟨Q', q, F', -, hQ', hq, hF', e1, e2, e3⟩ := JArgs.make_eq_ok hmake
  rw [hQ] at hQ'
  injection hQ' with hQ'
  subst hQ'
  rw [hF] at hF'
  injection hF' with hF'
  subst hF'
  have hq1 := parseQfr_pos hq
  have hF1 := parseT_ge_one hF
  have hF0 : (0 : ℝ) < 0.1 / F := by
    have : (0 : ℝ) < F := by exact_mod_cast (by linarith : (0 : ℚ) < F)
    positivity
  obtain ⟨phi1, psis, M, hr, hlv0, hj0, hpsi, hlv1, hx1, hj1, -⟩ := createFiltersFr_eq_ok e3
  simp only at hr hlv0 hj0
  have hl0 : (gauss1d s.nFr (0.1 / F)).length = s.nFr := length_morlet1d hF0
  have h2 : (0 : ℝ) < 0.1 / ((2 ^ a.Jfr : Rat) : ℝ) := by
    have : (0 : ℝ) < ((2 ^ a.Jfr : Rat) : ℝ) := by push_cast; positivity
    positivity
  have hl2 : (gauss1d s.nFr (0.1 / ((2 ^ a.Jfr : Rat) : ℝ))).length = s.nFr := length_morlet1d h2
  refine ⟨e1, e2, hj0, ⟨_, hlv0⟩, ?_, ?_, ?_⟩
  · have := makeLevels_length hlv0
    omega
  · have := makeLevels_sized (j := s.phiFr.j.toNat) hlv0
    rw [hl0] at this
    exact this
  · intro f hf
    rw [hr] at hf
    rcases List.mem_cons.1 hf with rfl | hf
    · rw [floorLog2_twoPow] at hj1
      exact ⟨by omega, .inr ⟨hj1, hx1⟩, _, makeLevels_zero hlv1, hl2, _, hlv1⟩
    · obtain ⟨p, hp, hpf⟩ := forall₂_mem_right hpsi hf
      obtain ⟨q', hq', g1, g2, g3⟩ := mem_spin hp
      obtain ⟨-, -, d3, d4⟩ := makePsi_fields hpf
      have hs : 0 < p.2 := by
        rw [g2]; exact lt_of_lt_of_le (by positivity) (anden_pos (by omega) hq').2.2
      have := C26_scale_le a.Jfr q.toNat (by omega) q' hq'
      refine ⟨by rw [d3, g3]; exact this.1, .inl (by rw [d3, g3]; exact this.2), _, makeLevels_zero d4,
        length_morlet1d hs, _, d4⟩

theorem sub1_le_max (ls j : Nat) (avg : Bool) : sub1 ls avg j ≤ j := by
  unfold sub1
  split <;> omega

/-- The sizes of a constructed object fit together. -/
theorem make_fits {a : JArgs} {s : ScJ} (hmake : a.make = .ok s) {Q1 Q2 : Int} (hQ : parseQ a.Q = .ok (Q1, Q2))
    (hQ12 : Q2 ≤ Q1) {ls lsFr : Nat}
    (hls : log2Stride s.base.built.stride a.T a.J s.base.built.Ninput = .ok (ls : ℤ))
    (hlsT : ∀ lT : ℤ, log2T a.T a.J s.base.built.Ninput = .ok lT → (ls : ℤ) ≤ lT)
    (hlsJ : s.base.average = .loc → ∀ f ∈ s.base.psi2, ∀ g ∈ s.base.psi1, g.j < f.j → f.j ≤ ls)
    {F : Rat} {avF : Average} (hF : parseT a.F a.Jfr ((a.J + 1) * Q1.toNat) = .ok (F, avF))
    (hF8 : (2 : Rat) ^ a.Jfr ≤ 8 * F) (hlsFr : avF = .loc → (lsFr : ℤ) = floorLog2 F) :
    Fits (a.obj s Q1.toNat) s.base.built.Npadded ls lsFr := by
  obtain ⟨_, _, _, hbase, -⟩ := JArgs.make_eq_ok hmake
  obtain ⟨t, lT, hT, hlT, hdiv, hphil, hJ, hphi, hlen, f1, f2, -, -, -⟩ := base_facts hbase hQ hQ12
  obtain ⟨e1, e2, e3, -, e5, e6, e7⟩ := fr_facts hmake hQ hF
  have hq := C09_Q_positive a.Q Q1 Q2 hQ
  have hle : ls ≤ lT := by have := hlsT _ hlT; omega
  change s.base.average ≠ .loc → lT = a.J at hJ
  have hnl : s.base.average ≠ .loc → ls = a.J := by
    intro hav
    rcases (C07_log2_stride_ok _ _ _ _ _).1 hls with ⟨-, h⟩ | ⟨m, -, -, t', ht'⟩
    · change log2T a.T a.J s.base.built.Ninput = .ok (lT : ℤ) at hlT
      rw [h] at hlT
      injection hlT with hlT
      have := hJ hav
      omega
    · change parseT a.T a.J s.base.built.Ninput = .ok (t, s.base.average) at hT
      rw [ht'] at hT
      injection hT with hT
      injection hT with h1 h2
      exact absurd h2.symm hav
  have handen := C25_number_of_filters_partial a.J Q1.toNat (by omega)
  have hlen' : s.base.psi1.length = (anden a.J Q1.toNat).length := hlen
  have hj1 : ∀ f ∈ s.base.psi1, sub1 ls (decide (s.base.average = .loc)) f.j.toNat ≤ ls := by
    intro f hf
    obtain ⟨-, -, h1, h2⟩ := f1 f hf
    change f.j ≤ max ((a.J : ℤ) - 1) 0 at h2
    unfold sub1
    split
    · omega
    · rename_i hav
      have := hnl (by simpa using hav)
      omega
  have hj2 : ∀ f ∈ s.base.psi2, ∀ g ∈ s.base.psi1, g.j < f.j → f.j ≤ ls := by
    intro f hf g hg hlt
    by_cases hav : s.base.average = .loc
    · exact hlsJ hav f hf g hg hlt
    · have h1 := hnl hav
      have h2 := (f2 f hf).2.2.1
      change f.j ≤ max ((a.J : ℤ) - 1) 0 at h2
      omega
  have hNdiv : ∀ k, k ≤ ls → 2 ^ k ∣ s.base.built.Npadded := fun k hk =>
    (pow_dvd_pow 2 (hk.trans hle)).trans hdiv
  refine ⟨hphi, ?_, ?_, ?_, hNdiv ls le_rfl, ?_, ?_, ?_, ?_⟩
  · show 0 < s.base.phi.levels.length
    omega
  · show s.base.psi1.map FiltX.toFilt ≠ []
    rw [← List.length_pos_iff, List.length_map]
    omega
  · intro f hf
    obtain ⟨g, hg, rfl⟩ := List.mem_map.1 hf
    obtain ⟨h1, h2, h3, h4⟩ := f1 g hg
    have h6 := hj1 g hg
    exact ⟨h1, h2, h6, lt_of_le_of_lt (h6.trans hle) hphil⟩
  · intro f hf g hg hlt
    obtain ⟨f', hf', rfl⟩ := List.mem_map.1 hf
    obtain ⟨g', hg', rfl⟩ := List.mem_map.1 hg
    obtain ⟨h1, h2, h3, h4⟩ := f2 f' hf'
    have h6 := (f1 g' hg').2.2.1
    change g'.j.toNat < f'.j.toNat at hlt
    have h5 := hj2 f' hf' g' hg' (by omega)
    have h7 : f'.j.toNat ≤ ls := by omega
    exact ⟨h1, h4 g' hg' (by omega) (by omega), hNdiv _ h7, fun _ => ⟨h7, lt_of_le_of_lt (h7.trans hle) hphil⟩⟩
  · show (s.base.psi1.map FiltX.toFilt).length ≤ s.nFr
    rw [List.length_map, hlen', e2]
    exact handen.2.trans (nPaddedFr_ge hF8)
  · intro f hf
    obtain ⟨g, hg, rfl⟩ := List.mem_map.1 hf
    obtain ⟨h1, h2, h, h3, h4, -⟩ := e7 g hg
    refine ⟨⟨h, h3, h4⟩, ?_⟩
    show 2 ^ g.j.toNat ∣ s.nFr
    rw [e2]
    refine (pow_dvd_pow 2 ?_).trans (nPaddedFr_dvd _ _ _)
    rcases h2 with h2 | h2 <;> omega
  · intro hav
    have hav : s.averageFr = .loc := hav
    rw [e1] at hav
    have h1 := hlsFr hav
    have h2 : lsFr < s.phiFr.levels.length := by omega
    refine ⟨e6, ?_, h2, ?_⟩
    · show s.phiFr.j.toNat = lsFr
      omega
    · exact ⟨_, by rw [mul_comm]; exact (e6 _ _ (List.getElem?_eq_getElem h2)).symm⟩

end Verif
