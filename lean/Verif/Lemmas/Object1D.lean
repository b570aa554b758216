import Verif.Props.Frontend1D
import Verif.Props.FilterBank1D
import Verif.Props.Sizes1D
import Verif.Lemmas.MorletNonzero

/-!
# What a constructed `Scattering1D` object contains
-/

namespace Verif

/-- Decomposition of a successful filter bank construction. -/
theorem createFilters_eq_ok {N J Q1 Q2 : Nat} {T : Rat} {phi : FiltX} {psi1 psi2 : List FiltX} :
    createFilters N J Q1 Q2 T = .ok (phi, psi1, psi2) ↔
      ∃ M1 M2 : ℤ,
        List.Forall₂ (fun p f => makePsi false N 5 0 (floorLog2 T) p = .ok f) (anden J Q1) psi1 ∧
        List.Forall₂ (fun p f => makePsi false N 5 M1 (floorLog2 T) p = .ok f) (anden J Q2) psi2 ∧
        M1 = psi1.foldl (fun m f => max f.j m) 0 ∧
        M2 = psi2.foldl (fun m f => max f.j m) M1 ∧
        makeLevels false (gauss1d N (0.1 / T)) (max M2 (1 + floorLog2 T)) = .ok phi.levels ∧
        phi.xi = 0 ∧ phi.sigma = 0.1 / T ∧ phi.j = floorLog2 T ∧
        checkFilterbanks psi1 psi2 = .ok () := by
  unfold createFilters filterFactory
  constructor
  · intro h
    obtain ⟨r, hr, h⟩ := bind_eq_ok.1 h
    obtain ⟨L, hL, hr⟩ := bind_eq_ok.1 hr
    obtain ⟨lv, hlv, hr⟩ := bind_eq_ok.1 hr
    injection hr with hr
    subst hr
    simp only [List.map_cons, List.map_nil] at hL
    unfold makeLayers at hL
    obtain ⟨l1, hl1, hL⟩ := bind_eq_ok.1 hL
    obtain ⟨r1, hr1, hL⟩ := bind_eq_ok.1 hL
    injection hL with hL
    subst hL
    unfold makeLayers at hr1
    obtain ⟨l2, hl2, hL2⟩ := bind_eq_ok.1 hr1
    obtain ⟨r2, hr2, hL2⟩ := bind_eq_ok.1 hL2
    injection hL2 with hL2
    subst hL2
    unfold makeLayers at hr2
    injection hr2 with hr2
    subst hr2
    simp only at h hlv
    obtain ⟨u, hu, h⟩ := bind_eq_ok.1 h
    injection h with h
    injection h with h1 h2
    injection h2 with h2 h3
    subst h1 h2 h3
    exact ⟨_, _, mapM_eq_ok.1 hl1, mapM_eq_ok.1 hl2, rfl, rfl, hlv, rfl, rfl, rfl, hu⟩
  · rintro ⟨M1, M2, h1, h2, rfl, rfl, h3, h4, h5, h6, h7⟩
    refine bind_eq_ok.2 ⟨(phi, [psi1, psi2]), ?_, ?_⟩
    · refine bind_eq_ok.2 ⟨([psi1, psi2], _), ?_, bind_eq_ok.2 ⟨_, h3, ?_⟩⟩
      · simp only [List.map_cons, List.map_nil]
        unfold makeLayers
        refine bind_eq_ok.2 ⟨_, mapM_eq_ok.2 h1, bind_eq_ok.2 ⟨([psi2], _), ?_, rfl⟩⟩
        unfold makeLayers
        refine bind_eq_ok.2 ⟨_, mapM_eq_ok.2 h2, bind_eq_ok.2 ⟨([], _), ?_, rfl⟩⟩
        rfl
      · cases phi
        simp only at h4 h5 h6
        subst h4 h5 h6
        rfl
    · simp only
      exact bind_eq_ok.2 ⟨(), h7, rfl⟩

theorem parseT_ge_one {T : PyT} {J N : Nat} {t : Rat} {av : Average}
    (h : parseT T J N = .ok (t, av)) : 1 ≤ t := by
  have hpow : (1 : Rat) ≤ 2 ^ J := one_le_pow₀ (by norm_num)
  cases T with
  | none => simp only [parseT, Except.ok.injEq, Prod.mk.injEq] at h; rw [← h.1]; exact hpow
  | global => simp only [parseT, Except.ok.injEq, Prod.mk.injEq] at h; rw [← h.1]; exact hpow
  | num t =>
    simp only [parseT] at h
    split at h
    · cases h
    · split at h
      · simp only [Except.ok.injEq, Prod.mk.injEq] at h; rw [← h.1]; exact hpow
      · split at h
        · cases h
        · simp only [Except.ok.injEq, Prod.mk.injEq] at h; rw [← h.1]; linarith

/-- What the constructed object's filters are. -/
theorem make_filters {a : Args1D} {s : Sc1D} (h : a.make = .ok s) :
    ∃ (t : Rat) (Q1 Q2 lT : Nat) (M1 M2 : ℤ), 1 ≤ Q1 ∧ 1 ≤ Q2 ∧ 1 ≤ t ∧
      parseT a.T a.J s.built.Ninput = .ok (t, s.average) ∧ parseQ a.Q = .ok (Q1, Q2) ∧
      floorLog2 t = lT ∧
      List.Forall₂ (fun p f => makePsi false s.built.Npadded 5 0 lT p = .ok f)
        (anden a.J Q1) s.psi1 ∧
      List.Forall₂ (fun p f => makePsi false s.built.Npadded 5 M1 lT p = .ok f)
        (anden a.J Q2) s.psi2 ∧
      M1 = s.psi1.foldl (fun m f => max f.j m) 0 ∧
      M2 = s.psi2.foldl (fun m f => max f.j m) M1 ∧
      makeLevels false (gauss1d s.built.Npadded (0.1 / t)) (max M2 (1 + lT)) = .ok s.phi.levels ∧
      s.phi.j = lT ∧ checkFilterbanks s.psi1 s.psi2 = .ok () := by
  obtain ⟨t, lT, -, hT, -, -, -, -, -, -, -, -, Q, hQ, hf⟩ := make_sizes h
  obtain ⟨M1, M2, h1, h2, h3, h4, h5, -, -, h6, h7⟩ := createFilters_eq_ok.1 hf
  obtain ⟨hQ1, hQ2⟩ := C09_Q_positive a.Q Q.1 Q.2 hQ
  have ht := parseT_ge_one hT
  obtain ⟨k, hk, -⟩ := C06_log2_T a.T a.J s.built.Ninput _ hT
  have hfl : floorLog2 t = (k : ℤ) := by
    unfold log2T at hk
    rw [hT] at hk
    injection hk
  rw [hfl] at h1 h2 h5 h6
  have e : Q = ((Q.1.toNat : ℤ), (Q.2.toNat : ℤ)) := by
    rw [Int.toNat_of_nonneg (by omega), Int.toNat_of_nonneg (by omega)]
  exact ⟨t, Q.1.toNat, Q.2.toNat, k, M1, M2, by omega, by omega, ht, hT, by rw [hQ, ← e], hfl,
    h1, h2, h3, h4, h5, h6, h7⟩

theorem makeLevels_zero {mean : Bool} {h : List ℝ} {b : ℤ} {lv : List (List ℝ)}
    (hlv : makeLevels mean h b = .ok lv) : lv[0]? = some h := by
  obtain ⟨rest, -, rfl⟩ := makeLevels_eq.1 hlv
  rfl

/-- Every wavelet of the object is derived from a Morlet filter of the library. -/
theorem make_wavelet {a : Args1D} {s : Sc1D} (h : a.make = .ok s) {f : FiltX}
    (hf : f ∈ s.psi1 ++ s.psi2) :
    ∃ (Q : Nat) (p : ℝ × ℝ) (b : ℤ), 1 ≤ Q ∧ p ∈ anden a.J Q ∧ f.xi = p.1 ∧ f.sigma = p.2 ∧
      f.j = getMaxDyadicSubsampling p.1 p.2 5 ∧
      makeLevels false (morlet1d s.built.Npadded (some p.1) p.2) b = .ok f.levels := by
  obtain ⟨t, Q1, Q2, lT, M1, M2, hQ1, hQ2, -, -, -, -, h1, h2, -⟩ := make_filters h
  rcases List.mem_append.1 hf with hf | hf
  · obtain ⟨p, hp, hpf⟩ := forall₂_mem_right h1 hf
    obtain ⟨e1, e2, e3, e4⟩ := makePsi_fields hpf
    exact ⟨Q1, p, _, hQ1, hp, e1, e2, e3, e4⟩
  · obtain ⟨p, hp, hpf⟩ := forall₂_mem_right h2 hf
    obtain ⟨e1, e2, e3, e4⟩ := makePsi_fields hpf
    exact ⟨Q2, p, _, hQ2, hp, e1, e2, e3, e4⟩

/-- The padded length is even except for a signal of one sample. -/
theorem make_even {a : Args1D} {s : Sc1D} (h : a.make = .ok s) (hN : 2 ≤ s.built.Ninput) :
    0 < s.built.Npadded ∧ 2 ∣ s.built.Npadded := by
  obtain ⟨t, lT, -, -, -, h1, -, -, -, h2, -⟩ := make_sizes h
  have hge : 2 ≤ s.built.Npadded := by omega
  refine ⟨by omega, ?_⟩
  rw [h2] at hge ⊢
  cases hj : jPad s.built.Ninput (minToPad s.built.Ninput t) with
  | zero => rw [hj] at hge; simp at hge
  | succ k => exact dvd_pow_self 2 (by omega)

theorem length_npPad {x U : List ℝ} {l r : Nat} (h : npPad x l r = .ok U) :
    U.length = l + x.length + r := by
  unfold npPad at h
  split at h
  · cases h
  · injection h with h
    rw [← h, length_tab]

end Verif
