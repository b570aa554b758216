import Verif.Lemmas.Object1D

/-!
# C17: construction and transform never fail on admissible arguments
-/

namespace Verif

open Core1D Front1D

/-! ## Success of the core -/

/-- Resolution `l` of a filter has length `N / 2^l`. -/
def Sized (N : Nat) (f : Filt (List ℝ)) : Prop :=
  ∀ (l : Nat) (y : List ℝ), f.levels[l]? = some y → y.length * 2 ^ l = N

theorem sized_lowpass {N : Nat} {phi : Filt (List ℝ)} (h : Sized N phi) {u : List ℝ} {k e : Nat}
    (hu : u.length * 2 ^ k = N) (hk : k < phi.levels.length) (he : 2 ^ (k + e) ∣ N) :
    ∃ c, lowpass npBackend phi (npRfft u) k e = .ok c := by
  have hy := List.getElem?_eq_getElem hk
  have hl := h k _ hy
  have hpk : 0 < 2 ^ k := by positivity
  refine np_lowpass_ok hy ?_ ?_
  · exact Nat.eq_of_mul_eq_mul_right hpk (by rw [hl, hu])
  · rw [pow_add, mul_comm, ← hu] at he
    exact Nat.dvd_of_mul_dvd_mul_right hpk he

theorem sized_bandpass {N : Nat} {psi : Filt (List ℝ)} (h : Sized N psi) {u : List ℝ} {k e : Nat}
    (hu : u.length * 2 ^ k = N) (hk : k < psi.levels.length) (he : 2 ^ (k + e) ∣ N) :
    ∃ c, bandpass npBackend psi (npRfft u) k e = .ok c ∧ c.length * 2 ^ (k + e) = N := by
  have hy := List.getElem?_eq_getElem hk
  have hl := h k _ hy
  have hpk : 0 < 2 ^ k := by positivity
  obtain ⟨c, hc⟩ := np_bandpass_ok (e := e) (x := u) hy
    (Nat.eq_of_mul_eq_mul_right hpk (by rw [hl, hu])) (by
      rw [pow_add, mul_comm, ← hu] at he
      exact Nat.dvd_of_mul_dvd_mul_right hpk he)
  refine ⟨c, hc, ?_⟩
  obtain ⟨-, -, -, hlen, -⟩ := np_bandpass hc
  rw [pow_add, mul_comm (2 ^ k), ← mul_assoc, hlen, hu]

theorem core_succeeds {x : List ℝ} {phi : Filt (List ℝ)} {psi1 psi2 : List (Filt (List ℝ))}
    {ls mo : Nat} {avg : Bool} (hmo : 1 ≤ mo) (hphi : Sized x.length phi)
    (h1 : ∀ f ∈ psi1, Sized x.length f) (h2 : ∀ f ∈ psi2, Sized x.length f)
    (hls : avg = true → 2 ^ ls ∣ x.length ∧ ls < phi.levels.length)
    (l1 : ∀ f ∈ psi1, 0 < f.levels.length) (d1 : avg = false → ∀ f ∈ psi1, 2 ^ f.j ∣ x.length)
    (l2 : ∀ f ∈ psi1, ∀ g ∈ psi2, f.j < g.j →
      (if avg then min f.j ls else f.j) < g.levels.length)
    (d2 : avg = false → ∀ g ∈ psi2, 2 ^ g.j ∣ x.length) :
    ∃ out, scattering1d npBackend x phi ([psi1, psi2].take mo) ls avg = .ok out := by
  have hdiv : ∀ k, k ≤ ls → avg = true → 2 ^ k ∣ x.length := fun k hk ha =>
    (pow_dvd_pow 2 hk).trans (hls ha).1
  have hp0 : ([psi1, psi2].take mo)[0]? = some psi1 := by
    rw [List.getElem?_take_of_lt (by omega)]; rfl
  -- zeroth order
  have hz : ∃ c, zeroth npBackend phi ls avg x (npRfft x) = .ok c := by
    unfold zeroth
    cases avg with
    | false => exact ⟨x, rfl⟩
    | true =>
      exact sized_lowpass hphi (by simp) (by have := (hls rfl).2; omega)
        (by rw [Nat.zero_add]; exact hdiv ls le_rfl rfl)
  -- second order
  have hsec : ∀ f ∈ psi1, ∀ g ∈ psi2, ∀ (u : List ℝ) (n1 n2 : Nat),
      u.length * 2 ^ (if avg then min f.j ls else f.j) = x.length →
      ∃ r, secondOrder npBackend phi ls avg f.j n1 (if avg then min f.j ls else f.j) (npRfft u) g n2 =
        .ok r := by
    intro f hf g hg u n1 n2 hu
    by_cases hj : f.j < g.j
    · have hl2 := l2 f hf g hg hj
      unfold secondOrder
      simp only [gt_iff_lt, hj, if_true]
      cases avg with
      | false =>
        simp only [Bool.false_eq_true, if_false] at hu hl2 ⊢
        obtain ⟨c, hc, -⟩ := sized_bandpass (h2 g hg) hu hl2 (e := g.j - f.j) (by
          rw [show f.j + (g.j - f.j) = g.j by omega]
          exact d2 rfl g hg)
        exact ⟨_, bind_eq_ok.2 ⟨c, hc, rfl⟩⟩
      | true =>
        simp only [if_true] at hu hl2 ⊢
        have e1 : min f.j ls + (min g.j ls - min f.j ls) = min g.j ls := by omega
        obtain ⟨c, hc, hcl⟩ := sized_bandpass (h2 g hg) hu hl2 (e := min g.j ls - min f.j ls) (by
          rw [e1]; exact hdiv _ (Nat.min_le_right _ _) rfl)
        obtain ⟨d, hd⟩ := sized_lowpass hphi hcl (by have := (hls rfl).2; omega) (e := ls - min g.j ls)
          (by rw [e1, show min g.j ls + (ls - min g.j ls) = ls by omega]; exact hdiv _ le_rfl rfl)
        exact ⟨_, bind_eq_ok.2 ⟨c, hc, bind_eq_ok.2 ⟨_, rfl, bind_eq_ok.2 ⟨d, hd, rfl⟩⟩⟩⟩
    · exact ⟨[], secondOrder_skip npBackend hj⟩
  -- first order
  have hfirst : ∀ f ∈ psi1, ∀ n1, ∃ r,
      firstOrder npBackend phi ([psi1, psi2].take mo) ls avg (npRfft x) f n1 = .ok r := by
    intro f hf n1
    have hk1 : 2 ^ (0 + (if avg then min f.j ls else f.j)) ∣ x.length := by
      rw [Nat.zero_add]
      cases avg with
      | false => exact d1 rfl f hf
      | true => exact hdiv _ (Nat.min_le_right _ _) rfl
    obtain ⟨u, hu, hul⟩ := sized_bandpass (h1 f hf) (u := x) (k := 0) (by simp) (l1 f hf) hk1
    rw [Nat.zero_add] at hul
    have hfp : ∃ p, firstPath npBackend phi ls avg f.j n1 (if avg then min f.j ls else f.j) u
        (npRfft u) = .ok p := by
      unfold firstPath
      cases avg with
      | false => exact ⟨_, rfl⟩
      | true =>
        simp only [if_true] at hul ⊢
        obtain ⟨c, hc⟩ := sized_lowpass hphi hul (by have := (hls rfl).2; omega) (e := ls - min f.j ls)
          (by rw [show min f.j ls + (ls - min f.j ls) = ls by omega]; exact hdiv _ le_rfl rfl)
        exact ⟨_, bind_eq_ok.2 ⟨c, hc, rfl⟩⟩
    obtain ⟨p, hp⟩ := hfp
    have hrest : ∀ q2, ([psi1, psi2].take mo)[1]? = some q2 → ∃ r,
        forEnum (secondOrder npBackend phi ls avg f.j n1 (if avg then min f.j ls else f.j) (npRfft u))
          q2 0 = .ok r := by
      intro q2 hq2
      have : q2 = psi2 := by
        rw [List.getElem?_take] at hq2
        split at hq2
        · simpa using hq2.symm
        · cases hq2
      subst this
      apply forEnum_ok
      intro i g hg
      exact hsec f hf g (List.mem_of_getElem? hg) u n1 _ hul
    unfold firstOrder
    cases hq : ([psi1, psi2].take mo)[1]? with
    | none =>
      cases avg with
      | false => exact ⟨_, bind_eq_ok.2 ⟨u, hu, rfl⟩⟩
      | true => exact ⟨_, bind_eq_ok.2 ⟨u, hu, bind_eq_ok.2 ⟨_, rfl, bind_eq_ok.2 ⟨p, hp, rfl⟩⟩⟩⟩
    | some q2 =>
      obtain ⟨r, hr⟩ := hrest q2 hq
      cases avg with
      | false => exact ⟨_, bind_eq_ok.2 ⟨u, hu, bind_eq_ok.2 ⟨_, rfl, bind_eq_ok.2 ⟨p, hp,
          bind_eq_ok.2 ⟨r, hr, rfl⟩⟩⟩⟩⟩
      | true => exact ⟨_, bind_eq_ok.2 ⟨u, hu, bind_eq_ok.2 ⟨_, rfl, bind_eq_ok.2 ⟨p, hp,
          bind_eq_ok.2 ⟨r, hr, rfl⟩⟩⟩⟩⟩
  obtain ⟨c, hc⟩ := hz
  obtain ⟨r, hr⟩ := forEnum_ok (n := 0) (l := psi1)
    (f := firstOrder npBackend phi ([psi1, psi2].take mo) ls avg (npRfft x))
    (fun i f hi => hfirst f (List.mem_of_getElem? hi) _)
  refine ⟨_, bind_eq_ok.2 ⟨_, rfl, bind_eq_ok.2 ⟨c, hc, bind_eq_ok.2 ⟨psi1, ?_,
    bind_eq_ok.2 ⟨r, hr, rfl⟩⟩⟩⟩⟩
  unfold listGet
  rw [hp0]

/-! ## Scales of the first-order bank -/

theorem foldl_max_ge (l : List FiltX) (m : ℤ) :
    m ≤ l.foldl (fun m f => max f.j m) m ∧ (∀ f ∈ l, f.j ≤ l.foldl (fun m f => max f.j m) m) ∧
      ∀ B, m ≤ B → (∀ f ∈ l, f.j ≤ B) → l.foldl (fun m f => max f.j m) m ≤ B := by
  induction l generalizing m with
  | nil => exact ⟨le_rfl, by simp, fun B h _ => h⟩
  | cons a l ih =>
    obtain ⟨i1, i2, i3⟩ := ih (max a.j m)
    simp only [List.foldl_cons]
    refine ⟨(le_max_right _ _).trans i1, ?_, ?_⟩
    · intro f hf
      rcases List.mem_cons.1 hf with rfl | hf
      · exact (le_max_left _ _).trans i1
      · exact i2 f hf
    · intro B h1 h2
      exact i3 B (max_le (h2 a (by simp)) h1) fun f hf => h2 f (by simp [hf])

/-- The last wavelet of the bank when `Q ≥ 2`. -/
theorem last_mem_anden {J Q : Nat} (hQ : 2 ≤ Q) :
    ∃ e : ℝ, 0 < e ∧ e * rho Q ≤ 0.1 / 2 ^ J * qr Q ∧ (e / Q, 0.1 / 2 ^ J) ∈ anden J Q := by
  have hQ1 : 1 ≤ Q := by omega
  have hc := andenGenerator_closed J Q hQ1 0.1 (Real.sqrt 0.5) (by norm_num)
  simp only [sigmaRatio_lib] at hc
  have hx0 := computeXiMax_ge Q
  have hxp : 0 < computeXiMax Q := by norm_num at hx0; linarith
  have hr := rho_pos hQ1
  have hr1 := rho_lt_one hQ1
  have hq := qr_gt_one hQ1
  have hsm : (0 : ℝ) < 0.1 / 2 ^ J := by positivity
  have hQ0 : (0 : ℝ) < Q := by positivity
  have hlast : ∀ e : ℝ, e - (((Q - 2 : ℕ) : ℝ) + 1) / Q * e = e / Q := by
    intro e
    rw [Nat.cast_sub hQ]
    field_simp
    push_cast
    ring
  unfold anden
  rcases le_or_gt (rho Q * computeXiMax Q) (0.1 / 2 ^ J) with h | h
  · rw [hc.1 h, Option.getD_some]
    refine ⟨rho Q * computeXiMax Q, by positivity, ?_, ?_⟩
    · calc rho Q * computeXiMax Q * rho Q ≤ 0.1 / 2 ^ J * rho Q := by gcongr
        _ ≤ 0.1 / 2 ^ J * qr Q := by gcongr; linarith
    · exact List.mem_map.2 ⟨Q - 2, List.mem_range.2 (by omega), by rw [hlast]⟩
  · obtain ⟨K, hK, -, heq⟩ := hc.2 h
    rw [heq, Option.getD_some]
    refine ⟨computeXiMax Q / qr Q ^ K, by have := qr_pos Q; positivity, ?_, ?_⟩
    · calc computeXiMax Q / qr Q ^ K * rho Q = rho Q * computeXiMax Q / qr Q ^ K := by ring
        _ ≤ _ := hK
    · exact List.mem_append_right _ (List.mem_map.2 ⟨Q - 2, List.mem_range.2 (by omega), by
        rw [hlast]⟩)

/-- With `Q ≥ 2` the largest scale `J - 1` is attained. -/
theorem scale_attained {J Q : Nat} (hQ : 2 ≤ Q) :
    ∃ p ∈ anden J Q, (J : ℤ) - 1 ≤ getMaxDyadicSubsampling p.1 p.2 5 := by
  obtain ⟨e, he, her, hmem⟩ := last_mem_anden (J := J) hQ
  refine ⟨_, hmem, ?_⟩
  have hQ0 : (0 : ℝ) < Q := by positivity
  have hsm : (0 : ℝ) < 0.1 / 2 ^ J := by positivity
  have hr := rho_pos (by omega : 1 ≤ Q)
  have hge := rho_ge hQ
  have hep : 0 < e / Q := by positivity
  have h1 : e / Q ≤ 5 * (0.1 / 2 ^ J) := by
    rw [div_le_iff₀ hQ0]
    have h2 : 0.1 / 2 ^ J * qr Q ≤ 0.1 / 2 ^ J * (5 * Q * rho Q) :=
      mul_le_mul_of_nonneg_left hge hsm.le
    have h3 : e * rho Q ≤ (5 * (0.1 / 2 ^ J) * Q) * rho Q := by
      calc e * rho Q ≤ _ := her
        _ ≤ _ := h2
        _ = _ := by ring
    exact le_of_mul_le_mul_right h3 hr
  obtain ⟨-, -, h2, -⟩ := C26_max_dyadic_subsampling (e / Q) (0.1 / 2 ^ J) 5
    (by rw [abs_of_pos hep]; positivity)
  by_contra hc
  push Not at hc
  have h3 := h2 ((J : ℤ) - 1) hc
  rw [abs_of_pos hep] at h3
  have h4 : (2 : ℝ) ^ (-((J : ℤ) - 1 + 1)) = 10 * (0.1 / 2 ^ J) := by
    rw [sub_add_cancel, zpow_neg, zpow_natCast]
    norm_num
    ring
  rw [h4] at h3
  linarith

/-- With `Q1 ≥ Q2`, no second-order scale exceeds the largest first-order scale (or zero). -/
theorem scale2_le {J Q1 Q2 N : Nat} {lT M1 M2 : ℤ} (hQ2 : 1 ≤ Q2) (hQ : Q2 ≤ Q1)
    {psi1 psi2 : List FiltX}
    (h1 : List.Forall₂ (fun p f => makePsi false N 5 0 lT p = .ok f) (anden J Q1) psi1)
    (h2 : List.Forall₂ (fun p f => makePsi false N 5 M2 lT p = .ok f) (anden J Q2) psi2)
    (hM : M1 = psi1.foldl (fun m f => max f.j m) 0) : ∀ g ∈ psi2, g.j ≤ M1 := by
  intro g hg
  obtain ⟨p, hp, hpg⟩ := forall₂_mem_right h2 hg
  obtain ⟨-, -, hj, -⟩ := makePsi_fields hpg
  obtain ⟨m0, m1, -⟩ := foldl_max_ge psi1 0
  rw [← hM] at m0 m1
  rcases Nat.lt_or_ge Q1 2 with hq | hq
  · have e1 : Q1 = 1 := by omega
    have e2 : Q2 = 1 := by omega
    subst e1 e2
    obtain ⟨f, hf, hpf⟩ := forall₂_mem_left h1 hp
    obtain ⟨-, -, hj', -⟩ := makePsi_fields hpf
    rw [hj, ← hj']
    exact m1 f hf
  · rcases Nat.eq_zero_or_pos J with rfl | _
    · have := (C26_scale_le 0 Q2 hQ2 p hp).2
      rw [hj]
      simp at this
      omega
    · obtain ⟨p', hp', hge⟩ := scale_attained (J := J) hq
      obtain ⟨f, hf, hpf⟩ := forall₂_mem_left h1 hp'
      obtain ⟨-, -, hj', -⟩ := makePsi_fields hpf
      have hle := (C26_scale_le J Q2 hQ2 p hp).2
      have := m1 f hf
      rw [hj'] at this
      rw [hj]
      omega

/-! ## Construction -/

theorem checkFilterbanks_ok {J Q1 Q2 N : Nat} {lT M : ℤ} (hQ2 : 1 ≤ Q2) (hQ : Q2 ≤ Q1)
    {psi1 psi2 : List FiltX}
    (h1 : List.Forall₂ (fun p f => makePsi false N 5 0 lT p = .ok f) (anden J Q1) psi1)
    (h2 : List.Forall₂ (fun p f => makePsi false N 5 M lT p = .ok f) (anden J Q2) psi2) :
    checkFilterbanks psi1 psi2 = .ok () := by
  have hQ1 : 1 ≤ Q1 := hQ2.trans hQ
  unfold checkFilterbanks
  rw [if_neg, if_neg]
  · rw [not_not]
    intro f hf g hg hj
    obtain ⟨p, hp, hpf⟩ := forall₂_mem_right h1 hf
    obtain ⟨q, hq, hqg⟩ := forall₂_mem_right h2 hg
    obtain ⟨e1, -, e2, -⟩ := makePsi_fields hpf
    obtain ⟨e3, -, e4, -⟩ := makePsi_fields hqg
    rw [e1, e3]
    rw [e2, e4] at hj
    exact C27_scale_order J Q1 Q2 hQ2 hQ p q hp hq hj
  · rw [not_not]
    intro f hf
    obtain ⟨p, hp, hpf⟩ := forall₂_mem_right h1 hf
    obtain ⟨e1, -, e2, -⟩ := makePsi_fields hpf
    rw [e1, e2]
    exact C27_below_nyquist J Q1 hQ1 p hp

theorem makePsi_ok {N K : Nat} (hN : N = 2 ^ K) {p : ℝ × ℝ} (hs : 0 < p.2) {pj lT : ℤ}
    (hb : min (min pj (getMaxDyadicSubsampling p.1 p.2 5)) (1 + lT) - 1 ≤ K) :
    ∃ f, makePsi false N 5 pj lT p = .ok f := by
  have hl : (morlet1d N (some p.1) p.2).length = N := length_morlet1d hs
  obtain ⟨lv, hlv⟩ := makeLevels_ok (mean := false) (h := morlet1d N (some p.1) p.2)
    (b := min (min pj (getMaxDyadicSubsampling p.1 p.2 5)) (1 + lT)) (d := K)
    (by rw [hl, hN]) hb
  exact ⟨_, bind_eq_ok.2 ⟨lv, hlv, rfl⟩⟩

/-- Success of `create_filters` when `Q1 ≥ Q2` and the padded length is a multiple of `2^(J-2)` and
of `2^log2_T`. -/
theorem createFilters_ok {N K J Q1 Q2 : Nat} {T : Rat} {lT : Nat} (hN : N = 2 ^ K) (hQ2 : 1 ≤ Q2)
    (hQ : Q2 ≤ Q1) (hT : 1 ≤ T) (hlT : floorLog2 T = lT) (h1 : lT ≤ K) (h2 : J ≤ K + 2) :
    ∃ r, createFilters N J Q1 Q2 T = .ok r := by
  have hQ1 : 1 ≤ Q1 := hQ2.trans hQ
  have hpos : ∀ Q, 1 ≤ Q → ∀ p ∈ anden J Q, 0 < p.2 := fun Q hq p hp =>
    lt_of_lt_of_le (by positivity) (anden_pos hq hp).2.2
  obtain ⟨psi1, hp1⟩ : ∃ l, (anden J Q1).mapM (makePsi false N 5 0 (floorLog2 T)) = .ok l := by
    apply mapM_ok_of_forall
    intro p hp
    apply makePsi_ok hN (hpos Q1 hQ1 p hp)
    rw [hlT]
    omega
  set M1 := psi1.foldl (fun m f => max f.j m) 0 with hM1
  obtain ⟨psi2, hp2⟩ : ∃ l, (anden J Q2).mapM (makePsi false N 5 M1 (floorLog2 T)) = .ok l := by
    apply mapM_ok_of_forall
    intro p hp
    apply makePsi_ok hN (hpos Q2 hQ2 p hp)
    rw [hlT]
    omega
  rw [mapM_eq_ok] at hp1 hp2
  set M2 := psi2.foldl (fun m f => max f.j m) M1 with hM2
  have hj : ∀ (Q : Nat) (pj : ℤ) (psi : List FiltX), 1 ≤ Q →
      List.Forall₂ (fun p f => makePsi false N 5 pj (floorLog2 T) p = .ok f) (anden J Q) psi →
      ∀ f ∈ psi, f.j ≤ max ((J : ℤ) - 1) 0 := by
    intro Q pj psi hq h f hf
    obtain ⟨p, hp, hpf⟩ := forall₂_mem_right h hf
    obtain ⟨-, -, e, -⟩ := makePsi_fields hpf
    rw [e]
    exact (C26_scale_le J Q hq p hp).2
  have hM2le : M2 ≤ max ((J : ℤ) - 1) 0 := by
    apply (foldl_max_ge psi2 M1).2.2 _ _ (hj Q2 M1 psi2 hQ2 hp2)
    exact (foldl_max_ge psi1 0).2.2 _ (le_max_right _ _) (hj Q1 0 psi1 hQ1 hp1)
  have hs : (0 : ℝ) < 0.1 / T := by
    have : (0 : ℝ) < T := by exact_mod_cast (by linarith : (0 : ℚ) < T)
    positivity
  have hl : (gauss1d N (0.1 / T)).length = N := length_morlet1d hs
  obtain ⟨lv, hlv⟩ := makeLevels_ok (mean := false) (h := gauss1d N (0.1 / T))
    (b := max M2 (1 + floorLog2 T)) (d := K) (by rw [hl, hN]) (by rw [hlT]; omega)
  exact ⟨(⟨lv, 0, 0.1 / T, floorLog2 T⟩, psi1, psi2), createFilters_eq_ok.2 ⟨M1, M2, hp1, hp2, rfl, rfl,
    hlv, rfl, rfl, rfl, checkFilterbanks_ok hQ2 hQ hp1 hp2⟩⟩

theorem le_twoPow_log {t : Rat} {k K : Nat} (h1 : (2 : Rat) ^ k ≤ t) (h2 : t ≤ (2 ^ K : ℕ)) : k ≤ K := by
  have h : (2 : Rat) ^ k ≤ (2 : Rat) ^ K := by
    refine h1.trans (h2.trans ?_)
    push_cast
    exact le_rfl
  exact (pow_le_pow_iff_right₀ (by norm_num)).1 h

/-- Construction succeeds whenever the oversampling block does. -/
theorem make_of (a : Args1D) (N : Nat) (hshape : parseShape a.shape = .ok N) (hN : 1 ≤ N)
    (t : Rat) (av : Average) (hT : parseT a.T a.J N = .ok (t, av)) (Q1 Q2 : Int)
    (hQ : parseQ a.Q = .ok (Q1, Q2)) (hQ12 : Q2 ≤ Q1)
    (hJ : a.J ≤ jPad N (minToPad N t)) (st : Option PyNum)
    (hap : applyOversampling a.oversampling a.stride a.T a.J N = .ok st) :
    ∃ s, a.make = .ok s ∧ s.built.Ninput = N ∧ s.average = av ∧ s.built.stride = st := by
  obtain ⟨hq1, hq2⟩ := C09_Q_positive a.Q Q1 Q2 hQ
  obtain ⟨k, hk, hk1, hk2⟩ := C06_log2_T a.T a.J N _ hT
  have hfl : floorLog2 t = (k : ℤ) := by
    unfold log2T at hk
    rw [hT] at hk
    injection hk
  obtain ⟨K, l, r, hK, hc, hsum, hl, hr, -⟩ := C01_padding_fits N (minToPad N t) hN
  have hkK : k ≤ K := by
    cases hTc : a.T with
    | none =>
      rw [hTc] at hT
      simp only [parseT, Except.ok.injEq, Prod.mk.injEq] at hT
      rw [← hT.1, floorLog2_twoPow] at hfl
      omega
    | global =>
      rw [hTc] at hT
      simp only [parseT, Except.ok.injEq, Prod.mk.injEq] at hT
      rw [← hT.1, floorLog2_twoPow] at hfl
      omega
    | num q =>
      rw [hTc] at hT
      simp only [parseT] at hT
      split at hT
      · cases hT
      · rename_i hle
        split at hT
        · simp only [Except.ok.injEq, Prod.mk.injEq] at hT
          rw [← hT.1, floorLog2_twoPow] at hfl
          omega
        · split at hT
          · cases hT
          · simp only [Except.ok.injEq, Prod.mk.injEq] at hT
            apply le_twoPow_log hk1
            rw [← hT.1]
            refine (not_lt.1 hle).trans ?_
            exact_mod_cast (by omega : N ≤ 2 ^ K)
  obtain ⟨f, hf⟩ := createFilters_ok (N := 2 ^ K) (K := K) (J := a.J) (Q1 := Q1.toNat) (Q2 := Q2.toNat)
    rfl (by omega) (by omega) (parseT_ge_one hT) hfl hkK (by omega)
  have hb : ∃ b, build1D a.shape a.J a.T a.stride a.oversampling (minToPad N t) = .ok b ∧
      b.Npadded = 2 ^ K ∧ b.Ninput = N ∧ b.stride = st := by
    refine ⟨_, bind_eq_ok.2 ⟨N, hshape, bind_eq_ok.2 ⟨_, hap, bind_eq_ok.2 ⟨_, hk,
      bind_eq_ok.2 ⟨(l, r), ?_, rfl⟩⟩⟩⟩, ?_, rfl, rfl⟩
    · rw [hK]; exact hc
    · simp only [hK]
  obtain ⟨b, hb, hbN, hbi, hbs⟩ := hb
  refine ⟨⟨b, f.1, f.2.1, f.2.2, av⟩, bind_eq_ok.2 ⟨N, hshape, bind_eq_ok.2 ⟨_, hT,
    bind_eq_ok.2 ⟨b, hb, bind_eq_ok.2 ⟨_, hQ, bind_eq_ok.2 ⟨f, ?_, rfl⟩⟩⟩⟩⟩, hbi, rfl, hbs⟩
  rw [hbN]
  exact hf

/-- C17, construction: every `J` with `2^J` at most the padded length, every `Q1 ≥ Q2 ≥ 1`, every
admissible `T`, with or without a stride, `oversampling` 0 or None. -/
theorem C17_construction (a : Args1D) (N : Nat) (hshape : parseShape a.shape = .ok N) (hN : 1 ≤ N)
    (t : Rat) (av : Average) (hT : parseT a.T a.J N = .ok (t, av)) (Q1 Q2 : Int)
    (hQ : parseQ a.Q = .ok (Q1, Q2)) (hQ12 : Q2 ≤ Q1)
    (hJ : a.J ≤ jPad N (minToPad N t))
    (hov : a.oversampling = none ∨ a.oversampling = some (.int 0)) :
    ∃ s, a.make = .ok s ∧ s.built.Ninput = N ∧ s.average = av ∧ s.built.stride = a.stride := by
  refine make_of a N hshape hN t av hT Q1 Q2 hQ hQ12 hJ a.stride ?_
  rcases hov with h | h
  · rw [h]; rfl
  · rw [h]; exact (C08_oversampling_values a.T a.J N a.stride 0 0).2.1

/-! ## Transform -/

theorem makeLevels_sized {h : List ℝ} {b : ℤ} {lv : List (List ℝ)} {j : Nat}
    (hlv : makeLevels false h b = .ok lv) : Sized h.length ⟨lv, j⟩ := fun _ _ hy =>
  length_reduceLevel (makeLevels_get hlv hy)

/-- Every object that could be constructed with `Q1 ≥ Q2` runs on every signal of the declared
length, provided the stride does not exceed `T`. -/
theorem run_paths {a : Args1D} {s : Sc1D} (hmake : a.make = .ok s) {Q1 Q2 : Int}
    (hQ : parseQ a.Q = .ok (Q1, Q2)) (hQ12 : Q2 ≤ Q1)
    (hov : s.average = .loc ∨ ∃ n : ℕ, a.oversampling = some (.int n))
    (hmo : 1 ≤ nBanks a.maxOrder) {ls : Int}
    (hls : log2Stride s.built.stride a.T a.J s.built.Ninput = .ok ls)
    (hstride : ∀ lT, log2T a.T a.J s.built.Ninput = .ok lT → ls ≤ lT)
    {x : List ℝ} (hx : x.length = s.built.Ninput) :
    ∃ l, paths npBackend npFront (a.obj s) x = .ok l := by
  obtain ⟨t, R1, R2, lT, M1, M2, hR1, hR2, ht, hT, hR, hfl, h1, h2, hM1, hM2, hlv, hphij, -⟩ :=
    make_filters hmake
  obtain ⟨t', lT', -, hT', hlT', hsum, hlr, hrl, hrN, hNp, hi0, hi1, -⟩ := make_sizes hmake
  rw [hT] at hT'
  injection hT' with hT'
  injection hT' with hT'
  subst hT'
  have hlTe : lT' = lT := by rw [hlT', hfl]; simp
  subst hlTe
  rw [hQ] at hR
  injection hR with hR
  injection hR with e1 e2
  have hR12 : R2 ≤ R1 := by omega
  have hlogT : log2T a.T a.J s.built.Ninput = .ok (lT' : ℤ) := by
    unfold log2T
    rw [hT]
    show Except.ok (floorLog2 t) = _
    rw [hfl]
  have hlsle : ls ≤ lT' := hstride _ hlogT
  -- the padded signal
  obtain ⟨U, hU⟩ : ∃ U, npPad x s.built.padLeft s.built.padRight = .ok U := by
    unfold npPad
    rw [if_neg (by omega)]
    exact ⟨_, rfl⟩
  have hUl : U.length = s.built.Npadded := by rw [length_npPad hU, hx, hsum]
  have hs : (0 : ℝ) < 0.1 / t := by
    have : (0 : ℝ) < t := by exact_mod_cast (by linarith : (0 : ℚ) < t)
    positivity
  have hgl : (gauss1d s.built.Npadded (0.1 / t)).length = s.built.Npadded := length_morlet1d hs
  have hpl := makeLevels_length hlv
  -- 2^lT divides the padded length
  have hdiv : 2 ^ lT' ∣ s.built.Npadded := by
    have hlt : lT' < s.phi.levels.length := by omega
    have := length_reduceLevel (makeLevels_get hlv (List.getElem?_eq_getElem hlt))
    rw [hgl] at this
    exact ⟨_, by rw [← this, mul_comm]⟩
  have hpos : ∀ Q, 1 ≤ Q → ∀ p ∈ anden a.J Q, 0 < p.2 := fun Q hq p hp =>
    lt_of_lt_of_le (by positivity) (anden_pos hq hp).2.2
  have hJ2 : s.average ≠ .loc → lT' = a.J := by
    intro hav
    have : t = (2 : Rat) ^ a.J := by
      cases hTc : a.T with
      | none =>
        rw [hTc] at hT
        simp only [parseT, Except.ok.injEq, Prod.mk.injEq] at hT
        exact absurd hT.2.symm hav
      | global =>
        rw [hTc] at hT
        simp only [parseT, Except.ok.injEq, Prod.mk.injEq] at hT
        exact hT.1.symm
      | num q =>
        rw [hTc] at hT
        simp only [parseT] at hT
        split at hT
        · cases hT
        · split at hT
          · simp only [Except.ok.injEq, Prod.mk.injEq] at hT
            exact hT.1.symm
          · split at hT
            · cases hT
            · simp only [Except.ok.injEq, Prod.mk.injEq] at hT
              exact absurd hT.2.symm hav
    rw [this, floorLog2_twoPow] at hfl
    omega
  have hscale := scale2_le hR2 hR12 h1 h2 hM1
  -- facts on the wavelets
  have f1 : ∀ f ∈ s.psi1, Sized s.built.Npadded f.toFilt ∧ 0 < f.levels.length ∧ 0 ≤ f.j ∧
      f.j ≤ max ((a.J : ℤ) - 1) 0 := by
    intro f hf
    obtain ⟨p, hp, hpf⟩ := forall₂_mem_right h1 hf
    obtain ⟨-, -, e3, e4⟩ := makePsi_fields hpf
    have hl : (morlet1d s.built.Npadded (some p.1) p.2).length = s.built.Npadded :=
      length_morlet1d (hpos R1 hR1 p hp)
    have := makeLevels_sized (j := f.j.toNat) e4
    rw [hl] at this
    refine ⟨this, by rw [makeLevels_length e4]; omega, ?_, ?_⟩
    · rw [e3]; exact (C26_scale_le _ _ hR1 p hp).1
    · rw [e3]; exact (C26_scale_le _ _ hR1 p hp).2
  have f2 : ∀ f ∈ s.psi2, Sized s.built.Npadded f.toFilt ∧
      f.levels.length = 1 + (min (min M1 f.j) (1 + lT') - 1).toNat ∧ 0 ≤ f.j ∧
      f.j ≤ max ((a.J : ℤ) - 1) 0 := by
    intro f hf
    obtain ⟨p, hp, hpf⟩ := forall₂_mem_right h2 hf
    obtain ⟨-, -, e3, e4⟩ := makePsi_fields hpf
    have hl : (morlet1d s.built.Npadded (some p.1) p.2).length = s.built.Npadded :=
      length_morlet1d (hpos R2 hR2 p hp)
    have := makeLevels_sized (j := f.j.toNat) e4
    rw [hl] at this
    refine ⟨this, by rw [makeLevels_length e4, e3], ?_, ?_⟩
    · rw [e3]; exact (C26_scale_le _ _ hR2 p hp).1
    · rw [e3]; exact (C26_scale_le _ _ hR2 p hp).2
  have hphiS : Sized s.built.Npadded s.phi.toFilt := by
    have := makeLevels_sized (j := s.phi.j.toNat) hlv
    rw [hgl] at this
    exact this
  have dj : s.average ≠ .loc → ∀ j : ℤ, j ≤ max ((a.J : ℤ) - 1) 0 →
      2 ^ j.toNat ∣ s.built.Npadded := by
    intro hav j hj
    have := hJ2 hav
    exact (pow_dvd_pow 2 (by omega)).trans hdiv
  have hcore : ∃ out, scattering1d npBackend U s.phi.toFilt (psis (a.obj s)) ls.toNat
      (decide (s.average = .loc)) = .ok out := by
    rw [psis_eq]
    apply core_succeeds (mo := nBanks a.maxOrder) hmo
    · rw [hUl]; exact hphiS
    · intro f hf
      obtain ⟨g, hg, rfl⟩ := List.mem_map.1 hf
      rw [hUl]; exact (f1 g hg).1
    · intro f hf
      obtain ⟨g, hg, rfl⟩ := List.mem_map.1 hf
      rw [hUl]; exact (f2 g hg).1
    · intro _
      refine ⟨?_, ?_⟩
      · rw [hUl]; exact (pow_dvd_pow 2 (by omega)).trans hdiv
      · show ls.toNat < s.phi.levels.length
        omega
    · intro f hf
      obtain ⟨g, hg, rfl⟩ := List.mem_map.1 hf
      exact (f1 g hg).2.1
    · intro hav f hf
      obtain ⟨g, hg, rfl⟩ := List.mem_map.1 hf
      rw [hUl]
      exact dj (by simpa using hav) g.j (f1 g hg).2.2.2
    · intro f hf g hg hj
      obtain ⟨f', hf', rfl⟩ := List.mem_map.1 hf
      obtain ⟨g', hg', rfl⟩ := List.mem_map.1 hg
      have b1 := f1 f' hf'
      obtain ⟨-, b2, b3, b4⟩ := f2 g' hg'
      have b5 := hscale g' hg'
      change f'.j.toNat < g'.j.toNat at hj
      show (if decide (s.average = .loc) = true then min f'.j.toNat ls.toNat else f'.j.toNat) <
        g'.levels.length
      rw [b2]
      by_cases hav : s.average = .loc
      · simp only [hav, decide_true, if_true]
        omega
      · have := hJ2 hav
        simp only [hav, decide_false, Bool.false_eq_true, if_false]
        omega
    · intro hav f hf
      obtain ⟨g, hg, rfl⟩ := List.mem_map.1 hf
      rw [hUl]
      exact dj (by simpa using hav) g.j (f2 g hg).2.2.2
  obtain ⟨out, hout⟩ := hcore
  -- post-processing
  have hget : ∀ (i k : Nat), k ≤ max lT' a.J → ∃ v, dictGet (borderDict (max lT' a.J) i) k = .ok v := by
    intro i k hk
    exact ⟨_, dictGet_eq_ok.2 (by rw [borderDict_get, if_pos hk])⟩
  have hpost : ∀ q ∈ out, ∃ r, post npFront (a.obj s) ls.toNat q = .ok r := by
    intro q hq
    have hres : ∃ res, resolution (a.obj s) ls.toNat q = .ok res ∧ res ≤ max lT' a.J := by
      unfold resolution
      by_cases hav : s.average = .loc
      · rw [if_pos (show (a.obj s).average = .loc from hav)]
        exact ⟨_, rfl, by omega⟩
      · rw [if_neg (show ¬ (a.obj s).average = .loc from hav)]
        obtain ⟨n, hn⟩ := hov.resolve_left hav
        have hovi : (a.obj s).oversampling = some (n : ℤ) := by
          show oversamplingInt a.oversampling = some (n : ℤ)
          rw [hn]; rfl
        rw [hovi]
        have hj : ∀ j, q.j.getLast? = some j → j ≤ a.J := by
          intro j hj
          have key := mem_scattering1d npBackend hout hq
          have hm1 : ∀ (q1 : List (Filt (List ℝ))) (n1 : Nat) (psi : Filt (List ℝ)),
              (psis (a.obj s))[0]? = some q1 → q1[n1]? = some psi → psi.j ≤ a.J := by
            intro q1 n1 psi g1 g2
            have : q1 = s.psi1.map FiltX.toFilt := by
              rw [psis_eq, List.getElem?_take] at g1
              split at g1
              · simpa [Args1D.obj] using g1.symm
              · cases g1
            subst this
            obtain ⟨g, hg, rfl⟩ := List.mem_map.1 (List.mem_of_getElem? g2)
            have := (f1 g hg).2.2.2
            show g.j.toNat ≤ a.J
            omega
          have hm2 : ∀ (q1 : List (Filt (List ℝ))) (n1 : Nat) (psi : Filt (List ℝ)),
              (psis (a.obj s))[1]? = some q1 → q1[n1]? = some psi → psi.j ≤ a.J := by
            intro q1 n1 psi g1 g2
            have : q1 = s.psi2.map FiltX.toFilt := by
              rw [psis_eq, List.getElem?_take] at g1
              split at g1
              · simpa [Args1D.obj] using g1.symm
              · cases g1
            subst this
            obtain ⟨g, hg, rfl⟩ := List.mem_map.1 (List.mem_of_getElem? g2)
            have := (f2 g hg).2.2.2
            show g.j.toNat ≤ a.J
            omega
          change Path npBackend.R at q
          cases key with
          | zero U0hat c h0 hc => simp at hj
          | one U0hat U1m c q1 n1 psi h0 hp1 hn1 hU hc =>
            simp at hj
            rw [← hj]
            exact hm1 q1 n1 psi hp1 hn1
          | two U0hat U1m U1hat c q1 q2 n1 n2 psi psi' h0 hp1 hn1 hp2 hn2 hj' hU hUh hc =>
            simp at hj
            rw [← hj]
            exact hm2 q2 n2 psi' hp2 hn2
        have hjn : 0 < q.n.length → ∃ j, q.j.getLast? = some j := by
          intro hn
          have key := mem_scattering1d npBackend hout hq
          change Path npBackend.R at q
          cases key with
          | zero U0hat c h0 hc => simp at hn
          | one U0hat U1m c q1 n1 psi h0 hp1 hn1 hU hc => exact ⟨psi.j, rfl⟩
          | two U0hat U1m U1hat c q1 q2 n1 n2 psi psi' h0 hp1 hn1 hp2 hn2 hj' hU hUh hc =>
            exact ⟨psi'.j, rfl⟩
        by_cases hn : 0 < q.n.length
        · rw [if_pos hn]
          obtain ⟨j, hjl⟩ := hjn hn
          rw [hjl]
          exact ⟨_, rfl, by have := hj j hjl; omega⟩
        · rw [if_neg hn]
          exact ⟨0, rfl, by omega⟩
    obtain ⟨res, hres, hle⟩ := hres
    unfold post
    by_cases hg : s.average = .glob
    · refine ⟨{ coef := npFront.averageGlobal q.coef, j := q.j, n := q.n },
        bind_eq_ok.2 ⟨res, hres, ?_⟩⟩
      rw [if_pos (show (a.obj s).average = .glob from hg)]
    · obtain ⟨v0, hv0⟩ := hget s.built.padLeft res hle
      obtain ⟨v1, hv1⟩ := hget (s.built.padLeft + s.built.Ninput) res hle
      refine ⟨{ coef := npFront.unpad q.coef v0 v1, j := q.j, n := q.n }, bind_eq_ok.2 ⟨res, hres, ?_⟩⟩
      rw [if_neg (show ¬ (a.obj s).average = .glob from hg)]
      refine bind_eq_ok.2 ⟨v0, ?_, bind_eq_ok.2 ⟨v1, ?_, rfl⟩⟩
      · show dictGet s.built.indStart res = _
        rw [hi0]; exact hv0
      · show dictGet s.built.indEnd res = _
        rw [hi1]; exact hv1
  obtain ⟨l, hl⟩ := mapM_ok_of_forall hpost
  exact ⟨l, paths_eq_ok.2 ⟨U, ls, out, hU, hls, hout, mapM_eq_ok.1 hl⟩⟩

/-- Once the paths are computed, each output format is assembled (arrays when averaging is on). -/
theorem run_of_paths {a : Args1D} {s : Sc1D} (hmake : a.make = .ok s) {ls : ℕ}
    (hls : log2Stride s.built.stride a.T a.J s.built.Ninput = .ok ls) {x : List ℝ}
    (hshape : parseShape a.shape = .ok s.built.Ninput)
    (hx : x.length = s.built.Ninput)
    (hout : a.outType = .list ∨ a.outType = .dict ∨ (a.outType = .array ∧ s.average ≠ .no))
    {l : List (Path (List ℝ))} (hl : paths npBackend npFront (a.obj s) x = .ok l) :
    ∃ r, a.run x = .ok r := by
  have hlist : ∀ o : OutType, o = .list → { a with outType := o }.run x =
      .ok (.list (sortPaths l)) := by
    intro o ho
    subst ho
    refine bind_eq_ok.2 ⟨s, hmake, scattering_eq_ok.2 ⟨⟨(fun h => by cases h), fun h => by
      obtain ⟨-, h⟩ := h; cases h⟩, l, hl, rfl⟩⟩
  rcases hout with ho | ho | ⟨ho, hne⟩
  · exact ⟨.list (sortPaths l), bind_eq_ok.2 ⟨s, hmake, scattering_eq_ok.2 ⟨⟨by
      show a.outType ≠ .other
      rw [ho]; simp, fun h => by
      have h2 : a.outType = .array := h.2
      rw [ho] at h2; cases h2⟩, l, hl, by
      unfold assemble
      rw [show (a.obj s).outType = .list from ho]⟩⟩⟩
  · exact ⟨_, bind_eq_ok.2 ⟨s, hmake, scattering_eq_ok.2 ⟨⟨by
      show a.outType ≠ .other
      rw [ho]; simp, fun h => by
      have h2 : a.outType = .array := h.2
      rw [ho] at h2; cases h2⟩, l, hl, by
      unfold assemble
      rw [show (a.obj s).outType = .dict from ho]⟩⟩⟩
  · -- equal lengths of the rows
    have hrun := hlist .list rfl
    have hmake' : { a with outType := .list }.make = .ok s := hmake
    have hsize : ∀ p ∈ sortPaths l, ∀ q ∈ sortPaths l, p.coef.length = q.coef.length := by
      cases hav' : s.average with
      | no => exact absurd hav' hne
      | loc =>
        obtain ⟨L, hL, -⟩ := C05_output_length { a with outType := .list } s ls x _ hmake' hav' hls
          (by rw [hx]; exact hshape) hrun
        intro p hp q hq
        rw [hL p hp, hL q hq]
      | glob =>
        have hL := C05_global_length { a with outType := .list } s x _ hmake' hav' hrun
        intro p hp q hq
        rw [hL p hp, hL q hq]
    have hs0 : scattering npBackend npFront { a.obj s with outType := .list } x =
        .ok (.list (sortPaths l)) := by
      obtain ⟨s', hs', hr⟩ := bind_eq_ok.1 hrun
      rw [hmake'] at hs'
      injection hs' with hs'
      subst hs'
      exact hr
    have harr := C16_array_exists npBackend npFront (a.obj s) x _ hs0
      hne hsize
    have he : a.obj s = { a.obj s with outType := .array } := by
      unfold Args1D.obj
      rw [ho]
    rw [← he] at harr
    exact ⟨_, bind_eq_ok.2 ⟨s, hmake, harr⟩⟩

/-- C17.  Let `Scattering1D` be called with an integer or one-element `shape` of at least one sample,
`Q1 ≥ Q2 ≥ 1`, an admissible `T` (None, 'global', 0, or a number between 1 and the length), `2^J` not
above the padded length, `max_order ≥ 1`, `oversampling = 0`, and either no stride or a power of two
not above `T` (allowed by the code only with local averaging).  Then the constructor succeeds and the
transform of every signal of that length returns, in each of the three output formats (the array
format when averaging is on). -/
theorem C17_no_error (a : Args1D) (N : Nat) (hshape : parseShape a.shape = .ok N) (hN : 1 ≤ N)
    (t : Rat) (av : Average) (hT : parseT a.T a.J N = .ok (t, av)) (Q1 Q2 : Int)
    (hQ : parseQ a.Q = .ok (Q1, Q2)) (hQ12 : Q2 ≤ Q1)
    (hJ : a.J ≤ jPad N (minToPad N t)) (hov : a.oversampling = some (.int 0))
    (hmo : 1 ≤ a.maxOrder)
    (hstride : a.stride = none ∨
      ∃ m : Nat, a.stride = some (.int (2 ^ m)) ∧ ((2 : Rat) ^ m) ≤ t ∧ av = .loc)
    (hout : a.outType = .list ∨ a.outType = .dict ∨ (a.outType = .array ∧ av ≠ .no)) :
    ∃ s, a.make = .ok s ∧ s.built.Ninput = N ∧ s.average = av ∧
      ∀ x : List ℝ, x.length = N → ∃ r, a.run x = .ok r := by
  obtain ⟨s, hmake, hNi, hav, hst⟩ :=
    C17_construction a N hshape hN t av hT Q1 Q2 hQ hQ12 hJ (Or.inr hov)
  refine ⟨s, hmake, hNi, hav, fun x hx => ?_⟩
  obtain ⟨k, hk, hk1, hk2⟩ := C06_log2_T a.T a.J N _ hT
  have hls : ∃ ls : Nat, log2Stride s.built.stride a.T a.J N = .ok ls ∧ ls ≤ k := by
    rw [hst]
    rcases hstride with h | ⟨m, h, hm, hloc⟩
    · exact ⟨k, (C07_log2_stride_ok _ _ _ _ _).2 (Or.inl ⟨h, hk⟩), le_rfl⟩
    · refine ⟨m, (C07_log2_stride_ok _ _ _ _ _).2 (Or.inr ⟨m, rfl, h, t, by rw [hT, hloc]⟩), ?_⟩
      have : (2 : Rat) ^ m < 2 ^ (k + 1) := lt_of_le_of_lt hm hk2
      have := (pow_lt_pow_iff_right₀ (by norm_num : (1 : Rat) < 2)).1 this
      omega
  obtain ⟨ls, hls, hlsk⟩ := hls
  rw [← hNi] at hls hk hx
  obtain ⟨l, hl⟩ := run_paths hmake hQ hQ12 (Or.inr ⟨0, hov⟩) (one_le_nBanks.2 (Or.inl hmo)) hls
    (fun lT h => by rw [hk] at h; injection h with h; omega) hx
  exact run_of_paths hmake hls (by rw [hNi]; exact hshape) hx (by rw [hav]; exact hout) hl

/-- The padded length is at least the largest power of two below the signal length. -/
theorem le_jPad_of_pow {J N m : Nat} (hN : 1 ≤ N) (hJ : 2 ^ J ≤ N) : J ≤ jPad N m :=
  (Nat.pow_le_pow_iff_right (by norm_num)).1 (hJ.trans (le_jPad N m hN))

/-! ## A concrete object -/

/-- `Scattering1D(J=3, shape=1000, Q=(8, 1), T=T, out_type=o)`. -/
def exArgs (T : PyT) (o : OutType) : Args1D where
  J := 3
  shape := .int 1000
  Q := .tuple [8, 1]
  T := T
  stride := none
  maxOrder := 2
  oversampling := some (.int 0)
  outType := o

/-- Every hypothesis of `C17_no_error` holds for this object, for `T` equal to None, 'global', 0 or 6. -/
theorem exArgs_run {T : PyT} {av : Average} (o : OutType)
    (hT : T = .none ∧ av = .loc ∨ T = .global ∧ av = .glob ∨ T = .num 0 ∧ av = .no ∨
      T = .num 6 ∧ av = .loc) (ho : o = .list ∨ o = .dict ∨ (o = .array ∧ av ≠ .no)) :
    ∃ s, (exArgs T o).make = .ok s ∧ s.built.Ninput = 1000 ∧ s.average = av ∧
      ∀ x : List ℝ, x.length = 1000 → ∃ r, (exArgs T o).run x = .ok r := by
  have hp : ∃ t, parseT T 3 1000 = .ok (t, av) := by
    rcases hT with ⟨rfl, rfl⟩ | ⟨rfl, rfl⟩ | ⟨rfl, rfl⟩ | ⟨rfl, rfl⟩
    · exact ⟨_, rfl⟩
    · exact ⟨_, rfl⟩
    · exact ⟨8, by norm_num [parseT]⟩
    · exact ⟨6, by norm_num [parseT]⟩
  obtain ⟨t, ht⟩ := hp
  exact C17_no_error (exArgs T o) 1000 rfl (by norm_num) t av ht 8 1 rfl (by norm_num)
    (le_jPad_of_pow (by norm_num) (by norm_num [exArgs])) rfl (by norm_num [exArgs]) (Or.inl rfl) ho

/-- A list run of the example object. -/
theorem exArgs_list {T : PyT} {av : Average}
    (hT : T = .none ∧ av = .loc ∨ T = .global ∧ av = .glob ∨ T = .num 0 ∧ av = .no ∨
      T = .num 6 ∧ av = .loc) (x : List ℝ) (hx : x.length = 1000) :
    ∃ s l, (exArgs T .list).make = .ok s ∧ s.built.Ninput = 1000 ∧ s.average = av ∧
      (exArgs T .list).run x = .ok (.list l) := by
  obtain ⟨s, h1, h2, h3, h4⟩ := exArgs_run .list hT (Or.inl rfl)
  obtain ⟨r, hr⟩ := h4 x hx
  obtain ⟨s', hs', hr'⟩ := bind_eq_ok.1 hr
  obtain ⟨-, l, -, hl⟩ := scattering_eq_ok.1 hr'
  refine ⟨s, sortPaths l, h1, h2, h3, ?_⟩
  rw [hr]
  unfold assemble at hl
  rw [show ((exArgs T .list).obj s').outType = .list from rfl] at hl
  exact hl.symm

/-- Its first-order bank is not empty. -/
theorem exArgs_psi1 {T : PyT} {o : OutType} {s : Sc1D} (h : (exArgs T o).make = .ok s) :
    ∃ f, f ∈ s.psi1 := by
  obtain ⟨t, R1, R2, lT, M1, M2, hR1, hR2, ht, hT, hR, hfl, h1, -⟩ := make_filters h
  have : R1 = 8 := by
    simp only [exArgs, parseQ] at hR
    norm_num at hR
    omega
  subst this
  obtain ⟨p, hp, -⟩ := scale_attained (J := 3) (Q := 8) (by norm_num)
  obtain ⟨f, hf, -⟩ := forall₂_mem_left h1 hp
  exact ⟨f, hf⟩

/-- A stride below `T` is also admissible: `J = 3`, `T = 8`, `stride = 2`. -/
example : ∃ s, { exArgs .none .array with stride := some (.int 2) }.make = .ok s ∧
    s.built.Ninput = 1000 ∧ s.average = .loc ∧
    ∀ x : List ℝ, x.length = 1000 →
      ∃ r, { exArgs .none .array with stride := some (.int 2) }.run x = .ok r :=
  C17_no_error _ 1000 rfl (by norm_num) (2 ^ 3) .loc rfl 8 1 rfl (by norm_num)
    (le_jPad_of_pow (by norm_num) (by norm_num [exArgs])) rfl (by norm_num [exArgs])
    (Or.inr ⟨1, rfl, by norm_num, rfl⟩) (Or.inr (Or.inr ⟨rfl, by simp⟩))

/-! ## C57 -/

/-- Every filter bank of the library has at least one wavelet. -/
theorem anden_nonempty {J Q : Nat} (hQ : 1 ≤ Q) : ∃ p, (anden J Q)[0]? = some p := by
  have : ∃ p, p ∈ anden J Q := by
    rcases Nat.lt_or_ge Q 2 with h | h
    · have : Q = 1 := by omega
      subst this
      refine ⟨_, geo_mem_anden le_rfl 0 ?_⟩
      have h1 := rho_one_ge
      have h2 := computeXiMax_ge 1
      have h3 : (0.1 : ℝ) / 2 ^ J ≤ 0.1 := div_le_self (by norm_num) (one_le_pow₀ (by norm_num))
      norm_num at h1 h2 h3 ⊢
      nlinarith
    · obtain ⟨p, hp, -⟩ := scale_attained (J := J) h
      exact ⟨p, hp⟩
  obtain ⟨p, hp⟩ := this
  cases h : anden J Q with
  | nil => rw [h] at hp; cases hp
  | cons q l => exact ⟨q, rfl⟩

/-- C57: a transform that returns was given a signal of the declared length. -/
theorem C57_length_checked (a : Args1D) (s : Sc1D) (hmake : a.make = .ok s) (x : List ℝ)
    (r : Out1D (List ℝ)) (hr : a.run x = .ok r) : x.length = s.built.Ninput := by
  obtain ⟨s', hs', hrun⟩ := bind_eq_ok.1 hr
  rw [hmake] at hs'
  injection hs' with hs'
  subst hs'
  obtain ⟨-, m, hm, -⟩ := scattering_eq_ok.1 hrun
  obtain ⟨U, ls, out, hU, hls, hcore, -⟩ := paths_eq_ok.1 hm
  have hU : npPad x s.built.padLeft s.built.padRight = .ok U := hU
  obtain ⟨t, R1, R2, lT, M1, M2, hR1, hR2, ht, hT, hR, hfl, h1, -⟩ := make_filters hmake
  obtain ⟨t', lT', -, -, -, hsum, -⟩ := make_sizes hmake
  obtain ⟨U0hat, c, psi1, rest, hU0, hz, hp1, hfo, -⟩ := scattering1d_eq_ok npBackend hcore
  have hpsi : psi1 = s.psi1.map FiltX.toFilt := by
    rw [psis_eq, List.getElem?_take] at hp1
    split at hp1
    · simpa [Args1D.obj] using hp1.symm
    · cases hp1
  obtain ⟨p, hp⟩ := anden_nonempty (J := a.J) hR1
  obtain ⟨f, hf, hpf⟩ := forall₂_get' h1 hp
  have hf' : psi1[0]? = some f.toFilt := by rw [hpsi, List.getElem?_map, hf]; rfl
  obtain ⟨o1, ho1⟩ := forEnum_all_ok hfo hf'
  obtain ⟨U1m, c1, rest1, hb, -⟩ := firstOrder_eq_ok npBackend ho1
  have : U0hat = npRfft U := by injection hU0 with h; exact h.symm
  subst this
  obtain ⟨h, hh, hl, -⟩ := np_bandpass hb
  obtain ⟨-, -, -, e4⟩ := makePsi_fields hpf
  have hh' : f.levels[0]? = some h := hh
  have hlen := length_reduceLevel (makeLevels_get e4 hh')
  have hs : 0 < p.2 :=
    lt_of_lt_of_le (by positivity) (anden_pos hR1 (List.mem_of_getElem? hp)).2.2
  rw [length_morlet1d hs, pow_zero, mul_one] at hlen
  have := length_npPad hU
  omega

/-- A signal of 999 samples given to an object for 1000 samples. -/
example : ∃ s, (exArgs .none .array).make = .ok s ∧
    ∀ r, (exArgs .none .array).run (List.replicate 999 1) ≠ .ok r := by
  obtain ⟨s, h1, h2, -⟩ := exArgs_run (av := .loc) .array (Or.inl ⟨rfl, rfl⟩)
    (Or.inr (Or.inr ⟨rfl, by simp⟩))
  refine ⟨s, h1, fun r hr => ?_⟩
  have := C57_length_checked _ s h1 _ r hr
  rw [List.length_replicate] at this
  omega

end Verif
