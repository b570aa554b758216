import Verif.Lemmas.Network1D
import Verif.Lemmas.BankBound
import Verif.Props.PathsObject1D
import Verif.Props.Crop1D

/-!
# C113: is the whole network contractive?

The user guide says that it is (doc/source/userguide.rst L20-26).
-/

namespace Verif

open Finset Core1D Front1D

/-- Euclidean distance between two outputs in list form, all coefficients of all paths taken together. -/
noncomputable def Spec.outDist (l m : List (Path (List ℝ))) : ℝ :=
  Real.sqrt ((l.zip m).map fun z => (Spec.l2 z.1.coef.length fun t => z.1.coef.getD t 0 - z.2.coef.getD t 0) ^ 2).sum

/-! ## Bounds of the stored filters -/

/-- Folding a stored level is folding the full-rate filter. -/
theorem level_alias {f : Filt (List ℝ)} {h : List ℝ} (hf : FromFull f h) {l e : ℕ} {y : List ℝ} (hy : f.levels[l]? = some y)
    {M : ℕ} (hM : M * 2 ^ e = y.length) {r : ℕ} (hr : r < M) :
    M * 2 ^ (l + e) = h.length ∧
    ∑ a ∈ range (2 ^ e), |y.getD (a * M + r) 0| ≤ ∑ b ∈ range (2 ^ (l + e)), |h.getD (b * M + r) 0| := by
  obtain ⟨h1, h2⟩ := hf.level hy
  refine ⟨by rw [← h1, ← hM, pow_add]; ring, ?_⟩
  rw [pow_add, sum_blocks, sum_comm]
  refine sum_le_sum fun a ha => ?_
  have ha := mem_range.1 ha
  rw [h2 _ (by
    rw [← hM]
    calc a * M + r < a * M + M := by omega
      _ = (a + 1) * M := by ring
      _ ≤ 2 ^ e * M := Nat.mul_le_mul_right _ ha
      _ = _ := by ring)]
  refine (abs_sum_le_sum_abs _ _).trans (le_of_eq (sum_congr rfl fun i _ => ?_))
  congr 2
  rw [← hM]
  ring

/-- The band of a wavelet ends below the Nyquist frequency of its scale. -/
theorem band_le {p : ℝ × ℝ} (h1 : 0 < p.1) (h2 : 0 < p.2) {j k : ℕ} (hj : (j : ℤ) = getMaxDyadicSubsampling p.1 p.2 5)
    (hk : 1 ≤ k) (hkj : k ≤ j) : p.1 + 5 * p.2 ≤ 1 / 2 ^ k / 2 := by
  obtain ⟨g0, g1, -, g3⟩ := C26_max_dyadic_subsampling p.1 p.2 5 (by positivity)
  rw [abs_of_pos h1, ← hj] at *
  rcases le_or_gt (p.1 + 5 * p.2) (1 / 2) with h | h
  · refine (g1 h).trans ?_
    rw [zpow_neg, ← one_div, div_div]
    have e : (2 : ℝ) ^ ((j : ℤ) + 1) = 2 ^ (j + 1) := by norm_cast
    rw [e, ← pow_succ]
    exact one_div_le_one_div_of_le (by positivity) (pow_le_pow_right₀ (by norm_num) (by omega))
  · have := g3 h
    omega

theorem list_sum_le_of_index {α β : Type} {φ : α → ℝ} {F : β → ℝ} (hF : ∀ b, 0 ≤ F b) :
    ∀ (l : List α) (L : List β), (∀ (n : ℕ) f, l[n]? = some f → ∃ p, L[n]? = some p ∧ φ f ≤ F p) →
      (l.map φ).sum ≤ (L.map F).sum := by
  intro l
  induction l with
  | nil =>
    intro L _
    simp only [List.map_nil, List.sum_nil]
    exact List.sum_nonneg (by simp only [List.mem_map]; rintro _ ⟨b, -, rfl⟩; exact hF b)
  | cons a l ih =>
    intro L h
    obtain ⟨p, hp, hle⟩ := h 0 a rfl
    cases L with
    | nil => cases hp
    | cons q L =>
      have : q = p := by simpa using hp
      subst this
      rw [List.map_cons, List.sum_cons, List.map_cons, List.sum_cons]
      exact add_le_add hle (ih L fun n f hn => by simpa using h (n + 1) f (by simpa using hn))

section

variable {J Q N : ℕ} (hQ1 : 1 ≤ Q) (hQJ : Q ≤ 2 ^ J) (hN : 2 ^ (J + 4) ≤ N) {p : ℝ × ℝ} (hp : p ∈ anden J Q)
  {f : Filt (List ℝ)} (hf : FromFull f (morlet1d N (some p.1) p.2)) (hj : (f.j : ℤ) = getMaxDyadicSubsampling p.1 p.2 5)
include hQ1 hQJ hN hp hf hj

/-- The absolute values of a stored level, folded down to the rate of the path. -/
theorem psi_aliasLe {l k : ℕ} (hlk : l ≤ k) (hk : k ≤ f.j) : AliasLe f l (k - l) 1.02 := by
  intro y hy M hM r hr
  obtain ⟨b1, b2, b3, b4⟩ := anden_params hQ1 hQJ hp
  have hs : 0 < p.2 := lt_of_lt_of_le (by positivity) b1
  obtain ⟨e1, e2⟩ := level_alias hf hy hM hr
  rw [length_morlet1d hs, Nat.add_sub_cancel' hlk] at e1
  rw [Nat.add_sub_cancel' hlk] at e2
  refine e2.trans ?_
  rcases Nat.eq_zero_or_pos k with h0 | hk1
  · subst h0
    rw [pow_zero, sum_range_one]
    exact ((gain_le_l1norm _ _).trans (l1norm_morlet1d_le _ _ _)).trans (by norm_num)
  · have hx : 0 < p.1 := lt_of_lt_of_le (by positivity) b3
    have hb := band_le hx hs hj hk1 hk
    have hNs : 1.6 ≤ (N : ℝ) * p.2 := by
      have : ((2 : ℝ) ^ (J + 4)) ≤ N := by exact_mod_cast hN
      have h2 := mul_le_mul this b1 (by positivity) (by positivity)
      refine le_trans (le_of_eq ?_) h2
      rw [pow_add]
      field_simp
      norm_num
    exact wavelet_fold e1 hs (by norm_num at b3; linarith) b3 (by linarith) hNs hr hb

/-- A stored level at one frequency. -/
theorem psi_lev_le {l : ℕ} (hl : l = 0 ∨ l < f.j) (i : ℕ) :
    |lev f l i| ≤ contrib (1 / 2 ^ l) (1 / 2 ^ l * (i / (N / 2 ^ l : ℕ))) p := by
  obtain ⟨b1, b2, b3, b4⟩ := anden_params hQ1 hQJ hp
  have hs : 0 < p.2 := lt_of_lt_of_le (by positivity) b1
  cases hy : f.levels[l]? with
  | none =>
    have : lev f l i = 0 := by
      unfold lev
      rw [List.getD_eq_getElem?_getD (l := f.levels), hy]
      simp
    rw [this, abs_zero]
    exact contrib_nonneg _ _ _
  | some y =>
    rw [lev_of hy]
    rcases Nat.lt_or_ge i y.length with hi | hi
    · obtain ⟨e1, e2⟩ := level_alias hf (e := 0) hy (M := y.length) (by simp) hi
      rw [length_morlet1d hs, add_zero] at e1
      rw [add_zero, pow_zero, sum_range_one, zero_mul, zero_add] at e2
      refine e2.trans ?_
      have hdiv : N / 2 ^ l = y.length := by rw [← e1]; exact Nat.mul_div_cancel _ (by positivity)
      rw [hdiv]
      have hx : 0 < p.1 := lt_of_lt_of_le (by positivity) b3
      have hNs : 1.6 ≤ (N : ℝ) * p.2 := by
        have : ((2 : ℝ) ^ (J + 4)) ≤ N := by exact_mod_cast hN
        have h2 := mul_le_mul this b1 (by positivity) (by positivity)
        refine le_trans (le_of_eq ?_) h2
        rw [pow_add]
        field_simp
        norm_num
      rcases hl with h0 | hlt
      · subst h0
        exact wavelet_alias e1 hs (by simpa using b2) b3 (by norm_num at b4 ⊢; linarith) hNs hi
      · have hb := band_le hx hs hj (k := l + 1) (by omega) hlt
        have e : (1 : ℝ) / 2 ^ (l + 1) = 1 / 2 ^ l / 2 := by rw [pow_succ, div_div]
        rw [e] at hb
        have hd : (0 : ℝ) < 1 / 2 ^ l := by positivity
        exact wavelet_alias e1 hs (by norm_num at b3; linarith) b3 (by linarith) hNs hi
    · rw [List.getD_eq_default _ _ hi, abs_zero]
      exact contrib_nonneg _ _ _

end

/-- The bounds that make the network stable, for the filters of a constructed object. -/
theorem make_netBounds {a : Args1D} {s : Sc1D} (hmake : a.make = .ok s) {T : Rat}
    (hT : parseT a.T a.J s.built.Ninput = .ok (T, .loc)) {Q1 Q2 : ℕ} (hQ : parseQ a.Q = .ok ((Q1 : ℤ), (Q2 : ℤ)))
    (hQ1 : 1 ≤ Q1) (hQ2 : 1 ≤ Q2) (hQJ1 : Q1 ≤ 2 ^ a.J) (hQJ2 : Q2 ≤ 2 ^ a.J) (hN : 2 ^ (a.J + 4) ≤ s.built.Npadded)
    {ls : ℕ} (hls : (2 : ℚ) ^ ls ≤ T) :
    NetBounds s.phi.toFilt (s.psi1.map FiltX.toFilt) (s.psi2.map FiltX.toFilt) ls (10.3 + 0.201 * a.J) 1.02 1.001 := by
  obtain ⟨Hphi, H1, H2⟩ := make_fromFull hmake hT hQ
  have hlsR : (2 : ℝ) ^ ls ≤ T := by exact_mod_cast hls
  have hT0 : (0 : ℝ) < T := lt_of_lt_of_le (by positivity) hlsR
  simp only [Int.toNat_natCast] at H1 H2
  have mem1 : ∀ f ∈ s.psi1.map FiltX.toFilt, ∃ p ∈ anden a.J Q1, (f.j : ℤ) = getMaxDyadicSubsampling p.1 p.2 5 ∧
      FromFull f (morlet1d s.built.Npadded (some p.1) p.2) := by
    intro f hf
    obtain ⟨n, hn⟩ := List.mem_iff_getElem?.1 hf
    obtain ⟨p, hp, h⟩ := H1 n f hn
    exact ⟨p, List.mem_of_getElem? hp, h⟩
  have mem2 : ∀ f ∈ s.psi2.map FiltX.toFilt, ∃ p ∈ anden a.J Q2, (f.j : ℤ) = getMaxDyadicSubsampling p.1 p.2 5 ∧
      FromFull f (morlet1d s.built.Npadded (some p.1) p.2) := by
    intro f hf
    obtain ⟨n, hn⟩ := List.mem_iff_getElem?.1 hf
    obtain ⟨p, hp, h⟩ := H2 n f hn
    exact ⟨p, List.mem_of_getElem? hp, h⟩
  refine ⟨by positivity, by norm_num, by norm_num, ?_, ?_, ?_, ?_, ?_, ?_⟩
  · intro k hk y hy M hM r hr
    obtain ⟨e1, e2⟩ := level_alias Hphi hy hM hr
    rw [Nat.add_sub_cancel' hk] at e1 e2
    rw [length_gauss (by positivity)] at e1
    refine e2.trans (le_trans (le_of_eq (sum_congr rfl fun i _ => ?_)) (phi_alias_gain e1 hlsR hr))
    exact abs_of_nonneg (phi_nonneg hT0 _)
  · intro k hk i
    cases hy : s.phi.toFilt.levels[k]? with
    | none =>
      have : lev s.phi.toFilt k i = 0 := by
        unfold lev
        rw [List.getD_eq_getElem?_getD (l := s.phi.toFilt.levels), hy]
        simp
      rw [this]; norm_num
    | some y =>
      rw [lev_of hy]
      rcases Nat.lt_or_ge i y.length with hi | hi
      · exact (phi_level_bounds Hphi ((pow_le_pow_right₀ (by norm_num) hk).trans hlsR) hy).1 i hi
      · rw [List.getD_eq_default _ _ hi]; norm_num
  · intro f hf
    obtain ⟨p, hp, hj, hfull⟩ := mem1 f hf
    exact psi_aliasLe hQ1 hQJ1 hN hp hfull hj (Nat.zero_le _) (min_le_left _ _)
  · intro i
    refine (list_sum_le_of_index (F := contrib (1 / 2 ^ 0) (1 / 2 ^ 0 * (i / (s.built.Npadded / 2 ^ 0 : ℕ))))
      (contrib_nonneg _ _) _ (anden a.J Q1) fun n f hn => ?_).trans (bank_contrib hQ1 hQJ1 (by positivity) (by positivity))
    obtain ⟨p, hp, hj, hfull⟩ := H1 n f hn
    exact ⟨p, hp, psi_lev_le hQ1 hQJ1 hN (List.mem_of_getElem? hp) hfull hj (Or.inl rfl) i⟩
  · intro f hf l hl
    obtain ⟨p, hp, hj, hfull⟩ := mem2 f hf
    exact psi_aliasLe hQ2 hQJ2 hN hp hfull hj hl (min_le_left _ _)
  · intro j1 i
    refine (list_sum_le_of_index (F := contrib (1 / 2 ^ min j1 ls) (1 / 2 ^ min j1 ls * (i / (s.built.Npadded / 2 ^ min j1 ls : ℕ))))
      (contrib_nonneg _ _) _ (anden a.J Q2) fun n f hn => ?_).trans (bank_contrib hQ2 hQJ2 (by positivity) (by positivity))
    obtain ⟨p, hp, hj, hfull⟩ := H2 n f hn
    refine ⟨p, hp, ?_⟩
    split
    · rename_i hlt
      exact psi_lev_le hQ2 hQJ2 hN (List.mem_of_getElem? hp) hfull hj (Or.inr (lt_of_le_of_lt (min_le_left _ _) hlt)) i
    · exact contrib_nonneg _ _ _

/-! ## Sorted outputs -/

/-- The list output, with the paths before sorting. -/
theorem run_sorted {a : Args1D} {s : Sc1D} {x : List ℝ} {l : List (Path (List ℝ))}
    (hmake : a.make = .ok s) (hl : a.run x = .ok (.list l)) :
    ∃ U0 ls out P, npPad x s.built.padLeft s.built.padRight = .ok U0 ∧
      log2Stride s.built.stride a.T a.J s.built.Ninput = .ok ls ∧
      scattering1d npBackend U0 s.phi.toFilt (psis (a.obj s)) ls.toNat (decide (s.average = .loc)) = .ok out ∧
      List.Forall₂ (fun p q => post npFront (a.obj s) ls.toNat p = .ok q) out P ∧ l = sortPaths P ∧
      P.map (fun p => (p.j, p.n)) = labels npBackend (psis (a.obj s)) := by
  obtain ⟨s', hs', hrun⟩ := bind_eq_ok.1 hl
  rw [hmake] at hs'
  injection hs' with hs'
  subst hs'
  obtain ⟨-, m, hm, ha⟩ := Front1D.scattering_eq_ok.1 hrun
  obtain ⟨U0, ls, out, h1, h2, h3, h4⟩ := paths_eq_ok.1 hm
  refine ⟨U0, ls, out, m, h1, h2, h3, h4, ?_, paths_labels hm⟩
  unfold assemble at ha
  split at ha
  · cases ha
  · injection ha with ha
    injection ha with ha
    exact ha.symm
  · obtain ⟨r, -, ha⟩ := bind_eq_ok.1 ha
    cases ha

/-- Sorting corresponding lists permutes the pairs. -/
theorem sortPaths_zip {R R' : Type} {l : List (Path R)} {l' : List (Path R')}
    (h : List.Forall₂ (fun p q => p.n = q.n) l l') : ((sortPaths l).zip (sortPaths l')).Perm (l.zip l') := by
  have hz : ∀ z ∈ l.zip l', z.1.n = z.2.n := by
    induction h with
    | nil => simp
    | cons hab _ ih =>
      simp only [List.zip_cons_cons, List.mem_cons, forall_eq_or_imp]
      exact ⟨hab, ih⟩
  have hl : (l.zip l').map Prod.fst = l := List.map_fst_zip h.length_eq.le
  have hl' : (l.zip l').map Prod.snd = l' := List.map_snd_zip h.length_eq.ge
  have e1 : sortPaths l = ((l.zip l').mergeSort fun a b => keyLe a.1.n b.1.n).map Prod.fst := by
    unfold sortPaths
    rw [List.map_mergeSort (s := fun p q : Path R => keyLe p.n q.n) (fun _ _ _ _ => rfl), hl]
  have e2 : sortPaths l' = ((l.zip l').mergeSort fun a b => keyLe a.1.n b.1.n).map Prod.snd := by
    unfold sortPaths
    rw [List.map_mergeSort (s := fun p q : Path R' => keyLe p.n q.n), hl']
    intro a ha b hb
    rw [hz a ha, hz b hb]
  rw [e1, e2, ← List.unzip_fst, ← List.unzip_snd, List.zip_unzip]
  exact List.mergeSort_perm _ _

theorem l2_sq (n : ℕ) (v : ℕ → ℝ) : Spec.l2 n v ^ 2 = ∑ i ∈ range n, v i ^ 2 :=
  Real.sq_sqrt (sum_nonneg fun _ _ => sq_nonneg _)

theorem zip_sum_le {o : Obj1D (List ℝ)} {ls : ℕ} (hg : o.average ≠ .glob) {out out' P P' : List (Path (List ℝ))}
    (h : List.Forall₂ (fun p q => post npFront o ls p = .ok q) out P)
    (h' : List.Forall₂ (fun p q => post npFront o ls p = .ok q) out' P') (hs : List.Forall₂ SamePath out out') :
    List.Forall₂ (fun p q : Path (List ℝ) => p.n = q.n ∧ p.j = q.j ∧ q.coef.length = p.coef.length) P P' ∧
    ((P.zip P').map fun z => (Spec.l2 z.1.coef.length fun t => z.1.coef.getD t 0 - z.2.coef.getD t 0) ^ 2).sum ≤
      pathsD out out' := by
  induction hs generalizing P P' with
  | nil =>
    cases h
    cases h'
    exact ⟨.nil, by simp [pathsD]⟩
  | @cons c d cs ds hcd _ ih =>
    cases h with
    | @cons _ p _ P hp hP =>
      cases h' with
      | @cons _ q _ P' hq hP' =>
        obtain ⟨i1, i2⟩ := ih hP hP'
        obtain ⟨k1, k2, k3⟩ := hcd
        obtain ⟨u1, u2⟩ := unpad_pair hg hp hq k1 k2 k3
        obtain ⟨a1, a2⟩ := post_labels hp
        obtain ⟨b1, b2⟩ := post_labels hq
        refine ⟨.cons ⟨by rw [a1, b1, k1], by rw [a2, b2, k2], u1⟩ i1, ?_⟩
        rw [pathsD_cons, List.zip_cons_cons, List.map_cons, List.sum_cons, l2_sq]
        exact add_le_add u2 i2

/-- **C113 (bound).**  Two signals: the distance between their outputs, all paths together, is at most the square root of
`3.007 (1 + X + X^2) / 2^log2_stride` times the distance between the signals, where `X = 10.51 + 0.206 J`; for local
averaging over at least one output step, at most `2^J` wavelets per octave and a padded length of at least
`2^(J+4)`. -/
theorem C113_bound (a : Args1D) (s : Sc1D) (hmake : a.make = .ok s) (T : Rat)
    (hT : parseT a.T a.J s.built.Ninput = .ok (T, .loc)) (Q1 Q2 : ℕ) (hQ : parseQ a.Q = .ok ((Q1 : ℤ), (Q2 : ℤ)))
    (hQJ1 : Q1 ≤ 2 ^ a.J) (hQJ2 : Q2 ≤ 2 ^ a.J) (hN : 2 ^ (a.J + 4) ≤ s.built.Npadded) (ls : ℕ)
    (hls : log2Stride s.built.stride a.T a.J s.built.Ninput = .ok ls) (hlsT : (2 : ℚ) ^ ls ≤ T)
    (x y : List ℝ) (hxy : y.length = x.length)
    (l m : List (Path (List ℝ))) (hl : a.run x = .ok (.list l)) (hm : a.run y = .ok (.list m)) :
    List.Forall₂ (fun p q : Path (List ℝ) => p.n = q.n ∧ p.j = q.j ∧ q.coef.length = p.coef.length) l m ∧
    Spec.outDist l m ≤
      Real.sqrt (3.007 * (1 + (10.51 + 0.206 * a.J) + (10.51 + 0.206 * a.J) ^ 2) / 2 ^ ls) *
        Spec.l2 x.length fun i => x.getD i 0 - y.getD i 0 := by
  have hav : s.average = .loc := by
    obtain ⟨t, -, -, hT', -⟩ := make_sizes hmake
    rw [hT] at hT'
    injection hT' with hT'
    injection hT' with e1 e2
    exact e2.symm
  obtain ⟨_, Q1', Q2', -, -, -, g1, g2, -, -, hQ', -⟩ := make_filters hmake
  rw [hQ] at hQ'
  have hq := Prod.mk.inj (Except.ok.inj hQ')
  have e1 : Q1' = Q1 := by exact_mod_cast hq.1.symm
  have e2 : Q2' = Q2 := by exact_mod_cast hq.2.symm
  subst e1 e2
  have HB := make_netBounds hmake hT hQ g1 g2 hQJ1 hQJ2 hN hlsT
  obtain ⟨mo, hps, -, -⟩ := make_banks hmake hQ
  obtain ⟨X, ls1, out, P, hX, hls1, hout, hpost, rfl, -⟩ := run_sorted hmake hl
  obtain ⟨Y, ls2, out', P', hY, hls2, hout', hpost', rfl, -⟩ := run_sorted hmake hm
  rw [hls] at hls1 hls2
  injection hls1 with hls1
  injection hls2 with hls2
  subst hls1 hls2
  rw [hps, hav] at hout hout'
  simp only [decide_true, Int.toNat_natCast] at hout hout' hpost hpost'
  obtain ⟨hXY, hE⟩ := padded_energy hxy hX hY
  obtain ⟨n1, n2⟩ := network_pair HB hXY hout hout'
  have hng : (a.obj s).average ≠ .glob := by
    change s.average ≠ .glob
    rw [hav]; simp
  obtain ⟨z1, z2⟩ := zip_sum_le hng hpost hpost' n1
  refine ⟨sortPaths_rel (fun p q h => h.1) z1, ?_⟩
  have hperm := sortPaths_zip (z1.imp fun p q h => h.1)
  unfold Spec.outDist
  rw [(hperm.map _).sum_eq]
  have hJ : (0 : ℝ) ≤ a.J := Nat.cast_nonneg _
  have hD0 : 0 ≤ energy1 (diffL x y) := by
    rw [energy1_diffL]; exact sum_nonneg fun _ _ => sq_nonneg _
  have hle : ((P.zip P').map fun z => (Spec.l2 z.1.coef.length fun t => z.1.coef.getD t 0 - z.2.coef.getD t 0) ^ 2).sum ≤
      3.007 * (1 + (10.51 + 0.206 * a.J) + (10.51 + 0.206 * a.J) ^ 2) / 2 ^ ls * energy1 (diffL x y) := by
    refine z2.trans (n2.trans ?_)
    have hAB0 : 0 ≤ (10.3 + 0.201 * (a.J : ℝ)) * 1.02 := by positivity
    have hAB : (10.3 + 0.201 * (a.J : ℝ)) * 1.02 ≤ 10.51 + 0.206 * a.J := by norm_num; linarith
    have hpoly : 1 + (10.3 + 0.201 * (a.J : ℝ)) * 1.02 + ((10.3 + 0.201 * (a.J : ℝ)) * 1.02) ^ 2 ≤
        1 + (10.51 + 0.206 * a.J) + (10.51 + 0.206 * a.J) ^ 2 := by
      have := pow_le_pow_left₀ hAB0 hAB 2
      linarith
    have hp0 : 0 ≤ 1 + (10.51 + 0.206 * (a.J : ℝ)) + (10.51 + 0.206 * a.J) ^ 2 := by positivity
    have hcc : 1.001 * 1.001 * (1 + (10.3 + 0.201 * (a.J : ℝ)) * 1.02 + ((10.3 + 0.201 * (a.J : ℝ)) * 1.02) ^ 2) / 2 ^ ls ≤
        1.001 * 1.001 * (1 + (10.51 + 0.206 * a.J) + (10.51 + 0.206 * a.J) ^ 2) / 2 ^ ls :=
      div_le_div_of_nonneg_right (mul_le_mul_of_nonneg_left hpoly (by norm_num)) (by positivity)
    have h0 : 0 ≤ 1.001 * 1.001 * (1 + (10.51 + 0.206 * (a.J : ℝ)) + (10.51 + 0.206 * a.J) ^ 2) / 2 ^ ls :=
      div_nonneg (mul_nonneg (by norm_num) hp0) (by positivity)
    have hEn : 0 ≤ energy1 (diffL X Y) := by
      rw [energy1_diffL]; exact sum_nonneg fun _ _ => sq_nonneg _
    refine (mul_le_mul hcc hE hEn h0).trans ?_
    rw [← mul_assoc]
    apply mul_le_mul_of_nonneg_right _ hD0
    rw [div_mul_eq_mul_div]
    apply div_le_div_of_nonneg_right _ (by positivity)
    have := mul_le_mul_of_nonneg_right (by norm_num : (1.001 * 1.001 * 3 : ℝ) ≤ 3.007) hp0
    linarith
  refine (Real.sqrt_le_sqrt hle).trans (le_of_eq ?_)
  rw [Real.sqrt_mul (by positivity), energy1_diffL]
  rfl

/-- **C113 (partial).**  The whole network is contractive: the distance between the outputs for two signals, all paths taken
together, is at most the distance between the signals.  For an averaging `T` and a stride of at least `2^J` (by default both
equal it), `J ≥ 9`, at most `2^J` wavelets per octave and a padded length of at least `2^(J+4)`.
Missing for the full C113: it is false with averaging off (`C113_violated`), and smaller scales are covered only by the
constant of `C113_bound`. -/
theorem C113_partial (a : Args1D) (s : Sc1D) (hmake : a.make = .ok s) (T : Rat)
    (hT : parseT a.T a.J s.built.Ninput = .ok (T, .loc)) (Q1 Q2 : ℕ) (hQ : parseQ a.Q = .ok ((Q1 : ℤ), (Q2 : ℤ)))
    (hJ : 9 ≤ a.J) (hQJ1 : Q1 ≤ 2 ^ a.J) (hQJ2 : Q2 ≤ 2 ^ a.J) (hN : 2 ^ (a.J + 4) ≤ s.built.Npadded) (ls : ℕ)
    (hls : log2Stride s.built.stride a.T a.J s.built.Ninput = .ok ls) (hlsT : (2 : ℚ) ^ ls ≤ T) (hJls : a.J ≤ ls)
    (x y : List ℝ) (hxy : y.length = x.length)
    (l m : List (Path (List ℝ))) (hl : a.run x = .ok (.list l)) (hm : a.run y = .ok (.list m)) :
    List.Forall₂ (fun p q : Path (List ℝ) => p.n = q.n ∧ p.j = q.j ∧ q.coef.length = p.coef.length) l m ∧
    Spec.outDist l m ≤ Spec.l2 x.length fun i => x.getD i 0 - y.getD i 0 := by
  obtain ⟨h1, h2⟩ := C113_bound a s hmake T hT Q1 Q2 hQ hQJ1 hQJ2 hN ls hls hlsT x y hxy l m hl hm
  refine ⟨h1, h2.trans ?_⟩
  have hpoly : ∀ J : ℕ, 9 ≤ J → 3.007 * (1 + (10.51 + 0.206 * (J : ℝ)) + (10.51 + 0.206 * J) ^ 2) ≤ 2 ^ J := by
    intro J hJ
    induction J, hJ using Nat.le_induction with
    | base => norm_num
    | succ J hJ ih =>
      have : (9 : ℝ) ≤ J := by exact_mod_cast hJ
      rw [pow_succ (2 : ℝ) J]
      generalize (2 : ℝ) ^ J = P at ih ⊢
      push_cast
      norm_num at ih ⊢
      nlinarith
  have hle : 3.007 * (1 + (10.51 + 0.206 * (a.J : ℝ)) + (10.51 + 0.206 * a.J) ^ 2) / 2 ^ ls ≤ 1 := by
    rw [div_le_one (by positivity)]
    exact (hpoly a.J hJ).trans (pow_le_pow_right₀ (by norm_num) hJls)
  have := Real.sqrt_le_sqrt hle
  rw [Real.sqrt_one] at this
  calc _ ≤ 1 * (Spec.l2 x.length fun i => x.getD i 0 - y.getD i 0) :=
        mul_le_mul_of_nonneg_right this (Real.sqrt_nonneg _)
    _ = _ := one_mul _

/-- **C113 (partial), default averaging.**  `Scattering1D(J, shape=N, Q=(Q1, Q2), out_type='list')` with `J ≥ 9`,
`N ≥ 2^(J+4)` and `1 ≤ Q2 ≤ Q1 ≤ 2^J` is accepted, returns for every signal of `N` samples, and is contractive. -/
theorem C113_default_partial (J N Q1 Q2 : ℕ) (hJ : 9 ≤ J) (hN : 2 ^ (J + 4) ≤ N) (hQ2 : 1 ≤ Q2) (hQ12 : Q2 ≤ Q1)
    (hQJ : Q1 ≤ 2 ^ J) (mo : ℤ) (hmo : 1 ≤ mo) :
    ∃ s, (Args1D.mk J (.int N) (.tuple [Q1, Q2]) .none none mo (some (.int 0)) .list).make = .ok s ∧
      ∀ x y : List ℝ, x.length = N → y.length = N → ∃ l m,
        (Args1D.mk J (.int N) (.tuple [Q1, Q2]) .none none mo (some (.int 0)) .list).run x = .ok (.list l) ∧
        (Args1D.mk J (.int N) (.tuple [Q1, Q2]) .none none mo (some (.int 0)) .list).run y = .ok (.list m) ∧
        Spec.outDist l m ≤ Spec.l2 N fun i => x.getD i 0 - y.getD i 0 := by
  set a := Args1D.mk J (.int N) (.tuple [Q1, Q2]) .none none mo (some (.int 0)) .list with ha
  have hN1 : 1 ≤ N := le_trans Nat.one_le_two_pow hN
  have hshape : parseShape a.shape = .ok N := by
    rfl
  have hT : parseT a.T a.J N = .ok (2 ^ J, .loc) := rfl
  have hQ : parseQ a.Q = .ok ((Q1 : ℤ), (Q2 : ℤ)) := by
    rw [ha]
    simp only [parseQ]
    rw [if_neg (by simp; omega)]
  have hJp : a.J ≤ jPad N (minToPad N (2 ^ J)) :=
    le_jPad_of_pow hN1 (le_trans (Nat.pow_le_pow_right (by norm_num) (by show J ≤ J + 4; omega)) hN)
  obtain ⟨s, hmake, hNi, hav, hst⟩ := C17_construction a N hshape hN1 (2 ^ J) .loc hT Q1 Q2 hQ (by exact_mod_cast hQ12) hJp
    (Or.inr rfl)
  obtain ⟨s', hmake', -, -, hrun⟩ := C17_no_error a N hshape hN1 (2 ^ J) .loc hT Q1 Q2 hQ (by exact_mod_cast hQ12) hJp rfl
    hmo (Or.inl rfl) (Or.inl rfl)
  have hlist : ∀ x : List ℝ, x.length = N → ∃ l, a.run x = .ok (.list l) := by
    intro x hx
    obtain ⟨r, hr⟩ := hrun x hx
    obtain ⟨s', hs', hr'⟩ := bind_eq_ok.1 hr
    obtain ⟨-, l, -, hl⟩ := Front1D.scattering_eq_ok.1 hr'
    refine ⟨sortPaths l, ?_⟩
    rw [hr]
    unfold assemble at hl
    rw [show (a.obj s').outType = .list from rfl] at hl
    exact hl.symm
  refine ⟨s, hmake, fun x y hx hy => ?_⟩
  obtain ⟨l, hl⟩ := hlist x hx
  obtain ⟨m, hm⟩ := hlist y hy
  refine ⟨l, m, hl, hm, ?_⟩
  obtain ⟨_, _, -, -, -, z1, -⟩ := make_sizes hmake
  have hls : log2Stride s.built.stride a.T a.J s.built.Ninput = .ok ((J : ℕ) : ℤ) := by
    rw [hst, hNi]
    refine (C07_log2_stride_ok _ _ _ _ _).2 (Or.inl ⟨rfl, ?_⟩)
    show Except.ok (floorLog2 (2 ^ J)) = _
    rw [floorLog2_twoPow]
  rw [← hx]
  exact (C113_partial a s hmake (2 ^ J) (by rw [hNi]; exact hT) Q1 Q2 hQ hJ hQJ (hQ12.trans hQJ)
    (le_trans hN (by omega)) J hls le_rfl le_rfl x y (by omega) l m hl hm).2

/-- `Scattering1D(J=9, shape=8192, Q=(8, 1))`. -/
example : ∃ s, (Args1D.mk 9 (.int 8192) (.tuple [8, 1]) .none none 2 (some (.int 0)) .list).make = .ok s ∧
    ∀ x y : List ℝ, x.length = 8192 → y.length = 8192 → ∃ l m,
      (Args1D.mk 9 (.int 8192) (.tuple [8, 1]) .none none 2 (some (.int 0)) .list).run x = .ok (.list l) ∧
      (Args1D.mk 9 (.int 8192) (.tuple [8, 1]) .none none 2 (some (.int 0)) .list).run y = .ok (.list m) ∧
      Spec.outDist l m ≤ Spec.l2 8192 fun i => x.getD i 0 - y.getD i 0 :=
  C113_default_partial 9 8192 8 1 (by norm_num) (by norm_num) (by norm_num) (by norm_num) (by norm_num) 2 (by norm_num)

/-! ## Averaging off -/

theorem neg_one_tw {N : ℕ} (hN : N ≠ 0) (h2 : 2 ∣ N) (m : ℕ) : ((-1 : ℂ)) ^ m = tw N (m * (N / 2 : ℕ)) := by
  obtain ⟨M, rfl⟩ := h2
  rw [tw_pow]
  congr 1
  rw [Nat.mul_div_cancel_left _ (by norm_num)]
  unfold tw
  have hM : (M : ℂ) ≠ 0 := by
    have : M ≠ 0 := by rintro rfl; exact hN rfl
    exact_mod_cast this
  rw [← Complex.exp_pi_mul_I]
  congr 1
  push_cast
  field_simp

/-- Convolving the alternating signal. -/
theorem conv_alternating {h : List ℝ} {X : List ℝ} (hl : X.length = h.length) (h2 : 2 ∣ h.length) (h0 : h.length ≠ 0) {c : ℝ}
    (hX : ∀ m < X.length, X.getD m 0 = c * (-1) ^ m) (u : ℤ) :
    ‖∑ m ∈ range X.length, (X.getD m 0 : ℂ) * Spec.impulseR h (u - m)‖ = |c| * |h.getD (h.length / 2) 0| := by
  set N := h.length with hN
  have hNC : (N : ℂ) ≠ 0 := by exact_mod_cast h0
  have e : ∑ m ∈ range X.length, (X.getD m 0 : ℂ) * Spec.impulseR h (u - m) =
      c * (h.getD (N / 2) 0 * tw N ((N / 2 : ℕ) * u)) := by
    have e1 : ∀ m ∈ range X.length, (X.getD m 0 : ℂ) * Spec.impulseR h (u - m) =
        ∑ k ∈ range N, (c : ℂ) * ((h.getD k 0 : ℂ) * tw N (k * u) * tw N (m * (((N / 2 : ℕ) : ℤ) - k)) / N) := by
      intro m hm
      rw [hX m (mem_range.1 hm), Complex.ofReal_mul, Complex.ofReal_pow, Complex.ofReal_neg, Complex.ofReal_one]
      rw [neg_one_tw h0 h2]
      unfold Spec.impulseR Spec.impulse
      rw [List.length_map, ← hN, sum_div, mul_sum]
      refine sum_congr rfl fun k _ => ?_
      rw [getD_ofReal]
      have : Complex.exp (2 * Real.pi * Complex.I * ((k * (u - m) : ℤ) : ℂ) / N) = tw N (k * (u - m)) := rfl
      rw [this]
      have e2 : tw N (m * (N / 2 : ℕ)) * tw N (k * (u - m)) = tw N (k * u) * tw N (m * (((N / 2 : ℕ) : ℤ) - k)) := by
        rw [← tw_add, ← tw_add]
        congr 1
        ring
      calc _ = (c : ℂ) * ((h.getD k 0 : ℂ) * (tw N (m * (N / 2 : ℕ)) * tw N (k * (u - m))) / N) := by ring
        _ = _ := by rw [e2]; ring
    rw [sum_congr rfl e1, sum_comm]
    have e3 : ∀ k ∈ range N, ∑ m ∈ range X.length,
        (c : ℂ) * ((h.getD k 0 : ℂ) * tw N (k * u) * tw N (m * (((N / 2 : ℕ) : ℤ) - k)) / N) =
        if k = N / 2 then (c : ℂ) * (h.getD k 0 * tw N (k * u)) else 0 := by
      intro k hk
      have hk := mem_range.1 hk
      rw [← mul_sum, ← sum_div, ← mul_sum, hl, sum_tw N h0]
      by_cases hkk : k = N / 2
      · rw [if_pos hkk, if_pos (by rw [hkk]; simp)]
        field_simp
      · rw [if_neg hkk, if_neg, mul_zero, zero_div, mul_zero]
        intro hd
        have : (((N / 2 : ℕ) : ℤ) - k) ≠ 0 := by omega
        have := Int.le_of_dvd (abs_pos.2 this) ((dvd_abs _ _).2 hd)
        rcases abs_cases ((((N / 2 : ℕ) : ℤ) - k)) with ⟨h, -⟩ | ⟨h, -⟩ <;> rw [h] at this <;> omega
    rw [sum_congr rfl e3, sum_ite_eq' (range N) (N / 2), if_pos (mem_range.2 (by omega))]
  rw [e, norm_mul, norm_mul, norm_tw, mul_one, Complex.norm_real, Complex.norm_real]
  rfl

theorem mirror_parity {N : ℕ} (hN : 2 ≤ N) (i l : ℕ) : Spec.mirror N ((i : ℤ) - l) % 2 = (i + l) % 2 := by
  unfold Spec.mirror
  simp only
  have h1 := Int.emod_nonneg ((i : ℤ) - l) (by omega : (2 * (N : ℤ) - 2) ≠ 0)
  have h2 := Int.emod_lt_of_pos ((i : ℤ) - l) (by omega : 0 < 2 * (N : ℤ) - 2)
  have h3 := Int.emod_add_mul_ediv ((i : ℤ) - l) (2 * (N : ℤ) - 2)
  set r := ((i : ℤ) - l) % (2 * N - 2)
  have h4 : (2 * (N : ℤ) - 2) * (((i : ℤ) - l) / (2 * N - 2)) = 2 * ((N - 1) * (((i : ℤ) - l) / (2 * N - 2))) := by ring
  rw [h4] at h3
  generalize ((N : ℤ) - 1) * (((i : ℤ) - l) / (2 * N - 2)) = z at h3
  omega

theorem two_le_sum {α : Type} {f : α → ℝ} (hf : ∀ x, 0 ≤ f x) :
    ∀ (l : List α) (x y : α), x ∈ l → y ∈ l → x ≠ y → f x + f y ≤ (l.map f).sum := by
  intro l
  induction l with
  | nil => intro x y hx; cases hx
  | cons z l ih =>
    intro x y hx hy hxy
    have hn : 0 ≤ (l.map f).sum := List.sum_nonneg (by simp only [List.mem_map]; rintro _ ⟨b, -, rfl⟩; exact hf b)
    have hone : ∀ w ∈ l, f w ≤ (l.map f).sum := fun w hw =>
      List.single_le_sum (by simp only [List.mem_map]; rintro _ ⟨b, -, rfl⟩; exact hf b) _ (List.mem_map.2 ⟨w, hw, rfl⟩)
    rw [List.map_cons, List.sum_cons]
    rcases List.mem_cons.1 hx with h1 | h1
    · rcases List.mem_cons.1 hy with h2 | h2
      · exact absurd (h1.trans h2.symm) hxy
      · rw [h1]; linarith [hone y h2]
    · rcases List.mem_cons.1 hy with h2 | h2
      · rw [h2]; linarith [hone x h1]
      · linarith [ih x y h1 h2 hxy, hf z]

/-- **C113 violated.**  With averaging off (`T = 0`) no object is contractive: order zero is the signal itself, so any
non-zero modulus makes the output farther from that of the zero signal than the signal is from zero.  The alternating
signal `1, -1, 1, ...` is such a signal for every object with at most `2^J` wavelets per octave. -/
theorem C113_violated (a : Args1D) (s : Sc1D) (hmake : a.make = .ok s) (hav : s.average = .no) (hN : 2 ≤ s.built.Ninput)
    (Q1 Q2 : ℕ) (hQ : parseQ a.Q = .ok ((Q1 : ℤ), (Q2 : ℤ))) (hQJ1 : Q1 ≤ 2 ^ a.J) (x y : List ℝ)
    (hx : x = (List.range s.built.Ninput).map fun i => (-1) ^ i) (hy : y = List.replicate s.built.Ninput 0)
    (l m : List (Path (List ℝ))) (hl : a.run x = .ok (.list l)) (hm : a.run y = .ok (.list m)) :
    (Spec.l2 x.length fun i => x.getD i 0 - y.getD i 0) < Spec.outDist l m := by
  obtain ⟨_, Q1', Q2', -, -, -, g1, g2, -, -, hQ', -⟩ := make_filters hmake
  rw [hQ] at hQ'
  have hq := Prod.mk.inj (Except.ok.inj hQ')
  have e1 : Q1' = Q1 := by exact_mod_cast hq.1.symm
  have e2 : Q2' = Q2 := by exact_mod_cast hq.2.symm
  subst e1 e2
  obtain ⟨t, lT, -, -, -, z1, z2, z3, z4, z5, -⟩ := make_sizes hmake
  have hxl : x.length = s.built.Ninput := by rw [hx]; simp
  have hyl : y.length = s.built.Ninput := by rw [hy]; simp
  have hxv : ∀ i < s.built.Ninput, x.getD i 0 = (-1) ^ i := by
    intro i hi
    rw [hx, List.getD_eq_getElem?_getD]
    simp [hi]
  have hyv : ∀ i, y.getD i 0 = 0 := by
    intro i
    rw [hy, List.getD_eq_getElem?_getD, List.getElem?_replicate]
    split <;> rfl
  have hnl : s.average ≠ .loc := by rw [hav]; simp
  -- the paths correspond
  have hF : List.Forall₂ (fun p q : Path (List ℝ) => p.n = q.n ∧ p.j = q.j) l m := by
    obtain ⟨-, -, -, P, -, -, -, -, rfl, k1⟩ := run_sorted hmake hl
    obtain ⟨-, -, -, P', -, -, -, -, rfl, k2⟩ := run_sorted hmake hm
    refine sortPaths_rel (fun p q h => h.1) ?_
    have : List.Forall₂ (fun u v : List ℕ × List ℕ => u = v) (P.map fun p => (p.j, p.n)) (P'.map fun p => (p.j, p.n)) := by
      rw [k1, k2]; exact List.forall₂_same.2 fun _ _ => rfl
    rw [List.forall₂_map_left_iff, List.forall₂_map_right_iff] at this
    exact this.imp fun p q h => ⟨(Prod.mk.inj h).2, (Prod.mk.inj h).1⟩
  have hzip : ∀ p ∈ l, ∃ q, (p, q) ∈ l.zip m ∧ p.n = q.n ∧ p.j = q.j ∧ q ∈ m := by
    clear hl hm
    induction hF with
    | nil => intro p hp; cases hp
    | @cons b c bs cs hbc _ ih =>
      intro p hp
      rcases List.mem_cons.1 hp with rfl | hp
      · exact ⟨c, by simp, hbc.1, hbc.2, by simp⟩
      · obtain ⟨q, k1, k2, k3, k4⟩ := ih p hp
        exact ⟨q, by simp [k1], k2, k3, by simp [k4]⟩
  obtain ⟨X, hX, cX⟩ := C13_object_unaveraged a s hmake hnl _ _ hQ x hxl l hl
  obtain ⟨Y, hY, cY⟩ := C13_object_unaveraged a s hmake hnl _ _ hQ y hyl m hm
  obtain ⟨_, _, -, -, crX⟩ := C61_crop a s hmake hav x l hl
  have hC14 := (C14_object a s hmake Q1' Q2' hQ _ _ (C87_bank a.J Q1' g1) (C87_bank a.J Q2' g2) x l hl).1
  simp only [Int.toNat_natCast] at cX cY
  -- lengths on the full-rate grid
  have hlen0 : ∀ p ∈ l, p.j.getLast?.getD 0 = 0 → p.coef.length = s.built.Ninput := by
    intro p hp hj
    obtain ⟨q, -, -, -, m0, k1, -⟩ := crX p hp
    rw [hj] at k1
    simp only [pow_zero, mul_one, hxl] at k1
    have a1 := k1 s.built.padLeft
    have a2 := k1 (s.built.padLeft + s.built.Ninput - 1)
    have a3 := k1 (s.built.padLeft + s.built.Ninput)
    have a4 := k1 m0
    have a5 := k1 (m0 + p.coef.length - 1)
    omega
  have hceil : ∀ t : ℕ, ((t : ℤ) + ⌈(s.built.padLeft : ℚ) / 2 ^ 0⌉) = ((t + s.built.padLeft : ℕ) : ℤ) := by
    intro t
    simp
  -- order zero
  obtain ⟨p0, hp0, n0, j0⟩ := (hC14 [] []).2 (Or.inl ⟨rfl, rfl⟩)
  obtain ⟨q0, hz0, nq0, jq0, hq0⟩ := hzip p0 hp0
  have hlen := hlen0 p0 hp0 (by rw [j0]; rfl)
  have hval0 : (Spec.l2 p0.coef.length fun t => p0.coef.getD t 0 - q0.coef.getD t 0) ^ 2 =
      (Spec.l2 x.length fun i => x.getD i 0 - y.getD i 0) ^ 2 := by
    rw [l2_sq, l2_sq, hlen, hxl]
    refine sum_congr rfl fun i hi => ?_
    have hi := mem_range.1 hi
    obtain ⟨g, j, n, -, c2, -, ⟨-, c3, c4⟩ | ⟨_, _, h, -⟩ | ⟨_, _, _, _, _, h, -⟩⟩ := cX p0 hp0
    · subst c3
      obtain ⟨g', j', n', -, d2, -, ⟨-, d3, d4⟩ | ⟨_, _, h, -⟩ | ⟨_, _, _, _, _, h, -⟩⟩ := cY q0 hq0
      · subst d3
        rw [c2 hav i (by omega), hceil, c4, hX.2 _ (by omega), hyv i]
        have hyq : q0.coef.getD i 0 = 0 := by
          rcases Nat.lt_or_ge i q0.coef.length with h | h
          · rw [d2 hav i h, hceil, d4, hY.2 _ (by omega), hyv]
          · rw [List.getD_eq_default _ _ h]
        rw [hyq]
        congr 2
        congr 1
        have : (((i + s.built.padLeft : ℕ) : ℤ) - s.built.padLeft) = i := by push_cast; ring
        rw [this, hxl]
        unfold Spec.mirror
        simp only
        rw [Int.emod_eq_of_lt (by omega) (by omega)]
        omega
      · rw [← nq0, n0] at h; cases h
      · rw [← nq0, n0] at h; cases h
    · rw [n0] at h; cases h
    · rw [n0] at h; cases h
  -- the first wavelet
  have hmem : (computeXiMax Q1', rho Q1' * computeXiMax Q1') ∈ anden a.J Q1' := by
    have := geo_mem_anden (J := a.J) g1 0 (by simpa using bank_first g1 hQJ1)
    simpa using this
  obtain ⟨n1, hn1⟩ := List.mem_iff_getElem?.1 hmem
  set w := (computeXiMax Q1', rho Q1' * computeXiMax Q1') with hw
  obtain ⟨b1, b2, b3, b4⟩ := anden_params g1 hQJ1 hmem
  have hs : 0 < w.2 := lt_of_lt_of_le (by positivity) b1
  have hxi : (0.35 : ℝ) ≤ w.1 := computeXiMax_ge Q1'
  have hxi0 : 0 < w.1 := lt_of_lt_of_le (by norm_num) hxi
  obtain ⟨p1, hp1, m1, k1⟩ := (hC14 [n1] [Spec.scale w]).2 (Or.inr (Or.inl ⟨n1, w, hn1, rfl, rfl⟩))
  obtain ⟨q1, hz1, nq1, jq1, hq1⟩ := hzip p1 hp1
  have hval1 : 0 < (Spec.l2 p1.coef.length fun t => p1.coef.getD t 0 - q1.coef.getD t 0) ^ 2 := by
    obtain ⟨g, j, n, -, c2, -, ⟨h, -⟩ | ⟨n1', w', h1, h2, h3, h4, h5⟩ | ⟨_, _, _, _, _, h, -⟩⟩ := cX p1 hp1
    · rw [m1] at h; cases h
    · rw [m1] at h1
      have : n1 = n1' := by simpa using h1
      subst this
      rw [hn1] at h3
      have : w = w' := by simpa using h3
      subst this
      have hj0 : j = 0 := by
        by_contra hne
        have := band_le hxi0 hs h4 (k := 1) le_rfl (by omega)
        norm_num at this hxi
        linarith
      subst hj0
      have hl1 := hlen0 p1 hp1 (by rw [h2]; rfl)
      have hev : 2 ∣ s.built.Npadded := by
        rw [z5]
        apply dvd_pow_self
        intro h0
        rw [h0] at z5
        omega
      have hmor : 0 < |(morlet1d s.built.Npadded (some w.1) w.2).getD (s.built.Npadded / 2) 0| := by
        have hr := morletRaw_half_pos (N := s.built.Npadded) (by omega) hev hs (by norm_num; linarith) hxi0
          (computeXiMax_lt g1) (Or.inl b3)
        have hln : 0 < l1norm (morletRaw s.built.Npadded (some w.1) w.2) :=
          lt_of_lt_of_le (abs_pos.2 hr.ne') (gain_le_l1norm _ _)
        unfold morlet1d
        have e := getD_map' (morletRaw s.built.Npadded (some w.1) w.2)
          (fun v => v / l1norm (morletRaw s.built.Npadded (some w.1) w.2)) (s.built.Npadded / 2) 0
        simp only [zero_div] at e
        rw [e]
        exact abs_pos.2 (div_pos hr hln).ne'
      have hc0 : p1.coef.getD 0 0 = |(morlet1d s.built.Npadded (some w.1) w.2).getD (s.built.Npadded / 2) 0| := by
        rw [c2 hav 0 (by omega), h5]
        unfold Spec.U1 waveletResponse
        rw [pow_zero, one_mul]
        have hlm := length_morlet1d (N := s.built.Npadded) (xi := some w.1) hs
        rw [conv_alternating (c := (-1) ^ s.built.padLeft) (by rw [hlm, hX.1]) (by rw [hlm]; exact hev) (by rw [hlm]; omega),
          hlm, abs_pow, abs_neg, abs_one, one_pow, one_mul]
        intro m hm
        rw [hX.1] at hm
        have hmir : Spec.mirror x.length ((m : ℤ) - s.built.padLeft) < s.built.Ninput := by
          rw [hxl]
          unfold Spec.mirror
          simp only
          have := Int.emod_nonneg ((m : ℤ) - s.built.padLeft) (by omega : (2 * (s.built.Ninput : ℤ) - 2) ≠ 0)
          have := Int.emod_lt_of_pos ((m : ℤ) - s.built.padLeft) (by omega : 0 < 2 * (s.built.Ninput : ℤ) - 2)
          omega
        rw [hX.2 m hm, hxv _ hmir, ← pow_add, neg_one_pow_eq_pow_mod_two,
          neg_one_pow_eq_pow_mod_two (n := s.built.padLeft + m), hxl, mirror_parity hN]
        congr 1
        omega
      have hcq : q1.coef.getD 0 0 = 0 := by
        rcases Nat.lt_or_ge 0 q1.coef.length with h | h
        · rw [hy] at hm
          refine C20_constant_partial a s hmake hN _ 0 m hm q1 hq1 (by rw [← nq1, m1]; simp) _ ?_
          rw [List.getD_eq_getElem?_getD, List.getElem?_eq_getElem h]
          exact List.getElem_mem h
        · rw [List.getD_eq_default _ _ h]
      rw [l2_sq, hl1]
      refine lt_of_lt_of_le ?_ (single_le_sum (f := fun t => (p1.coef.getD t 0 - q1.coef.getD t 0) ^ 2)
        (fun i _ => sq_nonneg _) (mem_range.2 (by omega : 0 < s.built.Ninput)))
      rw [hc0, hcq, sub_zero]
      positivity
    · rw [m1] at h; cases h
  have hne : (p0, q0) ≠ (p1, q1) := by
    intro h
    have := (Prod.mk.inj h).1
    rw [this, m1] at n0
    cases n0
  have hsum := two_le_sum (f := fun z : Path (List ℝ) × Path (List ℝ) =>
    (Spec.l2 z.1.coef.length fun t => z.1.coef.getD t 0 - z.2.coef.getD t 0) ^ 2) (fun _ => sq_nonneg _) _ _ _ hz0 hz1 hne
  simp only at hsum
  rw [hval0] at hsum
  unfold Spec.outDist
  exact Real.lt_sqrt_of_sq_lt (by linarith)

/-- The hypotheses of `C113_violated` are met by `Scattering1D(J=3, shape=1000, Q=8, T=0)`. -/
example : ∃ s l m, (exArgs (.num 0) .list).make = .ok s ∧ s.average = .no ∧ 2 ≤ s.built.Ninput ∧
    parseQ (exArgs (.num 0) .list).Q = .ok (((8 : ℕ) : ℤ), ((1 : ℕ) : ℤ)) ∧ 8 ≤ 2 ^ (exArgs (.num 0) .list).J ∧
    (exArgs (.num 0) .list).run ((List.range s.built.Ninput).map fun i => (-1) ^ i) = .ok (.list l) ∧
    (exArgs (.num 0) .list).run (List.replicate s.built.Ninput 0) = .ok (.list m) := by
  obtain ⟨s, l, hs, hN, hav, hl⟩ := exArgs_list (T := .num 0) (av := .no) (.inr (.inr (.inl ⟨rfl, rfl⟩)))
    ((List.range 1000).map fun i => (-1) ^ i) (by rw [List.length_map, List.length_range])
  obtain ⟨-, m, -, -, -, hm⟩ := exArgs_list (T := .num 0) (av := .no) (.inr (.inr (.inl ⟨rfl, rfl⟩)))
    (List.replicate 1000 0) List.length_replicate
  exact ⟨s, l, m, hs, hav, by omega, rfl, by decide, by rw [hN]; exact hl, by rw [hN]; exact hm⟩

end Verif
