import Verif.Props.NoError1D

/-!
# C15 for constructed objects

`meta()` runs the core with `average_local=False` whatever the averaging of the object, so it reads
level `j1` of second-order filters.  The factory stores only `1 + log2_T` levels when that is the
smallest bound, so for `T` much smaller than `2^J` the call fails.
-/

namespace Verif

open Core1D Front1D

/-- C15 (partial): `meta()` returns, for every constructed object with `Q1 ≥ Q2` and `T ≥ 2^(J-2)`
(in particular for `T` None, 'global' or 0); the rows are then described by `C15_meta_rows`. -/
theorem C15_meta_object_partial (a : Args1D) (s : Sc1D) (hmake : a.make = .ok s) (Q1 Q2 : Int)
    (hQ : parseQ a.Q = .ok (Q1, Q2)) (hQ12 : Q2 ≤ Q1) (hmo : 1 ≤ a.maxOrder) (ls : Int)
    (hls : log2Stride s.built.stride a.T a.J s.built.Ninput = .ok ls) (T : Rat) (av : Average)
    (hT : parseT a.T a.J s.built.Ninput = .ok (T, av)) (hJ : (2 : Rat) ^ a.J ≤ 4 * T) :
    ∃ keys, metaKey (a.obj s) = .ok keys := by
  obtain ⟨t, R1, R2, lT, M1, M2, hR1, hR2, ht, hT', hR, hfl, h1, h2, hM1, hM2, hlv, -, -⟩ :=
    make_filters hmake
  rw [hT] at hT'
  injection hT' with hT'
  injection hT' with e1 e2
  subst e1
  rw [hQ] at hR
  injection hR with hR
  injection hR with e3 e4
  have hJl : a.J ≤ lT + 2 := by
    obtain ⟨k, hk, hk1, hk2⟩ := C06_log2_T a.T a.J s.built.Ninput _ hT
    have : (k : ℤ) = lT := by
      unfold log2T at hk
      rw [hT] at hk
      injection hk with hk
      rw [← hk]
      exact hfl
    have hkl : k = lT := by exact_mod_cast this
    subst hkl
    have h : (2 : Rat) ^ a.J < 2 ^ (k + 3) := by
      refine lt_of_le_of_lt hJ ?_
      have hk2 : T < 2 ^ (k + 1) := hk2
      calc 4 * T < 4 * 2 ^ (k + 1) := by linarith
        _ = 2 ^ (k + 3) := by ring
    have := (pow_lt_pow_iff_right₀ (by norm_num : (1 : Rat) < 2)).1 h
    omega
  have hscale := scale2_le hR2 (by omega) h1 h2 hM1
  refine (C15_meta_ok_iff (a.obj s) ls hls hmo).2 ⟨?_, fun _ => ?_⟩
  · intro f hf
    obtain ⟨g, hg, rfl⟩ := List.mem_map.1 hf
    obtain ⟨p, hp, hpf⟩ := forall₂_mem_right h1 hg
    obtain ⟨-, -, -, e4⟩ := makePsi_fields hpf
    show 0 < g.levels.length
    rw [makeLevels_length e4]
    omega
  · intro f hf g hg hj
    obtain ⟨f', hf', rfl⟩ := List.mem_map.1 hf
    obtain ⟨g', hg', rfl⟩ := List.mem_map.1 hg
    obtain ⟨p, hp, hpf⟩ := forall₂_mem_right h1 hf'
    obtain ⟨-, -, e5, -⟩ := makePsi_fields hpf
    obtain ⟨q, hq, hqg⟩ := forall₂_mem_right h2 hg'
    obtain ⟨-, -, e6, e7⟩ := makePsi_fields hqg
    have b1 := C26_scale_le a.J R1 hR1 p hp
    have b2 := C26_scale_le a.J R2 hR2 q hq
    have b3 := hscale g' hg'
    change f'.j.toNat < g'.j.toNat at hj
    show f'.j.toNat < g'.levels.length
    rw [makeLevels_length e7]
    rw [← e5] at b1
    rw [← e6] at b2 ⊢
    omega

/-- The example object meets the hypotheses. -/
example : ∃ s, (exArgs .none .list).make = .ok s ∧ ∃ keys, metaKey ((exArgs .none .list).obj s) =
    .ok keys := by
  obtain ⟨s, h1, h2, h3, h5⟩ := C17_construction (exArgs .none .list) 1000 rfl (by norm_num) (2 ^ 3)
    .loc rfl 8 1 rfl (by norm_num) (le_jPad_of_pow (by norm_num) (by norm_num [exArgs])) (Or.inr rfl)
  refine ⟨s, h1, C15_meta_object_partial _ s h1 8 1 rfl (by norm_num) (by norm_num [exArgs]) 3 ?_
    (2 ^ 3) .loc rfl (by norm_num [exArgs])⟩
  rw [h5]
  refine (C07_log2_stride_ok _ _ _ _ _).2 (Or.inl ⟨rfl, ?_⟩)
  show Except.ok (floorLog2 (2 ^ 3)) = _
  rw [floorLog2_twoPow]
  rfl

/-! ## Where it fails -/

/-- `Scattering1D(J=4, shape=1000, Q=1, T=1)`. -/
def smallT : Args1D where
  J := 4
  shape := .int 1000
  Q := .int 1
  T := .num 1
  stride := none
  maxOrder := 2
  oversampling := some (.int 0)
  outType := .array

theorem xiMax_one : computeXiMax 1 = 0.35 := by
  unfold computeXiMax
  apply max_eq_right
  norm_num

/-- Two wavelets of the bank `J = 4`, `Q = 1` with scales `1 ≤ j1 < j2`. -/
theorem smallT_pair : ∃ p ∈ anden 4 1, ∃ q ∈ anden 4 1,
    1 ≤ getMaxDyadicSubsampling p.1 p.2 5 ∧
      getMaxDyadicSubsampling p.1 p.2 5 < getMaxDyadicSubsampling q.1 q.2 5 := by
  have hr1 := rho_one_le
  have hr2 := rho_one_ge
  have mem : ∀ k : Nat, k ≤ 4 → (0.35 / 2 ^ k, rho 1 * 0.35 / 2 ^ k) ∈ anden 4 1 := by
    intro k hk
    have := geo_mem_anden (J := 4) (Q := 1) le_rfl k (by
      rw [xiMax_one, qr_one]
      have hp : (2 : ℝ) ^ k ≤ 2 ^ 4 := pow_le_pow_right₀ (by norm_num) hk
      have hp0 : (0 : ℝ) < 2 ^ k := by positivity
      rw [div_lt_div_iff₀ (by norm_num) hp0]
      norm_num at hr2 hp ⊢
      nlinarith)
    rwa [xiMax_one, qr_one] at this
  have sum : ∀ k : Nat, |(0.35 : ℝ) / 2 ^ k| + 5 * (rho 1 * 0.35 / 2 ^ k) =
      0.35 * (1 + 5 * rho 1) / 2 ^ k := by
    intro k
    rw [abs_of_pos (by positivity)]
    ring
  have hpos : ∀ k : Nat, 0 < |(0.35 : ℝ) / 2 ^ k| + 5 * (rho 1 * 0.35 / 2 ^ k) := by
    intro k
    have : 0 < rho 1 := rho_pos le_rfl
    positivity
  refine ⟨_, mem 3 (by norm_num), _, mem 4 le_rfl, ?_, ?_⟩
  · obtain ⟨-, -, h, -⟩ := C26_max_dyadic_subsampling (0.35 / 2 ^ 3) (rho 1 * 0.35 / 2 ^ 3) 5 (hpos 3)
    by_contra hc
    push Not at hc
    have := h 1 hc
    rw [sum] at this
    norm_num at this hr1
    linarith
  · obtain ⟨h0, h1, -, -⟩ :=
      C26_max_dyadic_subsampling (0.35 / 2 ^ 3) (rho 1 * 0.35 / 2 ^ 3) 5 (hpos 3)
    obtain ⟨-, -, h, -⟩ := C26_max_dyadic_subsampling (0.35 / 2 ^ 4) (rho 1 * 0.35 / 2 ^ 4) 5 (hpos 4)
    set j1 := getMaxDyadicSubsampling (0.35 / 2 ^ 3) (rho 1 * 0.35 / 2 ^ 3) 5
    by_contra hc
    push Not at hc
    change getMaxDyadicSubsampling (0.35 / 2 ^ 4) (rho 1 * 0.35 / 2 ^ 4) 5 ≤ j1 at hc
    have h3 := h (j1 + 1) (by omega)
    have h4 := h1 (by rw [sum]; norm_num at hr1 ⊢; linarith)
    rw [sum] at h3 h4
    have h5 : (2 : ℝ) ^ (-(j1 + 1 + 1)) = 2 ^ (-(j1 + 1)) / 2 := by
      rw [show -(j1 + 1 + 1) = -(j1 + 1) - 1 by ring, zpow_sub₀ (by norm_num), zpow_one]
    rw [h5] at h3
    norm_num at h3 h4
    linarith

/-- C15 fails for `Scattering1D(J=4, shape=1000, Q=1, T=1)`: the object is built, every signal of
1000 samples is transformed, but `meta()` raises. -/
theorem C15_meta_fails_small_T : ∃ s, smallT.make = .ok s ∧
    (∀ x : List ℝ, x.length = 1000 → ∃ r, smallT.run x = .ok r) ∧
    ∀ keys, metaKey (smallT.obj s) ≠ .ok keys := by
  have hT : parseT smallT.T smallT.J 1000 = .ok (1, .loc) := by norm_num [parseT, smallT]
  obtain ⟨s, h1, h2, h3, h4⟩ := C17_no_error smallT 1000 rfl (by norm_num) 1 .loc hT 1 1 rfl le_rfl
    (le_jPad_of_pow (by norm_num) (by norm_num [smallT])) rfl (by norm_num [smallT]) (Or.inl rfl)
    (Or.inr (Or.inr ⟨rfl, by simp⟩))
  obtain ⟨s', h1', -, -, h5⟩ := C17_construction smallT 1000 rfl (by norm_num) 1 .loc hT 1 1 rfl
    le_rfl (le_jPad_of_pow (by norm_num) (by norm_num [smallT])) (Or.inr rfl)
  rw [h1] at h1'
  injection h1' with h1'
  subst h1'
  refine ⟨s, h1, h4, fun keys hk => ?_⟩
  obtain ⟨t, R1, R2, lT, M1, M2, hR1, hR2, ht, hT', hR, hfl, g1, g2, -⟩ := make_filters h1
  rw [h2, hT] at hT'
  injection hT' with hT'
  injection hT' with e1 e2
  subst e1
  have hRR : R1 = 1 ∧ R2 = 1 := by
    simp only [smallT, parseQ] at hR
    norm_num at hR
    omega
  obtain ⟨rfl, rfl⟩ := hRR
  have hl0 : lT = 0 := by
    have := floorLog2_twoPow 0
    rw [pow_zero] at this
    rw [this] at hfl
    omega
  subst hl0
  have hls : (smallT.obj s).log2Stride = .ok 0 := by
    show log2Stride s.built.stride smallT.T smallT.J s.built.Ninput = .ok 0
    rw [h5, h2]
    refine (C07_log2_stride_ok _ _ _ _ _).2 (Or.inl ⟨rfl, ?_⟩)
    unfold log2T
    rw [hT]
    show Except.ok (floorLog2 1) = _
    have := floorLog2_twoPow 0
    rw [pow_zero] at this
    rw [this]
    rfl
  obtain ⟨-, hlev⟩ := (C15_meta_ok_iff (smallT.obj s) 0 hls (by norm_num [Args1D.obj, smallT])).1
    ⟨keys, hk⟩
  obtain ⟨p, hp, q, hq, hj1, hj2⟩ := smallT_pair
  obtain ⟨f, hf, hpf⟩ := forall₂_mem_left g1 hp
  obtain ⟨g, hg, hqg⟩ := forall₂_mem_left g2 hq
  obtain ⟨-, -, e5, -⟩ := makePsi_fields hpf
  obtain ⟨-, -, e6, e7⟩ := makePsi_fields hqg
  have := hlev (by norm_num [Args1D.obj, smallT]) f.toFilt (List.mem_map.2 ⟨f, hf, rfl⟩) g.toFilt
    (List.mem_map.2 ⟨g, hg, rfl⟩) (by
      show f.j.toNat < g.j.toNat
      rw [e5, e6]
      omega)
  change f.j.toNat < g.levels.length at this
  rw [makeLevels_length e7, e5] at this
  omega

/-! ## The columns -/

/-- **C15, the columns.**  Row `i` of `xi`, `sigma` and `j` holds, at position `k`, the attribute of the filter of order
`k + 1` on the path of the `i`-th coefficient, and NaN (`none`) beyond its order; the column `j` repeats the scales of the
path. -/
theorem C15_columns (a : Args1D) (s : Sc1D) (hmake : a.make = .ok s) (hmo : 1 ≤ a.maxOrder) (keys : List (List Nat))
    (hk : metaKey (a.obj s) = .ok keys) (x : List ℝ) (l : List (Path (List ℝ))) (hl : a.run x = .ok (.list l)) :
    (∀ {V : Type} (att : FiltX → V), metaColumn keys (([s.psi1, s.psi2].take a.maxOrder.toNat).map (List.map att)) =
      l.map fun p => (List.range (min 2 a.maxOrder.toNat)).map fun k => (p.n[k]?).bind fun n =>
        ((if k = 0 then s.psi1 else s.psi2)[n]?).map att) ∧
    metaColumn keys (([s.psi1, s.psi2].take a.maxOrder.toNat).map (List.map fun f => f.j.toNat)) =
      l.map fun p => (List.range (min 2 a.maxOrder.toNat)).map fun k => p.j[k]? := by
  have hrun : scattering npBackend npFront (a.obj s) x = .ok (.list l) := by
    unfold Args1D.run at hl
    rw [hmake] at hl
    exact hl
  have hout : (a.obj s).outType = .list := by
    obtain ⟨-, m, -, ha⟩ := scattering_eq_ok.1 hrun
    unfold assemble at ha
    cases h : (a.obj s).outType <;> rw [h] at ha
    case dict =>
      have := Except.ok.inj ha
      cases this
    all_goals
      obtain ⟨rows, -, ha⟩ := bind_eq_ok.1 ha
      have := Except.ok.inj ha
      cases this
  have ho : ({ a.obj s with outType := .list } : Obj1D (List ℝ)) = a.obj s := by rw [← hout]
  obtain ⟨hkeys, -⟩ := C15_meta_rows npBackend npFront (a.obj s) x keys hk l (by rw [ho]; exact hrun)
  have hcol : ∀ {V : Type} (att : FiltX → V),
      metaColumn keys (([s.psi1, s.psi2].take a.maxOrder.toNat).map (List.map att)) =
      l.map fun p => (List.range (min 2 a.maxOrder.toNat)).map fun k => (p.n[k]?).bind fun n =>
        ((if k = 0 then s.psi1 else s.psi2)[n]?).map att := by
    intro V att
    unfold metaColumn
    rw [hkeys, List.map_map]
    refine List.map_congr_left fun p _ => ?_
    have hm : ∀ n : ℕ, 1 ≤ n → (([s.psi1, s.psi2].take n).map (List.map att)).zipIdx 0 =
        (List.range (min 2 n)).map fun k => ((if k = 0 then s.psi1 else s.psi2).map att, k) := by
      intro n hn
      rcases n with _ | _ | n
      · omega
      · rfl
      · have : min 2 (n + 1 + 1) = 2 := by omega
        rw [this, List.take_of_length_le (by simp)]
        rfl
    show List.map _ _ = _
    rw [hm _ (by omega), List.map_map]
    refine List.map_congr_left fun k _ => ?_
    show metaEntry p.n k _ = _
    rw [C15_meta_column]
    congr 1
    funext n
    rw [List.getElem?_map]
  refine ⟨hcol, ?_⟩
  rw [hcol]
  refine List.map_congr_left fun p hp => List.map_congr_left fun k hk => ?_
  obtain ⟨-, m, hm, ha⟩ := scattering_eq_ok.1 hrun
  have hpm : p ∈ m := by
    unfold assemble at ha
    rw [hout] at ha
    injection ha with ha
    injection ha with ha
    rw [← ha] at hp
    exact (List.mergeSort_perm _ _).mem_iff.1 hp
  have hlab : (p.j, p.n) ∈ Core1D.labels npBackend (psis (a.obj s)) := by
    rw [← paths_labels hm]
    exact List.mem_map.2 ⟨p, hpm, rfl⟩
  have h0 : (psis (a.obj s))[0]?.getD [] = s.psi1.map FiltX.toFilt := by
    have hmo' : 1 ≤ (a.obj s).maxOrder := hmo
    rw [psis_eq, nBanks_of_nonneg (by omega), List.getElem?_take, if_pos (by omega)]
    rfl
  have h1 : ∀ {n : ℕ} {g : Filt (List ℝ)}, ((psis (a.obj s))[1]?.getD [])[n]? = some g → (s.psi2.map FiltX.toFilt)[n]? = some g := by
    intro n g h
    rw [psis_eq, List.getElem?_take] at h
    split at h
    · exact h
    · cases h
  have hj : ∀ {L : List FiltX} {n : ℕ} {f : Filt (List ℝ)}, (L.map FiltX.toFilt)[n]? = some f →
      (L[n]?).map (fun f => f.j.toNat) = some f.j := by
    intro L n f h
    rw [List.getElem?_map] at h
    cases hL : L[n]? with
    | none => rw [hL] at h; cases h
    | some g =>
      rw [hL] at h
      injection h with h
      rw [← h]
      rfl
  unfold Core1D.labels at hlab
  rcases List.mem_cons.1 hlab with h | h
  · obtain ⟨e1, e2⟩ := Prod.mk.inj h
    rw [e1, e2]
    rfl
  · obtain ⟨q, hq, hpq⟩ := List.mem_flatMap.1 h
    have hq := List.mem_zipIdx_iff_getElem?.1 hq
    rw [h0] at hq
    rcases List.mem_cons.1 hpq with h | h
    · obtain ⟨e1, e2⟩ := Prod.mk.inj h
      rw [e1, e2]
      rcases k with _ | k
      · exact hj hq
      · rfl
    · obtain ⟨n2, g, hg, -, e⟩ := labels2_n npBackend h
      obtain ⟨e1, e2⟩ := Prod.mk.inj e
      rw [e1, e2]
      rcases k with _ | _ | k
      · exact hj hq
      · exact hj (h1 hg)
      · rfl

/-- The hypotheses are met by `Scattering1D(J=3, shape=1000, Q=(8, 1), out_type='list')` and every signal. -/
example (x : List ℝ) (hx : x.length = 1000) : ∃ s keys l, (exArgs .none .list).make = .ok s ∧
    metaKey ((exArgs .none .list).obj s) = .ok keys ∧ (exArgs .none .list).run x = .ok (.list l) ∧
    metaColumn keys ([s.psi1, s.psi2].map (List.map FiltX.xi)) = l.map fun p => (List.range 2).map fun k =>
      (p.n[k]?).bind fun n => ((if k = 0 then s.psi1 else s.psi2)[n]?).map FiltX.xi := by
  obtain ⟨s, l, hs, hN, -, hl⟩ := exArgs_list (T := .none) (av := .loc) (.inl ⟨rfl, rfl⟩) x hx
  obtain ⟨s', h1, h2, h3, h5⟩ := C17_construction (exArgs .none .list) 1000 rfl (by norm_num) (2 ^ 3)
    .loc rfl 8 1 rfl (by norm_num) (le_jPad_of_pow (by norm_num) (by norm_num [exArgs])) (Or.inr rfl)
  obtain rfl := Except.ok.inj (hs.symm.trans h1)
  obtain ⟨keys, hk⟩ := C15_meta_object_partial _ s h1 8 1 rfl (by norm_num) (by norm_num [exArgs]) 3 (by
    rw [h5]
    refine (C07_log2_stride_ok _ _ _ _ _).2 (Or.inl ⟨rfl, ?_⟩)
    show Except.ok (floorLog2 (2 ^ 3)) = _
    rw [floorLog2_twoPow]
    rfl) (2 ^ 3) .loc rfl (by norm_num [exArgs])
  exact ⟨s, keys, l, hs, hk, hl, (C15_columns _ s hs (by norm_num [exArgs]) keys hk x l hl).1 FiltX.xi⟩

end Verif
