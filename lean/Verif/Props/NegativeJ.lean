import Verif.Model.NegativeJ
import Verif.Lemmas.BankBound
import Verif.Props.NoError1D
import Verif.Props.Params

/-!
# C127: negative `J`
-/

namespace Verif

open Core1D Front1D

/-! ## Natural numbers -/

/-- The same arguments, `J` read as an integer. -/
def Args1D.toZ (a : Args1D) : ArgsZ1D :=
  ⟨a.J, a.shape, a.Q, a.T, a.stride, a.maxOrder, a.oversampling, a.outType⟩

theorem parseTZ_nat (T : PyT) (J N : Nat) : parseTZ T J N = parseT T J N := by
  unfold parseTZ parseT
  simp only [zpow_natCast]
  cases T <;> rfl

theorem log2TZ_nat (T : PyT) (J N : Nat) : log2TZ T J N = log2T T J N := by
  unfold log2TZ log2T
  rw [parseTZ_nat]

theorem log2StrideZ_nat (st : Option PyNum) (T : PyT) (J N : Nat) : log2StrideZ st T J N = log2Stride st T J N := by
  unfold log2StrideZ log2Stride
  rw [log2TZ_nat, parseTZ_nat]
  rcases st with _ | _ | _ <;> rfl

theorem applyOversamplingZ_nat (o st : Option PyNum) (T : PyT) (J N : Nat) :
    applyOversamplingZ o st T J N = applyOversampling o st T J N := by
  unfold applyOversamplingZ applyOversampling
  rw [log2TZ_nat]
  rcases o with _ | _ | _ <;> rcases st with _ | _ <;> rfl

theorem andenZ_nat (J Q : Nat) : andenZ J Q = anden J Q := by
  unfold andenZ anden andenGeneratorZ andenGenerator
  simp only [zpow_natCast]

theorem createFiltersZ_nat (N J Q1 Q2 : Nat) (T : Rat) :
    createFiltersZ N J Q1 Q2 T = createFilters N J Q1 Q2 T := by
  have e : filterFactory false N 0 [Q1, Q2] T (fun _ Q => andenZ J Q) 5 0.1 =
      filterFactory false N J [Q1, Q2] T anden 5 0.1 := by
    unfold filterFactory
    simp only [andenZ_nat, List.map_cons, List.map_nil]
  unfold createFiltersZ createFilters
  rw [e]
  cases filterFactory false N J [Q1, Q2] T anden 5 0.1 with
  | error e => rfl
  | ok r =>
    obtain ⟨phi, l⟩ := r
    rcases l with _ | ⟨a, _ | ⟨b, _ | _⟩⟩ <;> rfl

theorem build1DZ_nat (sh : PyShape) (J : Nat) (T : PyT) (st o : Option PyNum) (m : Nat) :
    build1DZ sh J T st o m = build1D sh J T st o m := by
  unfold build1DZ build1D
  cases hN : parseShape sh with
  | error e => rfl
  | ok N =>
    show (applyOversamplingZ o st T J N >>= _) = (applyOversampling o st T J N >>= _)
    rw [applyOversamplingZ_nat]
    cases applyOversampling o st T J N with
    | error e => rfl
    | ok s' =>
      show (log2TZ T J N >>= _) = (log2T T J N >>= _)
      rw [log2TZ_nat]
      cases log2T T J N with
      | error e => rfl
      | ok lT =>
        show (computePadding _ N >>= _) = (computePadding _ N >>= _)
        cases computePadding (2 ^ jPad N m) N with
        | error e => rfl
        | ok p =>
          have h : (max lT (J : ℤ)).toNat = max lT.toNat J := by omega
          simp only [computeBorderIndicesZ, computeBorderIndices, h]

theorem makeZ_nat (a : Args1D) : a.toZ.make = a.make := by
  unfold ArgsZ1D.make Args1D.make
  show (parseShape a.shape >>= _) = (parseShape a.shape >>= _)
  cases parseShape a.shape with
  | error e => rfl
  | ok N =>
    show (parseTZ a.T a.J N >>= _) = (parseT a.T a.J N >>= _)
    rw [parseTZ_nat]
    cases parseT a.T a.J N with
    | error e => rfl
    | ok T =>
      show (build1DZ a.shape a.J a.T a.stride a.oversampling (minToPad N T.1) >>= _) =
        (build1D a.shape a.J a.T a.stride a.oversampling (minToPad N T.1) >>= _)
      rw [build1DZ_nat]
      cases build1D a.shape a.J a.T a.stride a.oversampling (minToPad N T.1) with
      | error e => rfl
      | ok b =>
        show (parseQ a.Q >>= _) = (parseQ a.Q >>= _)
        cases parseQ a.Q with
        | error e => rfl
        | ok Q =>
          show (createFiltersZ b.Npadded a.J Q.1.toNat Q.2.toNat T.1 >>= _) =
            (createFilters b.Npadded a.J Q.1.toNat Q.2.toNat T.1 >>= _)
          rw [createFiltersZ_nat]

/-- A nonnegative `log2_stride` goes to the core unchanged. -/
theorem scatteringZ_eq (o : Obj1D (List ℝ)) (x : List ℝ)
    (h : ∀ ls, o.log2Stride = .ok ls → 0 ≤ ls ∨ o.average ≠ .loc) :
    scatteringZ o x = scattering npBackend npFront o x := by
  unfold scatteringZ scattering
  cases checkRuntimeArgs o with
  | error e => rfl
  | ok u =>
    show (npPad x o.padLeft o.padRight >>= _) = (npPad x o.padLeft o.padRight >>= _)
    cases npPad x o.padLeft o.padRight with
    | error e => rfl
    | ok U =>
      show (o.log2Stride >>= _) = (o.log2Stride >>= _)
      cases hl : o.log2Stride with
      | error e => rfl
      | ok ls =>
        have := h ls hl
        show (if ls < 0 ∧ o.average = .loc then _ else _) = _
        rw [if_neg (by rintro ⟨h1, h2⟩; rcases this with h | h; omega; exact h h2)]
        rfl

/-- C127: for a natural number `J` the model is that of `Model/Object1D`: every result, every exception. -/
theorem C127_natural (a : Args1D) (x : List ℝ) : a.toZ.make = a.make ∧ a.toZ.run x = a.run x := by
  refine ⟨makeZ_nat a, ?_⟩
  unfold ArgsZ1D.run Args1D.run
  rw [makeZ_nat]
  cases h : a.make with
  | error e => rfl
  | ok s =>
    show scatteringZ (a.toZ.obj s) x = scattering npBackend npFront (a.obj s) x
    have ho : a.toZ.obj s = a.obj s := by
      unfold ArgsZ1D.obj Args1D.obj
      show Obj1D.mk _ _ _ _ _ _ _ _ (log2StrideZ s.built.stride a.T a.J s.built.Ninput) _ _ _ = _
      rw [log2StrideZ_nat]
      rfl
    rw [ho]
    refine scatteringZ_eq _ x fun ls hls => Or.inl ?_
    obtain ⟨t, -, -, lT, -, -, -, -, ht, hT, -⟩ := make_filters h
    rcases (C07_log2_stride_ok _ _ _ _ _).1 hls with ⟨-, h⟩ | ⟨m, hm, h⟩
    · unfold log2T at h
      rw [hT] at h
      have h : Except.ok (floorLog2 t) = (Except.ok ls : Py Int) := h
      rw [← Except.ok.inj h]
      exact floorLog2_nonneg ht
    · have := h
      omega

/-! ## The filters -/

/-- The bank for negative `J`: the smallest bandwidth exceeds the largest one a constant-`Q` wavelet may have, so only the
`Q - 1` equally spaced wavelets are left.  Their bandwidth is above one fifth. -/
theorem andenZ_neg {J : ℤ} (hJ : J < 0) {Q : Nat} (hQ : 1 ≤ Q) :
    andenZ J Q = (List.range (Q - 1)).map fun q : ℕ =>
      (computeSigmaPsi (computeXiMax Q) Q (Real.sqrt 0.5) * (1 - ((q : ℝ) + 1) / Q), 0.1 / (2 : ℝ) ^ J) := by
  have h2 : (2 : ℝ) ^ J ≤ 1 / 2 := by
    calc (2 : ℝ) ^ J ≤ (2 : ℝ) ^ (-1 : ℤ) := zpow_le_zpow_right₀ (by norm_num) (by omega)
      _ = _ := by norm_num
  have h0 : (0 : ℝ) < (2 : ℝ) ^ J := by positivity
  have hs : computeSigmaPsi (computeXiMax Q) Q (Real.sqrt 0.5) ≤ 0.1 / (2 : ℝ) ^ J := by
    rw [computeSigmaPsi_eq, sigmaRatio_lib, le_div_iff₀ h0]
    have := rho_xi_le hQ
    have hp := rho_pos hQ
    have := computeXiMax_ge Q
    have h3 : 0 ≤ rho Q * computeXiMax Q := by
      apply mul_nonneg hp.le; norm_num at this; linarith
    nlinarith
  unfold andenZ andenGeneratorZ
  simp only [if_pos hs, Option.getD_some, arithPart_eq]
  apply List.map_congr_left
  intro q _
  simp only [Prod.mk.injEq, and_true]
  ring

theorem andenZ_scale {J : ℤ} (hJ : J < 0) {Q : Nat} (hQ : 1 ≤ Q) {p : ℝ × ℝ} (hp : p ∈ andenZ J Q) :
    0 < p.2 ∧ 0 < p.1 ∧ p.1 < 1 / 2 ∧ getMaxDyadicSubsampling p.1 p.2 5 = 0 := by
  rw [andenZ_neg hJ hQ] at hp
  obtain ⟨q, hq, rfl⟩ := List.mem_map.1 hp
  have hq := List.mem_range.1 hq
  have h2 : (2 : ℝ) ^ J ≤ 1 / 2 := by
    calc (2 : ℝ) ^ J ≤ (2 : ℝ) ^ (-1 : ℤ) := zpow_le_zpow_right₀ (by norm_num) (by omega)
      _ = _ := by norm_num
  have h0 : (0 : ℝ) < (2 : ℝ) ^ J := by positivity
  have h5 : (0.2 : ℝ) ≤ 0.1 / (2 : ℝ) ^ J := by
    rw [le_div_iff₀ h0]; nlinarith
  have hQ0 : (0 : ℝ) < Q := by positivity
  have hf : ((q : ℝ) + 1) / Q < 1 := by
    rw [div_lt_one hQ0]; exact_mod_cast (by omega : q + 1 < Q)
  have hf0 : (0 : ℝ) < ((q : ℝ) + 1) / Q := by positivity
  have hx := computeXiMax_ge Q
  have hr := rho_xi_le hQ
  have hp := rho_pos hQ
  have hpos : 0 < rho Q * computeXiMax Q := mul_pos hp (by norm_num at hx; linarith)
  have hxi : 0 < computeSigmaPsi (computeXiMax Q) Q (Real.sqrt 0.5) * (1 - ((q : ℝ) + 1) / Q) := by
    rw [computeSigmaPsi_eq, sigmaRatio_lib]
    exact mul_pos hpos (by linarith)
  refine ⟨by linarith, hxi, ?_, ?_⟩
  · show computeSigmaPsi (computeXiMax Q) Q (Real.sqrt 0.5) * (1 - ((q : ℝ) + 1) / Q) < 1 / 2
    rw [computeSigmaPsi_eq, sigmaRatio_lib]
    nlinarith
  · exact (C26_max_dyadic_subsampling _ _ _ (by rw [abs_of_pos hxi]; linarith)).2.2.2
      (by rw [abs_of_pos hxi]; linarith)

/-- The bank with its scales. -/
theorem C127_bank {J : ℤ} (hJ : J < 0) {Q : Nat} (hQ : 1 ≤ Q) :
    (andenZ J Q).length = Q - 1 ∧
      ∀ p ∈ andenZ J Q, p.2 = 0.1 / (2 : ℝ) ^ J ∧ 1 / 5 ≤ p.2 ∧ 0 < p.1 ∧ 7 * p.1 < 1 ∧
        getMaxDyadicSubsampling p.1 p.2 5 = 0 := by
  refine ⟨by rw [andenZ_neg hJ hQ]; simp, fun p hp => ?_⟩
  obtain ⟨-, h1, -, h3⟩ := andenZ_scale hJ hQ hp
  rw [andenZ_neg hJ hQ] at hp
  obtain ⟨q, hq, rfl⟩ := List.mem_map.1 hp
  have h2 : (2 : ℝ) ^ J ≤ 1 / 2 := by
    calc (2 : ℝ) ^ J ≤ (2 : ℝ) ^ (-1 : ℤ) := zpow_le_zpow_right₀ (by norm_num) (by omega)
      _ = _ := by norm_num
  have h0 : (0 : ℝ) < (2 : ℝ) ^ J := by positivity
  have hQ0 : (0 : ℝ) < Q := by positivity
  refine ⟨rfl, ?_, h1, ?_, h3⟩
  · show (1 / 5 : ℝ) ≤ 0.1 / (2 : ℝ) ^ J
    rw [le_div_iff₀ h0]; nlinarith
  · show 7 * (computeSigmaPsi (computeXiMax Q) Q (Real.sqrt 0.5) * (1 - ((q : ℝ) + 1) / Q)) < 1
    rw [computeSigmaPsi_eq, sigmaRatio_lib]
    have hr := rho_xi_le hQ
    have hx := computeXiMax_ge Q
    have hpos : 0 < rho Q * computeXiMax Q := mul_pos (rho_pos hQ) (by norm_num at hx; linarith)
    have hf0 : (0 : ℝ) < ((q : ℝ) + 1) / Q := by positivity
    nlinarith

theorem createFiltersZ_eq_ok {N Q1 Q2 : Nat} {J : ℤ} {T : Rat} {psi1 psi2 : List FiltX} {M1 M2 : ℤ}
    (h1 : List.Forall₂ (fun p f => makePsi false N 5 0 (floorLog2 T) p = .ok f) (andenZ J Q1) psi1)
    (h2 : List.Forall₂ (fun p f => makePsi false N 5 M1 (floorLog2 T) p = .ok f) (andenZ J Q2) psi2)
    (hM1 : M1 = psi1.foldl (fun m f => max f.j m) 0) (hM2 : M2 = psi2.foldl (fun m f => max f.j m) M1)
    {lv : List (List ℝ)} (hlv : makeLevels false (gauss1d N (0.1 / T)) (max M2 (1 + floorLog2 T)) = .ok lv)
    (hc : checkFilterbanks psi1 psi2 = .ok ()) :
    createFiltersZ N J Q1 Q2 T = .ok (⟨lv, 0, 0.1 / T, floorLog2 T⟩, psi1, psi2) := by
  unfold createFiltersZ filterFactory
  refine bind_eq_ok.2 ⟨(⟨lv, 0, 0.1 / T, floorLog2 T⟩, [psi1, psi2]), ?_, ?_⟩
  · refine bind_eq_ok.2 ⟨([psi1, psi2], M2), ?_, bind_eq_ok.2 ⟨lv, hlv, rfl⟩⟩
    simp only [List.map_cons, List.map_nil, makeLayers]
    refine bind_eq_ok.2 ⟨psi1, mapM_eq_ok.2 h1, bind_eq_ok.2 ⟨([psi2], M2), ?_, rfl⟩⟩
    rw [← hM1]
    refine bind_eq_ok.2 ⟨psi2, mapM_eq_ok.2 h2, bind_eq_ok.2 ⟨([], M2), ?_, rfl⟩⟩
    rw [← hM2]
  · exact bind_eq_ok.2 ⟨(), hc, rfl⟩

theorem foldl_max_zero {l : List FiltX} (h : ∀ f ∈ l, f.j = 0) : l.foldl (fun m f => max f.j m) 0 = 0 := by
  obtain ⟨h1, -, h3⟩ := foldl_max_ge l 0
  exact le_antisymm (h3 0 le_rfl fun f hf => (h f hf).le) h1

/-- One wavelet of scale 0: a single level. -/
theorem makePsi_neg {N : Nat} {p : ℝ × ℝ} (hj : getMaxDyadicSubsampling p.1 p.2 5 = 0) (lT : ℤ) :
    makePsi false N 5 0 lT p = .ok ⟨[morlet1d N (some p.1) p.2], p.1, p.2, 0⟩ := by
  have e : (min (min (0 : ℤ) 0) (1 + lT) - 1).toNat = 0 := by omega
  unfold makePsi makeLevels
  simp only [hj, e, List.range'_zero, List.mapM_nil]
  rfl

theorem bank_neg {J : ℤ} (hJ : J < 0) {Q : Nat} (hQ : 1 ≤ Q) (N : Nat) (lT : ℤ) :
    List.Forall₂ (fun p f => makePsi false N 5 0 lT p = .ok f) (andenZ J Q)
      ((andenZ J Q).map fun p => ⟨[morlet1d N (some p.1) p.2], p.1, p.2, 0⟩) := by
  rw [List.forall₂_map_right_iff, List.forall₂_same]
  intro p hp
  obtain ⟨-, -, -, h4⟩ := andenZ_scale hJ hQ hp
  exact makePsi_neg h4 lT

/-- `create_filters` for negative `J`. -/
theorem createFiltersZ_neg {N K Q1 Q2 : Nat} {J : ℤ} (hJ : J < 0) {T : Rat} (hN : N = 2 ^ K) (hQ1 : 1 ≤ Q1)
    (hQ2 : 1 ≤ Q2) (hT : 0 < T) (hlT : floorLog2 T ≤ K) :
    ∃ lv, makeLevels false (gauss1d N (0.1 / T)) (max 0 (1 + floorLog2 T)) = .ok lv ∧
      createFiltersZ N J Q1 Q2 T = .ok (⟨lv, 0, 0.1 / T, floorLog2 T⟩,
        (andenZ J Q1).map (fun p => ⟨[morlet1d N (some p.1) p.2], p.1, p.2, 0⟩),
        (andenZ J Q2).map (fun p => ⟨[morlet1d N (some p.1) p.2], p.1, p.2, 0⟩)) := by
  have hs : (0 : ℝ) < 0.1 / T := by
    have : (0 : ℝ) < T := by exact_mod_cast hT
    positivity
  have hl : (gauss1d N (0.1 / T)).length = N := length_morlet1d hs
  obtain ⟨lv, hlv⟩ := makeLevels_ok (mean := false) (h := gauss1d N (0.1 / T))
    (b := max 0 (1 + floorLog2 T)) (d := K) (by rw [hl, hN]) (by omega)
  have z : ∀ Q : Nat, ∀ f ∈ (andenZ J Q).map (fun p : ℝ × ℝ =>
      (⟨[morlet1d N (some p.1) p.2], p.1, p.2, 0⟩ : FiltX)), f.j = 0 := by
    intro Q f hf
    obtain ⟨p, -, rfl⟩ := List.mem_map.1 hf
    rfl
  refine ⟨lv, hlv, createFiltersZ_eq_ok (M1 := 0) (M2 := 0) (bank_neg hJ hQ1 N _) (bank_neg hJ hQ2 N _)
    (foldl_max_zero (z Q1)).symm (foldl_max_zero (z Q2)).symm hlv ?_⟩
  unfold checkFilterbanks
  rw [if_neg, if_neg]
  · rw [not_not]
    intro f hf g hg h
    rw [z Q1 f hf, z Q2 g hg] at h
    omega
  · rw [not_not]
    intro f hf
    rw [z Q1 f hf]
    obtain ⟨p, hp, rfl⟩ := List.mem_map.1 hf
    have := (andenZ_scale hJ hQ1 hp).2.2.1
    norm_num
    linarith

/-! ## Construction -/

theorem parseTZ_cases {T : PyT} {J : ℤ} {N : Nat} {t : Rat} {av : Average} (h : parseTZ T J N = .ok (t, av)) :
    (t = (2 : Rat) ^ J ∧ (T = .none ∧ av = .loc ∨ T = .global ∧ av = .glob ∨ T = .num 0 ∧ av = .no)) ∨
      (T = .num t ∧ av = .loc ∧ 1 ≤ t ∧ t ≤ N) := by
  cases T with
  | none =>
    simp only [parseTZ, Except.ok.injEq, Prod.mk.injEq] at h
    exact Or.inl ⟨h.1.symm, Or.inl ⟨rfl, h.2.symm⟩⟩
  | global =>
    simp only [parseTZ, Except.ok.injEq, Prod.mk.injEq] at h
    exact Or.inl ⟨h.1.symm, Or.inr (Or.inl ⟨rfl, h.2.symm⟩)⟩
  | num q =>
    simp only [parseTZ] at h
    split at h
    · cases h
    · rename_i hle
      split at h
      · rename_i h0
        simp only [Except.ok.injEq, Prod.mk.injEq] at h
        exact Or.inl ⟨h.1.symm, Or.inr (Or.inr ⟨by rw [h0], h.2.symm⟩)⟩
      · split at h
        · cases h
        · rename_i h1
          simp only [Except.ok.injEq, Prod.mk.injEq] at h
          obtain ⟨rfl, rfl⟩ := h
          exact Or.inr ⟨rfl, rfl, not_lt.1 h1, not_lt.1 hle⟩

theorem floorLog2_zpow (J : ℤ) : floorLog2 ((2 : Rat) ^ J) = J := by
  unfold floorLog2
  have := Int.log_zpow (R := Rat) (b := 2) (by norm_num) J
  simpa using this

/-- What a constructor with negative `J` stores. -/
structure BuiltNeg (a : ArgsZ1D) (N : Nat) (t : Rat) (Q1 Q2 : ℤ) (s : Sc1D) : Prop where
  input : s.built.Ninput = N
  sum : s.built.padLeft + N + s.built.padRight = s.built.Npadded
  left : s.built.padLeft < N
  right : s.built.padRight < N
  pow : ∃ K : ℕ, s.built.Npadded = 2 ^ K ∧ floorLog2 t ≤ K
  start : s.built.indStart = borderDict (max (floorLog2 t) a.J).toNat s.built.padLeft
  stop : s.built.indEnd = borderDict (max (floorLog2 t) a.J).toNat (s.built.padLeft + N)
  phi : makeLevels false (gauss1d s.built.Npadded (0.1 / t)) (max 0 (1 + floorLog2 t)) = .ok s.phi.levels
  psi1 : s.psi1 = (andenZ a.J Q1.toNat).map fun p => ⟨[morlet1d s.built.Npadded (some p.1) p.2], p.1, p.2, 0⟩
  psi2 : s.psi2 = (andenZ a.J Q2.toNat).map fun p => ⟨[morlet1d s.built.Npadded (some p.1) p.2], p.1, p.2, 0⟩
  stride : s.built.stride = a.stride

theorem makeZ_neg (a : ArgsZ1D) (hJ : a.J < 0) (N : Nat) (hshape : parseShape a.shape = .ok N) (hN : 1 ≤ N)
    (t : Rat) (av : Average) (hT : parseTZ a.T a.J N = .ok (t, av)) (Q1 Q2 : Int)
    (hQ : parseQ a.Q = .ok (Q1, Q2)) (hov : a.oversampling = none ∨ a.oversampling = some (.int 0)) :
    ∃ s, a.make = .ok s ∧ s.average = av ∧ BuiltNeg a N t Q1 Q2 s := by
  obtain ⟨hq1, hq2⟩ := C09_Q_positive a.Q Q1 Q2 hQ
  obtain ⟨K, l, r, hK, hc, hsum, hl, hr, -⟩ := C01_padding_fits N (minToPad N t) hN
  have ht0 : 0 < t := by
    rcases parseTZ_cases hT with ⟨h, -⟩ | ⟨-, -, h, -⟩
    · rw [h]; positivity
    · linarith
  have hlT : floorLog2 t ≤ K := by
    rcases parseTZ_cases hT with ⟨h, -⟩ | ⟨-, -, h, h'⟩
    · rw [h, floorLog2_zpow]; omega
    · unfold floorLog2
      have h2 : t ≤ ((2 : ℕ) : Rat) ^ (K : ℤ) := by
        rw [zpow_natCast]
        exact h'.trans (by exact_mod_cast (by omega : N ≤ 2 ^ K))
      have h3 := Int.zpow_log_le_self (b := 2) (by norm_num) ht0
      exact (zpow_le_zpow_iff_right₀ (by norm_num : (1 : Rat) < ((2 : ℕ) : Rat))).1 (h3.trans h2)
  have hap : applyOversamplingZ a.oversampling a.stride a.T a.J N = .ok a.stride := by
    rcases hov with h | h
    · rw [h]; rfl
    · rw [h]
      unfold applyOversamplingZ
      simp [PyNum.val]
  obtain ⟨lv, hlv, hf⟩ := createFiltersZ_neg (N := 2 ^ K) (K := K) hJ rfl (Q1 := Q1.toNat) (Q2 := Q2.toNat)
    (by omega) (by omega) ht0 hlT
  have hlogT : log2TZ a.T a.J N = .ok (floorLog2 t) := by
    unfold log2TZ
    rw [hT]
    rfl
  have hb : build1DZ a.shape a.J a.T a.stride a.oversampling (minToPad N t) = .ok
      { Ninput := N, Npadded := 2 ^ K, padLeft := l, padRight := r,
        indStart := borderDict (max (floorLog2 t) a.J).toNat l,
        indEnd := borderDict (max (floorLog2 t) a.J).toNat (l + N), stride := a.stride } := by
    refine bind_eq_ok.2 ⟨N, hshape, bind_eq_ok.2 ⟨_, hap, bind_eq_ok.2 ⟨_, hlogT,
      bind_eq_ok.2 ⟨(l, r), ?_, ?_⟩⟩⟩⟩
    · rw [hK]; exact hc
    · rw [hK]; rfl
  refine ⟨_, bind_eq_ok.2 ⟨N, hshape, bind_eq_ok.2 ⟨_, hT,
    bind_eq_ok.2 ⟨_, hb, bind_eq_ok.2 ⟨_, hQ, bind_eq_ok.2 ⟨_, hf, rfl⟩⟩⟩⟩⟩, rfl, ?_⟩
  exact ⟨rfl, hsum, hl, hr, ⟨K, rfl, hlT⟩, rfl, rfl, hlv, rfl, rfl, rfl⟩

/-! ## Calls -/

/-- The paths `(j, n)` of the first order below scale 0. -/
theorem labels_neg {psi1 psi2 : List (Filt (List ℝ))} (h1 : ∀ f ∈ psi1, f.j = 0) (h2 : ∀ f ∈ psi2, f.j = 0)
    {k : Nat} (hk : 1 ≤ k) :
    labels npBackend ([psi1, psi2].take k) = ([], []) :: (List.range psi1.length).map fun n => ([0], [n]) := by
  have hl2 : ∀ (q : List (Filt (List ℝ))) (n1 : Nat), (∀ f ∈ q, f.j = 0) → labels2 npBackend 0 n1 q = [] := by
    intro q n1 hq
    unfold labels2
    rw [List.flatMap_eq_nil_iff]
    intro p hp
    rw [if_neg]
    rw [hq p.1 (List.fst_mem_of_mem_zipIdx hp)]
    omega
  have hp0 : ([psi1, psi2].take k)[0]?.getD [] = psi1 := by
    rw [List.getElem?_take_of_lt (by omega)]; rfl
  have hp1 : ∀ f ∈ ([psi1, psi2].take k)[1]?.getD [], f.j = 0 := by
    intro f hf
    rw [List.getElem?_take] at hf
    split at hf
    · exact h2 f (by simpa using hf)
    · simp at hf
  unfold labels
  rw [hp0]
  congr 1
  have : ∀ (l : List (Filt (List ℝ))) (n : Nat), (∀ f ∈ l, f.j = 0) →
      ((l.zipIdx n).flatMap fun p => (([p.1.j], [p.2]) : List Nat × List Nat) ::
        labels2 npBackend p.1.j p.2 (([psi1, psi2].take k)[1]?.getD [])) =
      (List.range' n l.length).map fun n => ([0], [n]) := by
    intro l
    induction l with
    | nil => intro n _; rfl
    | cons f l ih =>
      intro n h
      rw [List.zipIdx_cons, List.flatMap_cons, ih (n + 1) fun g hg => h g (by simp [hg]),
        show f.j = 0 from h f (by simp), hl2 _ _ hp1, List.length_cons, List.range'_succ]
      rfl
  rw [this psi1 0 h1, List.range_eq_range']

/-- The last step on one coefficient. -/
noncomputable def finalCoef (av : Average) (i0 i1 : Nat) (c : List ℝ) : List ℝ :=
  if av = .glob then npAverageGlobal c else npUnpad c i0 i1

/-- Every call whose subsampling is that of a nonnegative `log2_stride` at most `log2_T` computes its paths. -/
theorem pathsZ_neg {a : ArgsZ1D} (hJ : a.J < 0) {N : Nat} {t : Rat} (ht : 0 < t) {Q1 Q2 : ℤ} (hq1 : 1 ≤ Q1) (hq2 : 1 ≤ Q2)
    {s : Sc1D} (b : BuiltNeg a N t Q1 Q2 s) (hmo : 1 ≤ nBanks a.maxOrder) {ls : ℤ}
    (hls : log2StrideZ a.stride a.T a.J N = .ok ls)
    (hloc : s.average = .loc → 0 ≤ ls ∧ ls ≤ max 0 (floorLog2 t))
    (hov : s.average = .loc ∨ a.oversampling = some (.int 0)) {x : List ℝ} (hx : x.length = N) :
    ∃ l, paths npBackend npFront (a.obj s) x = .ok l ∧
      l.map (fun p => (p.j, p.n)) = ([], []) :: (List.range (Q1.toNat - 1)).map (fun k => ([0], [k])) ∧
      (s.average ≠ .no → ∀ p ∈ l, ∀ q ∈ l, p.coef.length = q.coef.length) := by
  obtain ⟨K, hK, hlT⟩ := b.pow
  have hs : (0 : ℝ) < 0.1 / t := by
    have : (0 : ℝ) < t := by exact_mod_cast ht
    positivity
  obtain ⟨U, hU⟩ : ∃ U, npPad x s.built.padLeft s.built.padRight = .ok U := by
    unfold npPad
    have := b.left
    have := b.right
    rw [if_neg (by omega)]
    exact ⟨_, rfl⟩
  have hUl : U.length = s.built.Npadded := by rw [length_npPad hU, hx, b.sum]
  have hgl : (gauss1d s.built.Npadded (0.1 / t)).length = s.built.Npadded := length_morlet1d hs
  have hpl := makeLevels_length b.phi
  have hphiS : Sized s.built.Npadded s.phi.toFilt := by
    have := makeLevels_sized (j := s.phi.j.toNat) b.phi
    rw [hgl] at this
    exact this
  have hband : ∀ (Q : ℤ), 1 ≤ Q → ∀ f ∈ (((andenZ a.J Q.toNat).map fun p : ℝ × ℝ =>
      (⟨[morlet1d s.built.Npadded (some p.1) p.2], p.1, p.2, 0⟩ : FiltX)).map FiltX.toFilt),
      Sized s.built.Npadded f ∧ 0 < f.levels.length ∧ f.j = 0 := by
    intro Q hQ f hf
    obtain ⟨g, hg, rfl⟩ := List.mem_map.1 hf
    obtain ⟨p, hp, rfl⟩ := List.mem_map.1 hg
    refine ⟨?_, by simp [FiltX.toFilt], rfl⟩
    intro l y hy
    have hy : [morlet1d s.built.Npadded (some p.1) p.2][l]? = some y := hy
    rcases l with _ | l
    · have : morlet1d s.built.Npadded (some p.1) p.2 = y := by simpa using hy
      rw [← this, length_morlet1d (andenZ_scale hJ (by omega) hp).1]
      simp
    · simp at hy
  have f1 := hband Q1 hq1
  have f2 := hband Q2 hq2
  rw [← b.psi1] at f1
  rw [← b.psi2] at f2
  have hcore : ∃ out, scattering1d npBackend U s.phi.toFilt (psis (a.obj s)) ls.toNat
      (decide (s.average = .loc)) = .ok out := by
    rw [psis_eq]
    apply core_succeeds (mo := nBanks a.maxOrder) hmo
    · rw [hUl]; exact hphiS
    · intro f hf
      rw [hUl]; exact (f1 f hf).1
    · intro f hf
      rw [hUl]; exact (f2 f hf).1
    · intro hav
      obtain ⟨h1, h2⟩ := hloc (by simpa using hav)
      refine ⟨?_, ?_⟩
      · rw [hUl, hK]; exact pow_dvd_pow 2 (by omega)
      · show ls.toNat < s.phi.levels.length
        omega
    · exact fun f hf => (f1 f hf).2.1
    · intro _ f hf
      rw [(f1 f hf).2.2]
      simp
    · intro f hf g hg hj
      rw [(f1 f hf).2.2, (f2 g hg).2.2] at hj
      omega
    · intro _ f hf
      rw [(f2 f hf).2.2]
      simp
  obtain ⟨out, hout⟩ := hcore
  have hlab := labels_eq npBackend hout
  rw [psis_eq, labels_neg (psi1 := (a.obj s).psi1) (psi2 := (a.obj s).psi2) (fun f hf => (f1 f hf).2.2)
    (fun f hf => (f2 f hf).2.2) (k := nBanks (a.obj s).maxOrder) hmo] at hlab
  have hlen : (a.obj s).psi1.length = Q1.toNat - 1 := by
    show (s.psi1.map FiltX.toFilt).length = _
    rw [b.psi1, List.length_map, List.length_map, (C127_bank hJ (by omega)).1]
  rw [hlen] at hlab
  have hmem : ∀ q ∈ out, q.j = [] ∧ q.n = [] ∨ ∃ k, q.j = [0] ∧ q.n = [k] := by
    intro q hq
    have : (q.j, q.n) ∈ out.map fun p => (p.j, p.n) := List.mem_map.2 ⟨q, hq, rfl⟩
    rw [hlab] at this
    rcases List.mem_cons.1 this with h | h
    · simp only [Prod.mk.injEq] at h
      exact Or.inl h
    · obtain ⟨k, -, h⟩ := List.mem_map.1 h
      simp only [Prod.mk.injEq] at h
      exact Or.inr ⟨k, h.1.symm, h.2.symm⟩
  have hget : ∀ (i : Nat) (res : Nat), res ≤ (max (floorLog2 t) a.J).toNat →
      ∃ v, dictGet (borderDict (max (floorLog2 t) a.J).toNat i) res = .ok v := by
    intro i res h
    exact ⟨_, dictGet_eq_ok.2 (by rw [borderDict_get, if_pos h])⟩
  have hres : ∃ res : Nat, res ≤ (max (floorLog2 t) a.J).toNat ∧
      ∀ q ∈ out, resolution (a.obj s) ls.toNat q = .ok res := by
    by_cases hav : s.average = .loc
    · refine ⟨ls.toNat, by have := hloc hav; omega, fun q _ => ?_⟩
      unfold resolution
      rw [if_pos (show (a.obj s).average = .loc from hav)]
    · refine ⟨0, by omega, fun q hq => ?_⟩
      unfold resolution
      have ho : (a.obj s).oversampling = some 0 := by
        show oversamplingInt a.oversampling = _
        rw [hov.resolve_left hav]; rfl
      rw [if_neg (show ¬ (a.obj s).average = .loc from hav), ho]
      rcases hmem q hq with ⟨h1, h2⟩ | ⟨k, h1, h2⟩
      · rw [h2]; rfl
      · rw [h1, h2]; rfl
  obtain ⟨res, hle, hres⟩ := hres
  obtain ⟨v0, hv0⟩ := hget s.built.padLeft res hle
  obtain ⟨v1, hv1⟩ := hget (s.built.padLeft + N) res hle
  rw [← b.start] at hv0
  rw [← b.stop] at hv1
  have hpost : ∀ q ∈ out, post npFront (a.obj s) ls.toNat q = .ok ⟨finalCoef s.average v0 v1 q.coef, q.j, q.n⟩ := by
    intro q hq
    unfold post
    refine bind_eq_ok.2 ⟨res, hres q hq, ?_⟩
    by_cases hg : s.average = .glob
    · rw [if_pos (show (a.obj s).average = .glob from hg), finalCoef, if_pos hg]
      rfl
    · rw [if_neg (show ¬ (a.obj s).average = .glob from hg), finalCoef, if_neg hg]
      exact bind_eq_ok.2 ⟨v0, hv0, bind_eq_ok.2 ⟨v1, hv1, rfl⟩⟩
  refine ⟨out.map fun q => ⟨finalCoef s.average v0 v1 q.coef, q.j, q.n⟩, ?_, ?_, ?_⟩
  · refine paths_eq_ok.2 ⟨U, ls, out, hU, ?_, hout, ?_⟩
    · show log2StrideZ s.built.stride a.T a.J s.built.Ninput = _
      rw [b.stride, b.input]
      exact hls
    · rw [List.forall₂_map_right_iff, List.forall₂_same]
      exact hpost
  · rw [List.map_map]
    exact hlab
  · intro hno p hp q hq
    obtain ⟨p', hp', rfl⟩ := List.mem_map.1 hp
    obtain ⟨q', hq', rfl⟩ := List.mem_map.1 hq
    by_cases hg : s.average = .glob
    · simp only [finalCoef, if_pos hg]
      rfl
    · have hav : s.average = .loc := by
        cases h : s.average with
        | no => exact absurd h hno
        | loc => rfl
        | glob => exact absurd h hg
      have h1 := core_length hout hp'
      have h2 := core_length hout hq'
      simp only [hav, decide_true, if_true] at h1 h2
      have h3 : p'.coef.length = q'.coef.length :=
        Nat.eq_of_mul_eq_mul_right (by positivity : 0 < 2 ^ ls.toNat) (h1.trans h2.symm)
      simp only [finalCoef, if_neg hg]
      simp only [npUnpad, List.length_take, List.length_drop, h3]

theorem lexLe_range (a b : Nat) (h : a ≤ b) : keyLe [a] [b] = true := by
  unfold keyLe
  simp only [List.length_singleton, lt_irrefl, if_false, lexLe]
  rcases Nat.lt_or_eq_of_le h with h | h
  · simp [h]
  · simp [h]

/-- The paths are yielded in the order of the sort. -/
theorem sortPaths_neg {l : List (Path (List ℝ))} {n : Nat}
    (h : l.map (fun p => (p.j, p.n)) = ([], []) :: (List.range n).map (fun k => ([0], [k]))) :
    sortPaths l = l := by
  have hn : l.map (fun p => p.n) = [] :: (List.range n).map (fun k => [k]) := by
    have := congrArg (List.map Prod.snd) h
    simpa [List.map_map, Function.comp_def] using this
  unfold sortPaths
  apply List.mergeSort_of_pairwise
  have : (l.map (fun p => p.n)).Pairwise fun a b => keyLe a b = true := by
    rw [hn, List.pairwise_cons]
    refine ⟨?_, ?_⟩
    · intro b hb
      obtain ⟨k, -, rfl⟩ := List.mem_map.1 hb
      rfl
    · rw [List.pairwise_map]
      exact List.pairwise_lt_range.imp fun h => lexLe_range _ _ h.le
  rwa [List.pairwise_map] at this

/-- C127: which calls return.  `J` negative, `T` a number from 1 to the length of the signal, `'global'` or `0`, or
None with `stride=1`.  The object is built and every signal of the right length has exactly `Q1` coefficients: order 0 and `Q1 - 1` of order 1, none
of order 2. -/
theorem C127_returns (a : ArgsZ1D) (hJ : a.J < 0) (N : Nat) (hshape : parseShape a.shape = .ok N) (hN : 1 ≤ N)
    (Q1 Q2 : Int) (hQ : parseQ a.Q = .ok (Q1, Q2)) (hov : a.oversampling = some (.int 0)) (hmo : 1 ≤ a.maxOrder)
    (hT : (∃ t : Rat, a.T = .num t ∧ 1 ≤ t ∧ t ≤ N ∧
        (a.stride = none ∨ ∃ k : ℕ, a.stride = some (.int (2 ^ k)) ∧ (2 : Rat) ^ k ≤ t)) ∨
      (a.T = .none ∧ a.stride = some (.int 1)) ∨ (a.T = .global ∧ a.stride = none) ∨
      (a.T = .num 0 ∧ a.stride = none ∧ a.outType ≠ .array)) :
    ∃ s, a.make = .ok s ∧ ∀ x : List ℝ, x.length = N →
      (a.outType = .list → ∃ l, a.run x = .ok (.list l) ∧
        l.map (fun p => (p.j, p.n)) = ([], []) :: (List.range (Q1.toNat - 1)).map fun k => ([0], [k])) ∧
      (a.outType = .dict → ∃ d, a.run x = .ok (.dict d) ∧
        d.map Prod.fst = [] :: (List.range (Q1.toNat - 1)).map fun k => [k]) ∧
      (a.outType = .array → ∃ rows, a.run x = .ok (.array rows) ∧ rows.length = Q1.toNat) := by
  obtain ⟨hq1, hq2⟩ := C09_Q_positive a.Q Q1 Q2 hQ
  have hp : ∃ t av ls, parseTZ a.T a.J N = .ok (t, av) ∧ 0 < t ∧ log2StrideZ a.stride a.T a.J N = .ok ls ∧
      (av = .loc → 0 ≤ ls ∧ ls ≤ max 0 (floorLog2 t)) ∧ (av = .no → a.outType ≠ .array) := by
    rcases hT with ⟨t, h1, h2, h3, h4⟩ | ⟨h1, h2⟩ | ⟨h1, h2⟩ | ⟨h1, h2, h3⟩
    · have hpn : ∀ J' : ℤ, parseTZ (.num t) J' N = .ok (t, .loc) := by
        intro J'
        unfold parseTZ
        simp only
        rw [if_neg (not_lt.2 h3), if_neg (by linarith : t ≠ 0), if_neg (not_lt.2 h2)]
      have hp : parseTZ a.T a.J N = .ok (t, .loc) := by rw [h1]; exact hpn _
      have hfl := floorLog2_nonneg h2
      rcases h4 with h4 | ⟨k, h4, h5⟩
      · refine ⟨t, .loc, floorLog2 t, hp, by linarith, ?_, fun _ => ⟨hfl, le_max_right _ _⟩, fun h => by cases h⟩
        rw [h4]
        unfold log2StrideZ log2TZ
        simp only
        rw [hp]
        rfl
      · have hk : (k : ℤ) ≤ floorLog2 t := by
          unfold floorLog2
          rw [← Int.zpow_le_iff_le_log (by norm_num) (by linarith)]
          simpa using h5
        refine ⟨t, .loc, k, hp, by linarith, ?_, fun _ => ⟨by omega, by omega⟩, fun h => by cases h⟩
        have := (C07_log2_stride_ok a.stride a.T 0 N k).2 (Or.inr ⟨k, rfl, h4, t, by
          rw [← parseTZ_nat, h1]
          exact hpn _⟩)
        rw [← log2StrideZ_nat, h4, h1] at this
        rw [h4, h1]
        unfold log2StrideZ at this ⊢
        simp only [hpn] at this ⊢
        exact this
    · refine ⟨(2 : Rat) ^ a.J, .loc, 0, by rw [h1]; rfl, by positivity, ?_,
        (fun _ => ⟨le_rfl, le_max_left _ _⟩), fun h => by cases h⟩
      rw [h1, h2]
      rfl
    · refine ⟨(2 : Rat) ^ a.J, .glob, a.J, by rw [h1]; rfl, by positivity, ?_,
        (fun h => by cases h), fun h => by cases h⟩
      rw [h1, h2]
      show (Except.ok (floorLog2 ((2 : Rat) ^ a.J)) : Py Int) = _
      rw [floorLog2_zpow]
    · have hp : parseTZ a.T a.J N = .ok ((2 : Rat) ^ a.J, .no) := by
        rw [h1]
        unfold parseTZ
        simp only
        rw [if_neg (by simp)]
        simp
      refine ⟨(2 : Rat) ^ a.J, .no, a.J, hp, by positivity, ?_, (fun h => by cases h), fun _ => h3⟩
      rw [h2]
      unfold log2StrideZ log2TZ
      simp only
      rw [hp]
      show (Except.ok (floorLog2 ((2 : Rat) ^ a.J)) : Py Int) = _
      rw [floorLog2_zpow]
  obtain ⟨t, av, ls, hpT, ht, hls, hloc, hno⟩ := hp
  obtain ⟨s, hmake, hav, b⟩ := makeZ_neg a hJ N hshape hN t av hpT Q1 Q2 hQ (Or.inr hov)
  refine ⟨s, hmake, fun x hx => ?_⟩
  obtain ⟨l, hl, hlab, hlen⟩ := pathsZ_neg hJ ht hq1 hq2 b (one_le_nBanks.2 (Or.inl hmo)) hls
    (by rw [hav]; exact hloc) (Or.inr hov) hx
  have hsort := sortPaths_neg hlab
  have hn : l.map (fun p => p.n) = [] :: (List.range (Q1.toNat - 1)).map (fun k => [k]) := by
    have := congrArg (List.map Prod.snd) hlab
    simpa [List.map_map, Function.comp_def] using this
  have hrun : ∀ r, a.outType ≠ .other → assemble npFront (a.obj s) l = .ok r → a.run x = .ok r := by
    intro r h1 h2
    refine bind_eq_ok.2 ⟨s, hmake, ?_⟩
    rw [scatteringZ_eq]
    · refine Front1D.scattering_eq_ok.2 ⟨⟨h1, ?_⟩, l, hl, h2⟩
      rintro ⟨h3, h4⟩
      exact hno (hav.symm.trans h3) h4
    · intro ls' h
      have h : log2StrideZ s.built.stride a.T a.J s.built.Ninput = .ok ls' := h
      rw [b.stride, b.input, hls] at h
      rw [← Except.ok.inj h]
      by_cases h : s.average = .loc
      · exact Or.inl (hloc (hav.symm.trans h)).1
      · exact Or.inr h
  refine ⟨fun ho => ?_, fun ho => ?_, fun ho => ?_⟩
  · refine ⟨l, hrun _ (by rw [ho]; simp) ?_, hlab⟩
    unfold assemble
    rw [show (a.obj s).outType = .list from ho]
    simp only
    rw [hsort]
  · refine ⟨l.map fun p => (p.n, p.coef), hrun _ (by rw [ho]; simp) ?_, ?_⟩
    · unfold assemble
      rw [show (a.obj s).outType = .dict from ho]
      simp only
      have hnd : (l.map fun p => p.n).Nodup := by
        rw [hn, List.nodup_cons]
        refine ⟨by simp, ?_⟩
        exact List.nodup_range.map fun a b h => by simpa using h
      rw [dictInsert_fold l hnd [] (by simp)]
      rfl
    · rw [List.map_map]
      exact hn
  · have hlen' : l.length = Q1.toNat := by
      have := congrArg List.length hlab
      simp at this
      omega
    refine ⟨l.map fun p => p.coef, hrun _ (by rw [ho]; simp) ?_, by rw [List.length_map, hlen']⟩
    unfold assemble
    rw [show (a.obj s).outType = .array from ho]
    simp only
    rw [hsort]
    have hne : s.average ≠ .no := fun h => hno (hav.symm.trans h) ho
    have heq := hlen hne
    refine bind_eq_ok.2 ⟨l.map fun p => p.coef, ?_, rfl⟩
    unfold Front1D.stackRows
    cases l with
    | nil => simp at hlab
    | cons p l =>
      simp only [List.map_cons]
      rw [if_pos]
      rw [List.all_eq_true]
      intro c hc
      rw [← List.map_cons (f := fun p : Path (List ℝ) => p.coef)] at hc
      obtain ⟨q, hq, rfl⟩ := List.mem_map.1 hc
      exact beq_iff_eq.2 (heq q hq p (by simp))

/-- C127: the default `T=None` with negative `J` and no stride.  The object is built, and every call raises: on a signal
of the right length, with an accepted `out_type`, the exception is a `TypeError` from deep inside the transform. -/
theorem C127_default_T_fails (a : ArgsZ1D) (hJ : a.J < 0) (N : Nat) (hshape : parseShape a.shape = .ok N) (hN : 1 ≤ N)
    (Q1 Q2 : Int) (hQ : parseQ a.Q = .ok (Q1, Q2)) (hov : a.oversampling = none ∨ a.oversampling = some (.int 0))
    (hT : a.T = .none) (hst : a.stride = none) :
    (∃ s, a.make = .ok s) ∧ (∀ x, ∃ e, a.run x = .error e) ∧
      ∀ x : List ℝ, x.length = N → a.outType ≠ .other → 0 ≤ a.maxOrder → a.run x = .error .type := by
  have hp : parseTZ a.T a.J N = .ok ((2 : Rat) ^ a.J, .loc) := by rw [hT]; rfl
  obtain ⟨s, hmake, hav, b⟩ := makeZ_neg a hJ N hshape hN _ _ hp Q1 Q2 hQ hov
  have hls : log2StrideZ s.built.stride a.T a.J s.built.Ninput = .ok a.J := by
    rw [b.stride, hst, hT]
    show (Except.ok (floorLog2 ((2 : Rat) ^ a.J)) : Py Int) = _
    rw [floorLog2_zpow]
  have hrun : ∀ x, a.run x = scatteringZ (a.obj s) x := by
    intro x
    unfold ArgsZ1D.run
    rw [hmake]
    rfl
  refine ⟨⟨s, hmake⟩, fun x => ?_, fun x hx ho hm => ?_⟩
  · rw [hrun]
    cases h : scatteringZ (a.obj s) x with
    | error e => exact ⟨e, rfl⟩
    | ok r =>
      exfalso
      obtain ⟨_, -, h⟩ := bind_eq_ok.1 h
      obtain ⟨U, -, h⟩ := bind_eq_ok.1 h
      obtain ⟨ls, h1, h⟩ := bind_eq_ok.1 h
      have h1 : log2StrideZ s.built.stride a.T a.J s.built.Ninput = .ok ls := h1
      rw [hls] at h1
      have h1 := Except.ok.inj h1
      rw [if_pos ⟨by omega, hav⟩] at h
      obtain ⟨_, -, h⟩ := bind_eq_ok.1 h
      obtain ⟨_, -, h⟩ := bind_eq_ok.1 h
      obtain ⟨_, -, h⟩ := bind_eq_ok.1 h
      obtain ⟨_, -, h⟩ := bind_eq_ok.1 h
      cases h
  · rw [hrun]
    have hc : checkRuntimeArgs (a.obj s) = .ok () := by
      unfold checkRuntimeArgs
      rw [if_neg (show ¬ (a.obj s).outType = .other from ho), if_neg]
      rintro ⟨h, -⟩
      have h : s.average = .no := h
      rw [hav] at h
      cases h
    obtain ⟨U, hU⟩ : ∃ U, npPad x s.built.padLeft s.built.padRight = .ok U := by
      unfold npPad
      have := b.left
      have := b.right
      rw [if_neg (by omega)]
      exact ⟨_, rfl⟩
    have hUl : U.length = s.built.Npadded := by rw [length_npPad hU, hx, b.sum]
    have hphi : ∃ f, listGet s.phi.levels 0 = .ok f ∧ f.length = s.built.Npadded := by
      have hpl := makeLevels_length b.phi
      have h0 : s.phi.levels[0]? = some (s.phi.levels[0]'(by omega)) := List.getElem?_eq_getElem (by omega)
      refine ⟨_, listGet_eq_ok.2 h0, ?_⟩
      have := length_reduceLevel (makeLevels_get b.phi h0)
      have hg : (gauss1d s.built.Npadded (0.1 / (((2 : Rat) ^ a.J : Rat) : ℝ))).length = s.built.Npadded :=
        length_morlet1d (by
          have : (0 : ℝ) < (((2 : Rat) ^ a.J : Rat) : ℝ) := by exact_mod_cast (by positivity : (0 : Rat) < 2 ^ a.J)
          positivity)
      rw [hg] at this
      simpa using this
    obtain ⟨f, hf, hfl⟩ := hphi
    have hsl : ∃ y, listGet (sliceTo [[], (a.obj s).psi1, (a.obj s).psi2] (1 + (a.obj s).maxOrder)) 0 = .ok y := by
      have hm : 0 ≤ (a.obj s).maxOrder := hm
      refine ⟨[], listGet_eq_ok.2 ?_⟩
      unfold sliceTo
      rw [if_pos (by omega), List.getElem?_take_of_lt (by omega)]
      rfl
    obtain ⟨y, hy⟩ := hsl
    have hcd : ∃ c, npCdgmm (npRfft U) f = .ok c := by
      unfold npCdgmm
      rw [if_neg (by rw [length_npRfft, hUl, hfl]; simp)]
      exact ⟨_, rfl⟩
    obtain ⟨c, hcd⟩ := hcd
    unfold scatteringZ
    rw [hc]
    show (npPad x s.built.padLeft s.built.padRight >>= _) = _
    rw [hU]
    show (log2StrideZ s.built.stride a.T a.J s.built.Ninput >>= _) = _
    rw [hls]
    show (if a.J < 0 ∧ (a.obj s).average = .loc then _ else _) = _
    rw [if_pos ⟨hJ, hav⟩]
    show (listGet (sliceTo [[], (a.obj s).psi1, (a.obj s).psi2] (1 + (a.obj s).maxOrder)) 0 >>= _) = _
    rw [hy]
    show (listGet s.phi.levels 0 >>= _) = _
    rw [hf]
    show (npCdgmm (npRfft U) f >>= _) = _
    rw [hcd]
    rfl

/-- C127: `T=None` with a stride of two or more: the object is built and no call returns. -/
theorem C127_stride_fails (a : ArgsZ1D) (hJ : a.J < 0) (N : Nat) (hshape : parseShape a.shape = .ok N) (hN : 1 ≤ N)
    (Q1 Q2 : Int) (hQ : parseQ a.Q = .ok (Q1, Q2)) (hov : a.oversampling = none ∨ a.oversampling = some (.int 0))
    (hT : a.T = .none) (st : PyNum) (hst : a.stride = some st) (h1 : st ≠ .int 1) :
    (∃ s, a.make = .ok s) ∧ ∀ x, ∃ e, a.run x = .error e := by
  have hp : parseTZ a.T a.J N = .ok ((2 : Rat) ^ a.J, .loc) := by rw [hT]; rfl
  obtain ⟨s, hmake, hav, b⟩ := makeZ_neg a hJ N hshape hN _ _ hp Q1 Q2 hQ hov
  refine ⟨⟨s, hmake⟩, fun x => ?_⟩
  cases h : a.run x with
  | error e => exact ⟨e, rfl⟩
  | ok r =>
    exfalso
    obtain ⟨s', hs', h⟩ := bind_eq_ok.1 h
    rw [hmake] at hs'
    obtain rfl := Except.ok.inj hs'
    have hkey : ∀ ls, log2StrideZ s.built.stride a.T a.J s.built.Ninput = .ok ls → 1 ≤ ls := by
      intro ls hls
      rw [b.stride, hst, hT] at hls
      cases st with
      | flt q => cases hls
      | int n =>
        unfold log2StrideZ at hls
        simp only at hls
        split at hls
        · cases hls
        · split at hls
          · cases hls
          · have hls : (Except.ok (Nat.log 2 n.toNat : ℤ) : Py Int) = .ok ls := hls
            rw [← Except.ok.inj hls]
            have hn : n ≠ 1 := fun h => h1 (by rw [h])
            have : 0 < Nat.log 2 n.toNat := Nat.log_pos (by norm_num) (by omega)
            omega
    rw [scatteringZ_eq _ _ fun ls hls => Or.inl (by have := hkey ls hls; omega)] at h
    obtain ⟨-, l, hl, -⟩ := Front1D.scattering_eq_ok.1 h
    obtain ⟨U, ls, out, -, hls, hout, hpost⟩ := paths_eq_ok.1 hl
    have hls1 := hkey ls hls
    have hlab := labels_eq npBackend hout
    cases out with
    | nil => simp [labels] at hlab
    | cons q out =>
      cases hpost with
      | cons hq _ =>
        obtain ⟨res, hres, hq⟩ := bind_eq_ok.1 hq
        unfold resolution at hres
        rw [if_pos (show (a.obj s).average = .loc from hav)] at hres
        have hres := Except.ok.inj hres
        rw [if_neg (show ¬ (a.obj s).average = .glob by show ¬ s.average = .glob; rw [hav]; simp)] at hq
        obtain ⟨v, hv, -⟩ := bind_eq_ok.1 hq
        have hv : dictGet s.built.indStart res = .ok v := hv
        rw [b.start, dictGet_eq_ok, borderDict_get, if_neg (by rw [floorLog2_zpow]; omega)] at hv
        cases hv

/-! ## Concrete objects -/

/-- `Scattering1D(J=-2, shape=1000, Q=(8, 1), T=T, stride=st, out_type=o)`. -/
def exNeg (T : PyT) (st : Option PyNum) (o : OutType) : ArgsZ1D := ⟨-2, .int 1000, .tuple [8, 1], T, st, 2, some (.int 0), o⟩

/-- Eight coefficients with `T=16` and stride 4. -/
example (x : List ℝ) (hx : x.length = 1000) :
    ∃ rows, (exNeg (.num 16) (some (.int 4)) .array).run x = .ok (.array rows) ∧ rows.length = 8 := by
  obtain ⟨s, -, h⟩ := C127_returns (exNeg (.num 16) (some (.int 4)) .array) (by decide) 1000 rfl (by norm_num) 8 1 rfl rfl
    (by norm_num [exNeg]) (Or.inl ⟨16, rfl, by norm_num, by norm_num, Or.inr ⟨2, rfl, by norm_num⟩⟩)
  exact (h x hx).2.2 rfl

/-- The default arguments: `TypeError`. -/
example (x : List ℝ) (hx : x.length = 1000) : (exNeg .none none .array).run x = .error .type :=
  (C127_default_T_fails (exNeg .none none .array) (by decide) 1000 rfl (by norm_num) 8 1 rfl (Or.inr rfl) rfl rfl).2.2 x hx
    (by simp [exNeg]) (by norm_num [exNeg])

/-- Stride 2. -/
example (x : List ℝ) : ∃ e, (exNeg .none (some (.int 2)) .list).run x = .error e :=
  (C127_stride_fails (exNeg .none (some (.int 2)) .list) (by decide) 1000 rfl (by norm_num) 8 1 rfl (Or.inr rfl) rfl
    (.int 2) rfl (by simp)).2 x

/-- The seven wavelets of `J = -2`, `Q = 8`. -/
example : (andenZ (-2) 8).length = 7 := (C127_bank (by decide) (by norm_num)).1

/-- `J = 3`. -/
example (x : List ℝ) : (exArgs .none .array).toZ.run x = (exArgs .none .array).run x := (C127_natural _ x).2

end Verif
