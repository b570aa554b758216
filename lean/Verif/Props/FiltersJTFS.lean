import Verif.Props.PathsObject1D
import Verif.Props.MetaJTFS
import Verif.Props.StrideJTFS
import Verif.Props.InstancesJTFS

/-!
# The filters and paths of constructed time-frequency scattering objects

The frequential filter bank in closed form (C87) and, with it, the list of keys of the output (C32, C37).
-/

namespace Verif

open FrontJ JTFS Finset

/-! ## C87: frequential filters -/

/-- What the low-pass of bandwidth `sigma` is. -/
def IsGauss (N : ℕ) (sigma : ℝ) (f : FiltX) : Prop :=
  ∃ h P c, f.levels[0]? = some h ∧ h.length = N ∧ Spec.IsPeriods sigma P ∧ 0 < c ∧
    (∀ k < N, h.getD k 0 = c * Spec.periods P (Spec.gaussian sigma) (k / N)) ∧ ∑ m ∈ range N, ‖Spec.impulseR h m‖ = 1

/-- `IsMorlet` for profiles that do not vanish on the whole grid (for the others the code divides zero by zero). -/
def IsMorletIf (N : ℕ) (p : ℝ × ℝ) (f : FiltX) : Prop :=
  f.xi = p.1 ∧ f.sigma = p.2 ∧ ∃ h P, f.levels[0]? = some h ∧ h.length = N ∧ Spec.IsPeriods p.2 P ∧
    ((∃ k < N, Spec.morletProfile P p.1 p.2 (k / N) ≠ 0) → ∃ c, 0 < c ∧
      (∀ k < N, h.getD k 0 = c * Spec.morletProfile P p.1 p.2 (k / N)) ∧ ∑ m ∈ range N, ‖Spec.impulseR h m‖ = 1)

theorem spin_split {N Jfr Qfr : ℕ} {M lT : ℤ} {psis : List FiltX}
    (hp : List.Forall₂ (fun p f => makePsi false N 5 M lT p = .ok f) (spin anden Jfr Qfr) psis) :
    ∃ pos neg, psis = pos ++ neg ∧
      List.Forall₂ (fun p f => makePsi false N 5 M lT p = .ok f) (anden Jfr Qfr) pos ∧
      List.Forall₂ (fun p f => makePsi false N 5 M lT (-p.1, p.2) = .ok f) (anden Jfr Qfr) neg := by
  unfold spin at hp
  refine ⟨psis.take (anden Jfr Qfr).length, psis.drop (anden Jfr Qfr).length, (List.take_append_drop _ _).symm, ?_, ?_⟩
  · have := List.forall₂_take (anden Jfr Qfr).length hp
    simpa using this
  · have := List.forall₂_drop (anden Jfr Qfr).length hp
    simpa [List.forall₂_map_left_iff] using this

theorem forall₂_mem {α β : Type} {R : α → β → Prop} {l : List α} {m : List β} (h : List.Forall₂ R l m) :
    List.Forall₂ (fun a b => a ∈ l ∧ R a b) l m := by
  rw [List.forall₂_iff_get] at h ⊢
  exact ⟨h.1, fun i hi hj => ⟨List.get_mem _ _, h.2 i hi hj⟩⟩

theorem isMorletIf {N : ℕ} {M lT : ℤ} {p : ℝ × ℝ} {f : FiltX} (hf : makePsi false N 5 M lT p = .ok f) (hx : p.1 ≠ 0)
    (hs : 0 < p.2) : IsMorletIf N p f := by
  obtain ⟨e1, e2, -, e4⟩ := makePsi_fields hf
  refine ⟨e1, e2, _, morletP p.2, makeLevels_zero e4, length_morlet1d hs, morletP_spec hs, fun hn => ?_⟩
  obtain ⟨c, h1, -, h3, h4⟩ := C87_morlet N p.1 p.2 hx hs _ (morletP_spec hs) hn
  exact ⟨c, h1, h3, h4⟩

theorem isGauss {N : ℕ} {sigma : ℝ} {b : ℤ} {f : FiltX} (hN : 0 < N) (hs : 0 < sigma)
    (h : makeLevels false (gauss1d N sigma) b = .ok f.levels) : IsGauss N sigma f := by
  obtain ⟨P, c, g1, g2, g3, g4, g5⟩ := C87_gauss N sigma hN hs
  exact ⟨_, P, c, makeLevels_zero h, g3, g1, g2, g4, g5⟩

/-- **C87 (frequential filters).** For every constructed time-frequency scattering object: the averaging filter is the
Gaussian of bandwidth `0.1/F`; the bank is the Gaussian of bandwidth `0.1/2^J_fr`, then the Morlet filters of the bank
for `J_fr` and `Q_fr`, then the Morlet filters with the opposite centre frequencies.  The scales are those of the
description. -/
theorem C87_jtfs (a : JArgs) (s : ScJ) (hmake : a.make = .ok s) (hN : 0 < s.nFr) (q : ℕ)
    (hq : parseQfr a.Qfr = .ok (q : ℤ)) (B : List (ℝ × ℝ)) (hB : Spec.IsBank a.Jfr q B) :
    ∃ (F : Rat) (low : FiltX) (pos neg : List FiltX) (Q : ℤ × ℤ), parseQ a.Q = .ok Q ∧
      parseT a.F a.Jfr ((a.J + 1) * Q.1.toNat) = .ok (F, s.averageFr) ∧ IsGauss s.nFr (0.1 / F) s.phiFr ∧
      s.phiFr.j = floorLog2 F ∧
      s.psisFr = low :: pos ++ neg ∧ IsGauss s.nFr (0.1 / 2 ^ a.Jfr) low ∧ low.xi = 0 ∧ low.j = a.Jfr ∧
      List.Forall₂ (fun p f => IsMorletIf s.nFr p f ∧ f.j = Spec.scale p) B pos ∧
      List.Forall₂ (fun p f => IsMorletIf s.nFr (-p.1, p.2) f ∧ f.j = Spec.scale p) B neg ∧
      (2 ∣ s.nFr → List.Forall₂ (IsMorlet s.nFr) B pos) := by
  obtain ⟨Q, q', F, -, hQ, hq', hF, hav, -, hf⟩ := JArgs.make_eq_ok hmake
  rw [hq] at hq'
  obtain rfl := Except.ok.inj hq'
  have hq1 : 1 ≤ q := by
    have := parseQfr_pos hq
    omega
  obtain ⟨phi1, psis, M, hr, h0, h0j, hp, h1, hx, h1j, -⟩ := createFiltersFr_eq_ok hf
  rw [Int.toNat_natCast] at hp
  obtain ⟨pos, neg, rfl, hpos, hneg⟩ := spin_split hp
  have eB := C87_bank_unique a.Jfr q hq1 _ _ hB (C87_bank a.Jfr q hq1)
  subst eB
  have hF1 : (0 : ℝ) < 0.1 / F.1 := by
    have h := parseT_ge_one hF
    have : (0 : ℝ) < F.1 := by exact_mod_cast (by linarith : (0 : ℚ) < F.1)
    positivity
  have ep : ∀ p ∈ anden a.Jfr q, 0 < p.1 ∧ 0 < p.2 := by
    intro p hp
    obtain ⟨h, -, h'⟩ := anden_pos hq1 hp
    exact ⟨h, lt_of_lt_of_le (by positivity) h'⟩
  have h1' : makeLevels false (gauss1d s.nFr (0.1 / 2 ^ a.Jfr)) (max M (1 + floorLog2 (2 ^ a.Jfr))) = .ok phi1.levels := by
    push_cast at h1
    exact h1
  refine ⟨F.1, phi1, pos, neg, Q, hQ, by rw [hav]; exact hF, isGauss hN hF1 h0, h0j, hr, isGauss hN (by positivity) h1', hx, ?_,
    (forall₂_mem hpos).imp ?_, (forall₂_mem hneg).imp ?_, fun heven => (forall₂_mem hpos).imp ?_⟩
  · rw [h1j, floorLog2_twoPow]
  · rintro p f ⟨hp, hf⟩
    obtain ⟨h1, h2⟩ := ep p hp
    refine ⟨isMorletIf hf h1.ne' h2, ?_⟩
    rw [(makePsi_fields hf).2.2.1, ← scale_eq (by positivity), Int.toNat_of_nonneg]
    exact (C26_max_dyadic_subsampling p.1 p.2 5 (by positivity)).1
  · rintro p f ⟨hp, hf⟩
    obtain ⟨h1, h2⟩ := ep p hp
    refine ⟨isMorletIf hf (by simpa using h1.ne') h2, ?_⟩
    have e : Spec.scale p = Spec.scale (-p.1, p.2) := by
      unfold Spec.scale
      simp only [abs_neg]
    have hpp : 0 < |(-p.1, p.2).1| + 5 * (-p.1, p.2).2 := by
      simp only [abs_neg]; positivity
    rw [(makePsi_fields hf).2.2.1, e, ← scale_eq hpp, Int.toNat_of_nonneg]
    exact (C26_max_dyadic_subsampling (-p.1) p.2 5 hpp).1
  · rintro p f ⟨hp, hf⟩
    obtain ⟨h1, h2⟩ := ep p hp
    obtain ⟨e1, e2, -, e4⟩ := makePsi_fields hf
    obtain ⟨P, c, k1, k2, k3, k4, k5⟩ := morlet1d_profile s.nFr p.1 p.2 h1.ne' h2 (l1norm_anden hq1 hN heven hp)
    exact ⟨e1, e2, _, P, c, makeLevels_zero e4, k3, k1, k2, k4, k5⟩

/-! ## C32 and C37: the keys of a constructed object -/

namespace Spec

/-- Stride along frequency of the path through frequential filter `k`, below `m` first-order filters: filter 0 is the
low-pass of scale `2^J_fr`, the others are averaged with stride `2^ls` (or to one coefficient, or not at all). -/
noncomputable def frStride (Jfr ls : ℕ) (avg : Average) (B : List (ℝ × ℝ)) (m k : ℕ) : ℕ :=
  if k = 0 then 2 ^ Jfr else
    match avg with
    | .no => 2 ^ scale (B.getD ((k - 1) % B.length) (0, 0))
    | .loc => 2 ^ ls
    | .glob => m

/-- Number of first-order wavelets of smaller scale. -/
noncomputable def below (W : List (ℝ × ℝ)) (w : ℝ × ℝ) : ℕ := W.countP fun v => decide (scale v < scale w)

/-- The paths after the zeroth order: filters gone through, number of first-order filters, stride along frequency.
At first order only the filters of nonnegative spin are used. -/
noncomputable def jtfsEntries (Jfr ls : ℕ) (avg : Average) (W1 W2 B : List (ℝ × ℝ)) : List (List ℤ × ℕ × ℕ) :=
  ((List.range (1 + B.length)).map fun k : ℕ => ([(k : ℤ)], W1.length, frStride Jfr ls avg B W1.length k)) ++
    ((W2.zipIdx 0).filter fun r => decide (0 < below W1 r.1)).flatMap fun r =>
      (List.range (1 + 2 * B.length)).map fun k : ℕ =>
        ([(r.2 : ℤ), (k : ℤ)], below W1 r.1, frStride Jfr ls avg B (below W1 r.1) k)

/-- The keys in either format: in format `'time'` every path is split along the multiples of the stride. -/
noncomputable def jtfsKeys (fmt : Format) (Jfr ls : ℕ) (avg : Average) (W1 W2 B : List (ℝ × ℝ)) : List (List ℤ) :=
  [] :: (jtfsEntries Jfr ls avg W1 W2 B).flatMap fun e =>
    match fmt with
    | .joint => [e.1]
    | .time => ((List.range e.2.1).filter fun n1 => decide (e.2.2 ∣ n1)).map fun n1 : ℕ => (n1 : ℤ) :: e.1
    | .other => []

end Spec

theorem n1Range_eq {m s : ℕ} (hs : 0 < s) : n1Range m s = (List.range m).filter fun n => decide (s ∣ n) := by
  refine List.Pairwise.eq_of_mem_iff (r := (· < ·)) ?_ ?_ ?_
  · unfold n1Range
    rw [List.pairwise_map]
    exact List.pairwise_lt_range.imp fun h => Nat.mul_lt_mul_of_pos_right h hs
  · exact List.pairwise_lt_range.filter _
  · intro n
    unfold n1Range
    rw [List.mem_map, List.mem_filter, List.mem_range, decide_eq_true_iff]
    constructor
    · rintro ⟨i, hi, rfl⟩
      exact ⟨(lt_ceil_iff hs).1 (List.mem_range.1 hi), Dvd.intro_left _ rfl⟩
    · rintro ⟨h, i, rfl⟩
      rw [Nat.mul_comm] at h
      exact ⟨i, List.mem_range.2 ((lt_ceil_iff hs).2 h), Nat.mul_comm _ _⟩

/-- Scale and spin of the frequential filters. -/
theorem frData {F : Type} {psisFr : List (FiltFr F)} {Jfr ls : ℕ} {avg : Average} {B : List (ℝ × ℝ)}
    (h : psisFr.map (fun f => (f.j, f.spin)) =
      (Jfr, (0 : ℤ)) :: B.map (fun w => (Spec.scale w, (1 : ℤ))) ++ B.map (fun w => (Spec.scale w, (-1 : ℤ))))
    {k : ℕ} {f : FiltFr F} (hk : psisFr[k]? = some f) (j n : List ℤ) (m : ℕ) :
    k < 1 + 2 * B.length ∧ (0 ≤ f.spin ↔ k < 1 + B.length) ∧
      strideOf ls avg ⟨j, n, m, f.j, k, 2 ^ f.j, f.spin⟩ = Spec.frStride Jfr ls avg B m k := by
  have hk' : (psisFr.map fun f => (f.j, f.spin))[k]? = some (f.j, f.spin) := by rw [List.getElem?_map, hk]; rfl
  rw [h] at hk'
  unfold strideOf Spec.frStride
  rcases k with _ | k
  · obtain ⟨e1, e2⟩ := Prod.mk.inj (Option.some.inj hk')
    refine ⟨by omega, ⟨fun _ => by omega, fun _ => e2.le⟩, ?_⟩
    rw [if_neg (by simp [← e2]), if_pos rfl, ← e1]
  · rw [List.cons_append, List.getElem?_cons_succ] at hk'
    rw [if_neg (Nat.succ_ne_zero k), Nat.add_sub_cancel]
    rcases Nat.lt_or_ge k B.length with hb | hb
    · rw [List.getElem?_append_left (by simpa using hb), List.getElem?_map, List.getElem?_eq_getElem hb] at hk'
      obtain ⟨e1, e2⟩ := Prod.mk.inj (Option.some.inj hk')
      refine ⟨by omega, ⟨fun _ => by omega, fun _ => by rw [← e2]; norm_num⟩, ?_⟩
      cases avg <;> simp [← e1, ← e2, Nat.mod_eq_of_lt hb, List.getElem?_eq_getElem hb]
    · rw [List.getElem?_append_right (by simpa using hb), List.length_map, List.getElem?_map] at hk'
      obtain ⟨w, hw, e⟩ := Option.map_eq_some_iff.1 hk'
      have hlt : k - B.length < B.length := (List.getElem?_eq_some_iff.1 hw).1
      obtain ⟨e1, e2⟩ := Prod.mk.inj e
      refine ⟨by omega, ⟨fun h0 => by rw [← e2] at h0; norm_num at h0, fun h0 => by omega⟩, ?_⟩
      have hm : k % B.length = k - B.length := by
        rw [Nat.mod_eq_sub_mod hb, Nat.mod_eq_of_lt hlt]
      cases avg <;> simp [← e1, ← e2, hm, hw]

theorem frLabels_entries {F : Type} {psisFr : List (FiltFr F)} {Jfr ls : ℕ} {avg : Average} {B : List (ℝ × ℝ)}
    (h : psisFr.map (fun f => (f.j, f.spin)) =
      (Jfr, (0 : ℤ)) :: B.map (fun w => (Spec.scale w, (1 : ℤ))) ++ B.map (fun w => (Spec.scale w, (-1 : ℤ))))
    (j n : List ℤ) (m c : ℕ) :
    (frLabels j n m (psisFr.take c)).map (fun l => (l.n, l.n1Max, strideOf ls avg l)) =
      (List.range (min c (1 + 2 * B.length))).map fun k : ℕ => (n.tail ++ [(k : ℤ)], m, Spec.frStride Jfr ls avg B m k) := by
  have hlen : psisFr.length = 1 + 2 * B.length := by
    have := congrArg List.length h
    simp at this
    omega
  unfold frLabels
  rw [List.map_map]
  apply List.ext_getElem
  · simp [hlen]
  · intro k h1 h2
    simp only [List.getElem_map, List.getElem_zipIdx, Function.comp, List.getElem_range, Nat.zero_add]
    have hk : k < psisFr.length := by simp at h1; omega
    rw [List.getElem_take, (frData h (List.getElem?_eq_getElem hk) _ _ m).2.2]

theorem filter_spin {F : Type} {psisFr : List (FiltFr F)} {Jfr : ℕ} {B : List (ℝ × ℝ)}
    (h : psisFr.map (fun f => (f.j, f.spin)) =
      (Jfr, (0 : ℤ)) :: B.map (fun w => (Spec.scale w, (1 : ℤ))) ++ B.map (fun w => (Spec.scale w, (-1 : ℤ)))) :
    (psisFr.filter fun f => decide (0 ≤ f.spin)) = psisFr.take (1 + B.length) := by
  have hlen : psisFr.length = 1 + 2 * B.length := by
    have := congrArg List.length h
    simp at this
    omega
  conv_lhs => rw [← List.take_append_drop (1 + B.length) psisFr]
  rw [List.filter_append, List.filter_eq_self.2, List.filter_eq_nil_iff.2, List.append_nil]
  · intro f hf
    obtain ⟨k, hk, rfl⟩ := List.mem_iff_getElem.1 hf
    rw [List.getElem_drop]
    have hk' : 1 + B.length + k < psisFr.length := by simp at hk; omega
    have := (frData (ls := 0) (avg := .no) h (List.getElem?_eq_getElem hk') [] [] 0).2.1
    simp only [decide_eq_true_eq]
    omega
  · intro f hf
    obtain ⟨k, hk, rfl⟩ := List.mem_iff_getElem.1 hf
    rw [List.getElem_take]
    have hk2 : k < 1 + B.length := by simp at hk; omega
    have hk' : k < psisFr.length := by omega
    have := (frData (ls := 0) (avg := .no) h (List.getElem?_eq_getElem hk') [] [] 0).2.1
    simp only [decide_eq_true_eq]
    omega

theorem labels_entries {F : Type} {psi1 psi2 : List (Filt F)} {psisFr : List (FiltFr F)} {Jfr ls : ℕ} {avg : Average}
    {W1 W2 B : List (ℝ × ℝ)} (h1 : psi1.map Filt.j = W1.map Spec.scale) (h2 : psi2.map Filt.j = W2.map Spec.scale)
    (h : psisFr.map (fun f => (f.j, f.spin)) =
      (Jfr, (0 : ℤ)) :: B.map (fun w => (Spec.scale w, (1 : ℤ))) ++ B.map (fun w => (Spec.scale w, (-1 : ℤ)))) :
    (labels psi1 psi2 psisFr).map (fun l => (l.n, l.n1Max, strideOf ls avg l)) =
      Spec.jtfsEntries Jfr ls avg W1 W2 B := by
  have hlen : psisFr.length = 1 + 2 * B.length := by
    have := congrArg List.length h
    simp at this
    omega
  have hl1 : psi1.length = W1.length := by simpa using congrArg List.length h1
  have hadm : ∀ w : ℝ × ℝ, admissible psi1 (Spec.scale w) = Spec.below W1 w := by
    intro w
    unfold admissible Spec.below
    rw [← List.countP_eq_length_filter]
    have e1 : (psi1.countP fun p => decide (p.j < Spec.scale w)) =
        (psi1.map Filt.j).countP fun j => decide (j < Spec.scale w) := by rw [List.countP_map]; rfl
    rw [e1, h1, List.countP_map]
    rfl
  unfold labels Spec.jtfsEntries
  rw [List.map_append, filter_spin h, frLabels_entries h, hl1]
  congr 1
  · rw [show min (1 + B.length) (1 + 2 * B.length) = 1 + B.length by omega]
    rfl
  · have e : stackLabels psi1 psi2 = (((psi2.map Filt.j).zipIdx 0).filter fun q => decide (0 < admissible psi1 q.1)).map
        fun q => (q.1, q.2, admissible psi1 q.1) := by
      unfold stackLabels
      rw [List.zipIdx_map, List.filter_map, List.map_map]
      rfl
    rw [e, h2, List.zipIdx_map, List.filter_map, List.map_map, List.flatMap_map, List.map_flatMap]
    have e2 : ((fun q : ℕ × ℕ => decide (0 < admissible psi1 q.1)) ∘ Prod.map Spec.scale id) =
        fun r : (ℝ × ℝ) × ℕ => decide (0 < Spec.below W1 r.1) := by
      funext r
      simp [hadm]
    rw [e2]
    congr 1
    funext r
    have := frLabels_entries (ls := ls) (avg := avg) h [-1, (Spec.scale r.1 : ℤ)] [-1, (r.2 : ℤ)] (Spec.below W1 r.1)
      (1 + 2 * B.length)
    rw [List.take_of_length_le (by omega), Nat.min_self] at this
    simp only [Function.comp, Prod.map, hadm, id]
    exact this

theorem obj_frData {a : JArgs} {s : ScJ} (hmake : a.make = .ok s) {q : ℕ} (hq : parseQfr a.Qfr = .ok (q : ℤ))
    {B : List (ℝ × ℝ)} (hB : Spec.IsBank a.Jfr q B) (Q1 : ℕ) :
    (a.obj s Q1).psisFr.map (fun f => (f.j, f.spin)) =
      (a.Jfr, (0 : ℤ)) :: B.map (fun w => (Spec.scale w, (1 : ℤ))) ++ B.map (fun w => (Spec.scale w, (-1 : ℤ))) := by
  obtain ⟨Q, q', F, -, hQ, hq', hF, hav, -, hf⟩ := JArgs.make_eq_ok hmake
  rw [hq] at hq'
  obtain rfl := Except.ok.inj hq'
  have hq1 : 1 ≤ q := by
    have := parseQfr_pos hq
    omega
  obtain ⟨phi1, psis, M, hr, h0, h0j, hp, h1, hx, h1j, -⟩ := createFiltersFr_eq_ok hf
  rw [Int.toNat_natCast] at hp
  obtain ⟨pos, neg, rfl, hpos, hneg⟩ := spin_split hp
  obtain rfl := C87_bank_unique a.Jfr q hq1 _ _ hB (C87_bank a.Jfr q hq1)
  have ep : ∀ p ∈ anden a.Jfr q, 0 < p.1 ∧ 0 < p.2 := by
    intro p hp
    obtain ⟨h, -, h'⟩ := anden_pos hq1 hp
    exact ⟨h, lt_of_lt_of_le (by positivity) h'⟩
  have hr' : s.psisFr = phi1 :: (pos ++ neg) := hr
  show (s.psisFr.map FiltX.toFiltFr).map _ = _
  rw [hr', List.map_map, List.map_cons, List.map_append, List.cons_append]
  congr 1
  · simp [FiltX.toFiltFr, hx, h1j, floorLog2_twoPow]
  · congr 1
    · have := (forall₂_mem hpos).imp (S := fun p f => (Spec.scale p, (1 : ℤ)) = ((FiltX.toFiltFr f).j,
        (FiltX.toFiltFr f).spin)) ?_
      · rw [← List.forall₂_eq_eq_eq, List.forall₂_map_left_iff, List.forall₂_map_right_iff]
        exact this.flip.imp fun _ _ h => h.symm
      · rintro p f ⟨hp, hf⟩
        obtain ⟨h1, h2⟩ := ep p hp
        obtain ⟨e1, -, e3, -⟩ := makePsi_fields hf
        rw [← scale_eq (by positivity), ← e3]
        simp [FiltX.toFiltFr, e1, h1]
    · have := (forall₂_mem hneg).imp (S := fun p f => (Spec.scale p, (-1 : ℤ)) = ((FiltX.toFiltFr f).j,
        (FiltX.toFiltFr f).spin)) ?_
      · rw [← List.forall₂_eq_eq_eq, List.forall₂_map_left_iff, List.forall₂_map_right_iff]
        exact this.flip.imp fun _ _ h => h.symm
      · rintro p f ⟨hp, hf⟩
        obtain ⟨h1, h2⟩ := ep p hp
        obtain ⟨e1, -, e3, -⟩ := makePsi_fields hf
        have e : Spec.scale p = Spec.scale (-p.1, p.2) := by
          unfold Spec.scale
          simp only [abs_neg]
        have hpp : 0 < |(-p.1, p.2).1| + 5 * (-p.1, p.2).2 := by
          simp only [abs_neg]; positivity
        rw [e, ← scale_eq hpp, ← e3]
        simp [FiltX.toFiltFr, e1, h1]

/-- **C32 and C37 (constructed objects).** `W1`, `W2` and `B` are the parameters of the wavelets for `Q1`, `Q2` (scale
`J`) and `Q_fr` (scale `J_fr`).  The keys of the output list, in order, are those of `Spec.jtfsKeys`. -/
theorem C32_object (a : JArgs) (s : ScJ) (hmake : a.make = .ok s) (Q1 Q2 q : ℕ) (hQ : parseQ a.Q = .ok (Q1, Q2))
    (hq : parseQfr a.Qfr = .ok (q : ℤ)) (W1 W2 B : List (ℝ × ℝ)) (hW1 : Spec.IsBank a.J Q1 W1)
    (hW2 : Spec.IsBank a.J Q2 W2) (hB : Spec.IsBank a.Jfr q B) (ls : ℕ)
    (hls : (a.obj s Q1).log2StrideFr = .ok (ls : ℤ)) (x : List ℝ) (P : List (JPath (List ℝ) (Img ℝ)))
    (hP : a.run x = .ok (.list P)) :
    P.map (fun p => p.n) = Spec.jtfsKeys a.fmt a.Jfr ls s.averageFr W1 W2 B := by
  obtain ⟨s', hs', hrun⟩ := bind_eq_ok.1 hP
  obtain rfl := Except.ok.inj (hmake.symm.trans hs')
  obtain ⟨Q', hQ', hrun⟩ := bind_eq_ok.1 hrun
  obtain rfl := Except.ok.inj (hQ.symm.trans hQ')
  rw [Int.toNat_natCast] at hrun
  obtain ⟨-, P', hst, hP'⟩ := scattering_eq_ok hrun
  have e : P' = P := by
    unfold assemble at hP'
    split at hP'
    · obtain ⟨_, _, h⟩ := bind_eq_ok.1 hP'
      cases h
    · obtain ⟨_, _, h⟩ := bind_eq_ok.1 hP'
      cases h
    · cases hP'
    · exact JOut.list.inj (Except.ok.inj hP')
  subst e
  obtain ⟨_, _, _, hb, -⟩ := JArgs.make_eq_ok hmake
  obtain ⟨t, R1, R2, lT, M1, M2, g1, g2, -, -, hR, -, f1, f2, -⟩ := make_filters hb
  have hR : parseQ a.Q = .ok (R1, R2) := hR
  rw [hQ] at hR
  have hR' := Prod.mk.inj (Except.ok.inj hR)
  have e1 : R1 = Q1 := by exact_mod_cast hR'.1.symm
  have e2 : R2 = Q2 := by exact_mod_cast hR'.2.symm
  subst e1 e2
  have b : ∀ Q, 1 ≤ Q → ∀ w ∈ anden a.J Q, 0 < w.1 ∧ 0 < w.2 := by
    intro Q hQ w hw
    obtain ⟨h, -, h'⟩ := anden_pos hQ hw
    exact ⟨h, lt_of_lt_of_le (by positivity) h'⟩
  obtain rfl := C87_bank_unique a.J _ g1 _ _ hW1 (C87_bank a.J _ g1)
  obtain rfl := C87_bank_unique a.J _ g2 _ _ hW2 (C87_bank a.J _ g2)
  have k1 : (a.obj s R1).psi1.map Filt.j = (anden a.J R1).map Spec.scale := scales_of f1 (b R1 g1)
  have k2 : (a.obj s R1).psi2.map Filt.j = (anden a.J R2).map Spec.scale := scales_of f2 (b R2 g2)
  rw [stages_labels hst hls, Int.toNat_natCast]
  unfold pathLabels Spec.jtfsKeys
  congr 1
  rw [← labels_entries (ls := ls) (avg := s.averageFr) k1 k2 (obj_frData hmake hq hB R1), List.flatMap_map]
  have hm : ∀ {α β : Type} (l : List α) (f g : α → List β), (∀ x ∈ l, f x = g x) → l.flatMap f = l.flatMap g := by
    intro α β l f g h
    rw [List.flatMap_def, List.flatMap_def, List.map_congr_left h]
  refine hm _ _ _ fun l hl => ?_
  have hpos := (stride_ne_zero hmake R1 ls l hl).2
  unfold fmtLabels
  show (match a.fmt with | .joint => _ | .time => _ | .other => _) = _
  cases a.fmt
  · simp only
    rw [n1Range_eq hpos]
    rfl
  · rfl
  · rfl

/-- The frequential filters of `TimeFrequencyScattering(J=3, J_fr=2, Q=8, shape=1000)`: `(3 + 1) * 8 + 8 * 4 = 64` points. -/
example (B : List (ℝ × ℝ)) (hB : Spec.IsBank 2 1 B) : ∃ s low pos neg, (exJ .list .joint).make = .ok s ∧ s.nFr = 64 ∧
    s.psisFr = low :: pos ++ neg ∧ IsGauss 64 (0.1 / 2 ^ 2) low ∧ List.Forall₂ (IsMorlet 64) B pos := by
  obtain ⟨s, -, -, hs, -⟩ := exJ_run .list (by simp) .joint (by simp) (List.replicate 1000 0) List.length_replicate
  have hn : s.nFr = 64 := by
    obtain ⟨Q', q, F', -, hQ', -, hF', -, hnFr, -⟩ := JArgs.make_eq_ok hs
    obtain rfl := Except.ok.inj (show (Except.ok (8, 1) : Py (ℤ × ℤ)) = .ok Q' from hQ')
    obtain rfl := Except.ok.inj (show (Except.ok ((2 : Rat) ^ 2, Average.loc) : Py _) = .ok F' from hF')
    rw [hnFr]
    show nPaddedFr 2 32 (2 ^ 2) = 64
    norm_num [nPaddedFr]
    rfl
  obtain ⟨F, low, pos, neg, Q, -, -, -, -, h1, h2, -, -, -, -, h3⟩ := C87_jtfs _ s hs (by omega) 1 rfl B hB
  rw [hn] at h2 h3
  exact ⟨s, low, pos, neg, hs, hn, h1, h2, h3 (by norm_num)⟩

/-- The stride along frequency of the default object, `J_fr = 2`. -/
example (x : List ℝ) (hx : x.length = 1000) (f : Format) (hf : f ≠ .other) (W1 W2 B : List (ℝ × ℝ))
    (hW1 : Spec.IsBank 3 8 W1) (hW2 : Spec.IsBank 3 1 W2) (hB : Spec.IsBank 2 1 B) :
    ∃ P, (exJ .list f).run x = .ok (.list P) ∧ P.map (fun p => p.n) = Spec.jtfsKeys f 2 2 .loc W1 W2 B := by
  obtain ⟨s, r, P, hs, -, -, havF, -, hls, hr, -, -, ha⟩ := exJ_run .list (by simp) f hf x hx
  obtain rfl := Except.ok.inj ha
  refine ⟨P, hr, ?_⟩
  rw [← havF]
  exact C32_object _ s hs 8 1 1 rfl rfl W1 W2 B hW1 hW2 hB 2 hls x P hr

/-- Two first-order wavelets of scales 0 and 1, one second-order wavelet of scale 1 and one frequential wavelet: the
keys of format `'joint'`. -/
example (v w : ℝ × ℝ) (hv : Spec.scale v = 0) (hw : Spec.scale w = 1) (b : ℝ × ℝ) :
    Spec.jtfsKeys .joint 1 1 .loc [v, w] [w] [b] = [[], [0], [1], [0, 0], [0, 1], [0, 2]] := by
  simp [Spec.jtfsKeys, Spec.jtfsEntries, Spec.below, hv, hw, List.range_succ]

end Verif
