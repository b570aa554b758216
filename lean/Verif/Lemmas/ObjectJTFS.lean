import Verif.Lemmas.Object1D
import Verif.Model.ObjectJTFS

/-!
# What a constructed `TimeFrequencyScattering` object contains
-/

namespace Verif

/-- Decomposition of a successful construction of the frequential filters. -/
theorem createFiltersFr_eq_ok {N Jfr Qfr : Nat} {F : Rat} {r : FiltX × List FiltX}
    (h : createFiltersFr N Jfr Qfr F = .ok r) :
    ∃ (phi1 : FiltX) (psis : List FiltX) (M : ℤ), r.2 = phi1 :: psis ∧
      makeLevels false (gauss1d N (0.1 / F)) (max 0 (1 + floorLog2 F)) = .ok r.1.levels ∧
      r.1.j = floorLog2 F ∧
      List.Forall₂ (fun p f => makePsi false N 5 0 (floorLog2 (2 ^ Jfr)) p = .ok f) (spin anden Jfr Qfr) psis ∧
      makeLevels false (gauss1d N (0.1 / (2 ^ Jfr : Rat))) (max M (1 + floorLog2 (2 ^ Jfr))) = .ok phi1.levels ∧
      phi1.xi = 0 ∧ phi1.j = floorLog2 (2 ^ Jfr) ∧ ∀ p ∈ psis, |p.xi| < 0.5 / (2 : ℝ) ^ p.j := by
  unfold createFiltersFr at h
  obtain ⟨r0, hr0, h⟩ := bind_eq_ok.1 h
  obtain ⟨r1, hr1, h⟩ := bind_eq_ok.1 h
  unfold filterFactory at hr0 hr1
  obtain ⟨L0, hL0, hr0⟩ := bind_eq_ok.1 hr0
  obtain ⟨lv0, hlv0, hr0⟩ := bind_eq_ok.1 hr0
  injection hr0 with hr0
  subst hr0
  simp only [List.map_nil] at hL0
  unfold makeLayers at hL0
  injection hL0 with hL0
  subst hL0
  obtain ⟨L1, hL1, hr1⟩ := bind_eq_ok.1 hr1
  obtain ⟨lv1, hlv1, hr1⟩ := bind_eq_ok.1 hr1
  injection hr1 with hr1
  subst hr1
  simp only [List.map_cons, List.map_nil] at hL1
  unfold makeLayers at hL1
  obtain ⟨l1, hl1, hL1⟩ := bind_eq_ok.1 hL1
  obtain ⟨r2, hr2, hL1⟩ := bind_eq_ok.1 hL1
  injection hL1 with hL1
  subst hL1
  unfold makeLayers at hr2
  injection hr2 with hr2
  subst hr2
  simp only at h hlv0 hlv1
  split at h
  · rename_i hc
    injection h with h
    subst h
    exact ⟨_, l1, _, rfl, hlv0, rfl, mapM_eq_ok.1 hl1, hlv1, rfl, rfl, hc⟩
  · cases h

theorem parseQfr_pos {q : PyQ} {n : Int} (h : parseQfr q = .ok n) : 1 ≤ n := by
  unfold parseQfr at h
  split at h
  · split at h
    · cases h
    · injection h with h; omega
  · split at h
    · cases h
    · rename_i l hl
      split at h
      · injection h with h
        subst h
        simp at hl
        omega
      · cases h
  · cases h

/-- Decomposition of a successful construction. -/
theorem JArgs.make_eq_ok {a : JArgs} {s : ScJ} (h : a.make = .ok s) :
    ∃ Q q F, a.base.make = .ok s.base ∧ parseQ a.Q = .ok Q ∧ parseQfr a.Qfr = .ok q ∧
      parseT a.F a.Jfr ((a.J + 1) * Q.1.toNat) = .ok F ∧ s.averageFr = F.2 ∧
      s.nFr = nPaddedFr a.Jfr ((a.J + 1) * Q.1.toNat) F.1 ∧
      createFiltersFr s.nFr a.Jfr q.toNat F.1 = .ok (s.phiFr, s.psisFr) := by
  unfold JArgs.make at h
  obtain ⟨b, hb, h⟩ := bind_eq_ok.1 h
  obtain ⟨Q, hQ, h⟩ := bind_eq_ok.1 h
  obtain ⟨q, hq, h⟩ := bind_eq_ok.1 h
  obtain ⟨F, hF, h⟩ := bind_eq_ok.1 h
  obtain ⟨f, hf, h⟩ := bind_eq_ok.1 h
  injection h with h
  subst h
  exact ⟨Q, q, F, hb, hQ, hq, hF, rfl, rfl, hf⟩

/-- The frequential bank: the low-pass of spin 0, filters of positive spin, their mirror images. -/
theorem createFiltersFr_spins {N Jfr Qfr : Nat} {F : Rat} {r : FiltX × List FiltX} (hQ : 1 ≤ Qfr)
    (h : createFiltersFr N Jfr Qfr F = .ok r) :
    ∃ phi1 pos neg, r.2 = phi1 :: pos ++ neg ∧ phi1.xi = 0 ∧ pos.length = (anden Jfr Qfr).length ∧
      neg.length = pos.length ∧ (∀ f ∈ pos, 0 < f.xi) ∧ (∀ f ∈ neg, f.xi < 0) ∧
      List.Forall₂ (fun f g => g.xi = -f.xi ∧ g.sigma = f.sigma ∧ g.j = f.j) pos neg := by
  obtain ⟨phi1, psis, M, hr, -, -, hp, -, hx, -, -⟩ := createFiltersFr_eq_ok h
  unfold spin at hp
  obtain ⟨pos, neg, hpos, hneg, rfl⟩ : ∃ pos neg, List.Forall₂ (fun p f =>
      makePsi false N 5 0 (floorLog2 (2 ^ Jfr)) p = .ok f) (anden Jfr Qfr) pos ∧ List.Forall₂ (fun p f =>
      makePsi false N 5 0 (floorLog2 (2 ^ Jfr)) p = .ok f)
        ((anden Jfr Qfr).map fun f => (-f.1, f.2)) neg ∧ psis = pos ++ neg := by
    refine ⟨psis.take (anden Jfr Qfr).length, psis.drop (anden Jfr Qfr).length, ?_, ?_,
      (List.take_append_drop _ _).symm⟩
    · have := List.forall₂_take (anden Jfr Qfr).length hp
      simpa using this
    · have := List.forall₂_drop (anden Jfr Qfr).length hp
      simpa using this
  refine ⟨phi1, pos, neg, by rw [hr]; rfl, hx, hpos.length_eq.symm, ?_, ?_, ?_, ?_⟩
  · rw [← hneg.length_eq, ← hpos.length_eq, List.length_map]
  · intro f hf
    obtain ⟨p, hp, hpf⟩ := forall₂_mem_right hpos hf
    rw [(makePsi_fields hpf).1]
    exact (anden_pos hQ hp).1
  · intro f hf
    obtain ⟨p, hp, hpf⟩ := forall₂_mem_right hneg hf
    rw [(makePsi_fields hpf).1]
    obtain ⟨q, hq, rfl⟩ := List.mem_map.1 hp
    simpa using (anden_pos hQ hq).1
  · rw [List.forall₂_map_left_iff] at hneg
    clear hp hr
    generalize anden Jfr Qfr = l at hpos hneg
    induction l generalizing pos neg with
    | nil => cases hpos; cases hneg; exact .nil
    | cons a l ih =>
      cases hpos with
      | cons h1 h2 =>
        cases hneg with
        | cons h3 h4 =>
          refine .cons ?_ (ih _ _ h2 h4)
          obtain ⟨e1, e2, e3, -⟩ := makePsi_fields h1
          obtain ⟨e4, e5, e6, -⟩ := makePsi_fields h3
          refine ⟨by rw [e4, e1], by rw [e5, e2], ?_⟩
          rw [e6, e3]
          unfold getMaxDyadicSubsampling
          simp

end Verif
