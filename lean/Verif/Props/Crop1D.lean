import Verif.Props.Morlet1D
import Verif.Props.Support1D

/-!
# Padding margin (C60), cropping without averaging (C61), spinned banks (C62)
-/

namespace Verif

open Finset Front1D

/-! ## C61 -/

/-- Without local averaging a positive `oversampling` is accepted by the constructor but every call of
the transform then raises: `build` has set a stride, which `log2_stride` refuses. -/
theorem C61_oversampling_rejected (a : Args1D) (s : Sc1D) (hmake : a.make = .ok s)
    (hav : s.average ≠ .loc) (o : Int) (ho : 0 < o) (hov : a.oversampling = some (.int o))
    (x : List ℝ) : ∀ r, a.run x ≠ .ok r := by
  intro r hr
  obtain ⟨s', hs', hrun⟩ := bind_eq_ok.1 hr
  rw [hmake] at hs'
  injection hs' with hs'
  subst hs'
  obtain ⟨-, m, hm, -⟩ := scattering_eq_ok.1 hrun
  obtain ⟨U0, ls, out, -, hls, -⟩ := paths_eq_ok.1 hm
  have hls : log2Stride s.built.stride a.T a.J s.built.Ninput = .ok ls := hls
  obtain ⟨t, lT, -, hT, -⟩ := make_sizes hmake
  have hst : s.built.stride ≠ none := by
    unfold Args1D.make at hmake
    obtain ⟨N, hN, h⟩ := bind_eq_ok.1 hmake
    obtain ⟨T, hT, h⟩ := bind_eq_ok.1 h
    obtain ⟨b, hb, h⟩ := bind_eq_ok.1 h
    obtain ⟨Q, hQ, h⟩ := bind_eq_ok.1 h
    obtain ⟨f, hf, h⟩ := bind_eq_ok.1 h
    injection h with h
    subst h
    unfold build1D at hb
    obtain ⟨N', hN', hb⟩ := bind_eq_ok.1 hb
    obtain ⟨st, hst, hb⟩ := bind_eq_ok.1 hb
    obtain ⟨lT, hlT, hb⟩ := bind_eq_ok.1 hb
    obtain ⟨lr, hlr, hb⟩ := bind_eq_ok.1 hb
    injection hb with hb
    subst hb
    show st ≠ none
    rw [hov] at hst
    unfold applyOversampling at hst
    simp only at hst
    rw [if_neg (by simp only [PyNum.val]; exact not_lt.2 (by exact_mod_cast ho.le)),
      if_pos ho] at hst
    obtain ⟨k, -, hst⟩ := bind_eq_ok.1 hst
    cases hs : a.stride with
    | none =>
      rw [hs] at hst
      injection hst with hst
      rw [← hst]; simp
    | some v =>
      rw [hs] at hst
      simp only at hst
      split at hst
      · injection hst with hst
        rw [← hst]; simp
      · cases hst
  rcases (C07_log2_stride_ok _ _ _ _ _).1 hls with ⟨h, -⟩ | ⟨m, -, -, t', h⟩
  · exact hst h
  · rw [hT] at h
    injection h with h
    injection h with _ h
    exact hav h

/-- Whenever a transform without local averaging returns, `oversampling` is zero. -/
theorem oversampling_zero {a : Args1D} {s : Sc1D} (hmake : a.make = .ok s)
    (hav : s.average ≠ .loc) {x : List ℝ} {r : Out1D (List ℝ)} (hr : a.run x = .ok r) :
    a.oversampling = some (.int 0) := by
  cases hov : a.oversampling with
  | none =>
    exfalso
    obtain ⟨s', hs', hrun⟩ := bind_eq_ok.1 hr
    rw [hmake] at hs'
    injection hs' with hs'
    subst hs'
    obtain ⟨-, m, hm, -⟩ := scattering_eq_ok.1 hrun
    obtain ⟨U0, ls, out, -, hls, hout, hpost⟩ := paths_eq_ok.1 hm
    obtain ⟨t, R1, R2, lT, M1, M2, hR1, hR2, ht, hT, hR, hfl, h1, -⟩ := make_filters hmake
    obtain ⟨p, hp⟩ := anden_nonempty (J := a.J) hR1
    obtain ⟨f, hf, -⟩ := forall₂_mem_left h1 (List.mem_of_getElem? hp)
    have hlab := Core1D.labels_eq npBackend hout
    obtain ⟨_, _, p1, _, _, _, hp1, _, _⟩ := Core1D.scattering1d_eq_ok npBackend hout
    have hpsi : p1 = s.psi1.map FiltX.toFilt := by
      rw [psis_eq] at hp1
      have hp1 : (([s.psi1.map FiltX.toFilt, s.psi2.map FiltX.toFilt] : List _).take (nBanks a.maxOrder))[0]? =
        some p1 := hp1
      rw [List.getElem?_take] at hp1
      split at hp1
      · simpa using hp1.symm
      · cases hp1
    obtain ⟨n, hn⟩ := List.getElem?_of_mem (List.mem_map_of_mem (f := FiltX.toFilt) hf)
    have hmem : ([f.toFilt.j], [n]) ∈ out.map (fun p => (p.j, p.n)) := by
      rw [hlab]
      unfold Core1D.labels
      refine List.mem_cons_of_mem _ (List.mem_flatMap.2 ⟨(f.toFilt, n), ?_, ?_⟩)
      · rw [hp1, hpsi]
        exact List.mem_zipIdx_iff_getElem?.2 (by simpa using hn)
      · exact List.mem_cons_self
    obtain ⟨q, hq, hqe⟩ := List.mem_map.1 hmem
    injection hqe with _ hqn
    obtain ⟨q', -, hq'⟩ := forall₂_mem_left hpost hq
    unfold post at hq'
    obtain ⟨res, hres, -⟩ := bind_eq_ok.1 hq'
    unfold resolution at hres
    rw [if_neg (show ¬ (a.obj s).average = .loc from hav), if_pos (by rw [hqn]; simp),
      show (a.obj s).oversampling = none by
        show oversamplingInt a.oversampling = none
        rw [hov]; rfl] at hres
    cases hres
  | some o =>
    have hap : ∃ st, applyOversampling (some o) a.stride a.T a.J s.built.Ninput = .ok st := by
      unfold Args1D.make at hmake
      obtain ⟨N, hN, h⟩ := bind_eq_ok.1 hmake
      obtain ⟨T, hT, h⟩ := bind_eq_ok.1 h
      obtain ⟨b, hb, h⟩ := bind_eq_ok.1 h
      obtain ⟨Q, hQ, h⟩ := bind_eq_ok.1 h
      obtain ⟨f, hf, h⟩ := bind_eq_ok.1 h
      injection h with h
      subst h
      unfold build1D at hb
      obtain ⟨N', hN', hb⟩ := bind_eq_ok.1 hb
      obtain ⟨st, hst, hb⟩ := bind_eq_ok.1 hb
      obtain ⟨lT, hlT, hb⟩ := bind_eq_ok.1 hb
      obtain ⟨lr, hlr, hb⟩ := bind_eq_ok.1 hb
      injection hb with hb
      subst hb
      rw [hov] at hst
      exact ⟨st, hst⟩
    obtain ⟨st, hst⟩ := hap
    unfold applyOversampling at hst
    simp only at hst
    split at hst
    · cases hst
    · rename_i hneg
      cases o with
      | flt q => cases hst
      | int n =>
        by_cases hn : 0 < n
        · exact absurd hr (C61_oversampling_rejected a s hmake hav n hn hov x r)
        · have : ¬ ((n : Rat) < 0) := hneg
          have : ¬ n < 0 := by exact_mod_cast this
          rw [show n = 0 by omega]

/-- The crop of one path of the core with averaging off. -/
theorem crop_of_post {a : Args1D} {s : Sc1D} (hmake : a.make = .ok s) (hav : s.average = .no)
    (hov : a.oversampling = some (.int 0)) {x U : List ℝ} (hx : x.length = s.built.Ninput)
    (hpad : npPad x s.built.padLeft s.built.padRight = .ok U) {ls : Nat} {out : List (Path (List ℝ))}
    (hcore : Core1D.scattering1d npBackend U s.phi.toFilt (psis (a.obj s)) ls false = .ok out)
    {p q : Path (List ℝ)} (hq : q ∈ out) (hpq : post npFront (a.obj s) ls q = .ok p) :
    q.coef.length * 2 ^ (p.j.getLast?.getD 0) = s.built.Npadded ∧
    ∃ m0 : Nat, (∀ m, (m0 ≤ m ∧ m < m0 + p.coef.length) ↔
        (s.built.padLeft ≤ m * 2 ^ (p.j.getLast?.getD 0) ∧
          m * 2 ^ (p.j.getLast?.getD 0) < s.built.padLeft + x.length)) ∧
      ∀ t < p.coef.length, p.coef.getD t 0 = q.coef.getD (m0 + t) 0 := by
  have hnl : s.average ≠ .loc := by rw [hav]; simp
  obtain ⟨hn, hj⟩ := post_labels hpq
  obtain ⟨t, lT, -, -, -, h1, h2, h3, h4, h5, h6, h7, -⟩ := make_sizes hmake
  have hlen := core_length hcore hq
  rw [(npPad_length hpad).2.2, hx, h1] at hlen
  simp only [Bool.false_eq_true, if_false] at hlen
  rcases post_coef hpq with ⟨hgl, -⟩ | ⟨-, res, i0, i1, hres, hi0, hi1, hc⟩
  · have : s.average = .glob := hgl
    rw [hav] at this; cases this
  rw [hj]
  have hrj : res = q.j.getLast?.getD 0 := by
    have hlab := Core1D.labels_eq npBackend hcore
    have hmem : (q.j, q.n) ∈ out.map (fun p => (p.j, p.n)) := List.mem_map.2 ⟨q, hq, rfl⟩
    rw [hlab] at hmem
    unfold resolution at hres
    rw [if_neg (show ¬ (a.obj s).average = .loc from hnl)] at hres
    by_cases h0 : 0 < q.n.length
    · rw [if_pos h0, show (a.obj s).oversampling = some 0 by
          show oversamplingInt a.oversampling = some 0
          rw [hov]; rfl] at hres
      cases hgl : q.j.getLast? with
      | none => rw [hgl] at hres; cases hres
      | some j =>
        rw [hgl] at hres
        simp at hres
        simp
        omega
    · rw [if_neg h0] at hres
      injection hres with hres
      have hjn : q.j = [] := by
        unfold Core1D.labels at hmem
        rcases List.mem_cons.1 hmem with h | h
        · injection h
        · exfalso
          obtain ⟨r, -, hr⟩ := List.mem_flatMap.1 h
          rcases List.mem_cons.1 hr with h | h
          · injection h with _ h
            rw [h] at h0; simp at h0
          · unfold Core1D.labels2 at h
            obtain ⟨r', -, hr'⟩ := List.mem_flatMap.1 h
            split at hr'
            · simp only [List.mem_singleton] at hr'
              injection hr' with _ h
              rw [h] at h0; simp at h0
            · cases hr'
      rw [hjn]
      simp
      omega
  rw [← hrj] at hlen ⊢
  have hi0 : s.built.indStart res = some i0 := hi0
  have hi1 : s.built.indEnd res = some i1 := hi1
  have hle : res ≤ max lT a.J := by
    rw [h6, borderDict_get] at hi0
    by_contra hcc
    rw [if_neg hcc] at hi0
    cases hi0
  have hdiv : 2 ^ res ∣ s.built.padLeft + s.built.Ninput + s.built.padRight := by
    rw [h1, ← hlen]
    exact Dvd.intro_left _ rfl
  obtain ⟨st, e, hst, he, hse, hle2, -⟩ :=
    C05_unpadded_length lT a.J s.built.Ninput s.built.padLeft s.built.padRight res hle hdiv
  obtain ⟨st', e', hst', he', hiff⟩ := C03_border_indices lT a.J s.built.padLeft
    (s.built.padLeft + s.built.Ninput) res hle
  rw [hst] at hst'; injection hst' with hst'; subst hst'
  rw [he] at he'; injection he' with he'; subst he'
  have e0 : i0 = st := by
    have : s.built.indStart res = some st := by rw [h6]; exact hst
    rw [hi0] at this; injection this
  have e1 : i1 = e := by
    have : s.built.indEnd res = some e := by rw [h7]; exact he
    rw [hi1] at this; injection this
  subst e0; subst e1
  have hp' : q.coef.length = s.built.Npadded / 2 ^ res := by
    rw [← hlen, Nat.mul_div_cancel _ (by positivity)]
  rw [h1] at hle2
  have hpl : p.coef.length = i1 - i0 := by
    rw [hc]
    unfold npUnpad
    rw [List.length_drop, List.length_take, hp', min_eq_left hle2]
  refine ⟨hlen, i0, fun m => ?_, fun t ht => ?_⟩
  · rw [hpl, hx, ← hiff m]
    omega
  · rw [hc] at ht ⊢
    exact (getD_npUnpad_lt ht).1

/-- C61.  With averaging off, each returned coefficient of last scale `j` is exactly the part of the
core's output `Y` (sampled with step `2^j` on the padded grid) whose positions `i = m 2^j` lie in the
original range: all of them, in order. -/
theorem C61_crop (a : Args1D) (s : Sc1D) (hmake : a.make = .ok s) (hav : s.average = .no)
    (x : List ℝ) (l : List (Path (List ℝ))) (hl : a.run x = .ok (.list l)) :
    ∃ U out, npPad x s.built.padLeft s.built.padRight = .ok U ∧
      (∃ ls, Core1D.scattering1d npBackend U s.phi.toFilt (psis (a.obj s)) ls false = .ok out) ∧
      ∀ p ∈ l, ∃ q ∈ out, q.n = p.n ∧ q.j = p.j ∧
        ∃ m0 : Nat, (∀ m, (m0 ≤ m ∧ m < m0 + p.coef.length) ↔
            (s.built.padLeft ≤ m * 2 ^ (p.j.getLast?.getD 0) ∧
              m * 2 ^ (p.j.getLast?.getD 0) < s.built.padLeft + x.length)) ∧
          ∀ t < p.coef.length, p.coef.getD t 0 = q.coef.getD (m0 + t) 0 := by
  have hnl : s.average ≠ .loc := by rw [hav]; simp
  have hx := C57_length_checked a s hmake x _ hl
  have hov := oversampling_zero hmake hnl hl
  obtain ⟨U, ls, out, hpad, hls, hcore, hpost⟩ := run_list hmake hl
  rw [show decide (s.average = .loc) = false by simp [hav]] at hcore
  refine ⟨U, out, hpad, ⟨_, hcore⟩, fun p hp => ?_⟩
  obtain ⟨q, hq, hpq⟩ := hpost p hp
  obtain ⟨hn, hj⟩ := post_labels hpq
  refine ⟨q, hq, hn.symm, hj.symm, ?_⟩
  exact (crop_of_post hmake hav hov hx hpad hcore hq hpq).2

/-- An object with averaging off that returns. -/
example (x : List ℝ) (hx : x.length = 1000) : ∃ s l, (exArgs (.num 0) .list).make = .ok s ∧
    s.average = .no ∧ (exArgs (.num 0) .list).run x = .ok (.list l) := by
  obtain ⟨s, l, h1, -, h3, h4⟩ := exArgs_list (T := .num 0) (av := .no)
    (Or.inr (Or.inr (Or.inl ⟨rfl, rfl⟩))) x hx
  exact ⟨s, l, h1, h3, h4⟩

/-! ## C60 -/

theorem maxResidual_single (h : List ℝ) {n i : ℕ} (hl : h.length = n) :
    maxResidual ([h].map fun h => idft (h.map fun r : ℝ => (r : ℂ))) (n / 2) i =
      ∑ m ∈ Ico i (n / 2), ‖Spec.impulseR h m‖ := by
  unfold maxResidual
  simp only [List.map_cons, List.map_nil, List.foldr_cons, List.foldr_nil]
  rw [max_eq_left (Finset.sum_nonneg fun _ _ => norm_nonneg _)]
  apply Finset.sum_congr rfl
  intro m hm
  rw [mem_Ico] at hm
  congr 1
  rw [getD_idft_imp _ (by rw [List.length_map]; omega)]
  rfl

/-- C60.  Let `S` be the temporal support of the low-pass at the input length `N`: one more than the
first index from which the impulse response of the Gaussian of bandwidth `0.1 / T` sums to at most
`1e-3` up to `N / 2`, or `N / 2` if there is none.  Each side of the signal is padded by at least `3 S`
samples, with the smallest power of two that allows it, unless that power of two exceeds `3 N - 2`, in
which case the padded length is the largest power of two up to `3 N - 2`. -/
theorem C60_padding_margin (a : Args1D) (s : Sc1D) (hmake : a.make = .ok s) :
    ∃ (t : Rat) (S : Nat), parseT a.T a.J s.built.Ninput = .ok (t, s.average) ∧
      ((∃ i < s.built.Ninput / 2, S = i + 1 ∧
          ∑ m ∈ Ico i (s.built.Ninput / 2),
            ‖Spec.impulseR (gauss1d s.built.Ninput (0.1 / t)) m‖ ≤ 1e-3 ∧
          ∀ k < i, 1e-3 < ∑ m ∈ Ico k (s.built.Ninput / 2),
            ‖Spec.impulseR (gauss1d s.built.Ninput (0.1 / t)) m‖) ∨
        (S = s.built.Ninput / 2 ∧ ∀ k < s.built.Ninput / 2,
          1e-3 < ∑ m ∈ Ico k (s.built.Ninput / 2),
            ‖Spec.impulseR (gauss1d s.built.Ninput (0.1 / t)) m‖)) ∧
      s.built.Npadded ≤ 3 * s.built.Ninput - 2 ∧
      ((3 * S ≤ s.built.padLeft ∧ 3 * S ≤ s.built.padRight ∧
          ∀ k, s.built.Ninput + 6 * S ≤ 2 ^ k → s.built.Npadded ≤ 2 ^ k) ∨
        ∀ k, 2 ^ k ≤ 3 * s.built.Ninput - 2 → 2 ^ k ≤ s.built.Npadded) := by
  obtain ⟨t, lT, -, hT, -, h1, h2, h3, h4, h5, -⟩ := make_sizes hmake
  have hN : 1 ≤ s.built.Ninput := by omega
  have hs : (0 : ℝ) < 0.1 / t := by
    have : (0 : ℝ) < t := by exact_mod_cast lt_of_lt_of_le one_pos (parseT_ge_one hT)
    positivity
  have hg : (gauss1d s.built.Ninput (0.1 / t)).length = s.built.Ninput := length_morlet1d hs
  refine ⟨t, computeTemporalSupport [gauss1d s.built.Ninput (0.1 / t)] s.built.Ninput 1e-3, hT,
    ?_, ?_, ?_⟩
  · rcases support_cases [gauss1d s.built.Ninput (0.1 / t)] s.built.Ninput 1e-3 with
      ⟨i, hi, he, hr, hk⟩ | ⟨hk, he⟩
    · left
      refine ⟨i, hi, he, ?_, fun k hki => ?_⟩
      · rw [← maxResidual_single _ hg]; exact hr
      · rw [← maxResidual_single _ hg]; exact hk k hki
    · right
      refine ⟨he, fun k hki => ?_⟩
      rw [← maxResidual_single _ hg]; exact hk k hki
  · rw [h5]; exact jPad_le _ _ hN
  · obtain ⟨K, l, r, hK, hc, hsum, hl, hr, hlr, hrl, -, hor⟩ :=
      C01_padding_fits s.built.Ninput (minToPad s.built.Ninput t) hN
    rw [h5, hK]
    rw [h5, hK] at h1
    have hmin : minToPad s.built.Ninput t =
        3 * computeTemporalSupport [gauss1d s.built.Ninput (0.1 / t)] s.built.Ninput 1e-3 := rfl
    rw [hmin] at hor
    generalize computeTemporalSupport [gauss1d s.built.Ninput (0.1 / t)] s.built.Ninput 1e-3 = S at *
    rcases hor with ⟨c1, c2⟩ | c
    · left
      refine ⟨by omega, by omega, fun k hk => Nat.pow_le_pow_right (by norm_num) (c2 k (by omega))⟩
    · right
      intro k hk
      exact Nat.pow_le_pow_right (by norm_num) (c k hk)

/-- A constructed object. -/
example : ∃ s, (exArgs .none .array).make = .ok s ∧ s.built.Ninput = 1000 := by
  obtain ⟨s, h1, h2, -⟩ := exArgs_run (T := .none) (av := .loc) .array (Or.inl ⟨rfl, rfl⟩)
    (Or.inr (Or.inr ⟨rfl, by simp⟩))
  exact ⟨s, h1, h2⟩

/-! ## C62 -/

/-- C62: `spin(bank)` lists the filters of the bank, then for each of them, in the same order, the
filter with opposite centre frequency and the same bandwidth. -/
theorem C62_spin (bank : Nat → Nat → List (ℝ × ℝ)) (J Q : Nat) :
    (spin bank J Q).length = 2 * (bank J Q).length ∧
    ∀ n xi sigma, (bank J Q)[n]? = some (xi, sigma) →
      (spin bank J Q)[n]? = some (xi, sigma) ∧
      (spin bank J Q)[(bank J Q).length + n]? = some (-xi, sigma) := by
  unfold spin
  refine ⟨by rw [List.length_append, List.length_map]; ring, fun n xi sigma h => ⟨?_, ?_⟩⟩
  · have hn : n < (bank J Q).length := (List.getElem?_eq_some_iff.1 h).1
    rw [List.getElem?_append_left hn, h]
  · rw [List.getElem?_append_right (by omega), Nat.add_sub_cancel_left, List.getElem?_map, h]
    rfl

/-- The spinned bank is closed under reversal of frequency. -/
theorem C62_symmetric (bank : Nat → Nat → List (ℝ × ℝ)) (J Q : Nat) (xi sigma : ℝ) :
    (xi, sigma) ∈ spin bank J Q ↔ (-xi, sigma) ∈ spin bank J Q := by
  have key : ∀ xi, (xi, sigma) ∈ spin bank J Q → (-xi, sigma) ∈ spin bank J Q := by
    intro xi h
    unfold spin at *
    rcases List.mem_append.1 h with h | h
    · exact List.mem_append_right _ (List.mem_map.2 ⟨_, h, rfl⟩)
    · obtain ⟨⟨f1, f2⟩, hf, he⟩ := List.mem_map.1 h
      injection he with e1 e2
      simp only at e1 e2
      rw [← e1, ← e2, neg_neg]
      exact List.mem_append_left _ hf
  refine ⟨key xi, fun h => ?_⟩
  have := key _ h
  rwa [neg_neg] at this

example : ∃ p, (anden 3 8)[0]? = some p := anden_nonempty (by norm_num)

end Verif
