import Verif.Lemmas.Reversal1D
import Verif.Props.Laws1D
import Verif.Props.ClosedObject1D

/-!
# C84: time reversal
-/

namespace Verif

open Core1D Front1D

/-- **Circular time reversal commutes with the transform.**  If `y[n] = x[-n mod N]`, the transform of
`y` succeeds whenever that of `x` does, has the same paths in the same order, and every coefficient is
reversed in the same way, whatever the real filters, the stride, and with or without averaging. -/
theorem C84_circular (x y : List ℝ) (hrev : Spec.IsReversal x y) (phi : Filt (List ℝ))
    (psis : List (List (Filt (List ℝ)))) (ls : Nat) (avg : Bool)
    (out : List (Path (List ℝ))) (h : scattering1d npBackend x phi psis ls avg = .ok out) :
    ∃ out', scattering1d npBackend y phi psis ls avg = .ok out' ∧
      List.Forall₂ (fun p q => p.n = q.n ∧ p.j = q.j ∧ Spec.IsReversal p.coef q.coef) out out' := by
  obtain ⟨out', h', hr⟩ := sim_scattering1d revRel (filt_refl _ (fun _ _ => rfl) phi)
    (filts_refl _ (fun _ _ => rfl) psis) (x := x) (y := y) hrev _ h
  refine ⟨out', h', hr.imp ?_⟩
  rintro p q ⟨hj, hn, hc⟩
  exact ⟨hn, hj, hc⟩

/-- The circular reversal of a list. -/
def circRev (x : List ℝ) : List ℝ := tab x.length fun n => x.getD (Spec.negIdx x.length n) 0

theorem circRev_isReversal (x : List ℝ) : Spec.IsReversal x (circRev x) :=
  ⟨by simp [circRev], fun n hn => by unfold circRev; rw [getD_tab_lt hn]⟩

theorem getD_reverse' {x : List ℝ} {n : Nat} (hn : n < x.length) :
    x.reverse.getD n 0 = x.getD (x.length - 1 - n) 0 := by
  rw [List.getD_eq_getElem?_getD, List.getD_eq_getElem?_getD, List.getElem?_reverse hn]

/-- The circular reversal moved by one sample is the reversal. -/
theorem reverse_of_reversal {x y z : List ℝ} (h : Spec.IsReversal x y) (h' : Spec.IsRoll (-1) y z) :
    z = x.reverse := by
  apply list_ext_getD 0 (by rw [h'.1, h.1]; simp)
  intro n hn
  have hn : n < x.length := by rw [h'.1, h.1] at hn; exact hn
  rw [h'.2 n (by rw [h.1]; exact hn), getD_reverse' hn, h.1]
  have e : (((n : ℤ) - -1) % (x.length : ℤ)).toNat = (n + 1) % x.length := by
    rw [show (n : ℤ) - -1 = ((n + 1 : ℕ) : ℤ) by push_cast; ring]
    rw [← Int.natCast_emod]
    rfl
  rw [e, h.2 _ (Nat.mod_lt _ (by omega))]
  congr 1
  by_cases hc : n + 1 = x.length
  · rw [hc, Nat.mod_self]
    unfold Spec.negIdx
    rw [if_pos rfl]
    omega
  · rw [Nat.mod_eq_of_lt (by omega)]
    unfold Spec.negIdx
    rw [if_neg (by omega)]
    omega

theorem roll_circRev (x : List ℝ) : Spec.IsRoll (-1) (circRev x) x.reverse := by
  have hl : (circRev x).length = x.length := by simp [circRev]
  refine ⟨by simp [hl], fun n hn => ?_⟩
  rw [hl] at hn ⊢
  rw [getD_reverse' hn]
  have e : (((n : ℤ) - -1) % (x.length : ℤ)).toNat = (n + 1) % x.length := by
    rw [show (n : ℤ) - -1 = ((n + 1 : ℕ) : ℤ) by push_cast; ring]
    rw [← Int.natCast_emod]
    rfl
  rw [e, (circRev_isReversal x).2 _ (Nat.mod_lt _ (by omega))]
  congr 1
  by_cases hc : n + 1 = x.length
  · rw [hc, Nat.mod_self]
    unfold Spec.negIdx
    rw [if_pos rfl]
    omega
  · rw [Nat.mod_eq_of_lt (by omega)]
    unfold Spec.negIdx
    rw [if_neg (by omega)]
    omega

/-- **At stride one the transform of the reversed padded signal is the reversed transform.** -/
theorem C84_reverse (x : List ℝ) (phi : Filt (List ℝ)) (psis : List (List (Filt (List ℝ))))
    (out : List (Path (List ℝ))) (h : scattering1d npBackend x phi psis 0 true = .ok out) :
    ∃ out', scattering1d npBackend x.reverse phi psis 0 true = .ok out' ∧
      List.Forall₂ (fun p q => p.n = q.n ∧ p.j = q.j ∧ q.coef = p.coef.reverse) out out' := by
  obtain ⟨o1, h1, r1⟩ := C84_circular x _ (circRev_isReversal x) phi psis 0 true out h
  obtain ⟨o2, h2, r2⟩ := C18_averaged _ _ (-1) (roll_circRev x) phi psis 0 (by simp) o1 h1
  refine ⟨o2, h2, ?_⟩
  clear h h1 h2
  induction r1 generalizing o2 with
  | nil => cases r2; exact .nil
  | cons hab _ ih =>
    cases r2 with
    | cons hbc r2 =>
      refine .cons ⟨hab.1.trans hbc.1, hab.2.1.trans hbc.2.1, ?_⟩ (ih _ r2)
      refine reverse_of_reversal hab.2.2 ?_
      simpa using hbc.2.2

/-- Symmetric reflection padding commutes with reversal. -/
theorem npPad_reverse {x U : List ℝ} {p : Nat} (h : npPad x p p = .ok U) :
    npPad x.reverse p p = .ok U.reverse := by
  have hlen := length_npPad h
  have hp : ¬ (p ≥ x.length ∨ p ≥ x.length) := by
    intro hc
    unfold npPad at h
    rw [if_pos hc] at h
    cases h
  unfold npPad
  rw [List.length_reverse, if_neg hp]
  congr 1
  apply list_ext_getD 0 (by simp [hlen])
  intro n hn
  have hn : n < p + x.length + p := by simpa using hn
  have hr : reflectIndex x.length p n < x.length := by
    unfold reflectIndex
    split_ifs <;> omega
  rw [getD_tab_lt hn, getD_reverse' hr, getD_reverse' (x := U) (by omega), getD_npPad h (by omega)]
  congr 1
  unfold reflectIndex
  split_ifs <;> omega

theorem npUnpad_reverse {c : List ℝ} {p N : Nat} (h : c.length = p + N + p) :
    npUnpad c.reverse p (p + N) = (npUnpad c p (p + N)).reverse := by
  unfold npUnpad
  rw [List.take_reverse, List.drop_reverse, List.drop_take, List.length_drop, h,
    show p + N + p - (p + N) = p by omega, show p + N + p - p - p = p + N - p by omega]

/-- **Reversing a signal reverses its scattering transform.**  For every object with local averaging
and stride one built for an even number of samples: the reversed signal is accepted as well and every
path returned for it is the reversal of the path returned for the signal. -/
theorem C84_object (a : Args1D) (s : Sc1D) (hmake : a.make = .ok s) (havg : s.average = .loc)
    (hls : log2Stride s.built.stride a.T a.J s.built.Ninput = .ok ((0 : ℕ) : ℤ))
    (heven : Even s.built.Ninput) (x : List ℝ) (hx : x.length = s.built.Ninput)
    (l : List (Path (List ℝ))) (hl : a.run x = .ok (.list l)) :
    ∃ l', a.run x.reverse = .ok (.list l') ∧
      List.Forall₂ (fun p q => p.n = q.n ∧ p.j = q.j ∧ p.coef.length = x.length ∧
        q.coef = p.coef.reverse) l l' := by
  obtain ⟨s', hs', hrun⟩ := bind_eq_ok.1 hl
  rw [hmake] at hs'
  injection hs' with hs'
  subst hs'
  obtain ⟨t, lT, hN, hT, hlT, h1, h2, h3, h4, h5, h6, h7, -⟩ := make_sizes hmake
  have hpow : Even s.built.Npadded ∨ s.built.Npadded = 1 := by
    rw [h5]
    rcases Nat.eq_zero_or_pos (jPad s.built.Ninput (minToPad s.built.Ninput t)) with h | h
    · right; rw [h]; rfl
    · left; exact (Nat.even_pow.2 ⟨by decide, by omega⟩)
  have hpp : s.built.padRight = s.built.padLeft := by
    obtain ⟨k, hk⟩ := heven
    rcases hpow with ⟨k', hk'⟩ | h <;> omega
  obtain ⟨hc, m, hm, ha⟩ := scattering_eq_ok.1 hrun
  have hot : (a.obj s).outType = .list ∧ l = sortPaths m := by
    unfold assemble at ha
    split at ha
    · cases ha
    · rename_i ho
      injection ha with ha
      injection ha with ha
      exact ⟨ho, ha.symm⟩
    · obtain ⟨r, -, ha⟩ := bind_eq_ok.1 ha
      cases ha
  obtain ⟨hot, rfl⟩ := hot
  obtain ⟨U0, ls', out, hU0, hls', hout, hpost⟩ := paths_eq_ok.1 hm
  have hls'' : ((0 : ℕ) : Int) = ls' := by
    have : log2Stride s.built.stride a.T a.J s.built.Ninput = .ok ls' := hls'
    rw [hls] at this
    injection this
  subst hls''
  have hav : (a.obj s).average = .loc := havg
  rw [Int.toNat_natCast] at hout hpost
  have hU0' : npPad x s.built.padLeft s.built.padRight = .ok U0 := hU0
  have hUl := length_npPad hU0'
  rw [hpp] at hU0'
  have hUr := npPad_reverse hU0'
  rw [hav] at hout
  have hcl : ∀ p ∈ out, p.coef.length = s.built.padLeft + x.length + s.built.padLeft := by
    intro p hp
    have := core_length hout hp
    rw [hUl] at this
    simpa [hpp] using this
  obtain ⟨out', hout', hrel⟩ := C84_reverse U0 _ _ _ hout
  have hrel' : List.Forall₂ (fun p q => p.coef.length = s.built.padLeft + x.length + s.built.padLeft ∧
      p.n = q.n ∧ p.j = q.j ∧ q.coef = p.coef.reverse) out out' := by
    rw [List.forall₂_iff_get] at hrel ⊢
    exact ⟨hrel.1, fun i hi hi' => ⟨hcl _ (List.get_mem _ _), hrel.2 i hi hi'⟩⟩
  have hi0 : s.built.indStart 0 = some s.built.padLeft := by
    rw [h6, borderDict_get]; simp
  have hi1 : s.built.indEnd 0 = some (s.built.padLeft + x.length) := by
    rw [h7, borderDict_get, hx]; simp
  have hpostval : ∀ p : Path (List ℝ), post npFront (a.obj s) 0 p =
      .ok { p with coef := npUnpad p.coef s.built.padLeft (s.built.padLeft + x.length) } := by
    intro p
    unfold post resolution
    have hne : ¬ (a.obj s).average = .glob := by rw [hav]; simp
    rw [if_pos hav]
    have e0 : dictGet (a.obj s).indStart 0 = .ok s.built.padLeft := dictGet_eq_ok.2 hi0
    have e1 : dictGet (a.obj s).indEnd 0 = .ok (s.built.padLeft + x.length) := dictGet_eq_ok.2 hi1
    simp only [bind, Except.bind, if_neg hne, e0, e1]
    rfl
  have key : ∃ m', List.Forall₂ (fun p q => post npFront (a.obj s) 0 p = .ok q) out' m' ∧
      List.Forall₂ (fun p q => p.n = q.n ∧ p.j = q.j ∧ p.coef.length = x.length ∧
        q.coef = p.coef.reverse) m m' := by
    clear hout hout' hrel hcl hm ha hl hrun
    induction hrel' generalizing m with
    | nil => cases hpost; exact ⟨[], .nil, .nil⟩
    | cons hab _ ih =>
      cases hpost with
      | cons hpq hpost =>
        obtain ⟨m', hm1, hm2⟩ := ih _ hpost
        refine ⟨_ :: m', .cons (hpostval _) hm1, .cons ?_ hm2⟩
        rw [hpostval] at hpq
        injection hpq with hpq
        rw [← hpq]
        refine ⟨hab.2.1, hab.2.2.1, ?_, ?_⟩
        · show (npUnpad _ _ _).length = _
          unfold npUnpad
          rw [List.length_drop, List.length_take, hab.1]
          omega
        · show npUnpad _ _ _ = List.reverse (npUnpad _ _ _)
          rw [hab.2.2.2, npUnpad_reverse hab.1]
  obtain ⟨m', hm1, hm2⟩ := key
  refine ⟨sortPaths m', ?_, sortPaths_rel (fun p q h => h.1) hm2⟩
  refine bind_eq_ok.2 ⟨s, hmake, scattering_eq_ok.2 ⟨hc, m', paths_eq_ok.2
    ⟨U0.reverse, ((0 : ℕ) : ℤ), out', ?_, hls', ?_, ?_⟩, ?_⟩⟩
  · show npPad x.reverse s.built.padLeft s.built.padRight = _
    rw [hpp]; exact hUr
  · rw [Int.toNat_natCast, hav]; exact hout'
  · rw [Int.toNat_natCast]; exact hm1
  · unfold assemble
    rw [hot]

/-- C84, array output: scattering `x[::-1]` returns the reversed rows, `S[:, ::-1]`. -/
theorem C84_array (a : Args1D) (hot : a.outType = .array) (s : Sc1D) (hmake : a.make = .ok s)
    (havg : s.average = .loc)
    (hls : log2Stride s.built.stride a.T a.J s.built.Ninput = .ok ((0 : ℕ) : ℤ))
    (heven : Even s.built.Ninput) (x : List ℝ) (hx : x.length = s.built.Ninput)
    (rows : List (List ℝ)) (hl : a.run x = .ok (.array rows)) :
    a.run x.reverse = .ok (.array (rows.map List.reverse)) := by
  obtain ⟨s', hs', hrun⟩ := bind_eq_ok.1 hl
  rw [hmake] at hs'
  injection hs' with hs'
  subst hs'
  have eA : a.obj s = { a.obj s with outType := .array } := by
    rw [show OutType.array = (a.obj s).outType from hot.symm]
  rw [eA] at hrun
  obtain ⟨l, hlist, rfl⟩ := C16_array_eq_list npBackend npFront (a.obj s) x rows hrun
  have hmk : ({ a with outType := .list } : Args1D).make = .ok s := hmake
  have hl1 : ({ a with outType := .list } : Args1D).run x = .ok (.list l) :=
    bind_eq_ok.2 ⟨s, hmk, hlist⟩
  obtain ⟨l', hl', hrel⟩ := C84_object { a with outType := .list } s hmk havg hls heven x hx l hl1
  obtain ⟨s', hs', hrun'⟩ := bind_eq_ok.1 hl'
  rw [hmk] at hs'
  injection hs' with hs'
  subst hs'
  have hlen : ∀ q ∈ l', q.coef.length = x.length := by
    intro q hq
    obtain ⟨p, -, -, -, h1, h2⟩ := forall₂_mem_right hrel hq
    rw [h2, List.length_reverse, h1]
  have := C16_array_exists npBackend npFront (a.obj s) x.reverse l' hrun'
    (by show s.average ≠ .no; rw [havg]; simp)
    (fun p hp q hq => by
      show p.coef.length = q.coef.length
      rw [hlen p hp, hlen q hq])
  rw [← eA] at this
  refine bind_eq_ok.2 ⟨s, hmake, this.trans ?_⟩
  congr 2
  rw [List.map_map]
  clear this hlen hrun' hl' hl1 hlist hrun hl
  induction hrel with
  | nil => rfl
  | cons h _ ih => rw [List.map_cons, List.map_cons, ih, h.2.2.2]; rfl

/-- `Scattering1D(J=3, shape=1000, Q=(8,1), stride=1)`. -/
def exArgsS1 : Args1D := { exArgs .none .list with stride := some (.int (2 ^ 0)) }

/-- The hypotheses of `C84_object` are met by that object and every signal of 1000 samples. -/
example (x : List ℝ) (hx : x.length = 1000) : ∃ s l, exArgsS1.make = .ok s ∧ s.average = .loc ∧
    log2Stride s.built.stride exArgsS1.T exArgsS1.J s.built.Ninput = .ok ((0 : ℕ) : ℤ) ∧
    Even s.built.Ninput ∧ x.length = s.built.Ninput ∧ exArgsS1.run x = .ok (.list l) := by
  obtain ⟨s, h1, h2, h3, h4⟩ := C17_no_error exArgsS1 1000 rfl (by norm_num) (2 ^ 3) .loc rfl 8 1 rfl
    (by norm_num) (le_jPad_of_pow (by norm_num) (by norm_num [exArgsS1, exArgs])) rfl
    (by norm_num [exArgsS1, exArgs]) (Or.inr ⟨0, rfl, by norm_num, rfl⟩) (Or.inl rfl)
  obtain ⟨r, hr⟩ := h4 x hx
  obtain ⟨s', hs', hr'⟩ := bind_eq_ok.1 hr
  obtain ⟨-, l, hl1, hl⟩ := scattering_eq_ok.1 hr'
  obtain ⟨s'', h1', -, -, h5⟩ := C17_construction exArgsS1 1000 rfl (by norm_num) (2 ^ 3)
    .loc rfl 8 1 rfl (by norm_num) (le_jPad_of_pow (by norm_num) (by norm_num [exArgsS1, exArgs])) (Or.inr rfl)
  rw [h1] at h1'
  injection h1' with h1'
  subst h1'
  refine ⟨s, sortPaths l, h1, h3, ?_, ?_, by omega, ?_⟩
  · rw [h5, h2]
    exact (C07_log2_stride_ok _ _ _ _ _).2 (Or.inr ⟨0, rfl, rfl, 2 ^ 3, rfl⟩)
  · rw [h2]; decide
  · rw [hr]
    unfold assemble at hl
    rw [show (exArgsS1.obj s').outType = .list from rfl] at hl
    exact hl.symm

/-- `C84_array` on an object: `Scattering1D(J=3, shape=1000, Q=(8,1), stride=1)` with the default
array output. -/
example (x : List ℝ) (hx : x.length = 1000) :
    ∃ rows, ({ exArgsS1 with outType := .array } : Args1D).run x = .ok (.array rows) ∧
      ({ exArgsS1 with outType := .array } : Args1D).run x.reverse = .ok (.array (rows.map List.reverse)) := by
  obtain ⟨s, h1, h2, h3, h4⟩ := C17_no_error { exArgsS1 with outType := .array } 1000 rfl (by norm_num)
    (2 ^ 3) .loc rfl 8 1 rfl
    (by norm_num) (le_jPad_of_pow (by norm_num) (by norm_num [exArgsS1, exArgs])) rfl
    (by norm_num [exArgsS1, exArgs]) (Or.inr ⟨0, rfl, by norm_num, rfl⟩) (Or.inr (by simp))
  obtain ⟨r, hr⟩ := h4 x hx
  obtain ⟨s', hs', hr'⟩ := bind_eq_ok.1 hr
  obtain ⟨-, l, hl1, hl⟩ := scattering_eq_ok.1 hr'
  obtain ⟨rows, -, hl⟩ := bind_eq_ok.1 hl
  injection hl with hl
  subst hl
  obtain ⟨s'', h1', -, -, h5⟩ := C17_construction exArgsS1 1000 rfl (by norm_num) (2 ^ 3)
    .loc rfl 8 1 rfl (by norm_num) (le_jPad_of_pow (by norm_num) (by norm_num [exArgsS1, exArgs])) (Or.inr rfl)
  rw [show exArgsS1.make = _ from h1] at h1'
  injection h1' with h1'
  subst h1'
  refine ⟨rows, hr, C84_array _ rfl s h1 h3 ?_ ?_ x (by omega) rows hr⟩
  · rw [h5, h2]
    exact (C07_log2_stride_ok _ _ _ _ _).2 (Or.inr ⟨0, rfl, rfl, 2 ^ 3, rfl⟩)
  · rw [h2]; decide

end Verif
