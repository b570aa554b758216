import Verif.Props.Crop1D

/-!
# C109: global averaging
-/

namespace Verif

open Core1D Front1D

/-- `T=0` and `T='global'` build the same object, up to the kind of averaging. -/
theorem make_zero_global {a : Args1D} {s g : Sc1D} (h0 : { a with T := .num 0 }.make = .ok s)
    (hg : { a with T := .global }.make = .ok g) :
    g = { s with average := .glob } ∧ s.average = .no ∧
      log2Stride s.built.stride (.num 0) a.J s.built.Ninput = log2Stride g.built.stride .global a.J g.built.Ninput := by
  have hp : ∀ N, parseT (.num 0) a.J N = .ok ((2 : Rat) ^ a.J, .no) := fun N => ((C06_parse_T a.J N).2.2 0).1 rfl
  have hl : ∀ N, log2T (.num 0) a.J N = log2T .global a.J N := by
    intro N
    unfold log2T
    rw [hp]
    rfl
  have ho : ∀ N, applyOversampling a.oversampling a.stride (.num 0) a.J N = applyOversampling a.oversampling a.stride .global a.J N := by
    intro N
    unfold applyOversampling
    rw [hl]
  have hs : ∀ st N, log2Stride st (.num 0) a.J N = log2Stride st .global a.J N := by
    intro st N
    unfold log2Stride
    rw [hl, hp]
    rfl
  obtain ⟨N, h1, h0⟩ := bind_eq_ok.1 h0
  obtain ⟨T, h2, h0⟩ := bind_eq_ok.1 h0
  obtain ⟨b, h3, h0⟩ := bind_eq_ok.1 h0
  obtain ⟨Q, h4, h0⟩ := bind_eq_ok.1 h0
  obtain ⟨f, h5, h0⟩ := bind_eq_ok.1 h0
  cases h0
  rw [hp] at h2
  cases h2
  obtain ⟨N', g1, hg⟩ := bind_eq_ok.1 hg
  obtain ⟨T', g2, hg⟩ := bind_eq_ok.1 hg
  obtain ⟨b', g3, hg⟩ := bind_eq_ok.1 hg
  obtain ⟨Q', g4, hg⟩ := bind_eq_ok.1 hg
  obtain ⟨f', g5, hg⟩ := bind_eq_ok.1 hg
  cases hg
  cases h1.symm.trans g1
  cases g2
  cases h4.symm.trans g4
  have hb : b' = b := by
    refine Except.ok.inj (g3.symm.trans (Eq.trans ?_ h3))
    unfold build1D
    simp only [ho, hl]
  subst hb
  cases h5.symm.trans g5
  exact ⟨rfl, rfl, hs _ _⟩

theorem forall₂_join {α β γ : Type} {R : α → β → Prop} {S : α → γ → Prop} {l : List α} {m : List β} (h : List.Forall₂ R l m) :
    ∀ {m' : List γ}, List.Forall₂ S l m' → List.Forall₂ (fun p q => ∃ r ∈ l, R r p ∧ S r q) m m' := by
  induction h with
  | nil => intro m' h'; cases h'; exact .nil
  | cons h _ ih =>
    intro m' h'
    cases h' with
    | cons h' t =>
      refine .cons ⟨_, List.mem_cons_self, h, h'⟩ ((ih t).imp ?_)
      rintro p q ⟨r, hr, hp, hq⟩
      exact ⟨r, List.mem_cons_of_mem _ hr, hp, hq⟩

/-- **What `T='global'` computes.**  The two objects built with `T=0` and `T='global'` return the same paths in the same order.
For each path there is one sequence `u` over the padded signal, with one sample every `2^j` (`j` the scale of the last wavelet);
`T=0` returns the samples of `u` in the range of the signal, and `T='global'` the sum of all the samples of `u`, that is the mean of
`u` over the padded range times their number `Npadded / 2^j`. -/
theorem C109_sum_partial (a : Args1D) (x : List ℝ) (l0 lg : List (Path (List ℝ)))
    (h0 : { a with T := .num 0 }.run x = .ok (.list l0)) (hg : { a with T := .global }.run x = .ok (.list lg)) :
    ∃ s, { a with T := .num 0 }.make = .ok s ∧ List.Forall₂ (fun p q => p.n = q.n ∧ p.j = q.j ∧
      ∃ u : List ℝ, u.length * 2 ^ (p.j.getLast?.getD 0) = s.built.Npadded ∧
        (∃ m0 : ℕ, (∀ m, (m0 ≤ m ∧ m < m0 + p.coef.length) ↔
          (s.built.padLeft ≤ m * 2 ^ (p.j.getLast?.getD 0) ∧
            m * 2 ^ (p.j.getLast?.getD 0) < s.built.padLeft + x.length)) ∧
          ∀ t < p.coef.length, p.coef.getD t 0 = u.getD (m0 + t) 0) ∧
        q.coef = [u.sum] ∧
        q.coef = [(s.built.Npadded / 2 ^ (p.j.getLast?.getD 0) : ℝ) * (u.sum / u.length)]) l0 lg := by
  obtain ⟨s, hs, hr⟩ := bind_eq_ok.1 h0
  obtain ⟨g, hgm, hr'⟩ := bind_eq_ok.1 hg
  obtain ⟨rfl, hav, hls⟩ := make_zero_global hs hgm
  have hx := C57_length_checked _ s hs x _ h0
  have hov := oversampling_zero hs (by rw [hav]; simp) h0
  refine ⟨s, hs, ?_⟩
  obtain ⟨-, m, hm, ha⟩ := scattering_eq_ok.1 hr
  obtain ⟨-, m', hm', ha'⟩ := scattering_eq_ok.1 hr'
  have e : l0 = sortPaths m := by
    unfold assemble at ha
    split at ha
    · cases ha
    · cases ha; rfl
    · obtain ⟨rows, -, h⟩ := bind_eq_ok.1 ha
      cases h
  have e' : lg = sortPaths m' := by
    unfold assemble at ha'
    split at ha'
    · cases ha'
    · cases ha'; rfl
    · obtain ⟨rows, -, h⟩ := bind_eq_ok.1 ha'
      cases h
  rw [e, e']
  refine sortPaths_rel (fun p q h => h.1) ?_
  obtain ⟨U, ls, out, c1, c2, c3, c4⟩ := paths_eq_ok.1 hm
  obtain ⟨U', ls', out', d1, d2, d3, d4⟩ := paths_eq_ok.1 hm'
  cases c1.symm.trans d1
  have : ls = ls' := Except.ok.inj (c2.symm.trans (hls.trans d2))
  subst this
  have hc3 : scattering1d npBackend U s.phi.toFilt (psis (({ a with T := .num 0 } : Args1D).obj s)) ls.toNat false = .ok out := by
    rw [← c3]
    congr 1
    show false = decide (s.average = .loc)
    rw [hav]
    rfl
  have hd3 : scattering1d npBackend U s.phi.toFilt (psis (({ a with T := .num 0 } : Args1D).obj s)) ls.toNat false = .ok out' := d3
  cases hc3.symm.trans hd3
  have key := forall₂_join c4 d4
  refine key.imp ?_
  rintro p q ⟨r, hr, hp, hq⟩
  obtain ⟨n1, j1⟩ := post_labels hp
  obtain ⟨n2, j2⟩ := post_labels hq
  obtain ⟨hlen, m0, hm0⟩ := crop_of_post hs hav hov hx c1 hc3 hr hp
  have hqc : q.coef = [r.coef.sum] := by
    rcases post_coef hq with ⟨-, h⟩ | ⟨h, -⟩
    · exact h
    · exact absurd rfl h
  refine ⟨n1.trans n2.symm, j1.trans j2.symm, r.coef, hlen, ⟨m0, hm0⟩, hqc, ?_⟩
  rw [hqc]
  congr 1
  have h2 : (0 : ℝ) < 2 ^ (p.j.getLast?.getD 0) := by positivity
  have hl0 : (r.coef.length : ℝ) ≠ 0 := by
    obtain ⟨t, lT, -, -, -, -, -, -, -, h5, -⟩ := make_sizes hs
    intro hz
    have : r.coef.length = 0 := by exact_mod_cast hz
    rw [this, zero_mul, h5] at hlen
    exact absurd hlen.symm (by positivity)
  rw [← hlen]
  push_cast
  field_simp

/-- **Not an average.**  With `T='global'` the zeroth coefficient of the constant signal `c` is `Npadded * c`. -/
theorem C109_average_violated (a : Args1D) (s : Sc1D) (hmake : a.make = .ok s) (hT : a.T = .global) (c : ℝ)
    (l : List (Path (List ℝ))) (hl : a.run (List.replicate s.built.Ninput c) = .ok (.list l)) :
    s.built.Ninput ≤ s.built.Npadded ∧ ∀ p ∈ l, p.n = [] → p.coef = [s.built.Npadded * c] := by
  obtain ⟨U, ls, out, hpad, -, hcore, hpost⟩ := run_list hmake hl
  obtain ⟨t, lT, hN, hT', -, h1, -⟩ := make_sizes hmake
  refine ⟨by omega, fun p hp hn => ?_⟩
  have hav : s.average = .glob := by
    rw [hT] at hT'
    exact ((Prod.mk.inj (Except.ok.inj hT')).2).symm
  obtain ⟨q, hq, hpq⟩ := hpost p hp
  have hlenU := length_npPad hpad
  rw [List.length_replicate, h1] at hlenU
  have hU : U = List.replicate U.length c := by
    refine List.ext_getElem (by simp) fun m hm _ => ?_
    rw [List.getElem_replicate]
    have := getD_npPad hpad hm
    rw [List.getD_eq_getElem?_getD, List.getElem?_eq_getElem hm, Option.getD_some] at this
    rw [this]
    have hlt : ¬ (s.built.padLeft ≥ (List.replicate s.built.Ninput c).length ∨
        s.built.padRight ≥ (List.replicate s.built.Ninput c).length) := by
      intro hc
      unfold npPad at hpad
      rw [if_pos hc] at hpad
      cases hpad
    rw [List.length_replicate] at *
    have hr : reflectIndex s.built.Ninput s.built.padLeft m < s.built.Ninput := by
      push Not at hlt
      have hm' : m < s.built.padLeft + s.built.Ninput + s.built.padRight := by omega
      unfold reflectIndex
      split
      · omega
      · split <;> omega
    rw [List.getD_eq_getElem?_getD, List.getElem?_replicate, if_pos hr]
    rfl
  have hqU : q.coef = U := by
    have hqn : q.n = [] := by rw [← (post_labels hpq).1]; exact hn
    rw [show decide (s.average = .loc) = false by simp [hav]] at hcore
    have key := mem_scattering1d npBackend hcore hq
    cases key with
    | zero U0hat c h0 hc => exact (Except.ok.inj hc).symm
    | one => cases hqn
    | two => cases hqn
  rcases post_coef hpq with ⟨-, h⟩ | ⟨h, -⟩
  · rw [h, hqU, hU, List.sum_replicate, hlenU, nsmul_eq_mul]
  · exact absurd hav h

/-! ## Concrete cases -/

/-- The signals of 1000 samples: both objects return. -/
example (x : List ℝ) (hx : x.length = 1000) : ∃ l0 lg, (exArgs (.num 0) .list).run x = .ok (.list l0) ∧
    (exArgs .global .list).run x = .ok (.list lg) ∧ l0.length = lg.length := by
  obtain ⟨s, l0, -, -, -, h0⟩ := exArgs_list (T := .num 0) (av := .no) (.inr (.inr (.inl ⟨rfl, rfl⟩))) x hx
  obtain ⟨s', lg, -, -, -, hg⟩ := exArgs_list (T := .global) (av := .glob) (.inr (.inl ⟨rfl, rfl⟩)) x hx
  obtain ⟨t, -, h⟩ := C109_sum_partial (exArgs .global .list) x l0 lg h0 hg
  exact ⟨l0, lg, h0, hg, h.length_eq⟩

/-- The signal of 1000 ones has a zeroth coefficient of at least 1000. -/
example : ∃ l, (exArgs .global .list).run (List.replicate 1000 1) = .ok (.list l) ∧
    ∀ p ∈ l, p.n = [] → ∃ v, p.coef = [v] ∧ 1000 ≤ v := by
  obtain ⟨s, l, hs, hN, -, h⟩ := exArgs_list (T := .global) (av := .glob) (.inr (.inl ⟨rfl, rfl⟩)) (List.replicate 1000 1)
    List.length_replicate
  have := C109_average_violated (exArgs .global .list) s hs rfl 1 l (by rw [hN]; exact h)
  refine ⟨l, h, fun p hp hn => ⟨_, this.2 p hp hn, ?_⟩⟩
  rw [mul_one]
  have h' := this.1
  rw [hN] at h'
  exact_mod_cast h'

end Verif
