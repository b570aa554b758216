import Verif.Props.ClosedForm1D
import Verif.Props.Fourier1D
import Verif.Props.Morlet1D
import Verif.Props.Crop1D

/-!
# C13 for the whole transform

From the constructor arguments and the input samples to the returned coefficients: reflection
padding, Morlet filters of the Anden bank, cascade, unpadding.
-/

namespace Verif

open Core1D Front1D

/-- `X` is the signal `x` padded by reflection on both sides to length `N`, starting `l` samples
before the signal. -/
def Spec.IsPadded (x : List ℝ) (l N : Nat) (X : List ℝ) : Prop :=
  X.length = N ∧ ∀ i < N, X.getD i 0 = x.getD (Spec.mirror x.length ((i : ℤ) - l)) 0

/-- Full-rate impulse response of the wavelet `(xi, sigma)`. -/
noncomputable def waveletResponse (N : Nat) (p : ℝ × ℝ) : ℤ → ℂ :=
  Spec.impulseR (morlet1d N (some p.1) p.2)

/-- Full-rate impulse response of the low-pass filter of support `T`. -/
noncomputable def lowpassResponse (N : Nat) (T : Rat) : ℤ → ℂ := Spec.impulseR (gauss1d N (0.1 / T))

/-- The full-rate filter tables of a constructed object. -/
theorem make_fromFull {a : Args1D} {s : Sc1D} (hmake : a.make = .ok s) {T : Rat} {av : Average}
    (hT : parseT a.T a.J s.built.Ninput = .ok (T, av)) {Q1 Q2 : Int}
    (hQ : parseQ a.Q = .ok (Q1, Q2)) :
    FromFull s.phi.toFilt (gauss1d s.built.Npadded (0.1 / T)) ∧
    (∀ (n : Nat) f, (s.psi1.map FiltX.toFilt)[n]? = some f → ∃ p, (anden a.J Q1.toNat)[n]? = some p ∧
      (f.j : ℤ) = getMaxDyadicSubsampling p.1 p.2 5 ∧
      FromFull f (morlet1d s.built.Npadded (some p.1) p.2)) ∧
    (∀ (n : Nat) f, (s.psi2.map FiltX.toFilt)[n]? = some f → ∃ p, (anden a.J Q2.toNat)[n]? = some p ∧
      (f.j : ℤ) = getMaxDyadicSubsampling p.1 p.2 5 ∧
      FromFull f (morlet1d s.built.Npadded (some p.1) p.2)) := by
  obtain ⟨t, R1, R2, lT, M1, M2, hR1, hR2, ht, hT', hR, hfl, h1, h2, hM1, hM2, hlv, hphij, -⟩ :=
    make_filters hmake
  rw [hT] at hT'
  injection hT' with hT'
  injection hT' with e1 e2
  subst e1
  rw [hQ] at hR
  injection hR with hR
  injection hR with e3 e4
  subst e3 e4
  have key : ∀ (R : Nat) (M : ℤ) (psi : List FiltX), 1 ≤ R →
      List.Forall₂ (fun p f => makePsi false s.built.Npadded 5 M lT p = .ok f) (anden a.J R) psi →
      ∀ (n : Nat) f, (psi.map FiltX.toFilt)[n]? = some f → ∃ p, (anden a.J R)[n]? = some p ∧
        (f.j : ℤ) = getMaxDyadicSubsampling p.1 p.2 5 ∧
        FromFull f (morlet1d s.built.Npadded (some p.1) p.2) := by
    intro R M psi hR h n f hf
    rw [List.getElem?_map] at hf
    obtain ⟨g, hg, rfl⟩ := Option.map_eq_some_iff.1 hf
    obtain ⟨p, hp, hpg⟩ := forall₂_get h hg
    obtain ⟨-, -, e3, e4⟩ := makePsi_fields hpg
    refine ⟨p, hp, ?_, _, e4⟩
    have := (C26_scale_le a.J R hR p (List.mem_of_getElem? hp)).1
    show ((g.j.toNat : ℕ) : ℤ) = _
    rw [e3]
    exact Int.toNat_of_nonneg this
  exact ⟨⟨_, hlv⟩, key R1 0 s.psi1 hR1 h1, key R2 M1 s.psi2 hR2 h2⟩

theorem padded_of_npPad {x U : List ℝ} {l r : Nat} (h : npPad x l r = .ok U) :
    Spec.IsPadded x l (l + x.length + r) U := by
  have hlen := length_npPad h
  refine ⟨hlen, fun i hi => ?_⟩
  rw [getD_npPad h (by omega)]
  have : ¬ (l ≥ x.length ∨ r ≥ x.length) := by
    intro hc
    unfold npPad at h
    rw [if_pos hc] at h
    cases h
  push Not at this
  rw [reflectIndex_eq_mirror this.1 this.2 hi]

theorem ceil_border (i k : Nat) : (((i + (2 ^ k - 1)) / 2 ^ k : ℕ) : ℤ) = ⌈(i : ℚ) / 2 ^ k⌉ := by
  symm
  rw [Int.ceil_eq_iff]
  have hp2 : (0 : ℚ) < 2 ^ k := by positivity
  have hp2n : 0 < 2 ^ k := by positivity
  have hdm := Nat.div_add_mod (i + (2 ^ k - 1)) (2 ^ k)
  have hml := Nat.mod_lt (i + (2 ^ k - 1)) hp2n
  set d := (i + (2 ^ k - 1)) / 2 ^ k
  have c1 : 2 ^ k * d < i + 2 ^ k := by omega
  have c2 : i ≤ 2 ^ k * d := by omega
  have c1' : (2 : ℚ) ^ k * d < i + 2 ^ k := by exact_mod_cast c1
  have c2' : (i : ℚ) ≤ 2 ^ k * d := by exact_mod_cast c2
  constructor
  · rw [lt_div_iff₀ hp2]
    push_cast
    linarith
  · rw [div_le_iff₀ hp2]
    push_cast
    linarith

/-- C13, local averaging: for every object that was constructed and every signal of its length, each
returned value is the scattering cascade of the reflected signal at the corresponding time.  `p1`,
`p2` are the `(xi, sigma)` pairs of the two wavelets, `k1`, `k2` the resolutions of the moduli, and
output sample `t` sits at time `2^ls * (t + ⌈padLeft / 2^ls⌉)` of the padded signal. -/
theorem C13_object_averaged (a : Args1D) (s : Sc1D) (hmake : a.make = .ok s) (T : Rat)
    (hT : parseT a.T a.J s.built.Ninput = .ok (T, .loc)) (Q1 Q2 : Int)
    (hQ : parseQ a.Q = .ok (Q1, Q2)) (ls : Nat)
    (hls : log2Stride s.built.stride a.T a.J s.built.Ninput = .ok ls)
    (x : List ℝ) (hx : x.length = s.built.Ninput)
    (l : List (Path (List ℝ))) (hl : a.run x = .ok (.list l)) :
    ∃ X, Spec.IsPadded x s.built.padLeft s.built.Npadded X ∧
    ∀ p ∈ l, ∀ t < p.coef.length,
      let τ : ℤ := t + ⌈(s.built.padLeft : ℚ) / 2 ^ ls⌉
      let φ := lowpassResponse s.built.Npadded T
      (p.n = [] ∧ p.coef.getD t 0 = Spec.S0 X φ ls τ) ∨
      (∃ n1 p1 j1, p.n = [n1] ∧ p.j = [j1] ∧ (anden a.J Q1.toNat)[n1]? = some p1 ∧
        (j1 : ℤ) = getMaxDyadicSubsampling p1.1 p1.2 5 ∧
        p.coef.getD t 0 =
          Spec.S1 X (waveletResponse s.built.Npadded p1) φ (min j1 ls) ls τ) ∨
      (∃ n1 n2 p1 p2 j1 j2, p.n = [n1, n2] ∧ p.j = [j1, j2] ∧ j1 < j2 ∧
        (anden a.J Q1.toNat)[n1]? = some p1 ∧ (anden a.J Q2.toNat)[n2]? = some p2 ∧
        (j1 : ℤ) = getMaxDyadicSubsampling p1.1 p1.2 5 ∧
        (j2 : ℤ) = getMaxDyadicSubsampling p2.1 p2.2 5 ∧
        p.coef.getD t 0 =
          Spec.S2 X (waveletResponse s.built.Npadded p1) (waveletResponse s.built.Npadded p2) φ
            (min j1 ls) (min j2 ls) ls τ) := by
  obtain ⟨U, ls', out, hpad, hls', hcore, hpost⟩ := run_list hmake hl
  rw [hls] at hls'
  injection hls' with hls'
  have e : ls'.toNat = ls := by omega
  rw [e] at hcore hpost
  obtain ⟨t', lT, hN, hT', hlT, h1, h2, h3, h4, h5, h6, h7, -⟩ := make_sizes hmake
  have hav : s.average = .loc := by
    rw [hT] at hT'
    injection hT' with hT'
    injection hT' with e1 e2
    exact e2.symm
  rw [hav] at hcore
  obtain ⟨Hphi, H1, H2⟩ := make_fromFull hmake hT hQ
  have hP := padded_of_npPad hpad
  rw [hx, h1] at hP
  refine ⟨U, hP, fun p hp t ht => ?_⟩
  obtain ⟨q, hq, hpq⟩ := hpost p hp
  obtain ⟨hn, hj⟩ := post_labels hpq
  -- the value before unpadding
  have hval : p.coef.getD t 0 = q.coef.getD ((s.built.padLeft + (2 ^ ls - 1)) / 2 ^ ls + t) 0 ∧
      (s.built.padLeft + (2 ^ ls - 1)) / 2 ^ ls + t < q.coef.length := by
    rcases post_coef hpq with ⟨hg, -⟩ | ⟨-, res, i0, i1, hres, hi0, hi1, hc⟩
    · have hg : s.average = .glob := hg
      rw [hav] at hg
      cases hg
    · unfold resolution at hres
      rw [if_pos (show (a.obj s).average = .loc from hav)] at hres
      injection hres with hres
      subst hres
      have hi0 : s.built.indStart ls = some i0 := hi0
      rw [h6, borderDict_get] at hi0
      split at hi0
      · injection hi0 with hi0
        rw [hc] at ht ⊢
        rw [hi0]
        exact getD_npUnpad_lt ht
      · cases hi0
  have hτ : (((s.built.padLeft + (2 ^ ls - 1)) / 2 ^ ls + t : ℕ) : ℤ) =
      t + ⌈(s.built.padLeft : ℚ) / 2 ^ ls⌉ := by
    rw [← ceil_border]
    push_cast
    ring
  -- tables of full-rate filters
  let G1 : Nat → List ℝ := fun n => match (anden a.J Q1.toNat)[n]? with
    | some p => morlet1d s.built.Npadded (some p.1) p.2
    | none => []
  let G2 : Nat → List ℝ := fun n => match (anden a.J Q2.toNat)[n]? with
    | some p => morlet1d s.built.Npadded (some p.1) p.2
    | none => []
  obtain ⟨hlen, hcase⟩ := C13_averaged U s.phi.toFilt (s.psi1.map FiltX.toFilt)
    (s.psi2.map FiltX.toFilt) _ G1 G2 Hphi
    (fun n f hf => by
      obtain ⟨p, hp, -, hF⟩ := H1 n f hf
      show FromFull f (match (anden a.J Q1.toNat)[n]? with
        | some p => morlet1d s.built.Npadded (some p.1) p.2 | none => [])
      rw [hp]; exact hF)
    (fun n f hf => by
      obtain ⟨p, hp, -, hF⟩ := H2 n f hf
      show FromFull f (match (anden a.J Q2.toNat)[n]? with
        | some p => morlet1d s.built.Npadded (some p.1) p.2 | none => [])
      rw [hp]; exact hF)
    (nBanks a.maxOrder) ls out (by rw [psis_eq] at hcore; exact hcore) q hq
  obtain ⟨hv1, hv2⟩ := hval
  intro τ φ
  have hτ' : (((s.built.padLeft + (2 ^ ls - 1)) / 2 ^ ls + t : ℕ) : ℤ) = τ := hτ
  rw [hv1, hn, hj]
  rcases hcase with ⟨c1, c2, c3⟩ | ⟨n1, f1, cf, c1, c2, c3⟩ | ⟨n1, n2, f1, f2, cf1, cf2, c1, c2, c4, c3⟩
  · left
    refine ⟨c1, ?_⟩
    rw [c3 _ hv2, hτ']
    rfl
  · right; left
    obtain ⟨p1, hp1, hj1, -⟩ := H1 n1 f1 cf
    refine ⟨n1, p1, f1.j, c1, c2, hp1, hj1, ?_⟩
    rw [c3 _ hv2, hτ']
    have : G1 n1 = morlet1d s.built.Npadded (some p1.1) p1.2 := by
      show (match (anden a.J Q1.toNat)[n1]? with
        | some p => morlet1d s.built.Npadded (some p.1) p.2 | none => []) = _
      rw [hp1]
    rw [this]
    rfl
  · right; right
    obtain ⟨p1, hp1, hj1, -⟩ := H1 n1 f1 cf1
    obtain ⟨p2, hp2, hj2, -⟩ := H2 n2 f2 cf2
    refine ⟨n1, n2, p1, p2, f1.j, f2.j, c1, c2, c4, hp1, hp2, hj1, hj2, ?_⟩
    rw [c3 _ hv2, hτ']
    have e1 : G1 n1 = morlet1d s.built.Npadded (some p1.1) p1.2 := by
      show (match (anden a.J Q1.toNat)[n1]? with
        | some p => morlet1d s.built.Npadded (some p.1) p.2 | none => []) = _
      rw [hp1]
    have e2 : G2 n2 = morlet1d s.built.Npadded (some p2.1) p2.2 := by
      show (match (anden a.J Q2.toNat)[n2]? with
        | some p => morlet1d s.built.Npadded (some p.1) p.2 | none => []) = _
      rw [hp2]
    rw [e1, e2]
    rfl

/-- The hypotheses of `C13_object_averaged` are met by `Scattering1D(J=3, shape=1000, Q=(8,1))` and
every signal of 1000 samples. -/
example (x : List ℝ) (hx : x.length = 1000) : ∃ s l, (exArgs .none .list).make = .ok s ∧
    parseT (exArgs .none .list).T 3 s.built.Ninput = .ok (2 ^ 3, .loc) ∧
    parseQ (exArgs .none .list).Q = .ok (8, 1) ∧
    log2Stride s.built.stride (exArgs .none .list).T 3 s.built.Ninput = .ok ((3 : ℕ) : ℤ) ∧
    x.length = s.built.Ninput ∧ (exArgs .none .list).run x = .ok (.list l) := by
  obtain ⟨s, l, h1, h2, h3, h4⟩ := exArgs_list (T := .none) (av := .loc) (Or.inl ⟨rfl, rfl⟩) x hx
  obtain ⟨s', h1', -, -, h5⟩ := C17_construction (exArgs .none .list) 1000 rfl (by norm_num) (2 ^ 3)
    .loc rfl 8 1 rfl (by norm_num) (le_jPad_of_pow (by norm_num) (by norm_num [exArgs])) (Or.inr rfl)
  rw [h1] at h1'
  injection h1' with h1'
  subst h1'
  refine ⟨s, l, h1, rfl, rfl, ?_, by omega, h4⟩
  rw [h5, h2]
  refine (C07_log2_stride_ok _ _ _ _ _).2 (Or.inl ⟨rfl, ?_⟩)
  show Except.ok (floorLog2 (2 ^ 3)) = _
  rw [floorLog2_twoPow]

/-- C13 with averaging off (`T = 0`) or global: the values are the reflected signal itself and the
moduli on the grids of step `2^j`, restricted to the original range (averaging off) or summed over the
whole padded grid (global). -/
theorem C13_object_unaveraged (a : Args1D) (s : Sc1D) (hmake : a.make = .ok s)
    (hav : s.average ≠ .loc) (Q1 Q2 : Int) (hQ : parseQ a.Q = .ok (Q1, Q2))
    (x : List ℝ) (hx : x.length = s.built.Ninput)
    (l : List (Path (List ℝ))) (hl : a.run x = .ok (.list l)) :
    ∃ X, Spec.IsPadded x s.built.padLeft s.built.Npadded X ∧
    ∀ p ∈ l, ∃ (g : ℤ → ℝ) (j n : Nat), n * 2 ^ j = s.built.Npadded ∧
      (s.average = .no → ∀ t < p.coef.length,
        p.coef.getD t 0 = g (t + ⌈(s.built.padLeft : ℚ) / 2 ^ j⌉)) ∧
      (s.average = .glob → p.coef = [∑ u ∈ Finset.range n, g u]) ∧
      ((p.n = [] ∧ j = 0 ∧ ∀ u : Nat, g u = X.getD u 0) ∨
       (∃ n1 p1, p.n = [n1] ∧ p.j = [j] ∧ (anden a.J Q1.toNat)[n1]? = some p1 ∧
        (j : ℤ) = getMaxDyadicSubsampling p1.1 p1.2 5 ∧
        ∀ u, g u = Spec.U1 X (waveletResponse s.built.Npadded p1) j u) ∨
       (∃ n1 n2 p1 p2 j1, p.n = [n1, n2] ∧ p.j = [j1, j] ∧ j1 < j ∧
        (anden a.J Q1.toNat)[n1]? = some p1 ∧ (anden a.J Q2.toNat)[n2]? = some p2 ∧
        (j1 : ℤ) = getMaxDyadicSubsampling p1.1 p1.2 5 ∧
        (j : ℤ) = getMaxDyadicSubsampling p2.1 p2.2 5 ∧
        ∀ u, g u = Spec.U2 X (waveletResponse s.built.Npadded p1)
          (waveletResponse s.built.Npadded p2) j1 j u)) := by
  have hov := oversampling_zero hmake hav hl
  obtain ⟨U, ls, out, hpad, hls, hcore, hpost⟩ := run_list hmake hl
  obtain ⟨T, lT, hN, hT, hlT, h1, h2, h3, h4, h5, h6, h7, -⟩ := make_sizes hmake
  rw [show decide (s.average = .loc) = false from by simp [hav]] at hcore
  obtain ⟨-, H1, H2⟩ := make_fromFull hmake hT hQ
  have hP := padded_of_npPad hpad
  rw [hx, h1] at hP
  refine ⟨U, hP, fun p hp => ?_⟩
  obtain ⟨q, hq, hpq⟩ := hpost p hp
  obtain ⟨hn, hj⟩ := post_labels hpq
  -- conclusions from a description of the unpadded path
  have fin : ∀ (g : ℤ → ℝ) (j : Nat), q.coef.length * 2 ^ j = s.built.Npadded →
      (∀ t < q.coef.length, q.coef.getD t 0 = g t) →
      (q.n = [] ∧ j = 0 ∨ q.n ≠ [] ∧ q.j.getLast? = some j) →
      (s.average = .no → ∀ t < p.coef.length,
        p.coef.getD t 0 = g (t + ⌈(s.built.padLeft : ℚ) / 2 ^ j⌉)) ∧
      (s.average = .glob → p.coef = [∑ u ∈ Finset.range q.coef.length, g u]) := by
    intro g j hlen hg hjj
    rcases post_coef hpq with ⟨hgl, hc⟩ | ⟨hng, res, i0, i1, hres, hi0, hi1, hc⟩
    · have hgl : s.average = .glob := hgl
      refine ⟨(fun h => by rw [h] at hgl; cases hgl), fun _ => ?_⟩
      rw [hc]
      congr 1
      rw [← Fin.sum_univ_getElem, ← Fin.sum_univ_eq_sum_range (fun u => g u)]
      apply Finset.sum_congr rfl
      intro i _
      rw [← hg i i.2, List.getD_eq_getElem?_getD, List.getElem?_eq_getElem i.2]
      rfl
    · have hng : s.average ≠ .glob := hng
      refine ⟨fun hno t ht => ?_, fun h => absurd h hng⟩
      have hrj : res = j := by
        unfold resolution at hres
        rw [if_neg (show ¬ (a.obj s).average = .loc from hav)] at hres
        rcases hjj with ⟨e1, e2⟩ | ⟨e1, e2⟩
        · rw [e1] at hres
          simp at hres
          omega
        · rw [if_pos (List.length_pos_iff.2 e1), e2,
            show (a.obj s).oversampling = some 0 by
              show oversamplingInt a.oversampling = some 0
              rw [hov]; rfl] at hres
          simp at hres
          omega
      subst hrj
      have hi0 : s.built.indStart res = some i0 := hi0
      rw [h6, borderDict_get] at hi0
      split at hi0
      · injection hi0 with hi0
        rw [hc] at ht ⊢
        obtain ⟨g1, g2⟩ := getD_npUnpad_lt ht
        rw [g1, hg _ g2, ← ceil_border, ← hi0]
        congr 1
        push_cast
        ring
      · cases hi0
  let G1 : Nat → List ℝ := fun n => match (anden a.J Q1.toNat)[n]? with
    | some p => morlet1d s.built.Npadded (some p.1) p.2
    | none => []
  let G2 : Nat → List ℝ := fun n => match (anden a.J Q2.toNat)[n]? with
    | some p => morlet1d s.built.Npadded (some p.1) p.2
    | none => []
  have hcase := C13_unaveraged U s.phi.toFilt (s.psi1.map FiltX.toFilt)
    (s.psi2.map FiltX.toFilt) G1 G2
    (fun n f hf => by
      obtain ⟨p, hp, -, hF⟩ := H1 n f hf
      show FromFull f (match (anden a.J Q1.toNat)[n]? with
        | some p => morlet1d s.built.Npadded (some p.1) p.2 | none => [])
      rw [hp]; exact hF)
    (fun n f hf => by
      obtain ⟨p, hp, -, hF⟩ := H2 n f hf
      show FromFull f (match (anden a.J Q2.toNat)[n]? with
        | some p => morlet1d s.built.Npadded (some p.1) p.2 | none => [])
      rw [hp]; exact hF)
    (nBanks a.maxOrder) ls.toNat out (by rw [psis_eq] at hcore; exact hcore) q hq
  rw [hn, hj]
  rcases hcase with ⟨c1, c2, c3⟩ | ⟨n1, f1, cf, c1, c2, c4, c3⟩ |
    ⟨n1, n2, f1, f2, cf1, cf2, c1, c2, c5, c4, c3⟩
  · have hl0 : q.coef.length * 2 ^ 0 = s.built.Npadded := by rw [c3, pow_zero, mul_one, hP.1]
    obtain ⟨g1, g2⟩ := fin (fun u => U.getD u.toNat 0) 0 hl0 (fun t _ => by rw [c3]; simp)
      (Or.inl ⟨c1, rfl⟩)
    exact ⟨fun u => U.getD u.toNat 0, 0, _, hl0, g1, g2, Or.inl ⟨c1, rfl, fun u => by simp⟩⟩
  · obtain ⟨p1, hp1, hj1, -⟩ := H1 n1 f1 cf
    have : G1 n1 = morlet1d s.built.Npadded (some p1.1) p1.2 := by
      show (match (anden a.J Q1.toNat)[n1]? with
        | some p => morlet1d s.built.Npadded (some p.1) p.2 | none => []) = _
      rw [hp1]
    rw [this] at c3
    rw [hP.1] at c4
    obtain ⟨g1, g2⟩ := fin (fun u => Spec.U1 U (waveletResponse s.built.Npadded p1) f1.j u) f1.j c4 c3
      (Or.inr ⟨by rw [c1]; simp, by rw [c2]; rfl⟩)
    exact ⟨_, f1.j, _, c4, g1, g2, Or.inr (Or.inl ⟨n1, p1, c1, c2, hp1, hj1, fun u => rfl⟩)⟩
  · obtain ⟨p1, hp1, hj1, -⟩ := H1 n1 f1 cf1
    obtain ⟨p2, hp2, hj2, -⟩ := H2 n2 f2 cf2
    have e1 : G1 n1 = morlet1d s.built.Npadded (some p1.1) p1.2 := by
      show (match (anden a.J Q1.toNat)[n1]? with
        | some p => morlet1d s.built.Npadded (some p.1) p.2 | none => []) = _
      rw [hp1]
    have e2 : G2 n2 = morlet1d s.built.Npadded (some p2.1) p2.2 := by
      show (match (anden a.J Q2.toNat)[n2]? with
        | some p => morlet1d s.built.Npadded (some p.1) p.2 | none => []) = _
      rw [hp2]
    rw [e1, e2] at c3
    rw [hP.1] at c4
    obtain ⟨g1, g2⟩ := fin (fun u => Spec.U2 U (waveletResponse s.built.Npadded p1)
        (waveletResponse s.built.Npadded p2) f1.j f2.j u) f2.j c4 c3
      (Or.inr ⟨by rw [c1]; simp, by rw [c2]; rfl⟩)
    exact ⟨_, f2.j, _, c4, g1, g2, Or.inr (Or.inr ⟨n1, n2, p1, p2, f1.j, c1, c2, c5, hp1, hp2, hj1,
      hj2, fun u => rfl⟩)⟩

/-- Both unaveraged modes occur. -/
example (x : List ℝ) (hx : x.length = 1000) (T : PyT) (hT : T = .num 0 ∨ T = .global) :
    ∃ s l, (exArgs T .list).make = .ok s ∧ s.average ≠ .loc ∧
      parseQ (exArgs T .list).Q = .ok (8, 1) ∧ x.length = s.built.Ninput ∧
      (exArgs T .list).run x = .ok (.list l) := by
  rcases hT with rfl | rfl
  · obtain ⟨s, l, h1, h2, h3, h4⟩ := exArgs_list (T := .num 0) (av := .no)
      (Or.inr (Or.inr (Or.inl ⟨rfl, rfl⟩))) x hx
    exact ⟨s, l, h1, by rw [h3]; simp, rfl, by omega, h4⟩
  · obtain ⟨s, l, h1, h2, h3, h4⟩ := exArgs_list (T := .global) (av := .glob)
      (Or.inr (Or.inl ⟨rfl, rfl⟩)) x hx
    exact ⟨s, l, h1, by rw [h3]; simp, rfl, by omega, h4⟩

end Verif
