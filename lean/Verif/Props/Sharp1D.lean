import Verif.Props.Contractive1D
import Verif.Props.Rounded1D
import Verif.Props.OutputKinds1D

/-!
# C112, C122: constants that do not depend on the path

The constants of `C112_averaged`, `C112_unaveraged`, `C122_averaged` and `C122_unaveraged` grow with the scale of the first
wavelet at order two.  When the padded signal is not shorter than `2^(J+4)` and `Q2 ≤ 2^J` the constant is the same for all
paths.
-/

namespace Verif

open Finset Core1D Front1D

/-- The levels of the second bank which the paths use hold values of at most 1.02. -/
theorem second_gain_sharp {a : Args1D} {s : Sc1D} (hmake : a.make = .ok s) {Q1 Q2 : ℕ}
    (hQ : parseQ a.Q = .ok ((Q1 : ℤ), (Q2 : ℤ))) (hQJ2 : Q2 ≤ 2 ^ a.J) (hN : 2 ^ (a.J + 4) ≤ s.built.Npadded)
    (n : ℕ) (f : Filt (List ℝ)) (hf : (s.psi2.map FiltX.toFilt)[n]? = some f) (l : ℕ) (hl : l < f.j) (y : List ℝ)
    (hy : f.levels[l]? = some y) : ∀ m < y.length, |y.getD m 0| ≤ 1.02 := by
  intro m hm
  obtain ⟨T, -, -, hT, -⟩ := make_sizes hmake
  obtain ⟨-, -, h2⟩ := make_fromFull hmake hT hQ
  obtain ⟨_, R1, R2, -, -, -, g1, g2, -, -, hQ', -⟩ := make_filters hmake
  rw [hQ] at hQ'
  have e2 : R2 = Q2 := by exact_mod_cast (Prod.mk.inj (Except.ok.inj hQ')).2.symm
  subst e2
  obtain ⟨p, hp, hj, hfull⟩ := h2 n f hf
  rw [Int.toNat_natCast] at hp
  have h := psi_aliasLe g2 hQJ2 hN (List.mem_of_getElem? hp) hfull hj (le_refl l) hl.le y hy y.length (by simp) m hm
  simpa using h

theorem prod_const_le {l : List ℕ} (h : l.length ≤ 1) (g : ℕ → ℝ) (hg : ∀ j, g j = 1.02) : (l.map g).prod ≤ 1.02 := by
  match l, h with
  | [], _ => norm_num
  | [j], _ => simp [hg]

theorem sqrt3_le : Real.sqrt 3 ≤ 1.7321 :=
  Real.sqrt_le_iff.2 ⟨by norm_num, by norm_num⟩

/-- The constant of a path with local averaging. -/
theorem const_le {j : List ℕ} (hj : j.length ≤ 2) (ls : ℕ) :
    Real.sqrt 3 * (1.001 * (j.dropLast.map fun k => (fun _ => (1.02 : ℝ)) (min k ls)).prod) ≤ 1.77 := by
  have h1 := prod_const_le (l := j.dropLast) (by rw [List.length_dropLast]; omega)
    (fun k => (fun _ => (1.02 : ℝ)) (min k ls)) fun _ => rfl
  have h0 : 0 ≤ (j.dropLast.map fun k => (fun _ => (1.02 : ℝ)) (min k ls)).prod :=
    map_prod_nonneg (G := fun _ => (1.02 : ℝ)) (fun _ => by norm_num) (fun k => min k ls) _
  calc _ ≤ 1.7321 * (1.001 * (1.02 : ℝ)) :=
        mul_le_mul sqrt3_le (mul_le_mul_of_nonneg_left h1 (by norm_num)) (mul_nonneg (by norm_num) h0) (by norm_num)
    _ ≤ 1.77 := by norm_num

/-- The constant of a path without local averaging. -/
theorem const_un_le {j : List ℕ} (hj : j.length ≤ 2) :
    Real.sqrt 3 * (j.dropLast.map fun _ => (1.02 : ℝ)).prod ≤ 1.77 := by
  have h1 := prod_const_le (l := j.dropLast) (by rw [List.length_dropLast]; omega) (fun _ => (1.02 : ℝ)) fun _ => rfl
  have h0 : 0 ≤ (j.dropLast.map fun _ => (1.02 : ℝ)).prod :=
    map_prod_nonneg (G := fun _ => (1.02 : ℝ)) (fun _ => by norm_num) id _
  calc _ ≤ 1.7321 * (1.02 : ℝ) := mul_le_mul sqrt3_le h1 h0 (by norm_num)
    _ ≤ 1.77 := by norm_num

/-- **C112, one constant for all paths.**  With local averaging and a stride of at most `T`, two signals whose difference
has Euclidean norm `D` have coefficients whose difference has norm at most `1.77 D`, for every path of every order. -/
theorem C112_averaged_sharp (a : Args1D) (s : Sc1D) (hmake : a.make = .ok s) (T : Rat)
    (hT : parseT a.T a.J s.built.Ninput = .ok (T, .loc)) (ls : ℕ)
    (hls : log2Stride s.built.stride a.T a.J s.built.Ninput = .ok ls) (hlsT : (2 : ℚ) ^ ls ≤ T)
    (Q1 Q2 : ℕ) (hQ : parseQ a.Q = .ok ((Q1 : ℤ), (Q2 : ℤ))) (hQJ2 : Q2 ≤ 2 ^ a.J)
    (hNp : 2 ^ (a.J + 4) ≤ s.built.Npadded)
    (x y : List ℝ) (hxy : y.length = x.length)
    (l m : List (Path (List ℝ))) (hl : a.run x = .ok (.list l)) (hm : a.run y = .ok (.list m))
    (p q : Path (List ℝ)) (hp : p ∈ l) (hq : q ∈ m) (hpq : p.n = q.n) :
    q.coef.length = p.coef.length ∧
    (Spec.l2 p.coef.length fun t => p.coef.getD t 0 - q.coef.getD t 0) ≤
      1.77 * Spec.l2 x.length fun i => x.getD i 0 - y.getD i 0 := by
  obtain ⟨h1, h2⟩ := stable_averaged a s hmake T hT ls hls x y hxy (fun _ => 1.02) (fun _ => by norm_num)
    (second_gain_sharp hmake hQ hQJ2 hNp) l m hl hm p q hp hq hpq
    ((pow_le_pow_right₀ (by norm_num) (min_le_right _ _)).trans hlsT)
  exact ⟨h1, h2.trans (mul_le_mul_of_nonneg_right (const_le (path_order_le hmake hl hp) ls) (Real.sqrt_nonneg _))⟩

/-- The same without local averaging. -/
theorem C112_unaveraged_sharp (a : Args1D) (s : Sc1D) (hmake : a.make = .ok s)
    (Q1 Q2 : ℕ) (hQ : parseQ a.Q = .ok ((Q1 : ℤ), (Q2 : ℤ))) (hQJ2 : Q2 ≤ 2 ^ a.J)
    (hNp : 2 ^ (a.J + 4) ≤ s.built.Npadded)
    (x y : List ℝ) (hx : x.length = s.built.Ninput) (hxy : y.length = x.length)
    (l m : List (Path (List ℝ))) (hl : a.run x = .ok (.list l)) (hm : a.run y = .ok (.list m))
    (p q : Path (List ℝ)) (hp : p ∈ l) (hq : q ∈ m) (hpq : p.n = q.n) :
    (s.average = .no → q.coef.length = p.coef.length ∧
      (Spec.l2 p.coef.length fun t => p.coef.getD t 0 - q.coef.getD t 0) ≤
        1.77 * Spec.l2 x.length fun i => x.getD i 0 - y.getD i 0) ∧
    (s.average = .glob → ∃ v w, p.coef = [v] ∧ q.coef = [w] ∧
      |v - w| ≤ Real.sqrt ((s.built.Npadded / 2 ^ p.j.getLastD 0 : ℕ) : ℝ) *
        (1.77 * Spec.l2 x.length fun i => x.getD i 0 - y.getD i 0)) := by
  obtain ⟨h1, h2⟩ := stable_unaveraged a s hmake x y hx hxy (fun _ => 1.02) (fun _ => by norm_num)
    (second_gain_sharp hmake hQ hQJ2 hNp) l m hl hm p q hp hq hpq
  have hc := const_un_le (path_order_le hmake hl hp)
  refine ⟨fun h => ⟨(h1 h).1, (h1 h).2.trans (mul_le_mul_of_nonneg_right hc (Real.sqrt_nonneg _))⟩, fun h => ?_⟩
  obtain ⟨v, w, hv, hw, h3⟩ := h2 h
  exact ⟨v, w, hv, hw, h3.trans (mul_le_mul_of_nonneg_left (mul_le_mul_of_nonneg_right hc (Real.sqrt_nonneg _))
    (Real.sqrt_nonneg _))⟩

/-- **C122, one constant for all paths.**  With local averaging and a stride of at most `T`, the coefficients of order
`m` are computed with an error of at most `1.77 ((1 + δ)^(5 m + 4) - 1)` times the Euclidean norm of the signal. -/
theorem C122_averaged_sharp (a : Args1D) (s : Sc1D) (hmake : a.make = .ok s) (T : Rat)
    (hT : parseT a.T a.J s.built.Ninput = .ok (T, .loc)) (ls : ℕ)
    (hls : log2Stride s.built.stride a.T a.J s.built.Ninput = .ok ls) (hlsT : (2 : ℚ) ^ ls ≤ T)
    (Q1 Q2 : ℕ) (hQ : parseQ a.Q = .ok ((Q1 : ℤ), (Q2 : ℤ))) (hQJ2 : Q2 ≤ 2 ^ a.J)
    (hNp : 2 ^ (a.J + 4) ≤ s.built.Npadded)
    (R : Rounded) (N : ℕ) (δ : ℝ) (hδ : 0 ≤ δ) (hR : R.Accurate N δ) (x : List ℝ)
    (hN : s.built.padLeft + x.length + s.built.padRight ≤ N)
    (l : List (Path (List ℝ))) (hl : a.run x = .ok (.list l)) :
    ∃ m, a.runRounded R x = .ok (.list m) ∧ List.Forall₂ (fun p q => p.n = q.n ∧ p.j = q.j ∧
      q.coef.length = p.coef.length ∧
        (Spec.l2 p.coef.length fun t => p.coef.getD t 0 - q.coef.getD t 0) ≤
          1.77 * ((1 + δ) ^ (5 * p.n.length + 4) - 1) * Spec.l2 x.length fun i => x.getD i 0) l m := by
  obtain ⟨m, hm, hlm⟩ := rounded_averaged a s hmake T hT ls hls R N δ hδ hR x hN (fun _ => 1.02) (fun _ => by norm_num)
    (second_gain_sharp hmake hQ hQJ2 hNp) l hl
  refine ⟨m, hm, forall₂_imp_mem hlm fun p hp q _ h => ⟨h.1, h.2.1, h.2.2.1, ?_⟩⟩
  refine (h.2.2.2 ((pow_le_pow_right₀ (by norm_num) (min_le_right _ _)).trans hlsT)).trans ?_
  exact mul_le_mul_of_nonneg_right (mul_le_mul_of_nonneg_right (const_le (path_order_le hmake hl hp) ls)
    (pow_sub_one_nonneg hδ _)) (Real.sqrt_nonneg _)

/-- The same without local averaging. -/
theorem C122_unaveraged_sharp (a : Args1D) (s : Sc1D) (hmake : a.make = .ok s)
    (Q1 Q2 : ℕ) (hQ : parseQ a.Q = .ok ((Q1 : ℤ), (Q2 : ℤ))) (hQJ2 : Q2 ≤ 2 ^ a.J)
    (hNp : 2 ^ (a.J + 4) ≤ s.built.Npadded)
    (R : Rounded) (N : ℕ) (δ : ℝ) (hδ : 0 ≤ δ) (hR : R.Accurate N δ) (x : List ℝ) (hx : x.length = s.built.Ninput)
    (hN : s.built.Npadded ≤ N)
    (l : List (Path (List ℝ))) (hl : a.run x = .ok (.list l)) :
    ∃ m, a.runRounded R x = .ok (.list m) ∧ List.Forall₂ (fun p q => p.n = q.n ∧ p.j = q.j ∧
      q.coef.length = p.coef.length ∧
      (s.average = .no → (Spec.l2 p.coef.length fun t => p.coef.getD t 0 - q.coef.getD t 0) ≤
        1.77 * ((1 + δ) ^ (5 * p.n.length) - 1) * Spec.l2 x.length fun i => x.getD i 0) ∧
      (s.average = .glob → ∃ v w, p.coef = [v] ∧ q.coef = [w] ∧
        |v - w| ≤ Real.sqrt ((s.built.Npadded / 2 ^ p.j.getLastD 0 : ℕ) : ℝ) *
          (1.77 * ((1 + δ) ^ (5 * p.n.length + 1) - 1) * Spec.l2 x.length fun i => x.getD i 0))) l m := by
  obtain ⟨m, hm, hlm⟩ := rounded_unaveraged a s hmake R N δ hδ hR x hx hN (fun _ => 1.02) (fun _ => by norm_num)
    (second_gain_sharp hmake hQ hQJ2 hNp) l hl
  refine ⟨m, hm, forall₂_imp_mem hlm fun p hp q _ h => ⟨h.1, h.2.1, h.2.2.1, fun ha => ?_, fun ha => ?_⟩⟩
  all_goals have hc := const_un_le (path_order_le hmake hl hp)
  · exact (h.2.2.2.1 ha).trans (mul_le_mul_of_nonneg_right (mul_le_mul_of_nonneg_right hc
      (pow_sub_one_nonneg hδ _)) (Real.sqrt_nonneg _))
  · obtain ⟨v, w, hv, hw, h3⟩ := h.2.2.2.2 ha
    exact ⟨v, w, hv, hw, h3.trans (mul_le_mul_of_nonneg_left (mul_le_mul_of_nonneg_right (mul_le_mul_of_nonneg_right hc
      (pow_sub_one_nonneg hδ _)) (Real.sqrt_nonneg _)) (Real.sqrt_nonneg _))⟩

/-- The objects of the examples meet the hypotheses. -/
theorem exArgs_long {T : PyT} {s : Sc1D} (hs : (exArgs T .list).make = .ok s) (hN : s.built.Ninput = 1000) :
    parseQ (exArgs T .list).Q = .ok (((8 : ℕ) : ℤ), ((1 : ℕ) : ℤ)) ∧ 1 ≤ 2 ^ (exArgs T .list).J ∧
    2 ^ ((exArgs T .list).J + 4) ≤ s.built.Npadded := by
  refine ⟨rfl, Nat.one_le_two_pow, ?_⟩
  obtain ⟨t, lT, -, -, -, h1, -⟩ := make_sizes hs
  have : (exArgs T .list).J = 3 := rfl
  rw [this]
  omega

/-- The hypotheses of `C112_averaged_sharp` are met by `Scattering1D(J=3, shape=1000, Q=(8, 1))`, any two signals and all
paths. -/
example (x y : List ℝ) (hx : x.length = 1000) (hy : y.length = 1000) : ∃ l m,
    (exArgs .none .list).run x = .ok (.list l) ∧ (exArgs .none .list).run y = .ok (.list m) ∧ (∃ p ∈ l, p.n = [0]) ∧
    ∀ p ∈ l, ∀ q ∈ m, p.n = q.n → (Spec.l2 p.coef.length fun t => p.coef.getD t 0 - q.coef.getD t 0) ≤
      1.77 * Spec.l2 x.length fun i => x.getD i 0 - y.getD i 0 := by
  obtain ⟨s, l, hs, hN, hav, hl⟩ := exArgs_list (T := .none) (av := .loc) (.inl ⟨rfl, rfl⟩) x hx
  obtain ⟨s', m, hs', -, -, hm⟩ := exArgs_list (T := .none) (av := .loc) (.inl ⟨rfl, rfl⟩) y hy
  obtain ⟨hT, hls⟩ := exArgs_stride hs hN
  obtain ⟨hQ, hQJ, hNp⟩ := exArgs_long hs hN
  exact ⟨l, m, hl, hm, exArgs_first hs hl, fun p hp q hq hpq => (C112_averaged_sharp _ s hs 8 hT 3 hls (by norm_num)
    8 1 hQ hQJ hNp x y (by rw [hx, hy]) l m hl hm p q hp hq hpq).2⟩

/-- Those of `C112_unaveraged_sharp` and `C122_unaveraged_sharp` by the objects with `T = 'global'` and `T = 0` and correctly
rounded double-precision operations. -/
example (x y : List ℝ) (hx : x.length = 1000) (hy : y.length = 1000) (T : PyT) (av : Average)
    (hT : T = .global ∧ av = .glob ∨ T = .num 0 ∧ av = .no) : ∃ F : FloatOps, F.Correct ∧ ∃ s l m,
    (exArgs T .list).make = .ok s ∧ s.average = av ∧ x.length = s.built.Ninput ∧
    parseQ (exArgs T .list).Q = .ok (((8 : ℕ) : ℤ), ((1 : ℕ) : ℤ)) ∧ 1 ≤ 2 ^ (exArgs T .list).J ∧
    2 ^ ((exArgs T .list).J + 4) ≤ s.built.Npadded ∧
    (exArgs T .list).run x = .ok (.list l) ∧ (exArgs T .list).run y = .ok (.list m) ∧
    (Rounded.ofFloat F).Accurate s.built.Npadded (2 ^ (-50 : ℤ)) := by
  obtain ⟨F, hF⟩ := exists_correct
  obtain ⟨s, l, hs, hN, hav, hl⟩ := exArgs_list (T := T) (av := av) (by tauto) x hx
  obtain ⟨s', m, hs', -, -, hm⟩ := exArgs_list (T := T) (av := av) (by tauto) y hy
  obtain ⟨hQ, hQJ, hNp⟩ := exArgs_long hs hN
  exact ⟨F, hF, s, l, m, hs, hav, by rw [hN, hx], hQ, hQJ, hNp, hl, hm, ofFloat_accurate hF _⟩

/-- The hypotheses of `C122_averaged_sharp`: the coefficients of order one are computed with nine operations. -/
example (x : List ℝ) (hx : x.length = 1000) : ∃ F : FloatOps, F.Correct ∧ ∃ l m,
    (exArgs .none .list).run x = .ok (.list l) ∧ (∃ p ∈ l, p.n = [0]) ∧
    (exArgs .none .list).runRounded (Rounded.ofFloat F) x = .ok (.list m) ∧
    List.Forall₂ (fun p q => p.n = q.n ∧ q.coef.length = p.coef.length ∧
      (Spec.l2 p.coef.length fun t => p.coef.getD t 0 - q.coef.getD t 0) ≤
        1.77 * ((1 + 2 ^ (-50 : ℤ)) ^ (5 * p.n.length + 4) - 1) * Spec.l2 x.length fun i => x.getD i 0) l m := by
  obtain ⟨F, hF⟩ := exists_correct
  obtain ⟨s, l, hs, hN, hav, hl⟩ := exArgs_list (T := .none) (av := .loc) (.inl ⟨rfl, rfl⟩) x hx
  obtain ⟨hT, hls⟩ := exArgs_stride hs hN
  obtain ⟨hQ, hQJ, hNp⟩ := exArgs_long hs hN
  obtain ⟨m, hm, hlm⟩ := C122_averaged_sharp _ s hs 8 hT 3 hls (by norm_num) 8 1 hQ hQJ hNp (Rounded.ofFloat F) _ _
    (by positivity) (ofFloat_accurate hF _) x le_rfl l hl
  exact ⟨F, hF, l, m, hl, exArgs_first hs hl, hm, hlm.imp fun p q h => ⟨h.1, h.2.2⟩⟩

end Verif
