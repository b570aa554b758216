import Verif.Props.Contractive1D
import Verif.Props.Energy1D
import Verif.Props.Stability1D

/-!
# C93, C112, C113 for the output kinds `'array'` and `'dict'`

The bounds on the list output (`out_type='list'`) carried over to the default `out_type='array'` and to
`out_type='dict'` (scattering1d/frontend/base_frontend.py L118-154).
-/

namespace Verif

open Finset Core1D Front1D

/-! ## From one kind to the other -/

/-- The same arguments with `out_type='list'`. -/
abbrev Args1D.asList (a : Args1D) : Args1D := { a with outType := .list }

theorem asList_make (a : Args1D) : a.asList.make = a.make := rfl

theorem run_array1 {a : Args1D} {x : List ℝ} {rows : List (List ℝ)} (h : a.run x = .ok (.array rows)) :
    ∃ l, a.asList.run x = .ok (.list l) ∧ rows = l.map fun p => p.coef := by
  obtain ⟨s, hs, hr⟩ := bind_eq_ok.1 h
  have ho : a.obj s = { a.obj s with outType := .array } := by
    obtain ⟨hc, m, -, ha⟩ := Front1D.scattering_eq_ok.1 hr
    unfold assemble at ha
    cases e : (a.obj s).outType with
    | array => rw [← e]
    | list => rw [e] at ha; cases ha
    | dict => rw [e] at ha; cases ha
    | other => exact absurd e hc.1
  rw [ho] at hr
  obtain ⟨l, hl, e⟩ := C16_array_eq_list _ _ _ _ _ hr
  exact ⟨l, bind_eq_ok.2 ⟨s, hs, hl⟩, e⟩

theorem run_dict1 {a : Args1D} {x : List ℝ} {d : List (List ℕ × List ℝ)} (h : a.run x = .ok (.dict d)) :
    ∃ l, a.asList.run x = .ok (.list l) ∧ d.Perm (l.map fun p => (p.n, p.coef)) := by
  obtain ⟨s, hs, hr⟩ := bind_eq_ok.1 h
  have ho : a.obj s = { a.obj s with outType := .dict } := by
    obtain ⟨-, m, -, ha⟩ := Front1D.scattering_eq_ok.1 hr
    unfold assemble at ha
    split at ha
    · rename_i e
      rw [← e]
    · cases ha
    · obtain ⟨r, -, ha⟩ := bind_eq_ok.1 ha
      cases ha
  rw [ho] at hr
  obtain ⟨l, hl, e, -⟩ := (C16_dict_eq_list _ _ _ _).2 _ hr
  exact ⟨l, bind_eq_ok.2 ⟨s, hs, hl⟩, e⟩

/-- Two outputs of one object list the same paths in the same order. -/
theorem run_same_paths {a : Args1D} {s : Sc1D} (hmake : a.make = .ok s) {x y : List ℝ} {l m : List (Path (List ℝ))}
    (hl : a.run x = .ok (.list l)) (hm : a.run y = .ok (.list m)) :
    (l.map fun p => (p.j, p.n)) = m.map fun p => (p.j, p.n) := by
  obtain ⟨_, _, _, P, -, -, -, -, rfl, hP⟩ := run_sorted hmake hl
  obtain ⟨_, _, _, P', -, -, -, -, rfl, hP'⟩ := run_sorted hmake hm
  have key : ∀ P : List (Path (List ℝ)), ((sortPaths P).map fun p => (p.j, p.n)) =
      (P.map fun p => (p.j, p.n)).mergeSort fun a b => keyLe a.2 b.2 := by
    intro P
    unfold sortPaths
    rw [List.map_mergeSort (s := fun a b : List ℕ × List ℕ => keyLe a.2 b.2) (fun _ _ _ _ => rfl)]
  rw [key, key, hP, hP']

/-- Rows of two arrays belong to one path. -/
theorem rows_paths {a : Args1D} {s : Sc1D} (hmake : a.make = .ok s) {x y : List ℝ} {R S : List (List ℝ)}
    (hx : a.run x = .ok (.array R)) (hy : a.run y = .ok (.array S)) :
    R.length = S.length ∧ ∃ l m, a.asList.run x = .ok (.list l) ∧ a.asList.run y = .ok (.list m) ∧
      (R = l.map fun p => p.coef) ∧ (S = m.map fun p => p.coef) ∧
      ∀ r < R.length, ∃ p q, l[r]? = some p ∧ m[r]? = some q ∧ p.n = q.n ∧ R.getD r [] = p.coef ∧ S.getD r [] = q.coef := by
  obtain ⟨l, hl, rfl⟩ := run_array1 hx
  obtain ⟨m, hm, rfl⟩ := run_array1 hy
  have e := run_same_paths (a := a.asList) hmake hl hm
  have el : l.length = m.length := by simpa using congrArg List.length e
  refine ⟨by simp [el], l, m, hl, hm, rfl, rfl, fun r hr => ?_⟩
  simp only [List.length_map] at hr
  have hr' : r < m.length := by omega
  refine ⟨l[r], m[r], List.getElem?_eq_getElem hr, List.getElem?_eq_getElem hr', ?_, ?_, ?_⟩
  · have := congrArg (fun z => z[r]?) e
    simp only [List.getElem?_map, List.getElem?_eq_getElem hr, List.getElem?_eq_getElem hr', Option.map_some,
      Option.some.injEq, Prod.mk.injEq] at this
    exact this.2
  · rw [List.getD_eq_getElem?_getD, List.getElem?_map, List.getElem?_eq_getElem hr]; rfl
  · rw [List.getD_eq_getElem?_getD, List.getElem?_map, List.getElem?_eq_getElem hr']; rfl

/-- A path has at most two scales. -/
theorem path_order_le {a : Args1D} {s : Sc1D} (hmake : a.make = .ok s) {x : List ℝ} {l : List (Path (List ℝ))}
    (hl : a.run x = .ok (.list l)) {p : Path (List ℝ)} (hp : p ∈ l) : p.j.length ≤ 2 := by
  obtain ⟨hperm, -⟩ := run_labels hmake hl
  have : (p.j, p.n) ∈ labels npBackend (psis (a.obj s)) := hperm.subset (List.mem_map.2 ⟨p, hp, rfl⟩)
  unfold labels at this
  rcases List.mem_cons.1 this with h | h
  · rw [(Prod.mk.inj h).1]; simp
  · obtain ⟨q, -, h⟩ := List.mem_flatMap.1 h
    rcases List.mem_cons.1 h with h | h
    · rw [(Prod.mk.inj h).1]; simp
    · obtain ⟨u, -, h⟩ := List.mem_flatMap.1 h
      split at h
      · rw [(Prod.mk.inj (List.mem_singleton.1 h)).1]; simp
      · cases h

/-! ## Arrays -/

/-- Euclidean distance between two stacked outputs. -/
noncomputable def Spec.arrDist (R S : List (List ℝ)) : ℝ :=
  Real.sqrt (∑ r ∈ range R.length, ∑ t ∈ range (R.getD r []).length, ((R.getD r []).getD t 0 - (S.getD r []).getD t 0) ^ 2)

theorem outDist_eq_arrDist {l m : List (Path (List ℝ))} (h : l.length = m.length) :
    Spec.outDist l m = Spec.arrDist (l.map fun p => p.coef) (m.map fun p => p.coef) := by
  unfold Spec.outDist Spec.arrDist
  congr 1
  induction l generalizing m with
  | nil => simp
  | cons p l ih =>
    cases m with
    | nil => simp at h
    | cons q m =>
      rw [List.zip_cons_cons, List.map_cons, List.sum_cons, ih (by simpa using h), List.map_cons, List.length_cons,
        sum_range_succ', List.map_cons, add_comm]
      congr 1
      rw [l2_sq]
      rfl

/-- **C93 for arrays.**  With local averaging every entry of the array moves by at most `4^log2_stride` times the
largest change of a sample. -/
theorem C93_array (a : Args1D) (s : Sc1D) (hmake : a.make = .ok s) (havg : s.average = .loc) (ls : ℕ)
    (hls : log2Stride s.built.stride a.T a.J s.built.Ninput = .ok ls) (x y : List ℝ)
    (hx : x.length = s.built.Ninput) (hy : y.length = s.built.Ninput) (D : ℝ) (hD0 : 0 ≤ D)
    (hD : ∀ i < x.length, |x.getD i 0 - y.getD i 0| ≤ D)
    (R S : List (List ℝ)) (hR : a.run x = .ok (.array R)) (hS : a.run y = .ok (.array S)) :
    R.length = S.length ∧ ∀ r < R.length, ∀ t < (R.getD r []).length, t < (S.getD r []).length →
      |(R.getD r []).getD t 0 - (S.getD r []).getD t 0| ≤ 4 ^ ls * D := by
  obtain ⟨h0, l, m, hl, hm, -, -, hrow⟩ := rows_paths hmake hR hS
  refine ⟨h0, fun r hr t ht ht' => ?_⟩
  obtain ⟨p, q, hp, hq, hn, e1, e2⟩ := hrow r hr
  rw [e1] at ht ⊢
  rw [e2] at ht' ⊢
  have hp := List.mem_of_getElem? hp
  refine (C93_averaged a.asList s hmake havg ls hls x y hx hy D hD l m hl hm p q hp (List.mem_of_getElem? hq) hn t ht
    ht').trans (mul_le_mul_of_nonneg_right ?_ hD0)
  have h2 := path_order_le (a := a.asList) hmake hl hp
  have : (p.j.map fun j => min j ls).sum ≤ 2 * ls := by
    refine (List.sum_le_card_nsmul _ ls ?_).trans ?_
    · intro z hz
      obtain ⟨j, -, rfl⟩ := List.mem_map.1 hz
      exact min_le_right _ _
    · rw [List.length_map, smul_eq_mul]
      exact Nat.mul_le_mul_right _ h2
  calc (2 : ℝ) ^ (p.j.map fun j => min j ls).sum ≤ 2 ^ (2 * ls) := pow_le_pow_right₀ (by norm_num) this
    _ = 4 ^ ls := by rw [pow_mul]; norm_num

/-- **C112 for arrays.**  With local averaging over at least one output step every row moves, in the Euclidean norm, by
at most `sqrt 3 * 1.001 * 2^log2_stride` times the distance between the signals. -/
theorem C112_array (a : Args1D) (s : Sc1D) (hmake : a.make = .ok s) (T : Rat)
    (hT : parseT a.T a.J s.built.Ninput = .ok (T, .loc)) (ls : ℕ)
    (hls : log2Stride s.built.stride a.T a.J s.built.Ninput = .ok ls) (hlsT : (2 : ℚ) ^ ls ≤ T)
    (x y : List ℝ) (hxy : y.length = x.length)
    (R S : List (List ℝ)) (hR : a.run x = .ok (.array R)) (hS : a.run y = .ok (.array S)) :
    R.length = S.length ∧ ∀ r < R.length, (S.getD r []).length = (R.getD r []).length ∧
      (Spec.l2 (R.getD r []).length fun t => (R.getD r []).getD t 0 - (S.getD r []).getD t 0) ≤
        Real.sqrt 3 * (1.001 * 2 ^ ls) * Spec.l2 x.length fun i => x.getD i 0 - y.getD i 0 := by
  obtain ⟨h0, l, m, hl, hm, -, -, hrow⟩ := rows_paths hmake hR hS
  refine ⟨h0, fun r hr => ?_⟩
  obtain ⟨p, q, hp, hq, hn, e1, e2⟩ := hrow r hr
  rw [e1, e2]
  have hp := List.mem_of_getElem? hp
  obtain ⟨g1, g2⟩ := C112_averaged a.asList s hmake T hT ls hls x y hxy l m hl hm p q hp (List.mem_of_getElem? hq) hn
    ((pow_le_pow_right₀ (by norm_num) (min_le_right _ _)).trans hlsT)
  refine ⟨g1, g2.trans (mul_le_mul_of_nonneg_right ?_ (Real.sqrt_nonneg _))⟩
  have h2 := path_order_le (a := a.asList) hmake hl hp
  have : (p.j.dropLast.map fun j => min j ls).sum ≤ ls := by
    refine (List.sum_le_card_nsmul _ ls ?_).trans ?_
    · intro z hz
      obtain ⟨j, -, rfl⟩ := List.mem_map.1 hz
      exact min_le_right _ _
    · rw [List.length_map, smul_eq_mul, List.length_dropLast]
      exact (Nat.mul_le_mul_right _ (by omega : p.j.length - 1 ≤ 1)).trans (by omega)
  have := pow_le_pow_right₀ (by norm_num : (1 : ℝ) ≤ 2) this
  gcongr

/-- **C113 (partial) for arrays.**  The bound of `C113_bound` and, for `J ≥ 9` and a stride of at least `2^J`,
contractivity of the map from signals to stacked outputs. -/
theorem C113_array_partial (a : Args1D) (s : Sc1D) (hmake : a.make = .ok s) (T : Rat)
    (hT : parseT a.T a.J s.built.Ninput = .ok (T, .loc)) (Q1 Q2 : ℕ) (hQ : parseQ a.Q = .ok ((Q1 : ℤ), (Q2 : ℤ)))
    (hQJ1 : Q1 ≤ 2 ^ a.J) (hQJ2 : Q2 ≤ 2 ^ a.J) (hN : 2 ^ (a.J + 4) ≤ s.built.Npadded) (ls : ℕ)
    (hls : log2Stride s.built.stride a.T a.J s.built.Ninput = .ok ls) (hlsT : (2 : ℚ) ^ ls ≤ T)
    (x y : List ℝ) (hxy : y.length = x.length)
    (R S : List (List ℝ)) (hR : a.run x = .ok (.array R)) (hS : a.run y = .ok (.array S)) :
    R.length = S.length ∧ (∀ r < R.length, (S.getD r []).length = (R.getD r []).length) ∧
    Spec.arrDist R S ≤ Real.sqrt (3.007 * (1 + (10.51 + 0.206 * a.J) + (10.51 + 0.206 * a.J) ^ 2) / 2 ^ ls) *
        (Spec.l2 x.length fun i => x.getD i 0 - y.getD i 0) ∧
    (9 ≤ a.J → a.J ≤ ls → Spec.arrDist R S ≤ Spec.l2 x.length fun i => x.getD i 0 - y.getD i 0) := by
  obtain ⟨h0, hlen⟩ := C112_array a s hmake T hT ls hls hlsT x y hxy R S hR hS
  obtain ⟨-, l, m, hl, hm, rfl, rfl, -⟩ := rows_paths hmake hR hS
  have e := outDist_eq_arrDist (l := l) (m := m) (by simpa using h0)
  refine ⟨h0, fun r hr => (hlen r hr).1, ?_, fun hJ hJls => ?_⟩
  · rw [← e]
    exact (C113_bound a.asList s hmake T hT Q1 Q2 hQ hQJ1 hQJ2 hN ls hls hlsT x y hxy l m hl hm).2
  · rw [← e]
    exact (C113_partial a.asList s hmake T hT Q1 Q2 hQ hJ hQJ1 hQJ2 hN ls hls hlsT hJls x y hxy l m hl hm).2

/-- **C113 (partial), all defaults.**  `Scattering1D(J, shape=N, Q=(Q1, Q2))` with `J ≥ 9`, `N ≥ 2^(J+4)` and
`1 ≤ Q2 ≤ Q1 ≤ 2^J` returns an array for every signal of `N` samples, and is contractive. -/
theorem C113_default_array_partial (J N Q1 Q2 : ℕ) (hJ : 9 ≤ J) (hN : 2 ^ (J + 4) ≤ N) (hQ2 : 1 ≤ Q2) (hQ12 : Q2 ≤ Q1)
    (hQJ : Q1 ≤ 2 ^ J) (mo : ℤ) (hmo : 1 ≤ mo) (x y : List ℝ) (hx : x.length = N) (hy : y.length = N) :
    ∃ R S, (Args1D.mk J (.int N) (.tuple [Q1, Q2]) .none none mo (some (.int 0)) .array).run x = .ok (.array R) ∧
      (Args1D.mk J (.int N) (.tuple [Q1, Q2]) .none none mo (some (.int 0)) .array).run y = .ok (.array S) ∧
      R.length = S.length ∧ (∀ r < R.length, (S.getD r []).length = (R.getD r []).length) ∧
      Spec.arrDist R S ≤ Spec.l2 N fun i => x.getD i 0 - y.getD i 0 := by
  set a := Args1D.mk J (.int N) (.tuple [Q1, Q2]) .none none mo (some (.int 0)) .array with ha
  have hN1 : 1 ≤ N := le_trans Nat.one_le_two_pow hN
  have hshape : parseShape a.shape = .ok N := by
    rfl
  have hT : parseT a.T a.J N = .ok (2 ^ J, .loc) := rfl
  have hQ : parseQ a.Q = .ok ((Q1 : ℤ), (Q2 : ℤ)) := by
    rw [ha]
    simp only [parseQ]
    rw [if_neg (by simp; omega)]
  have hJp : a.J ≤ jPad N (minToPad N (2 ^ J)) :=
    le_jPad_of_pow hN1 (le_trans (Nat.pow_le_pow_right (by norm_num) (by show J ≤ J + 4; omega)) hN)
  obtain ⟨s, hmake, hNi, hav, hst⟩ := C17_construction a N hshape hN1 (2 ^ J) .loc hT Q1 Q2 hQ (by exact_mod_cast hQ12) hJp
    (Or.inr rfl)
  obtain ⟨_, -, -, -, hrun⟩ := C17_no_error a N hshape hN1 (2 ^ J) .loc hT Q1 Q2 hQ (by exact_mod_cast hQ12) hJp rfl
    hmo (Or.inl rfl) (Or.inr (Or.inr ⟨rfl, by simp⟩))
  have hrows : ∀ x : List ℝ, x.length = N → ∃ R, a.run x = .ok (.array R) := by
    intro x hx
    obtain ⟨r, hr⟩ := hrun x hx
    obtain ⟨s', hs', hr'⟩ := bind_eq_ok.1 hr
    obtain ⟨-, l, -, hl⟩ := Front1D.scattering_eq_ok.1 hr'
    unfold assemble at hl
    rw [show (a.obj s').outType = .array from rfl] at hl
    obtain ⟨R, -, hl⟩ := bind_eq_ok.1 hl
    exact ⟨R, by rw [hr]; exact hl.symm⟩
  obtain ⟨R, hR⟩ := hrows x hx
  obtain ⟨S, hS⟩ := hrows y hy
  obtain ⟨_, _, -, -, -, z1, -⟩ := make_sizes hmake
  have hls : log2Stride s.built.stride a.T a.J s.built.Ninput = .ok ((J : ℕ) : ℤ) := by
    rw [hst, hNi]
    refine (C07_log2_stride_ok _ _ _ _ _).2 (Or.inl ⟨rfl, ?_⟩)
    show Except.ok (floorLog2 (2 ^ J)) = _
    rw [floorLog2_twoPow]
  obtain ⟨h1, h2, -, h3⟩ := C113_array_partial a s hmake (2 ^ J) (by rw [hNi]; exact hT) Q1 Q2 hQ hQJ (hQ12.trans hQJ)
    (le_trans hN (by omega)) J hls le_rfl x y (by omega) R S hR hS
  refine ⟨R, S, hR, hS, h1, h2, ?_⟩
  rw [← hx]
  exact h3 hJ le_rfl

/-- `Scattering1D(J=9, shape=8192, Q=(8, 1))`, an impulse and the zero signal. -/
example : ∃ R S,
    (Args1D.mk 9 (.int 8192) (.tuple [8, 1]) .none none 2 (some (.int 0)) .array).run (1 :: List.replicate 8191 0) =
      .ok (.array R) ∧
    (Args1D.mk 9 (.int 8192) (.tuple [8, 1]) .none none 2 (some (.int 0)) .array).run (List.replicate 8192 0) =
      .ok (.array S) ∧
    R.length = S.length ∧ (∀ r < R.length, (S.getD r []).length = (R.getD r []).length) ∧
    Spec.arrDist R S ≤ Spec.l2 8192 fun i => (1 :: List.replicate 8191 (0 : ℝ)).getD i 0 - (List.replicate 8192 (0 : ℝ)).getD i 0 :=
  C113_default_array_partial 9 8192 8 1 (by norm_num) (by norm_num) (by norm_num) (by norm_num) (by norm_num) 2 (by norm_num)
    _ _ (by rw [List.length_cons, List.length_replicate]) List.length_replicate

/-! ## Dictionaries -/

/-- **C93 for dictionaries.**  Values under one key. -/
theorem C93_dict (a : Args1D) (s : Sc1D) (hmake : a.make = .ok s) (havg : s.average = .loc) (ls : ℕ)
    (hls : log2Stride s.built.stride a.T a.J s.built.Ninput = .ok ls) (x y : List ℝ)
    (hx : x.length = s.built.Ninput) (hy : y.length = s.built.Ninput) (D : ℝ) (hD0 : 0 ≤ D)
    (hD : ∀ i < x.length, |x.getD i 0 - y.getD i 0| ≤ D)
    (d e : List (List ℕ × List ℝ)) (hd : a.run x = .ok (.dict d)) (he : a.run y = .ok (.dict e))
    (n : List ℕ) (v w : List ℝ) (hv : (n, v) ∈ d) (hw : (n, w) ∈ e) (t : ℕ) (htv : t < v.length) (htw : t < w.length) :
    |v.getD t 0 - w.getD t 0| ≤ 2 ^ (n.length * ls) * D := by
  obtain ⟨l, hl, pl⟩ := run_dict1 hd
  obtain ⟨m, hm, pm⟩ := run_dict1 he
  obtain ⟨p, hp, ep⟩ := List.mem_map.1 (pl.subset hv)
  obtain ⟨q, hq, eq⟩ := List.mem_map.1 (pm.subset hw)
  obtain ⟨rfl, rfl⟩ := Prod.mk.inj ep
  obtain ⟨hqn, rfl⟩ := Prod.mk.inj eq
  refine (C93_averaged a.asList s hmake havg ls hls x y hx hy D hD l m hl hm p q hp hq hqn.symm t htv htw).trans
    (mul_le_mul_of_nonneg_right ?_ hD0)
  have hjn : p.j.length = p.n.length := by
    obtain ⟨hperm, -⟩ := run_labels (a := a.asList) hmake hl
    have : (p.j, p.n) ∈ labels npBackend (psis (a.asList.obj s)) := hperm.subset (List.mem_map.2 ⟨p, hp, rfl⟩)
    unfold labels at this
    rcases List.mem_cons.1 this with h | h
    · rw [(Prod.mk.inj h).1, (Prod.mk.inj h).2]
    · obtain ⟨q, -, h⟩ := List.mem_flatMap.1 h
      rcases List.mem_cons.1 h with h | h
      · rw [(Prod.mk.inj h).1, (Prod.mk.inj h).2]; simp
      · obtain ⟨u, -, h⟩ := List.mem_flatMap.1 h
        split at h
        · have h := List.mem_singleton.1 h
          rw [(Prod.mk.inj h).1, (Prod.mk.inj h).2]; simp
        · cases h
  refine pow_le_pow_right₀ (by norm_num) ((List.sum_le_card_nsmul _ ls ?_).trans ?_)
  · intro z hz
    obtain ⟨j, -, rfl⟩ := List.mem_map.1 hz
    exact min_le_right _ _
  · rw [List.length_map, smul_eq_mul, hjn]

/-- **C112 for dictionaries.**  Values under one key. -/
theorem C112_dict (a : Args1D) (s : Sc1D) (hmake : a.make = .ok s) (T : Rat)
    (hT : parseT a.T a.J s.built.Ninput = .ok (T, .loc)) (ls : ℕ)
    (hls : log2Stride s.built.stride a.T a.J s.built.Ninput = .ok ls) (hlsT : (2 : ℚ) ^ ls ≤ T)
    (x y : List ℝ) (hxy : y.length = x.length)
    (d e : List (List ℕ × List ℝ)) (hd : a.run x = .ok (.dict d)) (he : a.run y = .ok (.dict e))
    (n : List ℕ) (v w : List ℝ) (hv : (n, v) ∈ d) (hw : (n, w) ∈ e) :
    w.length = v.length ∧ (Spec.l2 v.length fun t => v.getD t 0 - w.getD t 0) ≤
      Real.sqrt 3 * (1.001 * 2 ^ ls) * Spec.l2 x.length fun i => x.getD i 0 - y.getD i 0 := by
  obtain ⟨l, hl, pl⟩ := run_dict1 hd
  obtain ⟨m, hm, pm⟩ := run_dict1 he
  obtain ⟨p, hp, ep⟩ := List.mem_map.1 (pl.subset hv)
  obtain ⟨q, hq, eq⟩ := List.mem_map.1 (pm.subset hw)
  obtain ⟨rfl, rfl⟩ := Prod.mk.inj ep
  obtain ⟨hqn, rfl⟩ := Prod.mk.inj eq
  obtain ⟨g1, g2⟩ := C112_averaged a.asList s hmake T hT ls hls x y hxy l m hl hm p q hp hq hqn.symm
    ((pow_le_pow_right₀ (by norm_num) (min_le_right _ _)).trans hlsT)
  refine ⟨g1, g2.trans (mul_le_mul_of_nonneg_right ?_ (Real.sqrt_nonneg _))⟩
  have h2 := path_order_le (a := a.asList) hmake hl hp
  have : (p.j.dropLast.map fun j => min j ls).sum ≤ ls := by
    refine (List.sum_le_card_nsmul _ ls ?_).trans ?_
    · intro z hz
      obtain ⟨j, -, rfl⟩ := List.mem_map.1 hz
      exact min_le_right _ _
    · rw [List.length_map, smul_eq_mul, List.length_dropLast]
      exact (Nat.mul_le_mul_right _ (by omega : p.j.length - 1 ≤ 1)).trans (by omega)
  have := pow_le_pow_right₀ (by norm_num : (1 : ℝ) ≤ 2) this
  gcongr

/-! ## The hypotheses hold -/

/-- `Scattering1D(J=3, shape=1000, Q=(8, 1))` returns an array, and a dictionary when asked. -/
example (x y : List ℝ) (hx : x.length = 1000) (hy : y.length = 1000) :
    (∃ s R S, (exArgs .none .array).make = .ok s ∧ s.average = .loc ∧ s.built.Ninput = 1000 ∧
      parseT (exArgs .none .array).T (exArgs .none .array).J s.built.Ninput = .ok (8, .loc) ∧
      log2Stride s.built.stride (exArgs .none .array).T (exArgs .none .array).J s.built.Ninput = .ok ((3 : ℕ) : ℤ) ∧
      (2 : ℚ) ^ 3 ≤ 8 ∧ (exArgs .none .array).run x = .ok (.array R) ∧ (exArgs .none .array).run y = .ok (.array S)) ∧
    (∃ s d e, (exArgs .none .dict).make = .ok s ∧ s.average = .loc ∧ s.built.Ninput = 1000 ∧
      parseT (exArgs .none .dict).T (exArgs .none .dict).J s.built.Ninput = .ok (8, .loc) ∧
      log2Stride s.built.stride (exArgs .none .dict).T (exArgs .none .dict).J s.built.Ninput = .ok ((3 : ℕ) : ℤ) ∧
      (2 : ℚ) ^ 3 ≤ 8 ∧ (exArgs .none .dict).run x = .ok (.dict d) ∧ (exArgs .none .dict).run y = .ok (.dict e) ∧
      ∃ v, ([], v) ∈ d) := by
  constructor
  · obtain ⟨s, h1, h2, h3, h4⟩ := exArgs_run (T := .none) (av := .loc) .array (Or.inl ⟨rfl, rfl⟩)
      (Or.inr (Or.inr ⟨rfl, by simp⟩))
    have hrows : ∀ x : List ℝ, x.length = 1000 → ∃ R, (exArgs .none .array).run x = .ok (.array R) := by
      intro x hx
      obtain ⟨r, hr⟩ := h4 x hx
      obtain ⟨s', hs', hr'⟩ := bind_eq_ok.1 hr
      obtain ⟨-, l, -, hl⟩ := Front1D.scattering_eq_ok.1 hr'
      unfold assemble at hl
      rw [show ((exArgs .none .array).obj s').outType = .array from rfl] at hl
      obtain ⟨R, -, hl⟩ := bind_eq_ok.1 hl
      exact ⟨R, by rw [hr]; exact hl.symm⟩
    obtain ⟨R, hR⟩ := hrows x hx
    obtain ⟨S, hS⟩ := hrows y hy
    obtain ⟨e1, e2⟩ := exArgs_stride (s := s) h1 h2
    exact ⟨s, R, S, h1, h3, h2, e1, e2, by norm_num, hR, hS⟩
  · obtain ⟨s, h1, h2, h3, h4⟩ := exArgs_run (T := .none) (av := .loc) .dict (Or.inl ⟨rfl, rfl⟩) (Or.inr (Or.inl rfl))
    have hdict : ∀ x : List ℝ, x.length = 1000 → ∃ d, (exArgs .none .dict).run x = .ok (.dict d) := by
      intro x hx
      obtain ⟨r, hr⟩ := h4 x hx
      obtain ⟨s', hs', hr'⟩ := bind_eq_ok.1 hr
      obtain ⟨-, l, -, hl⟩ := Front1D.scattering_eq_ok.1 hr'
      unfold assemble at hl
      rw [show ((exArgs .none .dict).obj s').outType = .dict from rfl] at hl
      exact ⟨_, by rw [hr]; exact hl.symm⟩
    obtain ⟨d, hd⟩ := hdict x hx
    obtain ⟨e, he⟩ := hdict y hy
    obtain ⟨e1, e2⟩ := exArgs_stride (s := s) h1 h2
    refine ⟨s, d, e, h1, h3, h2, e1, e2, by norm_num, hd, he, ?_⟩
    obtain ⟨l, hl, pl⟩ := run_dict1 hd
    obtain ⟨hperm, -⟩ := run_labels (a := (exArgs .none .dict).asList) h1 hl
    obtain ⟨p, hp, ep⟩ := List.mem_map.1 (hperm.symm.subset (List.mem_cons_self (a := (([], []) : List ℕ × List ℕ))))
    exact ⟨p.coef, pl.symm.subset (List.mem_map.2 ⟨p, hp, by rw [(Prod.mk.inj ep).2]⟩)⟩

end Verif
