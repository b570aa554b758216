import Verif.Props.OutputKinds1D
import Verif.Props.Averages1D
import Verif.Props.Sharp1D
import Verif.Props.NdArray

/-!
# C93, C116, C122 for the output kinds `'array'` and `'dict'`

The bounds of `Props/Averages1D` and `Props/Sharp1D` on the list output carried over to the default `out_type='array'`
and to `out_type='dict'` (scattering1d/frontend/base_frontend.py L118-154).
-/

namespace Verif

open Finset Core1D Front1D

/-! ## From one kind to the other -/

theorem runR_array1 {a : Args1D} {R : Rounded} {x : List ℝ} {rows : List (List ℝ)}
    (h : a.runRounded R x = .ok (.array rows)) :
    ∃ l, a.asList.runRounded R x = .ok (.list l) ∧ rows = l.map fun p => p.coef := by
  obtain ⟨s, hs, hr⟩ := bind_eq_ok.1 h
  have ho : a.obj s = { a.obj s with outType := .array } := by
    obtain ⟨hc, m, -, ha⟩ := Front1D.scattering_eq_ok.1 hr
    unfold assemble at ha
    cases e : (a.obj s).outType with
    | array => rw [← e]
    | list => rw [e] at ha; cases ha
    | dict => rw [e] at ha; cases ha
    | other => exact absurd e hc.1
  rw [ho] at hr
  obtain ⟨l, hl, e⟩ := C16_array_eq_list _ _ _ _ _ hr
  exact ⟨l, bind_eq_ok.2 ⟨s, hs, hl⟩, e⟩

theorem runR_dict1 {a : Args1D} {R : Rounded} {x : List ℝ} {d : List (List ℕ × List ℝ)}
    (h : a.runRounded R x = .ok (.dict d)) :
    ∃ l, a.asList.runRounded R x = .ok (.list l) ∧ d.Perm (l.map fun p => (p.n, p.coef)) ∧ (d.map Prod.fst).Nodup := by
  obtain ⟨s, hs, hr⟩ := bind_eq_ok.1 h
  have ho : a.obj s = { a.obj s with outType := .dict } := by
    obtain ⟨-, m, -, ha⟩ := Front1D.scattering_eq_ok.1 hr
    unfold assemble at ha
    split at ha
    · rename_i e
      rw [← e]
    · cases ha
    · obtain ⟨r, -, ha⟩ := bind_eq_ok.1 ha
      cases ha
  rw [ho] at hr
  obtain ⟨l, hl, e, h'⟩ := (C16_dict_eq_list _ _ _ _).2 _ hr
  exact ⟨l, bind_eq_ok.2 ⟨s, hs, hl⟩, e, h'⟩

/-- A path has as many scales as indices. -/
theorem path_len_eq {a : Args1D} {s : Sc1D} (hmake : a.make = .ok s) {x : List ℝ} {l : List (Path (List ℝ))}
    (hl : a.run x = .ok (.list l)) {p : Path (List ℝ)} (hp : p ∈ l) : p.j.length = p.n.length := by
  obtain ⟨hperm, -⟩ := run_labels hmake hl
  have : (p.j, p.n) ∈ labels npBackend (psis (a.obj s)) := hperm.subset (List.mem_map.2 ⟨p, hp, rfl⟩)
  unfold labels at this
  rcases List.mem_cons.1 this with h | h
  · rw [(Prod.mk.inj h).1, (Prod.mk.inj h).2]
  · obtain ⟨q, -, h⟩ := List.mem_flatMap.1 h
    rcases List.mem_cons.1 h with h | h
    · rw [(Prod.mk.inj h).1, (Prod.mk.inj h).2]; simp
    · obtain ⟨u, -, h⟩ := List.mem_flatMap.1 h
      split at h
      · have h := List.mem_singleton.1 h
        rw [(Prod.mk.inj h).1, (Prod.mk.inj h).2]; simp
      · cases h

/-- Rows of an array with rounding errors. -/
theorem rounded_rows {a : Args1D} {R : Rounded} (hR : R.Shapes) {x : List ℝ} {P : Path (List ℝ) → Path (List ℝ) → Prop}
    (h : ∀ l, a.asList.run x = .ok (.list l) → ∃ m, a.asList.runRounded R x = .ok (.list m) ∧ List.Forall₂ P l m)
    {A : List (List ℝ)} (hA : a.run x = .ok (.array A)) :
    ∃ B, a.runRounded R x = .ok (.array B) ∧
      List.Forall₂ (fun v w => ∃ p q l, a.asList.run x = .ok (.list l) ∧ p ∈ l ∧ P p q ∧ p.coef = v ∧ q.coef = w) A B := by
  obtain ⟨l, hl, rfl⟩ := run_array1 hA
  obtain ⟨r, hr, hs⟩ := (C122_returns a R hR x).1 _ hA
  cases r with
  | list => simp [Spec.SameShape] at hs
  | dict => simp [Spec.SameShape] at hs
  | array B =>
    obtain ⟨m, hm, rfl⟩ := runR_array1 hr
    obtain ⟨m', hm', hlm⟩ := h l hl
    rw [hm] at hm'
    cases hm'
    refine ⟨_, hr, ?_⟩
    rw [List.forall₂_map_left_iff, List.forall₂_map_right_iff]
    exact forall₂_imp_mem hlm fun p hp q _ hpq => ⟨p, q, l, hl, hp, hpq, rfl, rfl⟩

/-- Values of a dictionary with rounding errors: the same keys in the same order. -/
theorem rounded_values {a : Args1D} {R : Rounded} (hR : R.Shapes) {x : List ℝ} {P : Path (List ℝ) → Path (List ℝ) → Prop}
    (hPn : ∀ p q, P p q → p.n = q.n)
    (h : ∀ l, a.asList.run x = .ok (.list l) → ∃ m, a.asList.runRounded R x = .ok (.list m) ∧ List.Forall₂ P l m)
    {d : List (List ℕ × List ℝ)} (hd : a.run x = .ok (.dict d)) :
    ∃ e, a.runRounded R x = .ok (.dict e) ∧ List.Forall₂ (fun u v => u.1 = v.1 ∧
      ∃ p q, P p q ∧ p.n = u.1 ∧ p.coef = u.2 ∧ q.coef = v.2) d e := by
  obtain ⟨l, hl, pl⟩ := run_dict1 hd
  obtain ⟨r, hr, hs⟩ := (C122_returns a R hR x).1 _ hd
  cases r with
  | list => simp [Spec.SameShape] at hs
  | array => simp [Spec.SameShape] at hs
  | dict e =>
    obtain ⟨m, hm, pm, hnd⟩ := runR_dict1 hr
    obtain ⟨m', hm', hlm⟩ := h l hl
    rw [hm] at hm'
    cases hm'
    refine ⟨_, hr, forall₂_imp_mem hs fun u hu v hv huv => ⟨huv.1, ?_⟩⟩
    obtain ⟨p, hp, ep⟩ := List.mem_map.1 (pl.subset hu)
    obtain ⟨q, hq, eq⟩ := List.mem_map.1 (pm.subset hv)
    obtain ⟨q', hq', hpq⟩ := forall₂_mem_left hlm hp
    refine ⟨p, q', hpq, by rw [← ep], by rw [← ep], ?_⟩
    have hv' : (q'.n, q'.coef) ∈ e := pm.symm.subset (List.mem_map.2 ⟨q', hq', rfl⟩)
    have hk : q'.n = v.1 := by rw [← hPn p q' hpq, ← huv.1, ← ep]
    have : (q'.n, q'.coef) = v := List.inj_on_of_nodup_map hnd hv' hv hk
    rw [← this]

/-! ## Rounding errors -/

/-- **C122 for arrays.**  With the default output every row is computed with at most fourteen operations per path: its
error, in the Euclidean norm, is at most `1.77 * ((1 + δ)^14 - 1)` times the norm of the signal. -/
theorem C122_array (a : Args1D) (s : Sc1D) (hmake : a.make = .ok s) (T : Rat)
    (hT : parseT a.T a.J s.built.Ninput = .ok (T, .loc)) (ls : ℕ)
    (hls : log2Stride s.built.stride a.T a.J s.built.Ninput = .ok ls) (hlsT : (2 : ℚ) ^ ls ≤ T)
    (Q1 Q2 : ℕ) (hQ : parseQ a.Q = .ok ((Q1 : ℤ), (Q2 : ℤ))) (hQJ2 : Q2 ≤ 2 ^ a.J)
    (hNp : 2 ^ (a.J + 4) ≤ s.built.Npadded)
    (R : Rounded) (N : ℕ) (δ : ℝ) (hδ : 0 ≤ δ) (hR : R.Accurate N δ) (x : List ℝ)
    (hN : s.built.padLeft + x.length + s.built.padRight ≤ N)
    (A : List (List ℝ)) (hA : a.run x = .ok (.array A)) :
    ∃ B, a.runRounded R x = .ok (.array B) ∧ List.Forall₂ (fun v w => w.length = v.length ∧
      (Spec.l2 v.length fun t => v.getD t 0 - w.getD t 0) ≤
        1.77 * ((1 + δ) ^ 14 - 1) * Spec.l2 x.length fun i => x.getD i 0) A B := by
  obtain ⟨B, hB, hAB⟩ := rounded_rows hR.toShapes (fun l hl => C122_averaged_sharp a.asList s hmake T hT ls hls hlsT Q1 Q2 hQ
    hQJ2 hNp R N δ hδ hR x hN l hl) hA
  refine ⟨B, hB, hAB.imp ?_⟩
  rintro v w ⟨p, q, l, hl, hp, ⟨-, -, hlen, hpq⟩, rfl, rfl⟩
  refine ⟨hlen, hpq.trans (mul_le_mul_of_nonneg_right (mul_le_mul_of_nonneg_left ?_ (by norm_num)) (Spec.l2_nonneg _ _))⟩
  have h2 : p.n.length ≤ 2 := by
    rw [← path_len_eq (a := a.asList) hmake hl hp]
    exact path_order_le (a := a.asList) hmake hl hp
  have : (1 + δ) ^ (5 * p.n.length + 4) ≤ (1 + δ) ^ 14 := pow_le_pow_right₀ (by linarith) (by omega)
  linarith

/-- **C122 for dictionaries.**  The same keys in the same order; the value under the key of order `m` has an error of at
most `1.77 * ((1 + δ)^(5 m + 4) - 1)` times the norm of the signal. -/
theorem C122_dict (a : Args1D) (s : Sc1D) (hmake : a.make = .ok s) (T : Rat)
    (hT : parseT a.T a.J s.built.Ninput = .ok (T, .loc)) (ls : ℕ)
    (hls : log2Stride s.built.stride a.T a.J s.built.Ninput = .ok ls) (hlsT : (2 : ℚ) ^ ls ≤ T)
    (Q1 Q2 : ℕ) (hQ : parseQ a.Q = .ok ((Q1 : ℤ), (Q2 : ℤ))) (hQJ2 : Q2 ≤ 2 ^ a.J)
    (hNp : 2 ^ (a.J + 4) ≤ s.built.Npadded)
    (R : Rounded) (N : ℕ) (δ : ℝ) (hδ : 0 ≤ δ) (hR : R.Accurate N δ) (x : List ℝ)
    (hN : s.built.padLeft + x.length + s.built.padRight ≤ N)
    (d : List (List ℕ × List ℝ)) (hd : a.run x = .ok (.dict d)) :
    ∃ e, a.runRounded R x = .ok (.dict e) ∧ List.Forall₂ (fun u v => u.1 = v.1 ∧ v.2.length = u.2.length ∧
      (Spec.l2 u.2.length fun t => u.2.getD t 0 - v.2.getD t 0) ≤
        1.77 * ((1 + δ) ^ (5 * u.1.length + 4) - 1) * Spec.l2 x.length fun i => x.getD i 0) d e := by
  obtain ⟨e, he, hde⟩ := rounded_values hR.toShapes (fun p q h => h.1) (fun l hl => C122_averaged_sharp a.asList s hmake T hT
    ls hls hlsT Q1 Q2 hQ hQJ2 hNp R N δ hδ hR x hN l hl) hd
  refine ⟨e, he, hde.imp ?_⟩
  rintro ⟨n, v⟩ ⟨n', w⟩ ⟨h1, p, q, ⟨-, -, hlen, hpq⟩, rfl, rfl, rfl⟩
  exact ⟨h1, hlen, hpq⟩

/-! ## Signs, order and the uniform norm -/

/-- **C116 for arrays.**  Entries of rows are non-negative up to rounding of the filters, except in the row of order zero,
the first, where this holds for non-negative signals. -/
theorem C116_array (a : Args1D) (s : Sc1D) (hmake : a.make = .ok s) (havg : s.average = .loc) (ls : ℕ)
    (hls : log2Stride s.built.stride a.T a.J s.built.Ninput = .ok ls) (x : List ℝ) (hx : x.length = s.built.Ninput)
    (B : ℝ) (hB0 : 0 ≤ B) (hB : ∀ v ∈ x, |v| ≤ B) (A : List (List ℝ)) (hA : a.run x = .ok (.array A))
    (r : ℕ) (hr : r < A.length) (hsign : r ≠ 0 ∨ ∀ v ∈ x, 0 ≤ v) (t : ℕ) (ht : t < (A.getD r []).length) :
    -(1e-21 * s.built.Npadded * (2 ^ ls * B)) ≤ (A.getD r []).getD t 0 := by
  obtain ⟨l, hl, rfl⟩ := run_array1 hA
  simp only [List.length_map] at hr
  have e : (l.map fun p => p.coef).getD r [] = l[r].coef := by
    rw [List.getD_eq_getElem?_getD, List.getElem?_map, List.getElem?_eq_getElem hr]; rfl
  rw [e] at ht ⊢
  have hp : l[r] ∈ l := List.getElem_mem hr
  have hs : l[r].n ≠ [] ∨ ∀ v ∈ x, 0 ≤ v := by
    refine hsign.imp_left fun h0 hn => ?_
    obtain ⟨_, _, _, P, -, -, -, -, hlP, hP⟩ := run_sorted (a := a.asList) hmake hl
    have hnd : (P.map fun p => p.n).Nodup := by
      have := labels_nodup npBackend (psis (a.asList.obj s))
      rw [← hP, List.map_map] at this
      exact this
    have hpw := sortPaths_sorted hnd
    rw [← hlP, List.pairwise_map] at hpw
    have := List.pairwise_iff_getElem.1 hpw 0 r (by omega) hr (by omega)
    rw [hn] at this
    rcases this with h | ⟨h, h'⟩
    · simp at h
    · rw [List.length_nil, List.length_eq_zero_iff] at h
      rw [h] at h'
      exact lt_irrefl _ h'
  refine le_trans (neg_le_neg ?_) (C116_nonneg a.asList s hmake havg ls hls x hx B hB l hl _ hp hs t ht)
  have h2 := path_order_le (a := a.asList) hmake hl hp
  have : (l[r].j.dropLast.map fun j => min j ls).sum ≤ ls := by
    refine (List.sum_le_card_nsmul _ ls ?_).trans ?_
    · intro z hz
      obtain ⟨j, -, rfl⟩ := List.mem_map.1 hz
      exact min_le_right _ _
    · rw [List.length_map, smul_eq_mul, List.length_dropLast]
      exact (Nat.mul_le_mul_right _ (by omega : l[r].j.length - 1 ≤ 1)).trans (by omega)
  have := pow_le_pow_right₀ (by norm_num : (1 : ℝ) ≤ 2) this
  gcongr

/-- **C116 for dictionaries.**  The value under every key but `()` is non-negative up to rounding of the filters. -/
theorem C116_dict (a : Args1D) (s : Sc1D) (hmake : a.make = .ok s) (havg : s.average = .loc) (ls : ℕ)
    (hls : log2Stride s.built.stride a.T a.J s.built.Ninput = .ok ls) (x : List ℝ) (hx : x.length = s.built.Ninput)
    (B : ℝ) (hB0 : 0 ≤ B) (hB : ∀ v ∈ x, |v| ≤ B) (d : List (List ℕ × List ℝ)) (hd : a.run x = .ok (.dict d))
    (n : List ℕ) (v : List ℝ) (hv : (n, v) ∈ d) (hsign : n ≠ [] ∨ ∀ v ∈ x, 0 ≤ v) (t : ℕ) (ht : t < v.length) :
    -(1e-21 * s.built.Npadded * (2 ^ ((n.length - 1) * ls) * B)) ≤ v.getD t 0 := by
  obtain ⟨l, hl, pl⟩ := run_dict1 hd
  obtain ⟨p, hp, ep⟩ := List.mem_map.1 (pl.subset hv)
  obtain ⟨rfl, rfl⟩ := Prod.mk.inj ep
  refine le_trans (neg_le_neg ?_) (C116_nonneg a.asList s hmake havg ls hls x hx B hB l hl _ hp hsign t ht)
  have h2 := path_len_eq (a := a.asList) hmake hl hp
  have : (p.j.dropLast.map fun j => min j ls).sum ≤ (p.n.length - 1) * ls := by
    refine (List.sum_le_card_nsmul _ ls ?_).trans ?_
    · intro z hz
      obtain ⟨j, -, rfl⟩ := List.mem_map.1 hz
      exact min_le_right _ _
    · rw [List.length_map, smul_eq_mul, List.length_dropLast, h2]
  have := pow_le_pow_right₀ (by norm_num : (1 : ℝ) ≤ 2) this
  gcongr

/-- **C93 for arrays, sharp.**  When the output step does not exceed `T`, an entry moves by at most
`(1.001 + 2e-21 * N_padded) * 2^log2_stride` times the largest change of a sample. -/
theorem C93_array_sharp (a : Args1D) (s : Sc1D) (hmake : a.make = .ok s) (T : Rat)
    (hT : parseT a.T a.J s.built.Ninput = .ok (T, .loc)) (ls : ℕ)
    (hls : log2Stride s.built.stride a.T a.J s.built.Ninput = .ok ls) (hlsT : (2 : ℚ) ^ ls ≤ T) (x y : List ℝ)
    (hx : x.length = s.built.Ninput) (hy : y.length = s.built.Ninput) (D : ℝ) (hD0 : 0 ≤ D)
    (hD : ∀ i < x.length, |x.getD i 0 - y.getD i 0| ≤ D)
    (R S : List (List ℝ)) (hR : a.run x = .ok (.array R)) (hS : a.run y = .ok (.array S)) :
    R.length = S.length ∧ ∀ r < R.length, ∀ t < (R.getD r []).length, t < (S.getD r []).length →
      |(R.getD r []).getD t 0 - (S.getD r []).getD t 0| ≤ (1.001 + 2e-21 * s.built.Npadded) * (2 ^ ls * D) := by
  obtain ⟨h0, l, m, hl, hm, -, -, hrow⟩ := rows_paths hmake hR hS
  refine ⟨h0, fun r hr t ht ht' => ?_⟩
  obtain ⟨p, q, hp, hq, hn, e1, e2⟩ := hrow r hr
  rw [e1] at ht ⊢
  rw [e2] at ht' ⊢
  have hp := List.mem_of_getElem? hp
  refine (C93_sharp a.asList s hmake T hT ls hls x y hx hy D hD l m hl hm p q hp (List.mem_of_getElem? hq) hn
    ((pow_le_pow_right₀ (by norm_num) (min_le_right _ _)).trans hlsT) t ht ht').trans ?_
  have h2 := path_order_le (a := a.asList) hmake hl hp
  have : (p.j.dropLast.map fun j => min j ls).sum ≤ ls := by
    refine (List.sum_le_card_nsmul _ ls ?_).trans ?_
    · intro z hz
      obtain ⟨j, -, rfl⟩ := List.mem_map.1 hz
      exact min_le_right _ _
    · rw [List.length_map, smul_eq_mul, List.length_dropLast]
      exact (Nat.mul_le_mul_right _ (by omega : p.j.length - 1 ≤ 1)).trans (by omega)
  have := pow_le_pow_right₀ (by norm_num : (1 : ℝ) ≤ 2) this
  gcongr

/-! ## The hypotheses hold -/

/-- The rows of `Scattering1D(J=3, shape=1000, Q=(8, 1))` for any signal, with correctly rounded double-precision
operations. -/
example (x : List ℝ) (hx : x.length = 1000) : ∃ F : FloatOps, F.Correct ∧
    ∃ A B, (exArgs .none .array).run x = .ok (.array A) ∧ 1 < A.length ∧
      (exArgs .none .array).runRounded (Rounded.ofFloat F) x = .ok (.array B) ∧
      List.Forall₂ (fun v w => w.length = v.length ∧ (Spec.l2 v.length fun t => v.getD t 0 - w.getD t 0) ≤
        1.77 * ((1 + 2 ^ (-50 : ℤ)) ^ 14 - 1) * Spec.l2 x.length fun i => x.getD i 0) A B ∧
      ∀ M : ℝ, 0 ≤ M → (∀ v ∈ x, |v| ≤ M) → ∀ t < (A.getD 1 []).length, -(2.4e-17 * M) ≤ (A.getD 1 []).getD t 0 := by
  obtain ⟨F, hF⟩ := exists_correct
  obtain ⟨s, A, hs, hN, hA, -⟩ := exArgs_array x hx
  obtain ⟨hT, hls⟩ := exArgs_stride hs hN
  obtain ⟨hQ, hQJ, hNp⟩ := exArgs_long (T := .none) hs hN
  have h1 : 1 < A.length := by
    obtain ⟨l, hl, rfl⟩ := run_array1 hA
    obtain ⟨p, hp, hpn⟩ := exArgs_first hs hl
    obtain ⟨hperm, -⟩ := run_labels (a := exArgs .none .list) hs hl
    obtain ⟨q, hq, eq⟩ := List.mem_map.1 (hperm.symm.subset (List.mem_cons_self (a := (([], []) : List ℕ × List ℕ))))
    rw [List.length_map]
    match l, hp, hq with
    | [z], hp, hq =>
      rw [List.mem_singleton.1 hp] at hpn
      rw [List.mem_singleton.1 hq, hpn] at eq
      cases (Prod.mk.inj eq).2
    | _ :: _ :: l, _, _ => simp
  have hav : s.average = .loc := by
    obtain ⟨t, -, -, hT', -⟩ := make_sizes hs
    rw [show (exArgs .none .array).T = (exArgs .none .list).T from rfl,
      show (exArgs .none .array).J = (exArgs .none .list).J from rfl, hT] at hT'
    exact (congrArg Prod.snd (Except.ok.inj hT')).symm
  obtain ⟨B, hB, hAB⟩ := C122_array (exArgs .none .array) s hs 8 hT 3 hls (by norm_num) 8 1 hQ hQJ hNp
    (Rounded.ofFloat F) _ _ (by positivity) (ofFloat_accurate hF _) x le_rfl A hA
  refine ⟨F, hF, A, B, hA, h1, hB, hAB, fun M hM0 hM t ht => ?_⟩
  refine le_trans (neg_le_neg ?_) (C116_array (exArgs .none .array) s hs hav 3 hls x (by rw [hN, hx]) M hM0 hM A hA 1 h1
    (Or.inl one_ne_zero) t ht)
  have := exArgs_padded hs hN
  calc (1e-21 : ℝ) * s.built.Npadded * (2 ^ 3 * M) ≤ 1e-21 * 3000 * (2 ^ 3 * M) := by gcongr
    _ = 2.4e-17 * M := by norm_num; ring

/-- Its values when a dictionary is asked for. -/
example (x : List ℝ) (hx : x.length = 1000) : ∃ F : FloatOps, F.Correct ∧
    ∃ d e, (exArgs .none .dict).run x = .ok (.dict d) ∧ (∃ v, ([0], v) ∈ d) ∧
      (exArgs .none .dict).runRounded (Rounded.ofFloat F) x = .ok (.dict e) ∧
      List.Forall₂ (fun u v => u.1 = v.1 ∧ v.2.length = u.2.length ∧
        (Spec.l2 u.2.length fun t => u.2.getD t 0 - v.2.getD t 0) ≤
          1.77 * ((1 + 2 ^ (-50 : ℤ)) ^ (5 * u.1.length + 4) - 1) * Spec.l2 x.length fun i => x.getD i 0) d e ∧
      ∀ v, ([0], v) ∈ d → ∀ M : ℝ, 0 ≤ M → (∀ v ∈ x, |v| ≤ M) → ∀ t < v.length, -(3e-18 * M) ≤ v.getD t 0 := by
  obtain ⟨F, hF⟩ := exists_correct
  obtain ⟨s, hs, hN, hav, hrun⟩ := exArgs_run (T := .none) (av := .loc) .dict (Or.inl ⟨rfl, rfl⟩) (Or.inr (Or.inl rfl))
  obtain ⟨r, hr⟩ := hrun x hx
  obtain ⟨d, hd⟩ : ∃ d, (exArgs .none .dict).run x = .ok (.dict d) := by
    obtain ⟨s', hs', hr'⟩ := bind_eq_ok.1 hr
    obtain ⟨-, l, -, hl⟩ := Front1D.scattering_eq_ok.1 hr'
    unfold assemble at hl
    rw [show ((exArgs .none .dict).obj s').outType = .dict from rfl] at hl
    exact ⟨_, by rw [hr]; exact hl.symm⟩
  obtain ⟨hT, hls⟩ := exArgs_stride hs hN
  obtain ⟨hQ, hQJ, hNp⟩ := exArgs_long (T := .none) hs hN
  obtain ⟨l, hl, pl⟩ := run_dict1 hd
  obtain ⟨p, hp, hpn⟩ := exArgs_first hs hl
  obtain ⟨e, he, hde⟩ := C122_dict (exArgs .none .dict) s hs 8 hT 3 hls (by norm_num) 8 1 hQ hQJ hNp
    (Rounded.ofFloat F) _ _ (by positivity) (ofFloat_accurate hF _) x le_rfl d hd
  refine ⟨F, hF, d, e, hd, ⟨p.coef, pl.symm.subset (List.mem_map.2 ⟨p, hp, by rw [hpn]⟩)⟩, he, hde,
    fun v hv M hM0 hM t ht => ?_⟩
  refine le_trans (neg_le_neg ?_) (C116_dict (exArgs .none .dict) s hs hav 3 hls x (by rw [hN, hx]) M hM0 hM d hd [0] v hv
    (Or.inl (by simp)) t ht)
  have := exArgs_padded hs hN
  simp only [List.length_singleton, Nat.sub_self, Nat.zero_mul, pow_zero, one_mul]
  calc (1e-21 : ℝ) * s.built.Npadded * M ≤ 1e-21 * 3000 * M := by gcongr
    _ = 3e-18 * M := by norm_num

/-- Two signals, sharp bound. -/
example (x y : List ℝ) (hx : x.length = 1000) (hy : y.length = 1000) (D : ℝ) (hD0 : 0 ≤ D)
    (hD : ∀ i < x.length, |x.getD i 0 - y.getD i 0| ≤ D) : ∃ R S,
    (exArgs .none .array).run x = .ok (.array R) ∧ (exArgs .none .array).run y = .ok (.array S) ∧
    R.length = S.length ∧ ∀ r < R.length, ∀ t < (R.getD r []).length, t < (S.getD r []).length →
      |(R.getD r []).getD t 0 - (S.getD r []).getD t 0| ≤ 8.009 * D := by
  obtain ⟨s, R, hs, hN, hR, -⟩ := exArgs_array x hx
  obtain ⟨s', S, -, -, hS, -⟩ := exArgs_array y hy
  obtain ⟨hT, hls⟩ := exArgs_stride hs hN
  obtain ⟨h0, h⟩ := C93_array_sharp (exArgs .none .array) s hs 8 hT 3 hls (by norm_num) x y (by rw [hN, hx])
    (by rw [hN, hy]) D hD0 hD R S hR hS
  refine ⟨R, S, hR, hS, h0, fun r hr t ht ht' => (h r hr t ht ht').trans ?_⟩
  have := exArgs_padded hs hN
  calc (1.001 + 2e-21 * (s.built.Npadded : ℝ)) * (2 ^ 3 * D) ≤ (1.001 + 2e-21 * 3000) * (2 ^ 3 * D) := by gcongr
    _ = ((1.001 + 2e-21 * 3000) * 8) * D := by ring
    _ ≤ 8.009 * D := by gcongr; norm_num

end Verif
