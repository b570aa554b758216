import Verif.Props.Laws1D
import Verif.Props.ClosedObject1D

/-!
# Stability of the 1-D coefficients of every order in the uniform norm
-/

namespace Verif

open Finset

/-- Samples of an impulse response at step `2^k` have together at most its L1 norm. -/
theorem sum_stride_le (h : List ℝ) (k n : ℕ) (hn : n * 2 ^ k ≤ h.length) (c : ℤ) :
    ∑ u ∈ range n, ‖Spec.impulseR h (c - 2 ^ k * u)‖ ≤ l1norm h := by
  rw [l1norm_eq]
  rcases Nat.eq_zero_or_pos h.length with h0 | hN
  · have : n = 0 := by
      rw [h0] at hn
      rcases Nat.eq_zero_or_pos n with h | h
      · exact h
      · have : 0 < n * 2 ^ k := by positivity
        omega
    subst this
    simp [h0]
  have hN' : (h.length : ℤ) ≠ 0 := by omega
  set g : ℕ → ℕ := fun u => ((c - 2 ^ k * u) % h.length).toNat with hg
  have hgz : ∀ u, ((g u : ℕ) : ℤ) = (c - 2 ^ k * u) % h.length := fun u =>
    Int.toNat_of_nonneg (Int.emod_nonneg _ hN')
  have hinj : Set.InjOn g (range n : Finset ℕ) := by
    intro u hu v hv huv
    have hu : u < n := by simpa using hu
    have hv : v < n := by simpa using hv
    have e : (c - 2 ^ k * u) % h.length = (c - 2 ^ k * v) % h.length := by
      rw [← hgz, ← hgz, huv]
    have hd : (h.length : ℤ) ∣ (2 ^ k * v - 2 ^ k * u : ℤ) := by
      have := Int.ModEq.dvd (n := h.length) (a := c - 2 ^ k * v) (b := c - 2 ^ k * u) e.symm
      have e2 : (c - 2 ^ k * u - (c - 2 ^ k * v) : ℤ) = 2 ^ k * v - 2 ^ k * u := by ring
      rwa [e2] at this
    have b : ∀ w : ℕ, w < n → 2 ^ k * w < h.length := by
      intro w hw
      have h2 : 0 < 2 ^ k := by positivity
      calc 2 ^ k * w < 2 ^ k * n := Nat.mul_lt_mul_of_pos_left hw h2
        _ = n * 2 ^ k := mul_comm _ _
        _ ≤ h.length := hn
    have bu := b u hu
    have bv := b v hv
    have z : (2 ^ k * v - 2 ^ k * u : ℤ) = 0 := by
      apply Int.eq_zero_of_abs_lt_dvd hd
      rw [abs_lt]
      zify at bu bv
      have p1 : (0 : ℤ) ≤ 2 ^ k * u := by positivity
      have p2 : (0 : ℤ) ≤ 2 ^ k * v := by positivity
      constructor <;> linarith
    have z' : (2 : ℤ) ^ k * (v - u) = 0 := by linarith
    rcases mul_eq_zero.1 z' with h1 | h1
    · exact absurd h1 (by positivity)
    · omega
  have e1 : ∀ u ∈ range n, ‖Spec.impulseR h (c - 2 ^ k * u)‖ = ‖Spec.impulseR h (g u : ℕ)‖ := by
    intro u _
    congr 1
    apply impulseR_congr
    rw [hgz, Int.emod_emod_of_dvd _ (dvd_refl _)]
  rw [Finset.sum_congr rfl e1, ← Finset.sum_image (f := fun m : ℕ => ‖Spec.impulseR h m‖) hinj]
  apply Finset.sum_le_sum_of_subset_of_nonneg
  · intro m hm
    obtain ⟨u, -, rfl⟩ := Finset.mem_image.1 hm
    rw [mem_range]
    have := Int.emod_lt_of_pos (c - 2 ^ k * u) (by omega : (0 : ℤ) < h.length)
    rw [← hgz] at this
    omega
  · exact fun _ _ _ => norm_nonneg _

theorem weighted_le (n : ℕ) (a b : ℕ → ℝ) (w : ℕ → ℂ) (D : ℝ) (hD : ∀ u < n, |a u - b u| ≤ D) :
    ‖∑ u ∈ range n, (a u : ℂ) * w u - ∑ u ∈ range n, (b u : ℂ) * w u‖ ≤ D * ∑ u ∈ range n, ‖w u‖ := by
  rw [← Finset.sum_sub_distrib, Finset.mul_sum]
  refine (norm_sum_le _ _).trans (Finset.sum_le_sum fun u hu => ?_)
  rw [← sub_mul, norm_mul, ← Complex.ofReal_sub, Complex.norm_real, Real.norm_eq_abs]
  exact mul_le_mul_of_nonneg_right (hD u (mem_range.1 hu)) (norm_nonneg _)

section

variable {X Y : List ℝ} {D : ℝ} (hl : Y.length = X.length) (hD : ∀ i < X.length, |X.getD i 0 - Y.getD i 0| ≤ D)
  (h0 : 0 ≤ D) {h g f : List ℝ} (hh : h.length = X.length) (h1 : l1norm h ≤ 1)
  (gh : g.length = X.length) (g1 : l1norm g ≤ 1) (fh : f.length = X.length) (f1 : l1norm f ≤ 1)
include hl hD h0

/-- A full-rate convolution with a filter of L1 norm at most one. -/
theorem full_le (hh : h.length = X.length) (h1 : l1norm h ≤ 1) (c : ℤ) :
    ‖∑ m ∈ range X.length, (X.getD m 0 : ℂ) * Spec.impulseR h (c - m) -
      ∑ m ∈ range Y.length, (Y.getD m 0 : ℂ) * Spec.impulseR h (c - m)‖ ≤ D := by
  rw [hl]
  refine (weighted_le _ (fun m => X.getD m 0) (fun m => Y.getD m 0) _ D hD).trans ?_
  have := sum_stride_le h 0 X.length (by simp [hh]) c
  simp only [pow_zero, one_mul] at this
  calc D * _ ≤ D * 1 := mul_le_mul_of_nonneg_left (this.trans h1) h0
    _ = D := mul_one _

include hh h1

theorem U1_le (k : ℕ) (u : ℤ) :
    |Spec.U1 X (Spec.impulseR h) k u - Spec.U1 Y (Spec.impulseR h) k u| ≤ D :=
  (abs_norm_sub_norm_le _ _).trans (full_le hl hD h0 hh h1 _)

theorem S0_le (ls : ℕ) (t : ℤ) :
    |Spec.S0 X (Spec.impulseR h) ls t - Spec.S0 Y (Spec.impulseR h) ls t| ≤ D := by
  unfold Spec.S0
  rw [← Complex.sub_re]
  exact (Complex.abs_re_le_norm _).trans (full_le hl hD h0 hh h1 _)

omit hD h0 hh h1 in
/-- A convolution of samples at step `2^k` with the stored level of a filter. -/
theorem level_le {E : ℝ} (hE : 0 ≤ E) (gh : g.length = X.length) (g1 : l1norm g ≤ 1) (k : ℕ) (a b : ℕ → ℝ)
    (hab : ∀ u, |a u - b u| ≤ E) (c : ℤ) :
    ‖∑ u ∈ range (X.length / 2 ^ k), (a u : ℂ) * (2 ^ k * Spec.impulseR g (c - 2 ^ k * u)) -
      ∑ u ∈ range (Y.length / 2 ^ k), (b u : ℂ) * (2 ^ k * Spec.impulseR g (c - 2 ^ k * u))‖ ≤ 2 ^ k * E := by
  rw [hl]
  refine (weighted_le _ a b _ E fun u _ => hab u).trans ?_
  have := sum_stride_le g k (X.length / 2 ^ k) (by rw [gh]; exact Nat.div_mul_le_self _ _) c
  simp only [norm_mul, norm_pow, Complex.norm_ofNat]
  rw [← Finset.mul_sum]
  calc E * (2 ^ k * _) ≤ E * (2 ^ k * 1) :=
        mul_le_mul_of_nonneg_left (mul_le_mul_of_nonneg_left (this.trans g1) (by positivity)) hE
    _ = 2 ^ k * E := by ring

include gh g1

theorem U2_le (k1 k2 : ℕ) (v : ℤ) :
    |Spec.U2 X (Spec.impulseR h) (Spec.impulseR g) k1 k2 v -
      Spec.U2 Y (Spec.impulseR h) (Spec.impulseR g) k1 k2 v| ≤ 2 ^ k1 * D :=
  (abs_norm_sub_norm_le _ _).trans
    (level_le hl h0 gh g1 k1 (fun u => Spec.U1 X (Spec.impulseR h) k1 u)
      (fun u => Spec.U1 Y (Spec.impulseR h) k1 u) (fun u => U1_le hl hD h0 hh h1 k1 u) _)

theorem S1_le (k1 ls : ℕ) (t : ℤ) :
    |Spec.S1 X (Spec.impulseR h) (Spec.impulseR g) k1 ls t -
      Spec.S1 Y (Spec.impulseR h) (Spec.impulseR g) k1 ls t| ≤ 2 ^ k1 * D := by
  unfold Spec.S1
  rw [← Complex.sub_re]
  exact (Complex.abs_re_le_norm _).trans
    (level_le hl h0 gh g1 k1 (fun u => Spec.U1 X (Spec.impulseR h) k1 u)
      (fun u => Spec.U1 Y (Spec.impulseR h) k1 u) (fun u => U1_le hl hD h0 hh h1 k1 u) _)

include fh f1

theorem S2_le (k1 k2 ls : ℕ) (t : ℤ) :
    |Spec.S2 X (Spec.impulseR h) (Spec.impulseR g) (Spec.impulseR f) k1 k2 ls t -
      Spec.S2 Y (Spec.impulseR h) (Spec.impulseR g) (Spec.impulseR f) k1 k2 ls t| ≤ 2 ^ k2 * (2 ^ k1 * D) := by
  unfold Spec.S2
  rw [← Complex.sub_re]
  exact (Complex.abs_re_le_norm _).trans
    (level_le hl (by positivity) fh f1 k2
      (fun v => Spec.U2 X (Spec.impulseR h) (Spec.impulseR g) k1 k2 v)
      (fun v => Spec.U2 Y (Spec.impulseR h) (Spec.impulseR g) k1 k2 v)
      (fun v => U2_le hl hD h0 hh h1 gh g1 k1 k2 v) _)

end

/-! ## Constructed objects -/

theorem padded_le {x y X Y : List ℝ} {l N : ℕ} (hxy : y.length = x.length) (hX : Spec.IsPadded x l N X)
    (hY : Spec.IsPadded y l N Y) {D : ℝ} (h0 : 0 ≤ D) (hD : ∀ i < x.length, |x.getD i 0 - y.getD i 0| ≤ D) :
    Y.length = X.length ∧ ∀ i < X.length, |X.getD i 0 - Y.getD i 0| ≤ D := by
  refine ⟨by rw [hX.1, hY.1], fun i hi => ?_⟩
  rw [hX.1] at hi
  rw [hX.2 i hi, hY.2 i hi, hxy]
  rcases Nat.lt_or_ge (Spec.mirror x.length ((i : ℤ) - l)) x.length with hlt | hge
  · exact hD _ hlt
  · rw [List.getD_eq_getElem?_getD, List.getElem?_eq_none hge, List.getD_eq_getElem?_getD,
      List.getElem?_eq_none (by omega)]
    simpa using h0

theorem zeroth_j {a : Args1D} {s : Sc1D} (hmake : a.make = .ok s) {x : List ℝ} {l : List (Path (List ℝ))}
    (hl : a.run x = .ok (.list l)) {p : Path (List ℝ)} (hp : p ∈ l) (hn : p.n = []) : p.j = [] := by
  obtain ⟨U0, ls, out, -, -, hcore, hpost⟩ := run_list hmake hl
  obtain ⟨q, hq, hpq⟩ := hpost p hp
  obtain ⟨e1, e2⟩ := Front1D.post_labels hpq
  have := Core1D.labels_eq npBackend hcore
  have hm : (q.j, q.n) ∈ Core1D.labels npBackend (Front1D.psis (a.obj s)) := by
    rw [← this]; exact List.mem_map.2 ⟨q, hq, rfl⟩
  rcases (Core1D.mem_labels npBackend).1 hm with h | ⟨n1, f, -, h⟩ | ⟨n1, n2, f, g, -, -, -, h⟩
  · rw [e2]; exact congrArg Prod.fst h
  · have h := congrArg Prod.snd h
    rw [← e1, hn] at h
    cases h
  · have h := congrArg Prod.snd h
    rw [← e1, hn] at h
    cases h

theorem wavelet_norm {J N : ℕ} {Q : Int} (hQ : 1 ≤ Q.toNat) {n : ℕ} {p : ℝ × ℝ}
    (hp : (anden J Q.toNat)[n]? = some p) :
    (morlet1d N (some p.1) p.2).length = N ∧ l1norm (morlet1d N (some p.1) p.2) ≤ 1 := by
  obtain ⟨-, -, h3⟩ := anden_pos hQ (List.mem_of_getElem? hp)
  exact ⟨length_morlet1d (lt_of_lt_of_le (by positivity) h3), l1norm_morlet1d_le _ _ _⟩

/-- **C93, local averaging.**  Two signals of the same length that differ by at most `D` at every sample
have coefficients that differ at every sample by at most `D` times `2^(min(j, log2_stride))` for each
wavelet of the path.  In particular with `stride = 1` every coefficient of every order is non-expansive. -/
theorem C93_averaged (a : Args1D) (s : Sc1D) (hmake : a.make = .ok s) (havg : s.average = .loc) (ls : ℕ)
    (hls : log2Stride s.built.stride a.T a.J s.built.Ninput = .ok ls) (x y : List ℝ)
    (hx : x.length = s.built.Ninput) (hy : y.length = s.built.Ninput) (D : ℝ)
    (hD : ∀ i < x.length, |x.getD i 0 - y.getD i 0| ≤ D)
    (l m : List (Path (List ℝ))) (hl : a.run x = .ok (.list l)) (hm : a.run y = .ok (.list m))
    (p q : Path (List ℝ)) (hp : p ∈ l) (hq : q ∈ m) (hpq : p.n = q.n) (t : ℕ) (htp : t < p.coef.length)
    (htq : t < q.coef.length) :
    |p.coef.getD t 0 - q.coef.getD t 0| ≤ 2 ^ (p.j.map fun j => min j ls).sum * D := by
  obtain ⟨T, -, -, hT, -, -, -, -, hpos, -⟩ := make_sizes hmake
  rw [havg] at hT
  obtain ⟨_, Q1, Q2, -, -, -, hQ1, hQ2, ht, hT', hQ, -⟩ := make_filters hmake
  rw [hT] at hT'
  injection hT' with hT'
  injection hT' with e1 e2
  subst e1
  have h0 : 0 ≤ D := (abs_nonneg _).trans (hD 0 (by omega))
  have hs : (0 : ℝ) < 0.1 / T := by
    have : (0 : ℝ) < T := by exact_mod_cast (by linarith : (0 : ℚ) < T)
    positivity
  obtain ⟨X, hX, hXp⟩ := C13_object_averaged a s hmake T hT Q1 Q2 hQ ls hls x hx l hl
  obtain ⟨Y, hY, hYq⟩ := C13_object_averaged a s hmake T hT Q1 Q2 hQ ls hls y hy m hm
  obtain ⟨hlen, hd⟩ := padded_le (by omega) hX hY h0 hD
  have hf : (gauss1d s.built.Npadded (0.1 / T)).length = X.length := by
    rw [hX.1]; exact length_morlet1d hs
  have hf1 : l1norm (gauss1d s.built.Npadded (0.1 / T)) ≤ 1 := l1norm_morlet1d_le _ _ _
  have hP := hXp p hp t htp
  have hQ' := hYq q hq t htq
  dsimp only at hP hQ'
  rcases hP with ⟨n1, c1⟩ | ⟨n1, p1, j1, n2, d1, d2, d3, c1⟩ |
    ⟨n1, n2, p1, p2, j1, j2, n3, d1, d2, d3, d4, d5, d6, c1⟩ <;>
  rcases hQ' with ⟨m1, c2⟩ | ⟨m1, q1, i1, m2, g1, g2, g3, c2⟩ |
    ⟨m1, m2, q1, q2, i1, i2, m3, g1, g2, g3, g4, g5, g6, c2⟩
  · have := S0_le hlen hd h0 hf hf1 ls (t + ⌈(s.built.padLeft : ℚ) / 2 ^ ls⌉)
    rw [c1, c2]
    refine this.trans ?_
    exact le_mul_of_one_le_left h0 (one_le_pow₀ one_le_two)
  · rw [n1, m2] at hpq; cases hpq
  · rw [n1, m3] at hpq; cases hpq
  · rw [n2, m1] at hpq; cases hpq
  · rw [n2, m2] at hpq
    injection hpq with e _
    subst e
    rw [d2] at g2
    injection g2 with g2
    subst g2
    have e : i1 = j1 := by omega
    subst e
    obtain ⟨w1, w2⟩ := wavelet_norm (N := s.built.Npadded) (by simpa using hQ1) d2
    rw [c1, c2, d1]
    simpa [waveletResponse, lowpassResponse] using
      S1_le hlen hd h0 (w1.trans hX.1.symm) w2 hf hf1 (min i1 ls) ls (t + ⌈(s.built.padLeft : ℚ) / 2 ^ ls⌉)
  · rw [n2, m3] at hpq; cases hpq
  · rw [n3, m1] at hpq; cases hpq
  · rw [n3, m2] at hpq; cases hpq
  · rw [n3, m3] at hpq
    injection hpq with e e'
    injection e' with e' _
    subst e e'
    rw [d3] at g3
    injection g3 with g3
    rw [d4] at g4
    injection g4 with g4
    subst g3 g4
    have e : i1 = j1 := by omega
    have e' : i2 = j2 := by omega
    subst e e'
    obtain ⟨w1, w2⟩ := wavelet_norm (N := s.built.Npadded) (by simpa using hQ1) d3
    obtain ⟨v1, v2⟩ := wavelet_norm (N := s.built.Npadded) (by simpa using hQ2) d4
    rw [c1, c2, d1]
    have := S2_le hlen hd h0 (w1.trans hX.1.symm) w2 (v1.trans hX.1.symm) v2 hf hf1 (min i1 ls) (min i2 ls) ls
      (t + ⌈(s.built.padLeft : ℚ) / 2 ^ ls⌉)
    refine this.trans (le_of_eq ?_)
    simp only [List.map_cons, List.map_nil, List.sum_cons, List.sum_nil, add_zero, pow_add]
    ring

/-- **C93, without local averaging.**  With `T = 0` the coefficients of order zero and one are
non-expansive, and a second-order coefficient `(j1, j2)` moves by at most `2^j1` times the displacement
of the signal; with `T = 'global'` by at most this times the number of samples that are summed. -/
theorem C93_unaveraged (a : Args1D) (s : Sc1D) (hmake : a.make = .ok s) (x y : List ℝ)
    (hx : x.length = s.built.Ninput) (hy : y.length = s.built.Ninput) (D : ℝ)
    (hD : ∀ i < x.length, |x.getD i 0 - y.getD i 0| ≤ D)
    (l m : List (Path (List ℝ))) (hl : a.run x = .ok (.list l)) (hm : a.run y = .ok (.list m))
    (p q : Path (List ℝ)) (hp : p ∈ l) (hq : q ∈ m) (hpq : p.n = q.n) (t : ℕ) (htp : t < p.coef.length)
    (htq : t < q.coef.length) :
    (s.average = .no → |p.coef.getD t 0 - q.coef.getD t 0| ≤ 2 ^ p.j.dropLast.sum * D) ∧
    (s.average = .glob → |p.coef.getD t 0 - q.coef.getD t 0| ≤
      ((s.built.Npadded / 2 ^ p.j.getLastD 0 : ℕ) : ℝ) * (2 ^ p.j.dropLast.sum * D)) := by
  by_cases hav : s.average = .loc
  · constructor <;> intro h <;> rw [hav] at h <;> cases h
  obtain ⟨T, -, -, hT, -, -, -, -, hpos, -⟩ := make_sizes hmake
  obtain ⟨_, Q1, Q2, -, -, -, hQ1, hQ2, -, -, hQ, -⟩ := make_filters hmake
  have h0 : 0 ≤ D := (abs_nonneg _).trans (hD 0 (by omega))
  obtain ⟨X, hX, hXp⟩ := C13_object_unaveraged a s hmake hav Q1 Q2 hQ x hx l hl
  obtain ⟨Y, hY, hYq⟩ := C13_object_unaveraged a s hmake hav Q1 Q2 hQ y hy m hm
  obtain ⟨hlen, hd⟩ := padded_le (by omega) hX hY h0 hD
  obtain ⟨g, j, n, hn, hno, hgl, hP⟩ := hXp p hp
  obtain ⟨g', j', n', hn', hno', hgl', hQ'⟩ := hYq q hq
  have key : j' = j ∧ j = p.j.getLastD 0 ∧ ∀ u : ℕ, |g u - g' u| ≤ 2 ^ p.j.dropLast.sum * D := by
    rcases hP with ⟨n1, ej, c1⟩ | ⟨n1, p1, n2, d1, d2, d3, c1⟩ |
      ⟨n1, n2, p1, p2, j1, n3, d1, d2, d3, d4, d5, d6, c1⟩ <;>
    rcases hQ' with ⟨m1, ej', c2⟩ | ⟨m1, q1, m2, g1, g2, g3, c2⟩ |
      ⟨m1, m2, q1, q2, i1, m3, g1, g2, g3, g4, g5, g6, c2⟩
    · have hj := zeroth_j hmake hl hp n1
      refine ⟨by omega, by simp [hj, ej], fun u => ?_⟩
      rw [c1, c2, hj]
      rcases Nat.lt_or_ge u X.length with hlt | hge
      · simpa using hd u hlt
      · rw [List.getD_eq_getElem?_getD, List.getElem?_eq_none hge, List.getD_eq_getElem?_getD,
          List.getElem?_eq_none (by omega)]
        simpa using h0
    · rw [n1, m2] at hpq; cases hpq
    · rw [n1, m3] at hpq; cases hpq
    · rw [n2, m1] at hpq; cases hpq
    · rw [n2, m2] at hpq
      injection hpq with e _
      subst e
      rw [d2] at g2
      injection g2 with g2
      subst g2
      have e : j' = j := by omega
      subst e
      obtain ⟨w1, w2⟩ := wavelet_norm (N := s.built.Npadded) (by simpa using hQ1) d2
      refine ⟨rfl, by simp [d1], fun u => ?_⟩
      rw [c1, c2, d1]
      simpa [waveletResponse] using U1_le hlen hd h0 (w1.trans hX.1.symm) w2 j' u
    · rw [n2, m3] at hpq; cases hpq
    · rw [n3, m1] at hpq; cases hpq
    · rw [n3, m2] at hpq; cases hpq
    · rw [n3, m3] at hpq
      injection hpq with e e'
      injection e' with e' _
      subst e e'
      rw [d3] at g3
      injection g3 with g3
      rw [d4] at g4
      injection g4 with g4
      subst g3 g4
      have e : i1 = j1 := by omega
      have e' : j' = j := by omega
      subst e e'
      obtain ⟨w1, w2⟩ := wavelet_norm (N := s.built.Npadded) (by simpa using hQ1) d3
      obtain ⟨v1, v2⟩ := wavelet_norm (N := s.built.Npadded) (by simpa using hQ2) d4
      refine ⟨rfl, by simp [d1], fun u => ?_⟩
      rw [c1, c2, d1]
      simpa [waveletResponse] using U2_le hlen hd h0 (w1.trans hX.1.symm) w2 (v1.trans hX.1.symm) v2 i1 j' u
  obtain ⟨rfl, hj, hb⟩ := key
  have h2 : 0 < 2 ^ j' := by positivity
  have hnn : n' = n := Nat.eq_of_mul_eq_mul_right h2 (hn'.trans hn.symm)
  subst hnn
  constructor
  · intro h
    rw [hno h t htp, hno' h t htq, ← ceil_border]
    exact_mod_cast hb _
  · intro h
    have ep := hgl h
    have eq := hgl' h
    have ht : t = 0 := by rw [ep] at htp; simpa using htp
    subst ht
    rw [ep, eq, ← hj, ← hn, Nat.mul_div_cancel _ h2]
    simp only [List.getD_cons_zero]
    rw [← Finset.sum_sub_distrib]
    refine (Finset.abs_sum_le_sum_abs _ _).trans ?_
    refine (Finset.sum_le_card_nsmul _ _ _ fun u _ => hb u).trans ?_
    rw [Finset.card_range, nsmul_eq_mul]

/-- The signal zero, sample by sample `0 * x`, and its coefficients. -/
theorem run_zero {a : Args1D} {s : Sc1D} (hmake : a.make = .ok s) (ho : a.outType = .list) {x : List ℝ}
    {l : List (Path (List ℝ))} (hl : a.run x = .ok (.list l)) :
    ∃ m, a.run (x.map (0 * ·)) = .ok (.list m) ∧ ∀ p ∈ l, ∃ q ∈ m, p.n = q.n ∧
      q.coef.length = p.coef.length ∧ ∀ t, q.coef.getD t 0 = 0 := by
  have e : ∀ z : List ℝ, a.run z = Front1D.scattering npBackend npFront (a.obj s) z := by
    intro z
    unfold Args1D.run
    rw [hmake]
    rfl
  rw [e] at hl
  obtain ⟨m, hm, hr⟩ := C19_homogeneous (a.obj s) ho 0 x l hl
  refine ⟨m, (e _).trans hm, fun p hp => ?_⟩
  obtain ⟨q, hq, h1, -, h3⟩ := forall₂_mem_left hr hp
  refine ⟨q, hq, h1, by rw [h3]; simp, fun t => ?_⟩
  rw [h3, List.getD_eq_getElem?_getD, List.getElem?_map]
  cases p.coef[t]? with
  | none => rfl
  | some v => by_cases h : p.n = [] <;> simp [h]

/-- **C93, bound.**  If the samples of the signal are at most `M` in absolute value, a coefficient is at
most `M` times the same constant. -/
theorem C93_bounded (a : Args1D) (s : Sc1D) (hmake : a.make = .ok s) (ho : a.outType = .list) (x : List ℝ)
    (hx : x.length = s.built.Ninput) (M : ℝ) (hM : ∀ v ∈ x, |v| ≤ M)
    (l : List (Path (List ℝ))) (hl : a.run x = .ok (.list l)) (p : Path (List ℝ)) (hp : p ∈ l) (t : ℕ)
    (ht : t < p.coef.length) :
    (s.average = .loc → ∀ ls : ℕ, log2Stride s.built.stride a.T a.J s.built.Ninput = .ok ls →
      |p.coef.getD t 0| ≤ 2 ^ (p.j.map fun j => min j ls).sum * M) ∧
    (s.average = .no → |p.coef.getD t 0| ≤ 2 ^ p.j.dropLast.sum * M) ∧
    (s.average = .glob → |p.coef.getD t 0| ≤
      ((s.built.Npadded / 2 ^ p.j.getLastD 0 : ℕ) : ℝ) * (2 ^ p.j.dropLast.sum * M)) := by
  obtain ⟨m, hm, hq⟩ := run_zero hmake ho hl
  obtain ⟨q, hq, h1, h2, h3⟩ := hq p hp
  have hy : (x.map ((0 : ℝ) * ·)).length = s.built.Ninput := by simpa using hx
  have hD : ∀ i < x.length, |x.getD i 0 - (x.map ((0 : ℝ) * ·)).getD i 0| ≤ M := by
    intro i hi
    have e1 : (x.map ((0 : ℝ) * ·)).getD i 0 = 0 := by
      rw [List.getD_eq_getElem?_getD, List.getElem?_map]
      cases x[i]? <;> simp
    rw [e1, sub_zero, List.getD_eq_getElem?_getD, List.getElem?_eq_getElem hi]
    exact hM _ (List.getElem_mem hi)
  have h4 := C93_unaveraged a s hmake x _ hx hy M hD l m hl hm p q hp hq h1 t ht (by omega)
  rw [h3 t, sub_zero] at h4
  refine ⟨fun h ls hls => ?_, h4.1, h4.2⟩
  have h5 := C93_averaged a s hmake h ls hls x _ hx hy M hD l m hl hm p q hp hq h1 t ht (by omega)
  rwa [h3 t, sub_zero] at h5

/-! ## A case that meets the hypotheses -/

/-- Two signals of 1000 samples at distance at most 1, `Scattering1D(J=3, shape=1000, Q=(8,1))`: the
stride is `2^3`, and every coefficient of order two moves by at most `2^6`. -/
example (x y : List ℝ) (hx : x.length = 1000) (hy : y.length = 1000)
    (hd : ∀ i < 1000, |x.getD i 0 - y.getD i 0| ≤ 1) :
    ∃ l m, (exArgs .none .list).run x = .ok (.list l) ∧ (exArgs .none .list).run y = .ok (.list m) ∧
      ∀ p ∈ l, ∀ q ∈ m, p.n = q.n → p.j.length = 2 → ∀ t < p.coef.length, t < q.coef.length →
        |p.coef.getD t 0 - q.coef.getD t 0| ≤ 2 ^ 6 := by
  obtain ⟨s, l, h1, h2, h3, h4⟩ := exArgs_list (T := .none) (av := .loc) (Or.inl ⟨rfl, rfl⟩) x hx
  obtain ⟨s', m, -, -, -, h4'⟩ := exArgs_list (T := .none) (av := .loc) (Or.inl ⟨rfl, rfl⟩) y hy
  obtain ⟨s', h1', -, -, h5⟩ := C17_construction (exArgs .none .list) 1000 rfl (by norm_num) (2 ^ 3)
    .loc rfl 8 1 rfl (by norm_num) (le_jPad_of_pow (by norm_num) (by norm_num [exArgs])) (Or.inr rfl)
  rw [h1] at h1'
  injection h1' with h1'
  subst h1'
  refine ⟨l, m, h4, h4', fun p hp q hq hn hj t ht ht' => ?_⟩
  have hls : log2Stride s.built.stride (exArgs .none .list).T (exArgs .none .list).J s.built.Ninput =
      .ok ((3 : ℕ) : ℤ) := by
    rw [h5, h2]
    refine (C07_log2_stride_ok _ _ _ _ _).2 (Or.inl ⟨rfl, ?_⟩)
    show Except.ok (floorLog2 (2 ^ 3)) = _
    rw [floorLog2_twoPow]
  have := C93_averaged _ s h1 h3 3 hls x y (by omega) (by omega) 1 (by rw [hx]; exact hd) l m h4 h4' p q hp
    hq hn t ht ht'
  refine this.trans ?_
  rw [mul_one]
  refine pow_le_pow_right₀ (by norm_num) ?_
  match p.j, hj with
  | [j1, j2], _ =>
    simp only [List.map_cons, List.map_nil, List.sum_cons, List.sum_nil]
    omega

end Verif
