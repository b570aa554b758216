import Verif.Props.StabilityJTFS
import Verif.Props.Stability2D
import Verif.Props.Stability3D
import Verif.Props.Params
import Mathlib.Analysis.MeanInequalities

/-!
# C110: order zero is linear, the moduli are non-negative and subadditive
-/

namespace Verif

open Finset FrontJ JTFS

/-- `z = α x + β y`, sample by sample. -/
def Spec.IsCombo (α β : ℝ) (x y z : List ℝ) : Prop :=
  x.length = z.length ∧ y.length = z.length ∧ ∀ i < z.length, z.getD i 0 = α * x.getD i 0 + β * y.getD i 0

theorem combo_getD {α β : ℝ} {x y z : List ℝ} (h : Spec.IsCombo α β x y z) (i : ℕ) :
    z.getD i 0 = α * x.getD i 0 + β * y.getD i 0 := by
  obtain ⟨h1, h2, h3⟩ := h
  rcases Nat.lt_or_ge i z.length with hi | hi
  · exact h3 i hi
  · simp [List.getD_eq_getElem?_getD, List.getElem?_eq_none hi, List.getElem?_eq_none (show x.length ≤ i by omega),
      List.getElem?_eq_none (show y.length ≤ i by omega)]

theorem padded_combo {α β : ℝ} {x y z X Y Z : List ℝ} {l N : ℕ} (h : Spec.IsCombo α β x y z)
    (hX : Spec.IsPadded x l N X) (hY : Spec.IsPadded y l N Y) (hZ : Spec.IsPadded z l N Z) :
    Spec.IsCombo α β X Y Z := by
  refine ⟨by rw [hX.1, hZ.1], by rw [hY.1, hZ.1], fun i hi => ?_⟩
  rw [hZ.1] at hi
  rw [hX.2 i hi, hY.2 i hi, hZ.2 i hi, h.1, h.2.1]
  exact combo_getD h _

theorem conv_combo {α β : ℝ} {x y z : List ℝ} (h : Spec.IsCombo α β x y z) (w : ℕ → ℂ) :
    ∑ m ∈ range z.length, (z.getD m 0 : ℂ) * w m =
      α * ∑ m ∈ range x.length, (x.getD m 0 : ℂ) * w m + β * ∑ m ∈ range y.length, (y.getD m 0 : ℂ) * w m := by
  rw [h.1, h.2.1, Finset.mul_sum, Finset.mul_sum, ← Finset.sum_add_distrib]
  refine Finset.sum_congr rfl fun m _ => ?_
  rw [combo_getD h]
  push_cast
  ring

theorem S0_combo {α β : ℝ} {x y z : List ℝ} (h : Spec.IsCombo α β x y z) (φ : ℤ → ℂ) (ls : ℕ) (t : ℤ) :
    Spec.S0 z φ ls t = α * Spec.S0 x φ ls t + β * Spec.S0 y φ ls t := by
  unfold Spec.S0
  rw [conv_combo h]
  simp

theorem U1_subadd {x y z : List ℝ} (h : Spec.IsCombo 1 1 x y z) (ψ : ℤ → ℂ) (k : ℕ) (u : ℤ) :
    Spec.U1 z ψ k u ≤ Spec.U1 x ψ k u + Spec.U1 y ψ k u := by
  unfold Spec.U1
  rw [conv_combo h]
  simpa using norm_add_le _ _

theorem log2Stride_nonneg {st : Option PyNum} {T : PyT} {J N : ℕ} {k : ℤ} (h : log2Stride st T J N = .ok k) : 0 ≤ k := by
  rcases (C07_log2_stride_ok _ _ _ _ _).1 h with ⟨-, h⟩ | ⟨m, rfl, -⟩
  · unfold log2T at h
    obtain ⟨p, hp, h⟩ := bind_eq_ok.1 h
    obtain rfl := Except.ok.inj h
    exact floorLog2_nonneg (parseT_ge_one hp)
  · exact Int.natCast_nonneg m

theorem mirror_lt {N : ℕ} (hN : 0 < N) (t : ℤ) : Spec.mirror N t < N := by
  unfold Spec.mirror
  rcases Nat.lt_or_ge 1 N with h | h
  · have h1 := Int.emod_nonneg t (show (2 * (N : ℤ) - 2) ≠ 0 by omega)
    have h2 := Int.emod_lt_of_pos t (show 0 < (2 * (N : ℤ) - 2) by omega)
    simp only
    omega
  · obtain rfl : N = 1 := by omega
    simp
    omega

/-- **Order zero in 1-D is linear**, whatever the averaging. -/
theorem C110_linear_1d (a : Args1D) (s : Sc1D) (hmake : a.make = .ok s) (α β : ℝ) (x y z : List ℝ)
    (hz : z.length = s.built.Ninput) (hxyz : Spec.IsCombo α β x y z)
    (l m k : List (Path (List ℝ))) (hl : a.run x = .ok (.list l)) (hm : a.run y = .ok (.list m))
    (hk : a.run z = .ok (.list k)) (p q r : Path (List ℝ)) (hp : p ∈ l) (hq : q ∈ m) (hr : r ∈ k)
    (np : p.n = []) (nq : q.n = []) (nr : r.n = []) (t : ℕ) (tp : t < p.coef.length) (tq : t < q.coef.length)
    (tr : t < r.coef.length) :
    r.coef.getD t 0 = α * p.coef.getD t 0 + β * q.coef.getD t 0 := by
  have hx : x.length = s.built.Ninput := by rw [hxyz.1, hz]
  have hy : y.length = s.built.Ninput := by rw [hxyz.2.1, hz]
  obtain ⟨T, lT, hN, hT, hlT, h1, h2, h3, h4, h5, h6, h7, -⟩ := make_sizes hmake
  obtain ⟨_, Q1, Q2, -, -, -, hQ1, hQ2, ht, hT', hQ, -⟩ := make_filters hmake
  by_cases hav : s.average = .loc
  · rw [hav] at hT
    obtain ⟨_, ls, -, -, hls, -⟩ := run_list hmake hl
    have hls' : log2Stride s.built.stride a.T a.J s.built.Ninput = .ok (ls.toNat : ℤ) := by
      rw [hls, Int.toNat_of_nonneg (log2Stride_nonneg hls)]
    obtain ⟨X, hX, cX⟩ := C13_object_averaged a s hmake T hT Q1 Q2 hQ _ hls' x hx l hl
    obtain ⟨Y, hY, cY⟩ := C13_object_averaged a s hmake T hT Q1 Q2 hQ _ hls' y hy m hm
    obtain ⟨Z, hZ, cZ⟩ := C13_object_averaged a s hmake T hT Q1 Q2 hQ _ hls' z hz k hk
    have key : ∀ {W : List ℝ} {w : Path (List ℝ)} {v : ℝ} {A B : Prop}, w.n = [] →
        (w.n = [] ∧ v = Spec.S0 W (lowpassResponse s.built.Npadded T) ls.toNat
          (t + ⌈(s.built.padLeft : ℚ) / 2 ^ ls.toNat⌉)) ∨ A ∨ B → (A → w.n ≠ []) → (B → w.n ≠ []) →
        v = Spec.S0 W (lowpassResponse s.built.Npadded T) ls.toNat
          (t + ⌈(s.built.padLeft : ℚ) / 2 ^ ls.toNat⌉) := by
      rintro W w v A B hw (h | h | h) hA hB
      · exact h.2
      · exact absurd hw (hA h)
      · exact absurd hw (hB h)
    have eX := key np (cX p hp t tp) (by rintro ⟨_, _, _, h, -⟩; simp [h])
      (by rintro ⟨_, _, _, _, _, _, h, -⟩; simp [h])
    have eY := key nq (cY q hq t tq) (by rintro ⟨_, _, _, h, -⟩; simp [h])
      (by rintro ⟨_, _, _, _, _, _, h, -⟩; simp [h])
    have eZ := key nr (cZ r hr t tr) (by rintro ⟨_, _, _, h, -⟩; simp [h])
      (by rintro ⟨_, _, _, _, _, _, h, -⟩; simp [h])
    rw [eX, eY, eZ]
    exact S0_combo (padded_combo hxyz hX hY hZ) _ _ _
  · obtain ⟨X, hX, cX⟩ := C13_object_unaveraged a s hmake hav Q1 Q2 hQ x hx l hl
    obtain ⟨Y, hY, cY⟩ := C13_object_unaveraged a s hmake hav Q1 Q2 hQ y hy m hm
    obtain ⟨Z, hZ, cZ⟩ := C13_object_unaveraged a s hmake hav Q1 Q2 hQ z hz k hk
    have hc := padded_combo hxyz hX hY hZ
    have key : ∀ {W : List ℝ} {g : ℤ → ℝ} {w : Path (List ℝ)} {j n : ℕ}, w.n = [] → n * 2 ^ j = s.built.Npadded →
        (s.average = .no → ∀ t < w.coef.length, w.coef.getD t 0 = g (t + ⌈(s.built.padLeft : ℚ) / 2 ^ j⌉)) →
        (s.average = .glob → w.coef = [∑ u ∈ Finset.range n, g u]) → j = 0 → (∀ u : ℕ, g u = W.getD u 0) →
        t < w.coef.length →
        w.coef.getD t 0 = if s.average = .no then W.getD (t + s.built.padLeft) 0 else
          ∑ u ∈ Finset.range s.built.Npadded, W.getD u 0 := by
      intro W g w j n _ hn hno hgl hj hg htw
      subst hj
      split
      · rename_i h
        rw [hno h t htw, ← ceil_border]
        simp only [pow_zero, Nat.sub_self, add_zero, Nat.div_one]
        exact_mod_cast hg (t + s.built.padLeft)
      · rename_i h
        have hg' : s.average = .glob := by
          cases hs : s.average <;> simp_all
        have e := hgl hg'
        have ht0 : t = 0 := by rw [e] at htw; simpa using htw
        rw [e, ht0]
        simp only [List.getD_cons_zero]
        rw [← hn, pow_zero, mul_one]
        exact Finset.sum_congr rfl fun u _ => hg u
    have fin : ∀ {W : List ℝ} {L : List (Path (List ℝ))} {w : Path (List ℝ)}, w ∈ L → w.n = [] → t < w.coef.length →
        (∀ p ∈ L, ∃ (g : ℤ → ℝ) (j n : Nat), n * 2 ^ j = s.built.Npadded ∧
          (s.average = .no → ∀ t < p.coef.length, p.coef.getD t 0 = g (t + ⌈(s.built.padLeft : ℚ) / 2 ^ j⌉)) ∧
          (s.average = .glob → p.coef = [∑ u ∈ Finset.range n, g u]) ∧
          ((p.n = [] ∧ j = 0 ∧ ∀ u : Nat, g u = W.getD u 0) ∨
           (∃ n1 p1, p.n = [n1] ∧ p.j = [j] ∧ (anden a.J Q1)[n1]? = some p1 ∧
            (j : ℤ) = getMaxDyadicSubsampling p1.1 p1.2 5 ∧
            ∀ u, g u = Spec.U1 W (waveletResponse s.built.Npadded p1) j u) ∨
           (∃ n1 n2 p1 p2 j1, p.n = [n1, n2] ∧ p.j = [j1, j] ∧ j1 < j ∧
            (anden a.J Q1)[n1]? = some p1 ∧ (anden a.J Q2)[n2]? = some p2 ∧
            (j1 : ℤ) = getMaxDyadicSubsampling p1.1 p1.2 5 ∧
            (j : ℤ) = getMaxDyadicSubsampling p2.1 p2.2 5 ∧
            ∀ u, g u = Spec.U2 W (waveletResponse s.built.Npadded p1)
              (waveletResponse s.built.Npadded p2) j1 j u))) →
        w.coef.getD t 0 = if s.average = .no then W.getD (t + s.built.padLeft) 0 else
          ∑ u ∈ Finset.range s.built.Npadded, W.getD u 0 := by
      intro W L w hw hn htw H
      obtain ⟨g, j, n, e1, e2, e3, ⟨-, e4, e5⟩ | ⟨_, _, h, -⟩ | ⟨_, _, _, _, _, h, -⟩⟩ := H w hw
      · exact key hn e1 e2 e3 e4 e5 htw
      · rw [hn] at h; cases h
      · rw [hn] at h; cases h
    rw [fin hp np tp cX, fin hq nq tq cY, fin hr nr tr cZ]
    split
    · exact combo_getD hc _
    · rw [Finset.mul_sum, Finset.mul_sum, ← Finset.sum_add_distrib]
      exact Finset.sum_congr rfl fun u _ => combo_getD hc u

/-- **Without local averaging, coefficients of order one and two are non-negative.** -/
theorem C110_nonneg_1d (a : Args1D) (s : Sc1D) (hmake : a.make = .ok s) (hav : s.average ≠ .loc) (x : List ℝ)
    (hx : x.length = s.built.Ninput) (l : List (Path (List ℝ))) (hl : a.run x = .ok (.list l))
    (p : Path (List ℝ)) (hp : p ∈ l) (hn : p.n ≠ []) : ∀ v ∈ p.coef, 0 ≤ v := by
  obtain ⟨_, Q1, Q2, -, -, -, hQ1, hQ2, ht, hT', hQ, -⟩ := make_filters hmake
  obtain ⟨X, hX, cX⟩ := C13_object_unaveraged a s hmake hav Q1 Q2 hQ x hx l hl
  obtain ⟨g, j, n, e1, e2, e3, h⟩ := cX p hp
  have hg : ∀ u, 0 ≤ g u := by
    intro u
    rcases h with ⟨h, -⟩ | ⟨_, _, -, -, -, -, h⟩ | ⟨_, _, _, _, _, -, -, -, -, -, -, -, h⟩
    · exact absurd h hn
    · rw [h]; exact norm_nonneg _
    · rw [h]; exact norm_nonneg _
  intro v hv
  cases hs : s.average with
  | loc => exact absurd hs hav
  | no =>
    obtain ⟨t, ht, rfl⟩ := List.mem_iff_getElem.1 hv
    have := e2 hs t ht
    rw [List.getD_eq_getElem?_getD, List.getElem?_eq_getElem ht] at this
    rw [show p.coef[t] = _ from this]
    exact hg _
  | glob =>
    rw [e3 hs] at hv
    rw [List.mem_singleton.1 hv]
    exact Finset.sum_nonneg fun u _ => hg _

/-- **Without local averaging, coefficients of order one are subadditive.** -/
theorem C110_subadditive_1d (a : Args1D) (s : Sc1D) (hmake : a.make = .ok s) (hav : s.average ≠ .loc)
    (x y z : List ℝ) (hz : z.length = s.built.Ninput) (hxyz : Spec.IsCombo 1 1 x y z)
    (l m k : List (Path (List ℝ))) (hl : a.run x = .ok (.list l)) (hm : a.run y = .ok (.list m))
    (hk : a.run z = .ok (.list k)) (n1 : ℕ) (p q r : Path (List ℝ)) (hp : p ∈ l) (hq : q ∈ m) (hr : r ∈ k)
    (np : p.n = [n1]) (nq : q.n = [n1]) (nr : r.n = [n1]) (t : ℕ) (tp : t < p.coef.length)
    (tq : t < q.coef.length) (tr : t < r.coef.length) :
    r.coef.getD t 0 ≤ p.coef.getD t 0 + q.coef.getD t 0 := by
  have hx : x.length = s.built.Ninput := by rw [hxyz.1, hz]
  have hy : y.length = s.built.Ninput := by rw [hxyz.2.1, hz]
  obtain ⟨_, Q1, Q2, -, -, -, hQ1, hQ2, ht, hT', hQ, -⟩ := make_filters hmake
  obtain ⟨X, hX, cX⟩ := C13_object_unaveraged a s hmake hav Q1 Q2 hQ x hx l hl
  obtain ⟨Y, hY, cY⟩ := C13_object_unaveraged a s hmake hav Q1 Q2 hQ y hy m hm
  obtain ⟨Z, hZ, cZ⟩ := C13_object_unaveraged a s hmake hav Q1 Q2 hQ z hz k hk
  have hc := padded_combo hxyz hX hY hZ
  obtain ⟨g1, j1, m1, a1, a2, a3, A⟩ := cX p hp
  obtain ⟨g2, j2, m2, b1, b2, b3, B⟩ := cY q hq
  obtain ⟨g3, j3, m3, c1, c2, c3, C⟩ := cZ r hr
  rcases A with ⟨h, -⟩ | ⟨i1, w1, h1, -, d1, f1, u1⟩ | ⟨_, _, _, _, _, h, -⟩
  · rw [np] at h; cases h
  · rcases B with ⟨h, -⟩ | ⟨i2, w2, h2, -, d2, f2, u2⟩ | ⟨_, _, _, _, _, h, -⟩
    · rw [nq] at h; cases h
    · rcases C with ⟨h, -⟩ | ⟨i3, w3, h3, -, d3, f3, u3⟩ | ⟨_, _, _, _, _, h, -⟩
      · rw [nr] at h; cases h
      · rw [np] at h1; rw [nq] at h2; rw [nr] at h3
        cases h1; cases h2; cases h3
        obtain rfl := Option.some.inj (d1.symm.trans d2)
        obtain rfl := Option.some.inj (d1.symm.trans d3)
        obtain rfl : j2 = j1 := by omega
        obtain rfl : j3 = j2 := by omega
        have h2 : 0 < 2 ^ j3 := by positivity
        obtain rfl : m2 = m1 := Nat.eq_of_mul_eq_mul_right h2 (b1.trans a1.symm)
        obtain rfl : m3 = m2 := Nat.eq_of_mul_eq_mul_right h2 (c1.trans b1.symm)
        have hu : ∀ u, g3 u ≤ g1 u + g2 u := fun u => by
          rw [u1, u2, u3]; exact U1_subadd hc _ _ _
        cases hs : s.average with
        | loc => exact absurd hs hav
        | no => rw [a2 hs t tp, b2 hs t tq, c2 hs t tr]; exact hu _
        | glob =>
          have e3 := c3 hs
          have ht0 : t = 0 := by rw [e3] at tr; simpa using tr
          rw [e3, a3 hs, b3 hs, ht0]
          simp only [List.getD_cons_zero]
          rw [← Finset.sum_add_distrib]
          exact Finset.sum_le_sum fun u _ => hu u
      · rw [nr] at h; cases h
    · rw [nq] at h; cases h
  · rw [np] at h; cases h

/-! ## 2-D -/

/-- **Order zero in 2-D is linear.** -/
theorem C110_linear_2d (a : Args2D) (ho : a.outType = .list) (α β : ℝ) (x y z : Img ℝ)
    (hxyz : ∀ i < z.h, ∀ j < z.w, z.px i j = α * x.px i j + β * y.px i j)
    (l m k : List (Path2 (Img ℝ))) (hl : a.run x = .ok (.list l)) (hm : a.run y = .ok (.list m))
    (hk : a.run z = .ok (.list k)) (p q r : Path2 (Img ℝ)) (hp : p ∈ l) (hq : q ∈ m) (hr : r ∈ k)
    (np : p.n = []) (nq : q.n = []) (nr : r.n = []) :
    p.coef.h = r.coef.h ∧ p.coef.w = r.coef.w ∧ q.coef.h = r.coef.h ∧ q.coef.w = r.coef.w ∧
      ∀ i < r.coef.h, ∀ j < r.coef.w, r.coef.px i j = α * p.coef.px i j + β * q.coef.px i j := by
  obtain ⟨hJ, hM, hN, -, hxs⟩ := (C94_returns_iff_2d a x).1 ⟨_, hl⟩
  obtain ⟨-, -, -, -, hys⟩ := (C94_returns_iff_2d a y).1 ⟨_, hm⟩
  obtain ⟨-, -, -, -, hzs⟩ := (C94_returns_iff_2d a z).1 ⟨_, hk⟩
  obtain ⟨ph, pw⟩ := C38_output_size a x _ hl p.coef (List.mem_map.2 ⟨p, hp, rfl⟩)
  obtain ⟨qh, qw⟩ := C38_output_size a y _ hm q.coef (List.mem_map.2 ⟨q, hq, rfl⟩)
  obtain ⟨rh, rw'⟩ := C38_output_size a z _ hk r.coef (List.mem_map.2 ⟨r, hr, rfl⟩)
  refine ⟨by rw [ph, rh], by rw [pw, rw'], by rw [qh, rh], by rw [qw, rw'], fun i hi j hj => ?_⟩
  obtain ⟨H, W, u, hH, hW, uh, uw, up, un, cX⟩ := C58_closed_form a ho x l hl
  obtain ⟨H', W', v, hH', hW', vh, vw, vp, vn, cY⟩ := C58_closed_form a ho y m hm
  obtain ⟨H'', W'', w, hH'', hW'', wh, ww, wp, wn, cZ⟩ := C58_closed_form a ho z k hk
  obtain rfl : H' = H := by rw [hH, hH']
  obtain rfl : W' = W := by rw [hW, hW']
  obtain rfl : H'' = H' := by rw [hH', hH'']
  obtain rfl : W'' = W' := by rw [hW', hW'']
  have hc : ∀ s < H'', ∀ t < W'', w.px s t = α * u.px s t + β * v.px s t := by
    intro s hs t ht
    cases hpp : a.prePad with
    | true =>
      rw [up hpp, vp hpp, wp hpp]
      have e1 := wp hpp
      exact hxyz s (by rw [← e1, wh]; exact hs) t (by rw [← e1, ww]; exact ht)
    | false =>
      rw [if_neg (by simp [hpp])] at hxs hys hzs
      have h2 : 2 ≤ 2 ^ a.J := by
        calc 2 = 2 ^ 1 := rfl
          _ ≤ 2 ^ a.J := Nat.pow_le_pow_right (by norm_num) hJ
      have px : ∀ {A B : Img ℝ}, A.h = a.M ∧ A.w = a.N → B.h = H'' → B.w = W'' →
          np2Pad ((H'' - a.M) / 2) ((H'' - a.M + 1) / 2) ((W'' - a.N) / 2) ((W'' - a.N + 1) / 2) A = .ok B →
          B.px s t = A.px (Spec.mirror a.M ((s : ℤ) - ((H'' - a.M) / 2 : ℕ)))
            (Spec.mirror a.N ((t : ℤ) - ((W'' - a.N) / 2 : ℕ))) := by
        intro A B hA hB1 hB2 h
        obtain ⟨C, h1, -, -, h4⟩ := C43_numpy_mirror A ((H'' - a.M) / 2) ((H'' - a.M + 1) / 2) ((W'' - a.N) / 2)
          ((W'' - a.N + 1) / 2) (by omega) (by omega)
        obtain rfl := Except.ok.inj (h.symm.trans h1)
        rw [h4 s t (by omega) (by omega), hA.1, hA.2]
      rw [px hxs uh uw (un hpp), px hys vh vw (vn hpp), px hzs wh ww (wn hpp)]
      refine hxyz _ ?_ _ ?_
      · rw [hzs.1]; exact mirror_lt (by omega) _
      · rw [hzs.2]; exact mirror_lt (by omega) _
  have key : ∀ {A : Img ℝ} {c : Path2 (Img ℝ)} {L : List (Path2 (Img ℝ))}, c ∈ L → c.n = [] → i < c.coef.h → j < c.coef.w →
      (∀ p ∈ L, ∀ i k, i < p.coef.h → k < p.coef.w →
        (p.n = [] ∧ p.coef.px i k = Spec.low2 H'' W'' A.px (phiHat2 H'' W'' a.J).px a.J (i + 1) (k + 1)) ∨
        (∃ j t, j < a.J ∧ t < a.L ∧ p.n = [j * a.L + t] ∧ p.j = [j] ∧ p.theta = [t] ∧
          p.coef.px i k = Spec.low2 (H'' / 2 ^ j) (W'' / 2 ^ j)
            (Spec.band2 H'' W'' A.px (psiHat2 H'' W'' a.L j t).px j)
            (periodizeFilter (phiHat2 H'' W'' a.J) j).px (a.J - j) (i + 1) (k + 1)) ∨
        (∃ j t j' t', j < j' ∧ j' < a.J ∧ t < a.L ∧ t' < a.L ∧
          p.n = [j * a.L + t, j' * a.L + t'] ∧ p.j = [j, j'] ∧ p.theta = [t, t'] ∧
          p.coef.px i k = Spec.low2 (H'' / 2 ^ j') (W'' / 2 ^ j')
            (Spec.band2 (H'' / 2 ^ j) (W'' / 2 ^ j) (Spec.band2 H'' W'' A.px (psiHat2 H'' W'' a.L j t).px j)
              (periodizeFilter (psiHat2 H'' W'' a.L j' t') j).px (j' - j))
            (periodizeFilter (phiHat2 H'' W'' a.J) j').px (a.J - j') (i + 1) (k + 1))) →
      c.coef.px i j = Spec.low2 H'' W'' A.px (phiHat2 H'' W'' a.J).px a.J (i + 1) (j + 1) := by
    intro A c L hc hn hi hj h
    rcases h c hc i j hi hj with ⟨-, e⟩ | ⟨_, _, _, _, h, -⟩ | ⟨_, _, _, _, _, _, _, _, h, -⟩
    · exact e
    · rw [hn] at h; cases h
    · rw [hn] at h; cases h
  rw [key hp np (by omega) (by omega) cX, key hq nq (by omega) (by omega) cY, key hr nr hi hj cZ]
  unfold Spec.low2 Spec.conv2
  have : ∀ A : Img ℝ, ∀ γ : ℝ, ∀ g : ℤ → ℤ → ℂ, ∀ s t : ℤ,
      γ * (∑ u ∈ range H'', ∑ v ∈ range W'', (A.px u v : ℂ) * g (s - u) (t - v)).re =
      (∑ u ∈ range H'', ∑ v ∈ range W'', ((γ * A.px u v : ℝ) : ℂ) * g (s - u) (t - v)).re := by
    intro A γ g s t
    rw [← Complex.re_ofReal_mul, Finset.mul_sum]
    congr 1
    refine Finset.sum_congr rfl fun u _ => ?_
    rw [Finset.mul_sum]
    refine Finset.sum_congr rfl fun v _ => ?_
    push_cast
    ring
  rw [this u, this v, ← Complex.add_re, ← Finset.sum_add_distrib]
  congr 1
  refine Finset.sum_congr rfl fun s hs => ?_
  rw [← Finset.sum_add_distrib]
  refine Finset.sum_congr rfl fun t ht => ?_
  rw [hc s (Finset.mem_range.1 hs) t (Finset.mem_range.1 ht)]
  push_cast
  ring

/-! ## 3-D -/

/-- **3-D coefficients are non-negative.** -/
theorem C110_nonneg_3d (a : Args3D) (Y : ℤ → ℕ → ℝ → ℝ → ℂ) (hp : a.powers ≠ []) (x : Vol ℝ)
    (hx : x.shape = a.shape) : ∃ out, a.run Y x = .ok out ∧ ∀ i l k v, At3 out i l k v → 0 ≤ v := by
  refine ⟨_, run3_eq a Y hp hx, fun i l k v hv => ?_⟩
  obtain ⟨p, q, h1, hl, h2, rfl⟩ := at3_of_run hp hx (run3_eq a Y hp hx) hv
  have hne := paths3_ne_nil (List.mem_of_getElem? h1)
  exact Finset.sum_nonneg fun u _ => Real.rpow_nonneg (cascade3_nonneg _ _ p hne _ u) _

theorem rotMod3_add_le (s : ℕ × ℕ × ℕ) (fs : List (ℕ × ℕ × ℕ → ℂ)) (x y z : ℕ × ℕ × ℕ → ℝ)
    (h : ∀ u ∈ Spec.cells s, z u = x u + y u) (u : ℕ × ℕ × ℕ) :
    Spec.rotMod3 s fs z u ≤ Spec.rotMod3 s fs x u + Spec.rotMod3 s fs y u := by
  have e : ∀ f, Spec.conv3 s z f u = Spec.conv3 s x f u + Spec.conv3 s y f u := by
    intro f
    unfold Spec.conv3
    rw [← Finset.sum_add_distrib]
    refine Finset.sum_congr rfl fun v hv => ?_
    rw [h v hv]
    push_cast
    ring
  have := sqrt_sum_sub_le fs (fun f => Spec.conv3 s z f u) fun f => Spec.conv3 s y f u
  simp only [e, add_sub_cancel_right] at this
  have := (abs_le.1 this).2
  unfold Spec.rotMod3
  simp only [e]
  linarith

/-- **3-D: the `q`-th root of a first-order coefficient to the power `q ≥ 1` is subadditive.** -/
theorem C110_subadditive_3d (a : Args3D) (Y : ℤ → ℕ → ℝ → ℝ → ℂ) (hp : a.powers ≠ []) (x y z : Vol ℝ)
    (hx : x.shape = a.shape) (hy : y.shape = a.shape) (hz : z.shape = a.shape)
    (hxyz : ∀ u ∈ Spec.cells a.shape, z.vx u = x.vx u + y.vx u) :
    ∃ A B C, a.run Y x = .ok A ∧ a.run Y y = .ok B ∧ a.run Y z = .ok C ∧
      ∀ i l k v v' w q, i ≤ a.J → At3 A i l k v → At3 B i l k v' → At3 C i l k w → a.powers[k]? = some q → 1 ≤ q →
        w ^ (1 / q) ≤ v ^ (1 / q) + v' ^ (1 / q) := by
  refine ⟨_, _, _, run3_eq a Y hp hx, run3_eq a Y hp hy, run3_eq a Y hp hz, ?_⟩
  intro i l k v v' w q hi hv hv' hw hk hq
  obtain ⟨p, q1, h1, hl, h2, rfl⟩ := at3_of_run hp hx (run3_eq a Y hp hx) hv
  obtain ⟨p', q2, h3, -, h4, rfl⟩ := at3_of_run hp hy (run3_eq a Y hp hy) hv'
  obtain ⟨p'', q3, h5, -, h6, rfl⟩ := at3_of_run hp hz (run3_eq a Y hp hz) hw
  obtain rfl := Option.some.inj (h1.symm.trans h3)
  obtain rfl := Option.some.inj (h1.symm.trans h5)
  obtain rfl := Option.some.inj (hk.symm.trans h2)
  obtain rfl := Option.some.inj (hk.symm.trans h4)
  obtain rfl := Option.some.inj (hk.symm.trans h6)
  have hpi : p = [i] := by
    unfold Spec.paths3 at h1
    rw [List.getElem?_append_left (by simp; omega), List.getElem?_map, List.getElem?_range (by omega)] at h1
    exact (Option.some.inj h1).symm
  subst hpi
  have hq0 : 0 < q := by linarith
  have nn : ∀ f, ∀ u, 0 ≤ Spec.cascade3 a.shape (fun j => used a.rot (a.fam Y l j)) [i] f u :=
    fun f u => cascade3_nonneg _ _ [i] (by simp) f u
  refine le_trans ?_ (Real.Lp_add_le_of_nonneg (Spec.cells a.shape) hq (fun u _ => nn x.vx u) (fun u _ => nn y.vx u))
  refine Real.rpow_le_rpow (Finset.sum_nonneg fun u _ => Real.rpow_nonneg (nn _ u) _) ?_ (by positivity)
  refine Finset.sum_le_sum fun u _ => Real.rpow_le_rpow (nn _ u) ?_ hq0.le
  exact rotMod3_add_le _ _ _ _ _ hxyz u

/-! ## Joint time-frequency scattering -/

/-- All values of a coefficient are non-negative. -/
def CoefNonneg : JCoef (List ℝ) (Img ℝ) → Prop
  | .sig u => ∀ t < u.length, 0 ≤ u.getD t 0
  | .stk U => ∀ i < U.h, ∀ t < U.w, 0 ≤ U.px i t

theorem CoefNonneg.unpad {c : JCoef (List ℝ) (Img ℝ)} (h : CoefNonneg c) (i0 i1 : ℕ) :
    CoefNonneg (unpadCoef npFrontJ i0 i1 c) := by
  cases c with
  | sig u =>
    show ∀ t < ((u.take i1).drop i0).length, 0 ≤ ((u.take i1).drop i0).getD t 0
    simp only [List.length_drop, List.length_take]
    intro t ht
    have : ((u.take i1).drop i0).getD t 0 = u.getD (i0 + t) 0 := by
      rw [List.getD_eq_getElem?_getD, List.getElem?_drop, List.getElem?_take, if_pos (by omega),
        List.getD_eq_getElem?_getD]
    rw [this]
    exact h _ (by omega)
  | stk U =>
    intro i hi t ht
    have hi' : i < U.h := hi
    have ht' : t < min i1 U.w - i0 := ht
    have e1 : (npFrontJ.unpadS U i0 i1).px i t = U.px i (i0 + t) := Img.px_tab' hi' ht'
    rw [e1]
    exact h i hi' _ (by omega)

theorem Entry.nonneg {fmt : Format} {ar : Bool} {n : List Int} {n1 st H T : Nat} {B : ℕ → ℕ → ℝ}
    {p : JPath (List ℝ) (Img ℝ)} (hB : ∀ r t, 0 ≤ B r t) (hp : Entry fmt ar n n1 st H T B p) : CoefNonneg p.coef := by
  unfold Entry at hp
  cases fmt with
  | joint =>
    obtain ⟨-, U, hU, u1, u2, u3⟩ := hp
    rw [hU]
    intro i hi t ht
    rw [u3 i t (by omega) (by omega)]
    exact hB i t
  | time =>
    obtain ⟨i, hi, hiH, hn, u, hu, ul, u3⟩ := hp
    rw [hu]
    intro t ht
    rw [u3 t (by omega)]
    exact hB i t
  | other => exact hp.elim

/-- The labels of a first-order path: `(n_fr,)` in joint format, `(n1, n_fr)` in time format. -/
def Spec.firstOrderJ (f : Format) (n : List Int) : Prop := n.length = if f = .joint then 1 else 2

theorem stages_list {a : JArgs} {s : ScJ} (hmake : a.make = .ok s) {Q1 Q2 : Int} (hQ : parseQ a.Q = .ok (Q1, Q2))
    (hout : a.outType = .list) {z : List ℝ} {R} (hR : a.run z = .ok (.list R)) :
    Stages npJ npFrontJ (a.obj s Q1.toNat) z R := by
  obtain ⟨s', hs', h⟩ := bind_eq_ok.1 hR
  rw [hmake] at hs'
  injection hs' with hs'
  subst hs'
  obtain ⟨Q', hQ', h⟩ := bind_eq_ok.1 h
  rw [hQ] at hQ'
  injection hQ' with hQ'
  subst hQ'
  obtain ⟨-, R', h1, h2⟩ := scattering_eq_ok h
  unfold assemble at h2
  rw [show (a.obj s Q1.toNat).outType = .list from hout] at h2
  injection h2 with h2
  injection h2 with h2
  exact h2 ▸ h1

theorem freqAvg_nonneg {a : Average} (ha : a ≠ .loc) {spin : ℤ} {H k lsFr : ℕ} {φ : ℤ → ℂ} {U : ℕ → ℕ → ℝ}
    (hU : ∀ r t, 0 ≤ U r t) (r t : ℕ) : 0 ≤ freqAvg a spin H k lsFr φ U r t := by
  unfold freqAvg
  split
  · exact hU r t
  split
  · exact Finset.sum_nonneg fun s _ => hU s t
  · cases a <;> simp_all

theorem timeAvg_nonneg {a : Average} {second : Bool} (ha : a ≠ .loc ∨ second = false) {T k ls : ℕ} {φ : ℤ → ℂ}
    {U : ℕ → ℕ → ℝ} (hU : ∀ r t, 0 ≤ U r t) (r t : ℕ) : 0 ≤ timeAvg a second T k ls φ U r t := by
  unfold timeAvg
  cases a <;> cases second <;> first | exact hU r t | exact Finset.sum_nonneg fun s _ => hU r s | simp at ha

/-- **Joint scattering: without local averaging along frequency, first-order paths are non-negative; so are
second-order paths if moreover there is no local averaging along time.** -/
theorem C110_nonneg_jtfs (a : JArgs) (s : ScJ) (hmake : a.make = .ok s) (Q1 Q2 : Int)
    (hQ : parseQ a.Q = .ok (Q1, Q2)) (hQ12 : Q2 ≤ Q1) (hout : a.outType = .list) (hF : s.averageFr ≠ .loc)
    (x : List ℝ) (hx : x.length = s.base.built.Ninput) (P : List (JPath (List ℝ) (Img ℝ)))
    (hP : a.run x = .ok (.list P)) (p : JPath (List ℝ) (Img ℝ)) (hp : p ∈ P) (hn : p.n ≠ [])
    (hT : s.base.average ≠ .loc ∨ Spec.firstOrderJ a.fmt p.n) : CoefNonneg p.coef := by
  have hst := stages_list hmake hQ hout hP
  obtain ⟨Q', q, F', hbase, hQ', hq, hF', -⟩ := JArgs.make_eq_ok hmake
  rw [hQ] at hQ'
  injection hQ' with hQ'
  subst hQ'
  obtain ⟨t, lT, hTt, -⟩ := base_facts hbase hQ hQ12
  have hst' := hst
  obtain ⟨_, ls, lsFr, _, -, hls, hlsFr, -⟩ := hst'
  obtain ⟨X, p0, hX, c1, a1, a2, a3, a4⟩ := C72_object hmake hQ hQ12 hq hTt hF' hx hst hls hlsFr hp
  have h0 : CoefNonneg p0.coef := by
    rcases c1 with ⟨h, -⟩ | ⟨i, psi, w, -, -, -, -, h⟩ | ⟨n2, i, w2, psi, w, -, -, -, -, -, -, h⟩
    · exact absurd (a1.trans h) hn
    · exact h.nonneg (freqAvg_nonneg hF (timeAvg_nonneg (Or.inr rfl) fun _ _ => norm_nonneg _))
    · refine h.nonneg (freqAvg_nonneg hF (timeAvg_nonneg (Or.inl ?_) fun _ _ => norm_nonneg _))
      rcases hT with hT | hT
      · exact hT
      · exfalso
        unfold Spec.firstOrderJ at hT
        rw [a1] at hT
        unfold Entry at h
        rw [show (a.obj s Q1.toNat).fmt = a.fmt from rfl] at h
        cases hf : a.fmt with
        | joint =>
          rw [hf] at h hT
          rw [h.1] at hT
          simp at hT
        | time =>
          rw [hf] at h hT
          obtain ⟨_, -, -, h, -⟩ := h
          rw [h] at hT
          simp at hT
        | other => rw [hf] at h; exact h
  by_cases hg : s.base.average = .glob
  · rw [a3 hg]; exact h0
  · obtain ⟨res, -, e⟩ := a4 hg
    rw [e]
    exact h0.unpad _ _

/-- **Joint scattering: order zero is linear.** -/
theorem C110_linear_jtfs (a : JArgs) (s : ScJ) (hmake : a.make = .ok s) (Q1 Q2 : Int)
    (hQ : parseQ a.Q = .ok (Q1, Q2)) (hQ12 : Q2 ≤ Q1) (hout : a.outType = .list) (α β : ℝ) (x y z : List ℝ)
    (hz : z.length = s.base.built.Ninput) (hxyz : Spec.IsCombo α β x y z)
    (P P' R : List (JPath (List ℝ) (Img ℝ))) (hP : a.run x = .ok (.list P)) (hP' : a.run y = .ok (.list P'))
    (hR : a.run z = .ok (.list R)) (p q r : JPath (List ℝ) (Img ℝ)) (hp : p ∈ P) (hq : q ∈ P') (hr : r ∈ R)
    (np : p.n = []) (nq : q.n = []) (nr : r.n = []) :
    ∃ u v w, p.coef = .sig u ∧ q.coef = .sig v ∧ r.coef = .sig w ∧ Spec.IsCombo α β u v w := by
  have hx : x.length = s.base.built.Ninput := by rw [hxyz.1, hz]
  have hy : y.length = s.base.built.Ninput := by rw [hxyz.2.1, hz]
  have hst := stages_list hmake hQ hout hP
  have hst' := stages_list hmake hQ hout hP'
  have hst'' := stages_list hmake hQ hout hR
  obtain ⟨Q', qf, F', hbase, hQ', hqf, hF', -⟩ := JArgs.make_eq_ok hmake
  rw [hQ] at hQ'
  injection hQ' with hQ'
  subst hQ'
  obtain ⟨t, lT, hTt, -⟩ := base_facts hbase hQ hQ12
  have hs0 := hst
  obtain ⟨_, ls, lsFr, _, -, hls, hlsFr, -⟩ := hs0
  obtain ⟨X, p0, hX, c1, a1, a2, a3, a4⟩ := C72_object hmake hQ hQ12 hqf hTt hF' hx hst hls hlsFr hp
  obtain ⟨Y, q0, hY, c2, b1, b2, b3, b4⟩ := C72_object hmake hQ hQ12 hqf hTt hF' hy hst' hls hlsFr hq
  obtain ⟨Z, r0, hZ, c3, d1, d2, d3, d4⟩ := C72_object hmake hQ hQ12 hqf hTt hF' hz hst'' hls hlsFr hr
  have hc := padded_combo hxyz hX hY hZ
  -- the zeroth-order signal before unpadding
  have key : ∀ {W : List ℝ} {w : JPath (List ℝ) (Img ℝ)}, w.n = [] → ClosedJ (a.obj s Q1.toNat) W
        (lowpassResponse s.base.built.Npadded t) (lowpassResponse s.nFr F'.1)
        (timeWavelets s.base.built.Npadded a.J Q1.toNat) (timeWavelets s.base.built.Npadded a.J Q2.toNat)
        (freqWavelets s.nFr a.Jfr qf.toNat) ls.toNat lsFr.toNat w →
      ∃ c, w.coef = .sig c ∧ match s.base.average with
        | .loc => c.length * 2 ^ ls.toNat = W.length ∧ ∀ i, i < c.length →
            c.getD i 0 = Spec.S0 W (lowpassResponse s.base.built.Npadded t) ls.toNat i
        | .glob => c = [W.sum]
        | .no => c = W := by
    intro W w hw h
    rcases h with ⟨-, h⟩ | ⟨_, _, _, -, -, -, -, h⟩ | ⟨_, _, _, _, _, -, -, -, -, -, -, h⟩
    · exact h
    · exact absurd hw (h.ne_nil (by simp))
    · exact absurd hw (h.ne_nil (by simp))
  obtain ⟨u, hu, eu⟩ := key (a1.symm.trans np) c1
  obtain ⟨v, hv, ev⟩ := key (b1.symm.trans nq) c2
  obtain ⟨w, hw, ew⟩ := key (d1.symm.trans nr) c3
  have hsum : ∀ {A : List ℝ}, A.sum = ∑ i ∈ range A.length, A.getD i 0 := by
    intro A
    rw [← Fin.sum_univ_getElem, ← Fin.sum_univ_eq_sum_range (fun i => A.getD i 0)]
    refine Finset.sum_congr rfl fun i _ => ?_
    rw [List.getD_eq_getElem?_getD, List.getElem?_eq_getElem i.2]
    rfl
  have h0 : Spec.IsCombo α β u v w := by
    cases hs : s.base.average with
    | loc =>
      rw [hs] at eu ev ew
      have hp2 : 0 < 2 ^ ls.toNat := by positivity
      have l1 : u.length = w.length := Nat.eq_of_mul_eq_mul_right hp2 (by rw [eu.1, ew.1, hc.1])
      have l2 : v.length = w.length := Nat.eq_of_mul_eq_mul_right hp2 (by rw [ev.1, ew.1, hc.2.1])
      refine ⟨l1, l2, fun i hi => ?_⟩
      rw [eu.2 i (by omega), ev.2 i (by omega), ew.2 i hi]
      exact S0_combo hc _ _ _
    | glob =>
      rw [hs] at eu ev ew
      simp only at eu ev ew
      rw [eu, ev, ew]
      refine ⟨rfl, rfl, fun i hi => ?_⟩
      obtain rfl : i = 0 := by simpa using hi
      simp only [List.getD_cons_zero]
      rw [hsum, hsum, hsum, hc.1, hc.2.1, Finset.mul_sum, Finset.mul_sum, ← Finset.sum_add_distrib]
      exact Finset.sum_congr rfl fun i _ => combo_getD hc i
    | no =>
      rw [hs] at eu ev ew
      simp only at eu ev ew
      rw [eu, ev, ew]
      exact hc
  by_cases hg : s.base.average = .glob
  · exact ⟨u, v, w, (a3 hg).trans hu, (b3 hg).trans hv, (d3 hg).trans hw, h0⟩
  · obtain ⟨r1, f1, e1⟩ := a4 hg
    obtain ⟨r2, f2, e2⟩ := b4 hg
    obtain ⟨r3, f3, e3⟩ := d4 hg
    unfold resolution at f1 f2 f3
    rw [← a1, np, List.length_nil, if_pos rfl] at f1
    rw [← b1, nq, List.length_nil, if_pos rfl] at f2
    rw [← d1, nr, List.length_nil, if_pos rfl] at f3
    obtain rfl := Except.ok.inj (f1.symm.trans f2)
    obtain rfl := Except.ok.inj (f1.symm.trans f3)
    rw [e1, e2, e3, hu, hv, hw]
    refine ⟨_, _, _, rfl, rfl, rfl, ?_⟩
    set i0 := (s.base.built.padLeft + (2 ^ r1 - 1)) / 2 ^ r1
    set i1 := (s.base.built.padLeft + s.base.built.Ninput + (2 ^ r1 - 1)) / 2 ^ r1
    show Spec.IsCombo α β ((u.take i1).drop i0) ((v.take i1).drop i0) ((w.take i1).drop i0)
    refine ⟨by simp [h0.1], by simp [h0.2.1], fun i hi => ?_⟩
    simp only [List.length_drop, List.length_take] at hi
    have e : ∀ z : List ℝ, ((z.take i1).drop i0).getD i 0 = z.getD (i0 + i) 0 := by
      intro z
      rw [List.getD_eq_getElem?_getD, List.getElem?_drop, List.getElem?_take, if_pos (by omega),
        List.getD_eq_getElem?_getD]
    rw [e, e, e]
    exact combo_getD h0 _

/-! ## Cases that meet the hypotheses -/

/-- `Scattering1D(J=3, shape=1000, Q=(8,1))` with `T` default, `'global'` or `0`: three times the zeroth coefficients of `x`, minus
those of `y`, are those of `3 x - y`. -/
example {T : PyT} {av : Average} (hT : T = .none ∧ av = .loc ∨ T = .global ∧ av = .glob ∨ T = .num 0 ∧ av = .no)
    (x y z : List ℝ) (hx : x.length = 1000) (hy : y.length = 1000) (hz : z.length = 1000)
    (h : ∀ i < 1000, z.getD i 0 = 3 * x.getD i 0 - y.getD i 0) :
    ∃ l m k, (exArgs T .list).run x = .ok (.list l) ∧ (exArgs T .list).run y = .ok (.list m) ∧
      (exArgs T .list).run z = .ok (.list k) ∧ ∀ p ∈ l, ∀ q ∈ m, ∀ r ∈ k, p.n = [] → q.n = [] → r.n = [] →
        ∀ t, t < p.coef.length → t < q.coef.length → t < r.coef.length →
          r.coef.getD t 0 = 3 * p.coef.getD t 0 + -1 * q.coef.getD t 0 := by
  have hT' : T = .none ∧ av = .loc ∨ T = .global ∧ av = .glob ∨ T = .num 0 ∧ av = .no ∨ T = .num 6 ∧ av = .loc := by tauto
  obtain ⟨s, l, h1, h2, -, hl⟩ := exArgs_list hT' x hx
  obtain ⟨-, m, -, -, -, hm⟩ := exArgs_list hT' y hy
  obtain ⟨-, k, -, -, -, hk⟩ := exArgs_list hT' z hz
  refine ⟨l, m, k, hl, hm, hk, fun p hp q hq r hr np nq nr t tp tq tr => ?_⟩
  exact C110_linear_1d _ s h1 3 (-1) x y z (by omega) ⟨by omega, by omega, fun i hi => by rw [h i (by omega)]; ring⟩
    l m k hl hm hk p q r hp hq hr np nq nr t tp tq tr

/-- The same object with `T=0`: the moduli of `x + y` are at most the sums of the moduli, and at least zero. -/
example (x y z : List ℝ) (hx : x.length = 1000) (hy : y.length = 1000) (hz : z.length = 1000)
    (h : ∀ i < 1000, z.getD i 0 = x.getD i 0 + y.getD i 0) :
    ∃ l m k, (exArgs (.num 0) .list).run x = .ok (.list l) ∧ (exArgs (.num 0) .list).run y = .ok (.list m) ∧
      (exArgs (.num 0) .list).run z = .ok (.list k) ∧
      (∀ p ∈ l, ∀ q ∈ m, ∀ r ∈ k, p.n = [2] → q.n = [2] → r.n = [2] →
        ∀ t, t < p.coef.length → t < q.coef.length → t < r.coef.length →
          r.coef.getD t 0 ≤ p.coef.getD t 0 + q.coef.getD t 0) ∧
      ∀ p ∈ l, p.n ≠ [] → ∀ v ∈ p.coef, 0 ≤ v := by
  obtain ⟨s, l, h1, h2, h3, hl⟩ := exArgs_list (T := .num 0) (av := .no) (by simp) x hx
  obtain ⟨-, m, -, -, -, hm⟩ := exArgs_list (T := .num 0) (av := .no) (by simp) y hy
  obtain ⟨-, k, -, -, -, hk⟩ := exArgs_list (T := .num 0) (av := .no) (by simp) z hz
  refine ⟨l, m, k, hl, hm, hk, fun p hp q hq r hr np nq nr t tp tq tr => ?_, fun p hp hn => ?_⟩
  · exact C110_subadditive_1d _ s h1 (by simp [h3]) x y z (by omega)
      ⟨by omega, by omega, fun i hi => by rw [h i (by omega)]; ring⟩ l m k hl hm hk 2 p q r hp hq hr np nq nr t tp tq tr
  · exact C110_nonneg_1d _ s h1 (by simp [h3]) x (by omega) l hl p hp hn

/-- `Scattering2D(J=2, shape=(5, 7), L=3)`, all images of this shape. -/
example (x y z : Img ℝ) (hx : x.h = 5 ∧ x.w = 7) (hy : y.h = 5 ∧ y.w = 7) (hz : z.h = 5 ∧ z.w = 7)
    (h : ∀ i < 5, ∀ j < 7, z.px i j = 2 * x.px i j + 5 * y.px i j) :
    ∃ l m k, (⟨2, 5, 7, 3, 2, false, .list⟩ : Args2D).run x = .ok (.list l) ∧
      (⟨2, 5, 7, 3, 2, false, .list⟩ : Args2D).run y = .ok (.list m) ∧
      (⟨2, 5, 7, 3, 2, false, .list⟩ : Args2D).run z = .ok (.list k) ∧
      ∀ p ∈ l, ∀ q ∈ m, ∀ r ∈ k, p.n = [] → q.n = [] → r.n = [] →
        ∀ i < r.coef.h, ∀ j < r.coef.w, r.coef.px i j = 2 * p.coef.px i j + 5 * q.coef.px i j := by
  have run : ∀ w : Img ℝ, w.h = 5 ∧ w.w = 7 → ∃ l, (⟨2, 5, 7, 3, 2, false, .list⟩ : Args2D).run w = .ok (.list l) := by
    intro w hw
    obtain ⟨out, h⟩ := (C94_returns_iff_2d ⟨2, 5, 7, 3, 2, false, .list⟩ w).2 (by simp [hw])
    obtain ⟨s, l, -, -, -, -, hli⟩ := run_eq_ok h
    obtain rfl := hli rfl
    exact ⟨l, h⟩
  obtain ⟨l, hl⟩ := run x hx
  obtain ⟨m, hm⟩ := run y hy
  obtain ⟨k, hk⟩ := run z hz
  refine ⟨l, m, k, hl, hm, hk, fun p hp q hq r hr np nq nr => ?_⟩
  exact (C110_linear_2d _ rfl 2 5 x y z (by rw [hz.1, hz.2]; exact h) l m k hl hm hk p q r hp hq hr np nq nr).2.2.2.2

/-- Two volumes with a single nonzero cell each, and their sum. -/
example : ∃ A B C, ex3.run exHarm exVol = .ok A ∧ ex3.run exHarm exVol' = .ok B ∧
    ex3.run exHarm (Vol.tab (4, 2, 6) fun u => exVol.vx u + exVol'.vx u) = .ok C ∧
    (∀ i l k v, At3 A i l k v → 0 ≤ v) ∧
    ∀ i l k v v' w q, i ≤ 1 → At3 A i l k v → At3 B i l k v' → At3 C i l k w → ex3.powers[k]? = some q → 1 ≤ q →
      w ^ (1 / q) ≤ v ^ (1 / q) + v' ^ (1 / q) := by
  obtain ⟨A, B, C, h1, h2, h3, h⟩ := C110_subadditive_3d ex3 exHarm (by simp [ex3]) exVol exVol'
    (Vol.tab (4, 2, 6) fun u => exVol.vx u + exVol'.vx u) rfl rfl rfl (fun u hu => Vol.vx_tab hu)
  obtain ⟨A', h1', h'⟩ := C110_nonneg_3d ex3 exHarm (by simp [ex3]) exVol rfl
  obtain rfl := Except.ok.inj (h1.symm.trans h1')
  exact ⟨A, B, C, h1, h2, h3, h', h⟩

/-- `TimeFrequencyScattering(J=3, J_fr=2, Q=8, shape=1000, F='global', format='joint', out_type='list')`: first-order paths are
non-negative, and order zero is additive. -/
example (x y z : List ℝ) (hx : x.length = 1000) (hy : y.length = 1000) (hz : z.length = 1000)
    (h : ∀ i < 1000, z.getD i 0 = x.getD i 0 + y.getD i 0) :
    ∃ P P' R, (⟨3, 2, .int 8, .int 1000, .none, none, .int 1, .global, none, .list, .joint⟩ : JArgs).run x = .ok (.list P) ∧
      (⟨3, 2, .int 8, .int 1000, .none, none, .int 1, .global, none, .list, .joint⟩ : JArgs).run y = .ok (.list P') ∧
      (⟨3, 2, .int 8, .int 1000, .none, none, .int 1, .global, none, .list, .joint⟩ : JArgs).run z = .ok (.list R) ∧
      (∀ p ∈ P, p.n.length = 1 → CoefNonneg p.coef) ∧
      ∀ p ∈ P, ∀ q ∈ P', ∀ r ∈ R, p.n = [] → q.n = [] → r.n = [] →
        ∃ u v w, p.coef = .sig u ∧ q.coef = .sig v ∧ r.coef = .sig w ∧ Spec.IsCombo 1 1 u v w := by
  obtain ⟨s, hs, hN, -, hF, hrun⟩ := C76_no_error
    ⟨3, 2, .int 8, .int 1000, .none, none, .int 1, .global, none, .list, .joint⟩ 1000 rfl (by norm_num) (2 ^ 3) .loc rfl 8 1 rfl
    (by norm_num) (le_jPad_of_pow (by norm_num) (by norm_num)) 3
    (by
      refine (C07_log2_stride_ok _ _ _ _ _).2 (Or.inl ⟨rfl, ?_⟩)
      show (Except.ok (floorLog2 ((2 : Rat) ^ 3)) : Py ℤ) = _
      rw [floorLog2_twoPow]) le_rfl (fun _ => by norm_num) 1 rfl (2 ^ 2) .glob rfl (by norm_num) (by norm_num) rfl (Or.inr rfl)
    (Or.inl rfl)
  have isList : ∀ w : List ℝ, w.length = 1000 → ∃ P,
      (⟨3, 2, .int 8, .int 1000, .none, none, .int 1, .global, none, .list, .joint⟩ : JArgs).run w = .ok (.list P) := by
    intro w hw
    obtain ⟨r, hr⟩ := hrun w hw
    have hr' := hr
    obtain ⟨s, -, h⟩ := bind_eq_ok.1 hr'
    obtain ⟨Q, -, h⟩ := bind_eq_ok.1 h
    obtain ⟨-, P, -, hP⟩ := scattering_eq_ok h
    injection hP with hP
    exact ⟨P, by rw [hr, hP]⟩
  obtain ⟨P, hP⟩ := isList x hx
  obtain ⟨P', hP'⟩ := isList y hy
  obtain ⟨R, hR⟩ := isList z hz
  refine ⟨P, P', R, hP, hP', hR, fun p hp hn => ?_, fun p hp q hq r hr np nq nr => ?_⟩
  · exact C110_nonneg_jtfs _ s hs 8 1 rfl (by norm_num) rfl (by simp [hF]) x (by omega) P hP p hp
      (by intro h0; simp [h0] at hn) (Or.inr hn)
  · exact C110_linear_jtfs _ s hs 8 1 rfl (by norm_num) rfl 1 1 x y z (by omega)
      ⟨by omega, by omega, fun i hi => by rw [h i (by omega)]; ring⟩ P P' R hP hP' hR p q r hp hq hr np nq nr

end Verif
