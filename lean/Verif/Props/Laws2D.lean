import Verif.Props.Channels2D
import Verif.Lemmas.Covariance2D
import Verif.Lemmas.Torch1D

/-!
# C44: laws of 2-D scattering; C58: closed form of its coefficients
-/

namespace Verif

open Core2D Finset

theorem mirrorIndex_lt {n : Nat} (hn : 0 < n) (l i : Nat) : mirrorIndex n l i < n := by
  unfold mirrorIndex
  simp only
  split
  · exact hn
  · rename_i h1
    have h2 := Int.emod_lt_of_pos ((i : ℤ) - l) (b := ((2 * (n - 1) : Nat) : ℤ)) (by omega)
    split <;> omega

/-- Padding transports any pixelwise relation. -/
theorem pad_rel {a : Args2D} {s : Sc2D} (Q : ℝ → ℝ → Prop) {x y : Img ℝ} (hh : y.h = x.h)
    (hw : y.w = x.w) (hQ : ∀ m n, m < x.h → n < x.w → Q (x.px m n) (y.px m n)) :
    Sim (fun u v : Img ℝ => v.h = u.h ∧ v.w = u.w ∧
      ∀ m n, m < u.h → n < u.w → Q (u.px m n) (v.px m n)) (a.pad s x) (a.pad s y) := by
  unfold Args2D.pad
  split
  · exact Sim.ok ⟨hh, hw, hQ⟩
  · unfold np2Pad
    rw [hh, hw]
    split
    · intro u hu; cases hu
    · rename_i hc
      refine Sim.ok ⟨rfl, rfl, fun m n hm hn => ?_⟩
      rw [Img.h_tab] at hm
      rw [Img.w_tab] at hn
      rw [Img.px_tab hm hn, Img.px_tab hm hn]
      exact hQ _ _ (mirrorIndex_lt (by omega) _ _) (mirrorIndex_lt (by omega) _ _)

/-- Two runs of the same object related by a simulation. -/
theorem run_sim {a : Args2D} (ho : a.outType = .list) (S : BackendRel np2Backend np2Backend)
    (hS : ∀ r f, S.rF r f f) {P : Nat → Img ℝ → Img ℝ → Prop}
    (hP : ∀ i (r r' : Img ℝ), S.rR i a.J r r' → P i (np2Unpad r) (np2Unpad r'))
    {x y : Img ℝ} (hh : y.h = x.h) (hw : y.w = x.w)
    (hpad : ∀ s, Sim (S.rR 0 0) (a.pad s x) (a.pad s y)) {l : List (Path2 (Img ℝ))}
    (h : a.run x = .ok (.list l)) :
    ∃ l' : List (Path2 (Img ℝ)), a.run y = .ok (.list l') ∧
      List.Forall₂ (fun p q => p.j = q.j ∧ p.n = q.n ∧ p.theta = q.theta ∧
        P p.n.length p.coef q.coef) l l' := by
  obtain ⟨s, l0, hs, hc, hl, -, hli⟩ := run_eq_ok h
  have := hli ho
  injection this with this
  subst this
  obtain ⟨l', hl', hrel⟩ := sim_paths S (opsA := a.ops s) (opsB := a.ops s) (P := P) (J := a.J)
    hP (phi2_refl S hS s.phi) (filts2_refl S hS s.psi) a.maxOrder (x := x) (y := y) (hpad s) _ hl
  refine ⟨l', bind_eq_ok.2 ⟨s, hs, bind_eq_ok.2 ⟨(), by rw [hh, hw]; exact hc, ?_⟩⟩, hrel⟩
  unfold scattering2d
  refine bind_eq_ok.2 ⟨l', hl', ?_⟩
  rw [ho]
  rfl

/-! ## Scaling -/

/-- **Scaling.**  If `y = c x` then every coefficient of order zero is multiplied by `c`, and every
other one by `|c|`. -/
theorem C44_scaling (a : Args2D) (ho : a.outType = .list) (c : ℝ) (x y : Img ℝ) (hh : y.h = x.h)
    (hw : y.w = x.w) (hy : ∀ i j, i < x.h → j < x.w → y.px i j = c * x.px i j)
    (l : List (Path2 (Img ℝ))) (h : a.run x = .ok (.list l)) :
    ∃ l' : List (Path2 (Img ℝ)), a.run y = .ok (.list l') ∧
      List.Forall₂ (fun p q => p.j = q.j ∧ p.n = q.n ∧ p.theta = q.theta ∧
        q.coef.h = p.coef.h ∧ q.coef.w = p.coef.w ∧
        ∀ i j, i < p.coef.h → j < p.coef.w →
          q.coef.px i j = (if p.n = [] then c else |c|) * p.coef.px i j) l l' := by
  obtain ⟨l', hl', hr⟩ := run_sim ho (scaleRel2 c) (fun _ _ => rfl)
    (P := fun k r r' => r'.h = r.h ∧ r'.w = r.w ∧
      ∀ i j, i < r.h → j < r.w → r'.px i j = ampl c k * r.px i j) (by
        rintro k r r' ⟨h1, h2, h3⟩
        refine ⟨by simp [np2Unpad, h1], by simp [np2Unpad, h2], fun i j hi hj => ?_⟩
        have hi' : i < Img.h r - 2 := hi
        have hj' : j < Img.w r - 2 := hj
        unfold np2Unpad
        rw [Img.px_tab (by rw [h1]; exact hi') (by rw [h2]; exact hj'), Img.px_tab hi' hj']
        exact h3 _ _ (by omega) (by omega)) hh hw (by
        intro s u hu
        obtain ⟨v, hv, e1, e2, e3⟩ := pad_rel (a := a) (s := s) (fun p q => q = c * p) hh hw hy u hu
        exact ⟨v, hv, e1, e2, fun m n hm hn => by rw [e3 m n hm hn]; rfl⟩) h
  refine ⟨l', hl', hr.imp ?_⟩
  rintro p q ⟨h1, h2, h3, h4, h5, h6⟩
  refine ⟨h1, h2, h3, h4, h5, fun i j hi hj => ?_⟩
  rw [h6 i j hi hj]
  congr 1
  cases hn : p.n with
  | nil => simp [ampl]
  | cons b m => simp [ampl]

/-! ## Translation -/

/-- **Translation, before the borders are cut.**  Rolling the padded image by `(s, t)`, both multiples
of `2^J`, rolls every coefficient by `(s / 2^J, t / 2^J)`.  (`unpad` is the identity here.) -/
theorem C44_roll (x y : Img ℝ) (hh : y.h = x.h) (hw : y.w = x.w) (s t : ℤ) (J : Nat)
    (hs : (2 : ℤ) ^ J ∣ s) (ht : (2 : ℤ) ^ J ∣ t) (hroll : Spec.IsRoll2 x.h x.w s t x.px y.px)
    (phi : List (Img ℝ)) (psi : List (Filt2 (Img ℝ))) (mo : Int) (l : List (Path2 (Img ℝ)))
    (h : paths np2Backend ⟨fun x => .ok x, id, fun x => (x.h, x.w)⟩ x J phi psi mo = .ok l) :
    ∃ l' : List (Path2 (Img ℝ)),
      paths np2Backend ⟨fun x => .ok x, id, fun x => (x.h, x.w)⟩ y J phi psi mo = .ok l' ∧
      List.Forall₂ (fun p q => p.j = q.j ∧ p.n = q.n ∧ p.theta = q.theta ∧
        q.coef.h = p.coef.h ∧ q.coef.w = p.coef.w ∧
        Spec.IsRoll2 p.coef.h p.coef.w (s / 2 ^ J) (t / 2 ^ J) p.coef.px q.coef.px) l l' := by
  refine sim_paths (rollRel2 s t) (P := fun _ (r r' : Img ℝ) => r'.h = r.h ∧ r'.w = r.w ∧
    Spec.IsRoll2 r.h r.w (s / 2 ^ J) (t / 2 ^ J) r.px r'.px) (fun i r r' hr => ?_)
    (phi2_refl _ (fun _ _ => rfl) phi) (filts2_refl _ (fun _ _ => rfl) psi) mo ?_ _ h
  · exact ⟨hr.1, hr.2.1, hr.2.2 hs ht⟩
  · exact Sim.ok ⟨hh, hw, fun _ _ => by simpa using hroll⟩

/-- **Translation of the returned coefficients** (`pre_pad`: the caller supplies the padded image).
Rolling the padded image by `(2^J b, 2^J c)` moves every pixel of every coefficient by `(b, c)`, as
long as it stays inside the returned frame. -/
theorem C44_translation (a : Args2D) (ho : a.outType = .list) (hp : a.prePad = true) (x y : Img ℝ)
    (hh : y.h = x.h) (hw : y.w = x.w) (b c : ℤ)
    (hroll : Spec.IsRoll2 x.h x.w (2 ^ a.J * b) (2 ^ a.J * c) x.px y.px)
    (l : List (Path2 (Img ℝ))) (h : a.run x = .ok (.list l)) :
    ∃ l' : List (Path2 (Img ℝ)), a.run y = .ok (.list l') ∧
      List.Forall₂ (fun p q => p.j = q.j ∧ p.n = q.n ∧ p.theta = q.theta ∧
        q.coef.h = p.coef.h ∧ q.coef.w = p.coef.w ∧
        ∀ i j i' j' : Nat, i < p.coef.h → j < p.coef.w → i' < p.coef.h → j' < p.coef.w →
          (i' : ℤ) = i - b → (j' : ℤ) = j - c → q.coef.px i j = p.coef.px i' j') l l' := by
  have h2 : (2 : ℤ) ^ a.J ≠ 0 := pow_ne_zero _ two_ne_zero
  refine run_sim ho (rollRel2 (2 ^ a.J * b) (2 ^ a.J * c)) (fun _ _ => rfl)
    (P := fun _ r r' => r'.h = r.h ∧ r'.w = r.w ∧
      ∀ i j i' j' : Nat, i < r.h → j < r.w → i' < r.h → j' < r.w →
          (i' : ℤ) = i - b → (j' : ℤ) = j - c → r'.px i j = r.px i' j') ?_ hh hw ?_ h
  · rintro k r r' ⟨h1, h2', h3⟩
    have h3 := h3 (Dvd.intro _ rfl) (Dvd.intro _ rfl)
    rw [Int.mul_ediv_cancel_left _ h2, Int.mul_ediv_cancel_left _ h2] at h3
    refine ⟨by simp [np2Unpad, h1], by simp [np2Unpad, h2'], ?_⟩
    intro i j i' j' hi hj hi' hj' ei ej
    have hi : i < Img.h r - 2 := hi
    have hj : j < Img.w r - 2 := hj
    have hi' : i' < Img.h r - 2 := hi'
    have hj' : j' < Img.w r - 2 := hj'
    unfold np2Unpad
    rw [Img.px_tab (by rw [h1]; exact hi) (by rw [h2']; exact hj), Img.px_tab hi' hj',
      h3 (i + 1) (j + 1) (by omega) (by omega)]
    congr 1
    · rw [show (((i + 1 : Nat) : ℤ) - b) = ((i' + 1 : Nat) : ℤ) by push_cast; omega,
        Int.emod_eq_of_lt (by omega) (by omega), Int.toNat_natCast]
    · rw [show (((j + 1 : Nat) : ℤ) - c) = ((j' + 1 : Nat) : ℤ) by push_cast; omega,
        Int.emod_eq_of_lt (by omega) (by omega), Int.toNat_natCast]
  · intro s
    unfold Args2D.pad
    rw [if_pos hp]
    exact Sim.ok ⟨hh, hw, fun _ _ => by simpa using hroll⟩

/-! ## Constant images -/

theorem conv2_const {h w : ℕ} (hh : h ≠ 0) (hw : w ≠ 0) {x f : ℕ → ℕ → ℝ} {c : ℝ}
    (hx : ∀ i j, i < h → j < w → x i j = c) (m n : ℤ) :
    Spec.conv2 h w x (Spec.impulse2 h w f) m n = (c * f 0 0 : ℝ) := by
  have htw : ∀ (N : ℕ) (z : ℤ), tw N z = Complex.exp (2 * Real.pi * Complex.I * (z / N)) := by
    intro N z
    unfold tw
    congr 1
    ring
  have e : ∀ a b : ℤ, Spec.impulse2 h w f a b = (∑ k ∈ range h, ∑ l ∈ range w,
      (f k l : ℂ) * (tw h (k * a) * tw w (l * b))) / (h * w) := by
    intro a b
    unfold Spec.impulse2
    congr 1
    refine Finset.sum_congr rfl fun k _ => Finset.sum_congr rfl fun l _ => ?_
    congr 1
    rw [htw, htw, ← Complex.exp_add]
    congr 1
    ring
  unfold Spec.conv2
  have e1 : ∀ u ∈ range h, ∀ v ∈ range w, (x u v : ℂ) * Spec.impulse2 h w f (m - u) (n - v) =
      (c : ℂ) * ((∑ k ∈ range h, ∑ l ∈ range w,
        (f k l : ℂ) * (tw h (k * (m - u)) * tw w (l * (n - v)))) / (h * w)) := by
    intro u hu v hv
    rw [hx u v (mem_range.1 hu) (mem_range.1 hv), e]
  rw [Finset.sum_congr rfl fun u hu => Finset.sum_congr rfl fun v hv => e1 u hu v hv]
  simp_rw [← Finset.mul_sum, ← Finset.sum_div]
  have hsum : ∀ (N : ℕ) (hN : N ≠ 0) (k : ℕ) (hk : k < N) (m : ℤ),
      ∑ u ∈ range N, tw N (k * (m - u)) = if k = 0 then (N : ℂ) else 0 := by
    intro N hN k hk m
    have : ∀ u ∈ range N, tw N ((k : ℤ) * (m - u)) = tw N (k * m) * tw N (u * (-k)) := by
      intro u _
      rw [← tw_add]
      congr 1
      ring
    rw [Finset.sum_congr rfl this, ← Finset.mul_sum, sum_tw N hN]
    by_cases h0 : k = 0
    · subst h0; simp [tw_zero]
    · rw [if_neg h0, if_neg, mul_zero]
      rw [dvd_neg]
      intro hd
      have := Int.le_of_dvd (by omega) hd
      omega
  have e2 : ∑ u ∈ range h, ∑ v ∈ range w, ∑ k ∈ range h, ∑ l ∈ range w,
      (f k l : ℂ) * (tw h (k * (m - u)) * tw w (l * (n - v))) = (f 0 0 : ℂ) * (h * w) := by
    have : ∀ u ∈ range h, ∑ v ∈ range w, ∑ k ∈ range h, ∑ l ∈ range w,
        (f k l : ℂ) * (tw h (k * (m - u)) * tw w (l * (n - v))) =
        ∑ k ∈ range h, ∑ l ∈ range w, ∑ v ∈ range w,
          (f k l : ℂ) * (tw h (k * (m - u)) * tw w (l * (n - v))) := by
      intro u _
      rw [Finset.sum_comm]
      exact Finset.sum_congr rfl fun k _ => Finset.sum_comm
    rw [Finset.sum_congr rfl this, Finset.sum_comm]
    have : ∀ k ∈ range h, ∑ u ∈ range h, ∑ l ∈ range w, ∑ v ∈ range w,
        (f k l : ℂ) * (tw h (k * (m - u)) * tw w (l * (n - v))) =
        ∑ l ∈ range w, (f k l : ℂ) * ((if k = 0 then (h : ℂ) else 0) *
          (if l = 0 then (w : ℂ) else 0)) := by
      intro k hk
      rw [Finset.sum_comm]
      refine Finset.sum_congr rfl fun l hl => ?_
      rw [← hsum h hh k (mem_range.1 hk) m, ← hsum w hw l (mem_range.1 hl) n, Finset.sum_mul_sum,
        Finset.mul_sum]
      exact Finset.sum_congr rfl fun u _ => by rw [Finset.mul_sum]
    rw [Finset.sum_congr rfl this, Finset.sum_eq_single 0, Finset.sum_eq_single 0]
    · simp
    · intro l _ hl; simp [hl]
    · intro hn; exact absurd (mem_range.2 (Nat.pos_of_ne_zero hw)) hn
    · intro k _ hk; simp [hk]
    · intro hn; exact absurd (mem_range.2 (Nat.pos_of_ne_zero hh)) hn
  rw [e2]
  have : (h : ℂ) ≠ 0 := by exact_mod_cast hh
  have : (w : ℂ) ≠ 0 := by exact_mod_cast hw
  field_simp
  push_cast
  ring

theorem imgSum_gabor_pos {M N : Nat} (hM : 0 < M) (hN : 0 < N) {sigma theta slant : ℝ}
    (hs : 0 < sigma) (hsl : 0 < slant) : imgSum (gabor2d M N sigma theta 0 slant) ≠ 0 := by
  have key : ∃ r : ℝ, 0 < r ∧ imgSum (gabor2d M N sigma theta 0 slant) = (r : ℂ) := by
    have hpx : ∀ i j, ∃ r : ℝ, 0 < r ∧ (i < M → j < N →
        (gabor2d M N sigma theta 0 slant).px i j = (r : ℂ)) := by
      intro i j
      have real_div : ∀ (g : Nat → Nat → ℂ) (d : ℝ), 0 < d →
          (∀ ex ey, ∃ q : ℝ, g ex ey = ((Real.exp q : ℝ) : ℂ)) →
          ∃ r : ℝ, 0 < r ∧ (∑ ex ∈ range 5, ∑ ey ∈ range 5, g ex ey) / (d : ℂ) = (r : ℂ) := by
        intro g d hd hg
        choose q hq using hg
        refine ⟨(∑ ex ∈ range 5, ∑ ey ∈ range 5, Real.exp (q ex ey)) / d, ?_, ?_⟩
        · exact div_pos (Finset.sum_pos (fun ex _ => Finset.sum_pos (fun ey _ => Real.exp_pos _)
            ⟨0, by simp⟩) ⟨0, by simp⟩) hd
        · rw [Complex.ofReal_div, Complex.ofReal_sum]
          congr 1
          refine Finset.sum_congr rfl fun ex _ => ?_
          rw [Complex.ofReal_sum]
          exact Finset.sum_congr rfl fun ey _ => hq ex ey
      by_cases hij : i < M ∧ j < N
      · have e : (gabor2d M N sigma theta 0 slant).px i j = _ := Img.px_tab hij.1 hij.2
        have hn : (0 : ℝ) < 2 * 3.1415 * sigma * sigma / slant := div_pos (by positivity) hsl
        have : ∃ r : ℝ, 0 < r ∧ (gabor2d M N sigma theta 0 slant).px i j = (r : ℂ) := by
          rw [e]
          refine real_div _ _ hn fun ex ey => ?_
          simp only [mul_zero, zero_mul, add_zero, Complex.ofReal_zero]
          exact ⟨_, (Complex.ofReal_exp _).symm⟩
        obtain ⟨r, hr, h⟩ := this
        exact ⟨r, hr, fun _ _ => h⟩
      · exact ⟨1, one_pos, fun h1 h2 => absurd ⟨h1, h2⟩ hij⟩
    choose r hr hpx using hpx
    refine ⟨∑ i ∈ range M, ∑ j ∈ range N, r i j, ?_, ?_⟩
    · exact Finset.sum_pos (fun i _ => Finset.sum_pos (fun j _ => hr i j)
        ⟨0, mem_range.2 hN⟩) ⟨0, mem_range.2 hM⟩
    · rw [Complex.ofReal_sum]
      refine Finset.sum_congr rfl fun i hi => ?_
      rw [Complex.ofReal_sum]
      refine Finset.sum_congr rfl fun j hj => ?_
      exact hpx i j (mem_range.1 hi) (mem_range.1 hj)
  obtain ⟨r, hr, e⟩ := key
  rw [e]
  exact_mod_cast hr.ne'

/-- **The wavelets have zero mean**: their transfer function vanishes at the zero frequency. -/
theorem C44_wavelet_zero_mean {M N : Nat} (hM : 0 < M) (hN : 0 < N) {sigma theta xi slant : ℝ}
    (hs : 0 < sigma) (hsl : 0 < slant) :
    (realFft2 (morlet2d M N sigma theta xi slant)).px 0 0 = 0 := by
  unfold realFft2
  rw [Img.px_map _ _ (by exact hM) (by exact hN)]
  unfold dft2
  rw [Img.px_tab (by exact hM) (by exact hN)]
  have : ∑ m ∈ range (morlet2d M N sigma theta xi slant).h,
      ∑ n ∈ range (morlet2d M N sigma theta xi slant).w,
      (morlet2d M N sigma theta xi slant).px m n *
        (tw (morlet2d M N sigma theta xi slant).h (-(((0 : Nat) : ℤ) * m)) *
          tw (morlet2d M N sigma theta xi slant).w (-(((0 : Nat) : ℤ) * n))) = 0 := by
    have e : ∀ m ∈ range M, ∀ n ∈ range N, (morlet2d M N sigma theta xi slant).px m n *
        (tw (morlet2d M N sigma theta xi slant).h (-(((0 : Nat) : ℤ) * m)) *
          tw (morlet2d M N sigma theta xi slant).w (-(((0 : Nat) : ℤ) * n))) =
        (gabor2d M N sigma theta xi slant).px m n -
          imgSum (gabor2d M N sigma theta xi slant) / imgSum (gabor2d M N sigma theta 0 slant) *
            (gabor2d M N sigma theta 0 slant).px m n := by
      intro m hm n hn
      have : (morlet2d M N sigma theta xi slant).px m n = _ :=
        Img.px_tab (mem_range.1 hm) (mem_range.1 hn)
      rw [this]
      simp [tw_zero]
    show ∑ m ∈ range M, ∑ n ∈ range N, _ = _
    rw [Finset.sum_congr rfl fun m hm => Finset.sum_congr rfl fun n hn => e m hm n hn]
    simp_rw [Finset.sum_sub_distrib, ← Finset.mul_sum]
    show imgSum (gabor2d M N sigma theta xi slant) - imgSum (gabor2d M N sigma theta xi slant) /
      imgSum (gabor2d M N sigma theta 0 slant) * imgSum (gabor2d M N sigma theta 0 slant) = 0
    rw [div_mul_cancel₀ _ (imgSum_gabor_pos hM hN hs hsl), sub_self]
  rw [this]
  rfl

/-! ## C58: closed form -/

theorem conv2_congr {h w : ℕ} {x y f g : ℕ → ℕ → ℝ} (hxy : ∀ i j, i < h → j < w → x i j = y i j)
    (hfg : ∀ i j, i < h → j < w → f i j = g i j) (m n : ℤ) :
    Spec.conv2 h w x (Spec.impulse2 h w f) m n = Spec.conv2 h w y (Spec.impulse2 h w g) m n := by
  unfold Spec.conv2
  refine Finset.sum_congr rfl fun u hu => Finset.sum_congr rfl fun v hv => ?_
  rw [hxy u v (mem_range.1 hu) (mem_range.1 hv)]
  congr 1
  unfold Spec.impulse2
  congr 1
  refine Finset.sum_congr rfl fun k hk => Finset.sum_congr rfl fun l hl => ?_
  rw [hfg k l (mem_range.1 hk) (mem_range.1 hl)]

/-- Transfer function of the low-pass at full resolution (filter_bank.py L46-49). -/
noncomputable def phiHat2 (M N J : Nat) : Img ℝ :=
  realFft2 (gabor2d M N (0.8 * (2 ^ J / 2)) 0 0 1)

/-- Transfer function of the wavelet of scale `j` and angle number `t` at full resolution
(filter_bank.py L33-36). -/
noncomputable def psiHat2 (M N L j t : Nat) : Img ℝ :=
  realFft2 (morlet2d M N (0.8 * 2 ^ j)
    (((((L - 2) / 2 : Nat) : ℝ) - t) * Real.pi / L) (3 / 4 * Real.pi / 2 ^ j) (4 / L))

theorem phi_level {M N J L k : Nat} {f : Img ℝ} (h : (filterBank2 M N J L).1[k]? = some f) :
    f = periodizeFilter (phiHat2 M N J) k := (getElem?_periodized h).2

theorem psi_level {M N J L j t k : Nat} {f : Img ℝ} (h : (makePsi2 M N J L j t).levels[k]? = some f) :
    f = periodizeFilter (psiHat2 M N L j t) k := (getElem?_periodized h).2

/-- **Closed form of the coefficients.**  With `u` the padded image (`C43_numpy_mirror` describes it),
every returned coefficient at pixel `(i, j)` is the low-pass of the cascade of wavelet moduli,
sampled at `2^J (i + 1, j + 1)` in the coordinates of `u`, i.e. at pixel
`2^J (i + 1, j + 1) - pad` of the original image (`C38_centres`). -/
theorem C58_closed_form (a : Args2D) (ho : a.outType = .list) (x : Img ℝ)
    (l : List (Path2 (Img ℝ))) (h : a.run x = .ok (.list l)) :
    ∃ H W : Nat, ∃ u : Img ℝ, H = padded2 a.M a.J ∧ W = padded2 a.N a.J ∧ u.h = H ∧ u.w = W ∧
      (a.prePad = true → u = x) ∧
      (a.prePad = false →
        np2Pad ((H - a.M) / 2) ((H - a.M + 1) / 2) ((W - a.N) / 2) ((W - a.N + 1) / 2) x = .ok u) ∧
      ∀ p ∈ l, ∀ i k, i < p.coef.h → k < p.coef.w →
        (p.n = [] ∧ p.coef.px i k = Spec.low2 H W u.px (phiHat2 H W a.J).px a.J (i + 1) (k + 1)) ∨
        (∃ j t, j < a.J ∧ t < a.L ∧ p.n = [j * a.L + t] ∧ p.j = [j] ∧ p.theta = [t] ∧
          p.coef.px i k = Spec.low2 (H / 2 ^ j) (W / 2 ^ j)
            (Spec.band2 H W u.px (psiHat2 H W a.L j t).px j)
            (periodizeFilter (phiHat2 H W a.J) j).px (a.J - j) (i + 1) (k + 1)) ∨
        (∃ j t j' t', j < j' ∧ j' < a.J ∧ t < a.L ∧ t' < a.L ∧
          p.n = [j * a.L + t, j' * a.L + t'] ∧ p.j = [j, j'] ∧ p.theta = [t, t'] ∧
          p.coef.px i k = Spec.low2 (H / 2 ^ j') (W / 2 ^ j')
            (Spec.band2 (H / 2 ^ j) (W / 2 ^ j) (Spec.band2 H W u.px (psiHat2 H W a.L j t).px j)
              (periodizeFilter (psiHat2 H W a.L j' t') j).px (j' - j))
            (periodizeFilter (phiHat2 H W a.J) j').px (a.J - j') (i + 1) (k + 1)) := by
  obtain ⟨s, l0, hs, hc, hl, -, hli⟩ := run_eq_ok h
  have := hli ho
  injection this with this
  subst this
  obtain ⟨u, hu, hh, hw⟩ := pad_ok hs hc
  obtain ⟨-, -, h3, h4, h5, h6⟩ := make_eq_ok hs
  refine ⟨s.Mp, s.Np, u, h3, h4, hh, hw, ?_, ?_, ?_⟩
  · intro hp
    unfold Args2D.pad at hu
    rw [if_pos hp] at hu
    exact (Except.ok.inj hu).symm
  · intro hp
    unfold Args2D.pad at hu
    rw [if_neg (by simp [hp])] at hu
    exact hu
  intro (p : Path2 np2Backend.R) hp i k hi hk
  -- labels
  have hlab : (p.j, p.n, p.theta) ∈ Spec.channels2 a.J a.L a.maxOrder := by
    have e := labels_eq np2Backend _ hl
    rw [h6, labels_bank] at e
    rw [← e]
    exact List.mem_map.2 ⟨p, hp, rfl⟩
  have zero_level : ∀ (f : Img ℝ) (H W : Nat), f.h = H → f.w = W → ∀ i j, i < H → j < W →
      (periodizeFilter f 0).px i j = f.px i j := by
    rintro f _ _ rfl rfl i j hi hj
    exact C41_level_zero f i j hi hj
  have key : ∀ {v y : Img ℝ} {lev : Nat} {z : ℕ → ℕ → ℝ}, LowOf (a.ops s) s.phi v a.J lev y →
      v.h = s.Mp / 2 ^ lev → v.w = s.Np / 2 ^ lev →
      (∀ m n, m < s.Mp / 2 ^ lev → n < s.Np / 2 ^ lev → v.px m n = z m n) →
      ∀ i k, i < y.h → k < y.w → y.px i k = Spec.low2 (s.Mp / 2 ^ lev) (s.Np / 2 ^ lev) z
        (periodizeFilter (phiHat2 s.Mp s.Np a.J) lev).px (a.J - lev) (i + 1) (k + 1) := by
    rintro v y lev z ⟨f, r, hf, e1, e2, hle, e3, e4, rfl, e5⟩ hv1 hv2 hz i k hi hk
    rw [h5] at hf
    have hf' := phi_level hf
    subst hf'
    have hi : i < Img.h r - 2 := hi
    have hk : k < Img.w r - 2 := hk
    show (np2Unpad r).px i k = _
    unfold np2Unpad
    rw [Img.px_tab hi hk, e5 (i + 1) (k + 1) (by omega) (by omega)]
    unfold Spec.low2
    rw [← e1, ← e2, hv1, hv2]
    push_cast
    rw [conv2_congr hz (fun _ _ _ _ => rfl)]
  have hbank : ∀ {n1 : Nat} {f : Filt2 (Img ℝ)}, s.psi[n1]? = some f →
      ∃ j t, j < a.J ∧ t < a.L ∧ f = makePsi2 s.Mp s.Np a.J a.L j t := by
    intro n1 f hf
    have := List.mem_of_getElem? hf
    rw [h6] at this
    exact mem_filterBank2 this
  have band : ∀ {f u v : Img ℝ} {e : Nat} {z g : ℕ → ℕ → ℝ} {A B : Nat}, BandOf f u e v →
      u.h = A → u.w = B → (∀ m n, m < A → n < B → u.px m n = z m n) →
      (∀ m n, m < A → n < B → f.px m n = g m n) →
      v.h = A / 2 ^ e ∧ v.w = B / 2 ^ e ∧ ∀ m n, m < v.h → n < v.w →
        v.px m n = Spec.band2 A B z g e m n := by
    rintro f u v e z g _ _ hb rfl rfl hz hg
    refine ⟨?_, ?_, fun m n hm hn => ?_⟩
    · rw [← hb.h, Nat.mul_div_cancel _ (by positivity)]
    · rw [← hb.w, Nat.mul_div_cancel _ (by positivity)]
    · rw [hb.px m n hm hn]
      unfold Spec.band2
      rw [← hb.fh, ← hb.fw, conv2_congr hz hg]
      push_cast
      rfl
  cases mem_paths np2Backend _ hl hp with
  | zero Ur U0c c hpd h0 hcf =>
    have : Ur = u := Except.ok.inj (hpd.symm.trans hu)
    subst this
    injection h0 with h0
    subst h0
    refine .inl ⟨rfl, ?_⟩
    have := key (z := Img.px Ur) (lowpass_np hcf) (by simpa using hh) (by simpa using hw)
      (fun _ _ _ _ => rfl) i k hi hk
    rw [this]
    unfold Spec.low2
    rw [pow_zero, Nat.div_one, Nat.div_one, Nat.sub_zero, conv2_congr (fun _ _ _ _ => rfl)
      (zero_level _ s.Mp s.Np rfl rfl)]
  | one Ur U0c U1c c n1 f hpd h0 hn1 hU hcf =>
    have : Ur = u := Except.ok.inj (hpd.symm.trans hu)
    subst this
    injection h0 with h0
    subst h0
    obtain ⟨g, v, hg, hv, rfl⟩ := first_np hU
    obtain ⟨j, t, hj, ht, rfl⟩ := hbank hn1
    have hg := psi_level hg
    subst hg
    obtain ⟨b1, b2, b3⟩ := band hv hh hw (fun _ _ _ _ => rfl) (zero_level (psiHat2 s.Mp s.Np a.L j t) s.Mp s.Np rfl rfl)
    refine .inr (.inl ⟨j, t, hj, ht, ?_, rfl, rfl, ?_⟩)
    · rcases (C39_members _ _ _ _).1 hlab with h | ⟨j', t', -, -, h⟩ | ⟨-, j', t', j'', t'', -, -, -, -, h⟩
      · simp at h
      · simp only [Prod.mk.injEq, List.cons.injEq, and_true] at h
        obtain ⟨e1, e2, e3⟩ := h
        rw [e2, ← e1, ← e3]
        rfl
      · simp at h
    · refine key (lowpass_np hcf) b1 b2 (fun m n hm hn => b3 m n ?_ ?_) i k hi hk
      · rw [b1]; exact hm
      · rw [b2]; exact hn
  | two Ur U0c U1c U2c c n1 n2 f g hm hpd h0 hn1 hn2 hj hU hU2 hcf =>
    have : Ur = u := Except.ok.inj (hpd.symm.trans hu)
    subst this
    injection h0 with h0
    subst h0
    obtain ⟨g1, v, hg1, hv, rfl⟩ := first_np hU
    obtain ⟨g2, v', hg2, hle, hv', rfl⟩ := second_np hU2
    obtain ⟨j, t, hj1, ht, rfl⟩ := hbank hn1
    obtain ⟨j', t', hj', ht', rfl⟩ := hbank hn2
    have hg1 := psi_level hg1
    subst hg1
    have hg2 := psi_level hg2
    subst hg2
    have hjj : j < j' := hj
    obtain ⟨b1, b2, b3⟩ := band hv hh hw (fun _ _ _ _ => rfl) (zero_level (psiHat2 s.Mp s.Np a.L j t) s.Mp s.Np rfl rfl)
    obtain ⟨d1, d2, d3⟩ := band hv' b1 b2
      (fun m n hm hn => b3 m n (by rw [b1]; exact hm) (by rw [b2]; exact hn)) (fun _ _ _ _ => rfl)
    have dd : ∀ X : Nat, X / 2 ^ j / 2 ^ (j' - j) = X / 2 ^ j' := fun X => by
      rw [Nat.div_div_eq_div_mul, ← pow_add, Nat.add_sub_cancel' hjj.le]
    have d1 : v'.h = s.Mp / 2 ^ j' := d1.trans (dd _)
    have d2 : v'.w = s.Np / 2 ^ j' := d2.trans (dd _)
    refine .inr (.inr ⟨j, t, j', t', hjj, hj', ht, ht', ?_, rfl, rfl, ?_⟩)
    · rcases (C39_members _ _ _ _).1 hlab with h | ⟨j', t', -, -, h⟩ | ⟨-, j', t', j'', t'', -, -, -, -, h⟩
      · simp at h
      · simp at h
      · simp only [Prod.mk.injEq, List.cons.injEq, and_true] at h
        obtain ⟨⟨e1, e1'⟩, ⟨e2, e2'⟩, e3, e3'⟩ := h
        rw [e2, e2', ← e1, ← e3, ← e1', ← e3']
        rfl
    · refine key (lowpass_np hcf) d1 d2 (fun m n hm hn => d3 m n ?_ ?_) i k hi hk
      · rw [d1]; exact hm
      · rw [d2]; exact hn

/-- **Constant images**: every coefficient of order one or two vanishes. -/
theorem C44_constant (a : Args2D) (ho : a.outType = .list) (x : Img ℝ) (c : ℝ)
    (hx : ∀ i j, i < x.h → j < x.w → x.px i j = c) (l : List (Path2 (Img ℝ)))
    (h : a.run x = .ok (.list l)) :
    ∀ p ∈ l, p.n ≠ [] → ∀ i j, i < p.coef.h → j < p.coef.w → p.coef.px i j = 0 := by
  obtain ⟨s, l0, hs, hc, hl, -, hli⟩ := run_eq_ok h
  have hpad := pad_rel (a := a) (s := s) (fun p _ => p = c) (x := x) (y := x) rfl rfl hx
  obtain ⟨u', hu', uh', uw'⟩ := pad_ok hs hc
  obtain ⟨_, -, -, -, hu'c⟩ := hpad u' hu'
  obtain ⟨hM, hN, h3, h4, -, -⟩ := make_eq_ok hs
  obtain ⟨H, W, u, hH, hW, hh, hw, hp1, hp2, hcl⟩ := C58_closed_form a ho x l h
  have huu : u = u' := by
    unfold Args2D.pad at hu'
    cases hp : a.prePad with
    | true =>
      rw [if_pos hp] at hu'
      rw [hp1 hp]
      exact Except.ok.inj hu'
    | false =>
      rw [if_neg (by simp [hp]), h3, h4] at hu'
      have := hp2 hp
      rw [hH, hW] at this
      exact Except.ok.inj (this.symm.trans hu')
  subst huu
  have hH0 : 0 < H := by
    rw [hH, padded2_eq]; exact Nat.mul_pos (Nat.succ_pos _) (by positivity)
  have hW0 : 0 < W := by
    rw [hW, padded2_eq]; exact Nat.mul_pos (Nat.succ_pos _) (by positivity)
  have band0 : ∀ j t, t < a.L → ∀ m n, Spec.band2 H W u.px (psiHat2 H W a.L j t).px j m n = 0 := by
    intro j t ht m n
    unfold Spec.band2
    rw [conv2_const hH0.ne' hW0.ne' (c := c) (fun i k hi hk => hu'c i k (by rw [hh]; exact hi)
      (by rw [hw]; exact hk))]
    have : (psiHat2 H W a.L j t).px 0 0 = 0 := by
      refine C44_wavelet_zero_mean hH0 hW0 (by positivity) ?_
      have : (0 : ℝ) < a.L := by exact_mod_cast (by omega : 0 < a.L)
      positivity
    rw [this]
    simp
  have zconv : ∀ A B (z f : ℕ → ℕ → ℝ), (∀ m n, z m n = 0) → ∀ m n,
      Spec.conv2 A B z (Spec.impulse2 A B f) m n = 0 := by
    intro A B z f hz m n
    unfold Spec.conv2
    exact Finset.sum_eq_zero fun u _ => Finset.sum_eq_zero fun v _ => by rw [hz]; simp
  intro p hp hne i k hi hk
  rcases hcl p hp i k hi hk with ⟨h0, -⟩ | ⟨j, t, hj, ht, -, -, -, e⟩ |
    ⟨j, t, j', t', hjj, hj', ht, ht', -, -, -, e⟩
  · exact absurd h0 hne
  · rw [e]
    unfold Spec.low2
    rw [zconv _ _ _ _ (band0 j t ht)]
    rfl
  · rw [e]
    unfold Spec.low2
    rw [zconv]
    · rfl
    · intro m n
      unfold Spec.band2
      rw [zconv]
      · simp
      · exact band0 j t ht

/-! ## Batches -/

/-- **Batches**: image `i` of the result of a batch is the result for image `i` alone. -/
theorem C44_batch (a : Args2D) (ho : a.outType = .list) (h w : Nat) (xs : List (Img ℝ))
    (hxs : ∀ x ∈ xs, x.h = h ∧ x.w = w) (l : List (Path2 (List (Img ℝ))))
    (hl : a.runBatch h w xs = .ok (.list l)) (i : Nat) (x : Img ℝ) (hx : xs[i]? = some x) :
    ∃ m : List (Path2 (Img ℝ)), a.run x = .ok (.list m) ∧
      List.Forall₂ (fun p q => p.j = q.j ∧ p.n = q.n ∧ p.theta = q.theta ∧
        p.coef[i]? = some q.coef) l m := by
  unfold Args2D.runBatch at hl
  obtain ⟨s, hs, hl⟩ := bind_eq_ok.1 hl
  obtain ⟨⟨⟩, hc, hl⟩ := bind_eq_ok.1 hl
  unfold scattering2d at hl
  obtain ⟨l0, hl0, hl⟩ := bind_eq_ok.1 hl
  rw [ho] at hl
  injection hl with hl
  injection hl with hl
  subst hl
  obtain ⟨m, hm, hrel⟩ := sim_paths (rowRel np2Backend i) (opsA := a.batchOps s) (opsB := a.ops s)
    (P := fun _ (r : List (Img ℝ)) (r' : Img ℝ) => r[i]? = some r') (J := a.J)
    (fun k (r : List (Img ℝ)) (r' : Img ℝ) (hr : r[i]? = some r') => by
      show (List.map _ _)[i]? = some _
      rw [List.getElem?_map, hr]
      rfl)
    (phi := s.phi) (phi' := s.phi)
    ⟨rfl, fun k a b ha hb => by rw [ha] at hb; cases hb; rfl⟩
    (psi := s.psi) (psi' := s.psi)
    (by
      have : ∀ q : List (Filt2 (Img ℝ)), List.Forall₂ (filt2 (rowRel np2Backend i)) q q := by
        intro q
        induction q with
        | nil => exact List.Forall₂.nil
        | cons f q ih =>
          exact List.Forall₂.cons ⟨rfl, rfl, rfl, fun k a b ha hb => by
            rw [ha] at hb; cases hb; rfl⟩ ih
      exact this _)
    a.maxOrder (x := xs) (y := x) (fun u hu => mapM_get hu hx) _ hl0
  obtain ⟨e1, e2⟩ := hxs x (List.mem_of_getElem? hx)
  refine ⟨m, bind_eq_ok.2 ⟨s, hs, bind_eq_ok.2 ⟨(), by rw [e1, e2]; exact hc, ?_⟩⟩, hrel⟩
  unfold scattering2d
  refine bind_eq_ok.2 ⟨m, hm, ?_⟩
  rw [ho]
  rfl

theorem mapM_size {α β : Type} {y : List α} {f : α → Py β} {P : β → Prop}
    (h : ∀ a ∈ y, ∃ b, f a = .ok b ∧ P b) :
    ∃ w, y.mapM f = .ok w ∧ w.length = y.length ∧ ∀ b ∈ w, P b := by
  obtain ⟨w, hw⟩ := mapM_ok_of_forall fun a ha => (h a ha).imp fun _ hb => hb.1
  have hf := mapM_eq_ok.1 hw
  refine ⟨w, hw, hf.length_eq.symm, fun b hb => ?_⟩
  obtain ⟨a, ha, hab⟩ := forall₂_mem_right hf hb
  obtain ⟨c, hc, hP⟩ := h a ha
  rw [hab] at hc
  cases hc
  exact hP

/-- Sizes of the images of a batch follow those of one image. -/
noncomputable def np2ToBatch (B : Nat) : BackendRel np2Backend (batchBackend np2Backend) where
  rR _ _ x y := List.length (α := Img ℝ) y = B ∧ ∀ a ∈ (y : List (Img ℝ)), a.h = Img.h x ∧ a.w = Img.w x
  rC _ _ x y := List.length (α := Img ℂ) y = B ∧ ∀ a ∈ (y : List (Img ℂ)), a.h = Img.h x ∧ a.w = Img.w x
  rZ _ _ x y := List.length (α := Img ℂ) y = B ∧ ∀ a ∈ (y : List (Img ℂ)), a.h = Img.h x ∧ a.w = Img.w x
  rF _ f g := g = f
  rfft i r x y h := by
    intro u hu
    injection hu with hu
    subst hu
    obtain ⟨w, hw, e1, e2⟩ := mapM_size (y := y) (f := np2Backend.rfft)
      (P := fun b => Img.h b = Img.h x ∧ Img.w b = Img.w x) fun a ha => ⟨_, rfl, h.2 a ha⟩
    exact ⟨w, hw, e1.trans h.1, e2⟩
  ifft i r x y h := by
    intro u hu
    injection hu with hu
    subst hu
    obtain ⟨w, hw, e1, e2⟩ := mapM_size (y := y) (f := np2Backend.ifft)
      (P := fun b => Img.h b = Img.h x ∧ Img.w b = Img.w x) fun a ha => ⟨_, rfl, h.2 a ha⟩
    exact ⟨w, hw, e1.trans h.1, e2⟩
  irfft i r x y h := by
    intro u hu
    injection hu with hu
    subst hu
    obtain ⟨w, hw, e1, e2⟩ := mapM_size (y := y) (f := np2Backend.irfft)
      (P := fun b => Img.h b = Img.h x ∧ Img.w b = Img.w x) fun a ha => ⟨_, rfl, h.2 a ha⟩
    exact ⟨w, hw, e1.trans h.1, e2⟩
  modulus i r x y h := by
    intro u hu
    injection hu with hu
    subst hu
    obtain ⟨w, hw, e1, e2⟩ := mapM_size (y := y) (f := np2Backend.modulus)
      (P := fun b => Img.h b = Img.h x ∧ Img.w b = Img.w x) fun a ha => ⟨_, rfl, h.2 a ha⟩
    exact ⟨w, hw, e1.trans h.1, e2⟩
  cdgmm i r x y f g h hfg := by
    subst hfg
    intro u hu
    obtain ⟨c1, c2, rfl⟩ := (np2Cdgmm_eq _ _ _).1 hu
    obtain ⟨w, hw, e1, e2⟩ := mapM_size (y := y) (f := fun a => np2Backend.cdgmm a g)
      (P := fun b => Img.h b = Img.h x ∧ Img.w b = Img.w x) fun a ha =>
        ⟨_, (np2Cdgmm_eq a g _).2 ⟨by rw [(h.2 a ha).1, c1], by rw [(h.2 a ha).2, c2], rfl⟩,
          h.2 a ha⟩
    exact ⟨w, hw, e1.trans h.1, e2⟩
  subsample i r x y e h := by
    intro u hu
    have hu : np2Subsample x (2 ^ e) = .ok u := hu
    obtain ⟨hk, d1, d2, rfl⟩ := (np2Subsample_eq _ _ _).1 hu
    obtain ⟨w, hw, e1, e2⟩ := mapM_size (y := y) (f := fun a => np2Backend.subsample a e)
      (P := fun b => Img.h b = Img.h x / 2 ^ e ∧ Img.w b = Img.w x / 2 ^ e) fun a ha =>
        ⟨_, (np2Subsample_eq a (2 ^ e) _).2 ⟨hk, by rw [(h.2 a ha).1]; exact d1,
          by rw [(h.2 a ha).2]; exact d2, rfl⟩, by simp [(h.2 a ha).1], by simp [(h.2 a ha).2]⟩
    exact ⟨w, hw, e1.trans h.1, e2⟩

/-- Conversely a batch of images of the right shape can be scattered as soon as one image can, and
every coefficient holds one image per input. -/
theorem C44_batch_succeeds (a : Args2D) (ho : a.outType = .list) (x : Img ℝ)
    (l : List (Path2 (Img ℝ))) (h : a.run x = .ok (.list l)) (xs : List (Img ℝ))
    (hxs : ∀ y ∈ xs, y.h = x.h ∧ y.w = x.w) :
    ∃ m : List (Path2 (List (Img ℝ))), a.runBatch x.h x.w xs = .ok (.list m) ∧
      List.Forall₂ (fun p q => p.j = q.j ∧ p.n = q.n ∧ p.theta = q.theta ∧
        q.coef.length = xs.length) l m := by
  obtain ⟨s, l0, hs, hc, hl, -, hli⟩ := run_eq_ok h
  have := hli ho
  injection this with this
  subst this
  obtain ⟨m, hm, hrel⟩ := sim_paths (np2ToBatch xs.length) (opsA := a.ops s) (opsB := a.batchOps s)
    (P := fun _ (_ : Img ℝ) (r' : List (Img ℝ)) => r'.length = xs.length) (J := a.J)
    (fun k r r' hr => by
      show List.length (List.map _ _) = _
      rw [List.length_map]; exact hr.1)
    (phi := s.phi) (phi' := s.phi)
    ⟨rfl, fun k a b ha hb => by rw [ha] at hb; cases hb; rfl⟩
    (psi := s.psi) (psi' := s.psi)
    (by
      have : ∀ q : List (Filt2 (Img ℝ)), List.Forall₂ (filt2 (np2ToBatch xs.length)) q q := by
        intro q
        induction q with
        | nil => exact List.Forall₂.nil
        | cons f q ih =>
          exact List.Forall₂.cons ⟨rfl, rfl, rfl, fun k a b ha hb => by
            rw [ha] at hb; cases hb; rfl⟩ ih
      exact this _)
    a.maxOrder (x := x) (y := xs) (by
      intro u hu
      obtain ⟨w, hw, e1, e2⟩ := mapM_size (y := xs) (f := a.pad s)
        (P := fun b => b.h = u.h ∧ b.w = u.w) fun y hy => by
          obtain ⟨v, hv, e1, e2, -⟩ := pad_rel (a := a) (s := s) (fun _ _ => True) (x := x) (y := y)
            (hxs y hy).1 (hxs y hy).2 (fun _ _ _ _ => trivial) u hu
          exact ⟨v, hv, e1, e2⟩
      exact ⟨w, hw, e1, e2⟩) _ hl
  refine ⟨m, bind_eq_ok.2 ⟨s, hs, bind_eq_ok.2 ⟨(), hc, ?_⟩⟩, hrel⟩
  unfold scattering2d
  refine bind_eq_ok.2 ⟨m, hm, ?_⟩
  rw [ho]
  rfl

/-! ## The hypotheses are met -/

example (c : ℝ) : ∃ l l', exArgs2.run (Img.tab 9 14 fun i j => (i * j : ℝ)) = .ok (.list l) ∧
    exArgs2.run (Img.tab 9 14 fun i j => c * (i * j : ℝ)) = .ok (.list l') := by
  obtain ⟨l, h⟩ := exArgs2_run (Img.tab 9 14 fun i j => (i * j : ℝ)) rfl rfl
  obtain ⟨l', h', -⟩ := C44_scaling exArgs2 rfl c (Img.tab 9 14 fun i j => (i * j : ℝ))
    (Img.tab 9 14 fun i j => c * (i * j : ℝ)) rfl rfl (fun i j hi hj => by
      have hi : i < 9 := hi
      have hj : j < 14 := hj
      rw [Img.px_tab hi hj, Img.px_tab hi hj]) l h
  exact ⟨l, l', h, h'⟩

/-- The same object with `pre_pad`. -/
def exArgs2p : Args2D := ⟨2, 9, 14, 3, 2, true, .list⟩

example : ∃ l, exArgs2p.run (Img.tab 16 20 fun i j => (i * j : ℝ)) = .ok (.list l) := by
  obtain ⟨out, h⟩ := C40_no_error exArgs2p (by decide) (by decide) (by decide) (by decide)
    (Img.tab 16 20 fun i j => (i * j : ℝ)) ⟨by decide, by decide⟩
  obtain ⟨l, hl, -⟩ := C39_channels exArgs2p rfl _ out h
  exact ⟨l, by rw [h, hl]⟩

example : ∃ m, exArgs2.runBatch 9 14 [Img.tab 9 14 fun i j => (i * j : ℝ),
    Img.tab 9 14 fun i j => (i + j : ℝ)] = .ok (.list m) := by
  obtain ⟨l, h⟩ := exArgs2_run (Img.tab 9 14 fun i j => (i * j : ℝ)) rfl rfl
  obtain ⟨m, hm, -⟩ := C44_batch_succeeds exArgs2 rfl _ l h [Img.tab 9 14 fun i j => (i * j : ℝ),
    Img.tab 9 14 fun i j => (i + j : ℝ)] (by
      intro y hy
      simp only [List.mem_cons, List.not_mem_nil, or_false] at hy
      rcases hy with rfl | rfl <;> exact ⟨rfl, rfl⟩)
  exact ⟨m, hm⟩

end Verif
