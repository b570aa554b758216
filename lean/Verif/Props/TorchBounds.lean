import Verif.Props.Stability2D
import Verif.Props.Shift2D
import Verif.Props.Averages2D
import Verif.Props.LipschitzJTFS
import Verif.Props.Torch2D
import Verif.Props.TorchJTFS

/-!
# C132: the bounds of C97, C117, C118 and C128 hold for the coefficients computed with torch
-/

namespace Verif

/-- **C132.**  Close images have close coefficients. -/
theorem C132_euclidean (a : Args2D) (ho : a.outType = .list) (x y : Img ℝ) (l m : List (Path2 (Img ℝ)))
    (hl : a.runTorch x = .ok (.list l)) (hm : a.runTorch y = .ok (.list m)) (p q : Path2 (Img ℝ)) (hp : p ∈ l)
    (hq : q ∈ m) (hpq : p.n = q.n) :
    q.coef.h = p.coef.h ∧ q.coef.w = p.coef.w ∧
      Spec.norm2 p.coef.h p.coef.w (fun i k => p.coef.px i k - q.coef.px i k) ≤
        1.001 * (if 4 ≤ a.L then 2.001 else 15) ^ p.n.length *
          ((if a.prePad then 1 else 4) * Spec.norm2 x.h x.w fun i k => x.px i k - y.px i k) :=
  C97_euclidean a ho x y l m ((C59_torch_eq_numpy a x _).1 hl) ((C59_torch_eq_numpy a y _).1 hm) p q hp hq hpq

/-- **C132.**  Translations that are short compared with `2 ** J` move the coefficients by little. -/
theorem C132_shift (a : Args2D) (ho : a.outType = .list) (hpre : a.prePad = true) (x y : Img ℝ) (s t : ℤ)
    (hroll : Spec.IsRoll2 x.h x.w s t x.px y.px) (l m : List (Path2 (Img ℝ)))
    (hl : a.runTorch x = .ok (.list l)) (hm : a.runTorch y = .ok (.list m)) (p q : Path2 (Img ℝ)) (hp : p ∈ l)
    (hq : q ∈ m) (hpq : p.n = q.n) (hs : (2 : ℤ) ^ p.j.getLastD 0 ∣ s) (ht : (2 : ℤ) ^ p.j.getLastD 0 ∣ t) :
    q.coef.h = p.coef.h ∧ q.coef.w = p.coef.w ∧
      Spec.norm2 p.coef.h p.coef.w (fun i k => q.coef.px i k - p.coef.px i k) ≤
        2 * (|(s : ℝ)| + |(t : ℝ)|) / 2 ^ a.J * (if 4 ≤ a.L then 2.001 else 15) ^ p.n.length *
          Spec.norm2 x.h x.w x.px :=
  C117_shift a ho hpre x y s t hroll l m ((C59_torch_eq_numpy a x _).1 hl) ((C59_torch_eq_numpy a y _).1 hm) p q hp hq
    hpq hs ht

/-- **C132.**  The coefficients of the finest wavelets are not negative; those of order zero are not when the image
is not. -/
theorem C132_nonneg (a : Args2D) (ho : a.outType = .list) (x : Img ℝ) (l : List (Path2 (Img ℝ)))
    (hl : a.runTorch x = .ok (.list l)) (p : Path2 (Img ℝ)) (hp : p ∈ l)
    (hsign : p.j = [0] ∨ p.n = [] ∧ ∀ i < x.h, ∀ j < x.w, 0 ≤ x.px i j) :
    ∀ i < p.coef.h, ∀ k < p.coef.w, 0 ≤ p.coef.px i k :=
  C118_nonneg a ho x l ((C59_torch_eq_numpy a x _).1 hl) p hp hsign

/-- **C132.**  The coefficient of order zero is no larger than the image, up to one thousandth. -/
theorem C132_bounded (a : Args2D) (ho : a.outType = .list) (x : Img ℝ) (B : ℝ)
    (hB : ∀ i < x.h, ∀ j < x.w, |x.px i j| ≤ B) (l : List (Path2 (Img ℝ))) (hl : a.runTorch x = .ok (.list l))
    (p : Path2 (Img ℝ)) (hp : p ∈ l) (np : p.n = []) :
    ∀ i < p.coef.h, ∀ k < p.coef.w, |p.coef.px i k| ≤ 1.001 * B :=
  C118_bounded a ho x B hB l ((C59_torch_eq_numpy a x _).1 hl) p hp np

/-- **C132.**  Joint time-frequency scattering with torch is Lipschitz, and returns for the one signal when it returns
for the other.  The first-order paths fit in the padded frequency axis, and `T='global'` is not combined with the format
`joint` (C80). -/
theorem C132_joint (a : JArgs) (s : ScJ) (hmake : a.make = .ok s) (hroom : s.base.psi1.length ≤ s.nFr)
    (hgj : ¬ (s.base.average = .glob ∧ a.fmt = .joint)) (Q1 Q2 : Int) (hQ : parseQ a.Q = .ok (Q1, Q2))
    (ls lsFr : ℕ) (hls : log2Stride s.base.built.stride a.T a.J s.base.built.Ninput = .ok (ls : ℤ))
    (hlsFr : log2Stride a.strideFr a.F a.Jfr ((a.J + 1) * Q1.toNat) = .ok (lsFr : ℤ))
    (x y : List ℝ) (hxy : y.length = x.length) (W : ℕ)
    (hW : W = s.base.built.padLeft + x.length + s.base.built.padRight)
    (out : JOut (List ℝ) (Img ℝ)) (hout : a.runTorch x = .ok out) :
    ∃ out', a.runTorch y = .ok out' ∧ Spec.OutRelJ (fun n => Spec.CoefErr (
      if n = [] then
        Real.sqrt 3 * Spec.avgGain s.base.average 1 W * Spec.l2 x.length (fun i => x.getD i 0 - y.getD i 0)
      else
        Real.sqrt 3 * Real.sqrt s.base.psi1.length * 2 ^ ls * Spec.avgGain s.base.average (2 ^ ls) W *
          Spec.avgGain s.averageFr (2 ^ lsFr) s.nFr * Spec.l2 x.length (fun i => x.getD i 0 - y.getD i 0))) out out' := by
  obtain ⟨out', h, hr⟩ := C128_lipschitz a s hmake Q1 Q2 hQ ls lsFr hls hlsFr x y hxy W hW out
    ((C80_torch_eq_numpy_partial hmake hroom hgj x out).1 hout)
  exact ⟨out', (C80_torch_eq_numpy_partial hmake hroom hgj y out').2 h, hr⟩

/-- `Scattering2D(J=2, shape=(9, 14), ...)` with torch: two images with values in `[0, 3]` meet the hypotheses. -/
example (f g : ℕ → ℕ → ℝ) (hf : ∀ i j, 0 ≤ f i j ∧ f i j ≤ 3) : ∃ l m,
    exArgs2.runTorch (Img.tab 9 14 f) = .ok (.list l) ∧ exArgs2.runTorch (Img.tab 9 14 g) = .ok (.list m) ∧
    (∃ p ∈ l, ∃ q ∈ m, p.n = [] ∧ q.n = [] ∧ (∀ i < p.coef.h, ∀ k < p.coef.w, 0 ≤ p.coef.px i k ∧
      |p.coef.px i k| ≤ 1.001 * 3) ∧ q.coef.h = p.coef.h) ∧
    ∃ p ∈ l, ∃ q ∈ m, p.n = [1] ∧ q.n = [1] ∧ (∀ i < p.coef.h, ∀ k < p.coef.w, 0 ≤ p.coef.px i k) ∧
      Spec.norm2 p.coef.h p.coef.w (fun i k => p.coef.px i k - q.coef.px i k) ≤
        1.001 * (if 4 ≤ exArgs2.L then 2.001 else 15) ^ p.n.length *
          ((if exArgs2.prePad then 1 else 4) * Spec.norm2 9 14 fun i k => (Img.tab 9 14 f).px i k - (Img.tab 9 14 g).px i k) := by
  obtain ⟨l, hl⟩ := exArgs2_run (Img.tab 9 14 f) rfl rfl
  obtain ⟨m, hm⟩ := exArgs2_run (Img.tab 9 14 g) rfl rfl
  have find : ∀ {x : Img ℝ} {l : List (Path2 (Img ℝ))}, exArgs2.run x = .ok (.list l) →
      ∀ c ∈ Spec.channels2 exArgs2.J exArgs2.L exArgs2.maxOrder, ∃ p ∈ l, (p.j, p.n, p.theta) = c := by
    intro x l h c hc
    obtain ⟨l', hl', e⟩ := C39_channels exArgs2 rfl x _ h
    obtain rfl := Out2D.list.inj hl'
    rw [← e] at hc
    exact List.mem_map.1 hc
  have m0 : (([], [], []) : List ℕ × List ℕ × List ℕ) ∈ Spec.channels2 exArgs2.J exArgs2.L exArgs2.maxOrder := by decide
  have m1 : (([0], [1], [1]) : List ℕ × List ℕ × List ℕ) ∈ Spec.channels2 exArgs2.J exArgs2.L exArgs2.maxOrder := by
    decide
  obtain ⟨p, hp, ep⟩ := find hl _ m0
  obtain ⟨q, hq, eq⟩ := find hm _ m0
  obtain ⟨p', hp', ep'⟩ := find hl _ m1
  obtain ⟨q', hq', eq'⟩ := find hm _ m1
  simp only [Prod.mk.injEq] at ep eq ep' eq'
  have pf : ∀ i < 9, ∀ j < 14, (Img.tab 9 14 f).px i j = f i j := fun i hi j hj => Img.px_tab hi hj
  have tl := (C59_torch_eq_numpy exArgs2 _ _).2 hl
  have tm := (C59_torch_eq_numpy exArgs2 _ _).2 hm
  refine ⟨l, m, tl, tm, ⟨p, hp, q, hq, ep.2.1, eq.2.1, fun i hi k hk => ⟨?_, ?_⟩, ?_⟩,
    p', hp', q', hq', ep'.2.1, eq'.2.1, ?_, ?_⟩
  · exact C132_nonneg exArgs2 rfl _ l tl p hp
      (.inr ⟨ep.2.1, fun i hi j hj => by rw [pf i hi j hj]; exact (hf i j).1⟩) i hi k hk
  · refine C132_bounded exArgs2 rfl _ 3 (fun i hi j hj => ?_) l tl p hp ep.2.1 i hi k hk
    rw [pf i hi j hj, abs_of_nonneg (hf i j).1]
    exact (hf i j).2
  · exact (C132_euclidean exArgs2 rfl _ _ l m tl tm p q hp hq (by rw [ep.2.1, eq.2.1])).1
  · exact C132_nonneg exArgs2 rfl _ l tl p' hp' (.inl ep'.1)
  · exact (C132_euclidean exArgs2 rfl _ _ l m tl tm p' q' hp' hq' (by rw [ep'.2.1, eq'.2.1])).2.2

/-- An object with `pre_pad=True` and an image translated by two pixels along both axes. -/
example (f : ℕ → ℕ → ℝ) : ∃ l l', exArgs2p.runTorch (Img.tab 16 20 f) = .ok (.list l) ∧
    exArgs2p.runTorch (Img.tab 16 20 fun i j => f ((i + 14) % 16) ((j + 2) % 20)) = .ok (.list l') ∧
    ∀ p ∈ l, ∀ q ∈ l', p.n = q.n → p.j.getLastD 0 ≤ 1 →
      Spec.norm2 p.coef.h p.coef.w (fun i k => q.coef.px i k - p.coef.px i k) ≤
        2 * 15 ^ p.n.length * Spec.norm2 16 20 (Img.tab 16 20 f).px := by
  obtain ⟨out, h⟩ := C40_no_error exArgs2p (by decide) (by decide) (by decide) (by decide) (Img.tab 16 20 f)
    ⟨rfl, rfl⟩
  obtain ⟨l, rfl, -⟩ := C39_channels exArgs2p rfl _ out h
  obtain ⟨out', h'⟩ := C40_no_error exArgs2p (by decide) (by decide) (by decide) (by decide)
    (Img.tab 16 20 fun i j => f ((i + 14) % 16) ((j + 2) % 20)) ⟨rfl, rfl⟩
  obtain ⟨l', rfl, -⟩ := C39_channels exArgs2p rfl _ out' h'
  have t := (C59_torch_eq_numpy exArgs2p _ _).2 h
  have t' := (C59_torch_eq_numpy exArgs2p _ _).2 h'
  refine ⟨l, l', t, t', fun p hp q hq hpq last => ?_⟩
  have d : (2 : ℤ) ^ p.j.getLastD 0 ∣ 2 := (pow_dvd_pow 2 last).trans (by norm_num)
  have := (C132_shift exArgs2p rfl rfl (Img.tab 16 20 f) _ 2 (-2) (by
      intro m n (hm : m < 16) (hn : n < 20)
      have e1 : (((m : ℤ) - 2) % (16 : ℕ)).toNat = (m + 14) % 16 := by omega
      have e2 : (((n : ℤ) - -2) % (20 : ℕ)).toNat = (n + 2) % 20 := by omega
      show (Img.tab 16 20 _).px m n = (Img.tab 16 20 f).px (((m : ℤ) - 2) % (16 : ℕ)).toNat
        (((n : ℤ) - -2) % (20 : ℕ)).toNat
      rw [e1, e2, Img.px_tab hm hn, Img.px_tab (Nat.mod_lt _ (by norm_num)) (Nat.mod_lt _ (by norm_num))])
    l l' t t' p q hp hq hpq d ((dvd_neg).2 d)).2.2
  refine this.trans (le_of_eq ?_)
  have hc : 2 * (|((2 : ℤ) : ℝ)| + |((-2 : ℤ) : ℝ)|) / 2 ^ exArgs2p.J * (if 4 ≤ exArgs2p.L then (2.001 : ℝ) else 15) ^ p.n.length =
      2 * 15 ^ p.n.length := by
    rw [show exArgs2p.J = 2 from rfl, if_neg (by decide)]
    norm_num
  rw [hc]
  rfl

/-- `TimeFrequencyScattering(J=3, J_fr=2, shape=1000, Q=8)` with torch and every two signals of that length. -/
example (x y : List ℝ) (hx : x.length = 1000) (hy : y.length = 1000) (o : OutType) (ho : o ≠ .other) (f : Format)
    (hf : f ≠ .other) : ∃ s out out', (exJ o f).make = .ok s ∧ (exJ o f).runTorch x = .ok out ∧
      (exJ o f).runTorch y = .ok out' ∧ Spec.OutRelJ (fun n => Spec.CoefErr (
        if n = [] then Real.sqrt 3 * 1 * Spec.l2 x.length (fun i => x.getD i 0 - y.getD i 0)
        else Real.sqrt 3 * Real.sqrt s.base.psi1.length * 2 ^ 3 * 2 ^ 3 * 2 ^ 2 *
          Spec.l2 x.length (fun i => x.getD i 0 - y.getD i 0))) out out' := by
  obtain ⟨s, r, P, hs, -, hav, havF, hls, hlsFr, hr, -, -, -⟩ := exJ_run o ho f hf x hx
  have hroom := (C74_room_partial hs (Q1 := 8) (Q2 := 1) rfl (F := 2 ^ 2) (avF := .loc) rfl).1
    (by show (2 : Rat) ^ 2 ≤ _; norm_num [exJ])
  have hgj : ¬ (s.base.average = .glob ∧ (exJ o f).fmt = .joint) := by rw [hav]; simp
  obtain ⟨out', h1, h2⟩ := C132_joint (exJ o f) s hs hroom hgj 8 1 rfl 3 2 hls hlsFr x y (by omega) _ rfl r
    ((C80_torch_eq_numpy_partial hs hroom hgj x r).2 hr)
  rw [hav, havF] at h2
  exact ⟨s, r, out', hs, (C80_torch_eq_numpy_partial hs hroom hgj x r).2 hr, h1, h2⟩

end Verif
