import Verif.Lemmas.NpOps2D
import Verif.Lemmas.Covariance1D

/-!
# Simulation instances on the 2-D numpy backend: translation, scaling
-/

namespace Verif

open Finset

/-- A sum over one period does not depend on where it starts. -/
theorem sum_shift {N : Nat} (g : ℤ → ℂ) (hg : ∀ a b : ℤ, a % N = b % N → g a = g b) (s : ℤ) :
    ∑ m ∈ range N, g (m - s) = ∑ m ∈ range N, g m := by
  rcases Nat.eq_zero_or_pos N with h0 | hN
  · subst h0; simp
  · have hN' : (N : ℤ) ≠ 0 := by omega
    refine Finset.sum_nbij' (fun m => (((m : ℤ) - s) % N).toNat) (fun m => (((m : ℤ) + s) % N).toNat)
      ?_ ?_ ?_ ?_ ?_
    · intro m _; exact mem_range.2 (emod_toNat_lt _ hN)
    · intro m _; exact mem_range.2 (emod_toNat_lt _ hN)
    · intro m hm
      rw [mem_range] at hm
      rw [Int.toNat_of_nonneg (Int.emod_nonneg _ hN'), Int.emod_add_emod, sub_add_cancel,
        Int.emod_eq_of_lt (by omega) (by omega)]
      simp
    · intro m hm
      rw [mem_range] at hm
      rw [Int.toNat_of_nonneg (Int.emod_nonneg _ hN'), Int.emod_sub_emod, add_sub_cancel_right,
        Int.emod_eq_of_lt (by omega) (by omega)]
      simp
    · intro m _
      apply hg
      rw [Int.toNat_of_nonneg (Int.emod_nonneg _ hN'), Int.emod_emod_of_dvd _ (dvd_refl _)]

/-- A spectrum multiplied by the phases of a delay `(s, t)`. -/
def Shifted (s t : ℤ) (x y : Img ℂ) : Prop :=
  ∀ k l : Nat, k < x.h → l < x.w →
    y.px k l = x.px k l * (tw x.h (-((k : ℤ) * s)) * tw x.w (-((l : ℤ) * t)))

theorem imp2_shifted {s t : ℤ} {x y : Img ℂ} (hh : y.h = x.h) (hw : y.w = x.w)
    (h : Shifted s t x y) (m n : ℤ) : imp2 y m n = imp2 x (m - s) (n - t) := by
  unfold imp2
  rw [hh, hw]
  congr 1
  refine Finset.sum_congr rfl fun k hk => Finset.sum_congr rfl fun l hl => ?_
  rw [h k l (mem_range.1 hk) (mem_range.1 hl)]
  have e1 : tw x.h ((k : ℤ) * (m - s)) = tw x.h (-((k : ℤ) * s)) * tw x.h ((k : ℤ) * m) := by
    rw [← tw_add]; congr 1; ring
  have e2 : tw x.w ((l : ℤ) * (n - t)) = tw x.w (-((l : ℤ) * t)) * tw x.w ((l : ℤ) * n) := by
    rw [← tw_add]; congr 1; ring
  rw [e1, e2]
  ring

theorem dft2_roll {s t : ℤ} {x y : Img ℂ} (hh : y.h = x.h) (hw : y.w = x.w)
    (h : Spec.IsRoll2 x.h x.w s t x.px y.px) : Shifted s t (dft2 x) (dft2 y) := by
  intro k l hk hl
  rw [h_dft2] at hk
  rw [w_dft2] at hl
  unfold dft2
  rw [Img.px_tab (by rw [hh]; exact hk) (by rw [hw]; exact hl), Img.px_tab hk hl, hh, hw]
  simp only [Img.h_tab, Img.w_tab]
  set G : ℤ → ℤ → ℂ := fun a b => x.px (a % x.h).toNat (b % x.w).toNat *
    (tw x.h (-((k : ℤ) * (a + s))) * tw x.w (-((l : ℤ) * (b + t)))) with hG
  have hG1 : ∀ a b c : ℤ, a % x.h = b % x.h → G a c = G b c := by
    intro a b c hab
    simp only [hG, hab]
    congr 2
    apply tw_congr
    exact ((Int.ModEq.add_right s (show a ≡ b [ZMOD x.h] from hab)).mul_left k).neg
  have hG2 : ∀ a b c : ℤ, a % x.w = b % x.w → G c a = G c b := by
    intro a b c hab
    simp only [hG, hab]
    congr 2
    apply tw_congr
    exact ((Int.ModEq.add_right t (show a ≡ b [ZMOD x.w] from hab)).mul_left l).neg
  have e1 : ∀ m ∈ range x.h, ∀ n ∈ range x.w, y.px m n *
      (tw x.h (-((k : ℤ) * m)) * tw x.w (-((l : ℤ) * n))) = G (m - s) (n - t) := by
    intro m hm n hn
    rw [h m n (mem_range.1 hm) (mem_range.1 hn)]
    simp only [hG, sub_add_cancel]
  rw [Finset.sum_congr rfl fun m hm => Finset.sum_congr rfl fun n hn => e1 m hm n hn]
  have e2 : ∀ m ∈ range x.h, ∑ n ∈ range x.w, G (m - s) (n - t) =
      ∑ n ∈ range x.w, G (m - s) n := by
    intro m _
    exact sum_shift (fun b => G (m - s) b) (fun a b hab => hG2 a b _ hab) t
  rw [Finset.sum_congr rfl e2,
    sum_shift (fun a => ∑ n ∈ range x.w, G a n)
      (fun a b hab => Finset.sum_congr rfl fun n _ => hG1 a b n hab) s, Finset.sum_mul]
  refine Finset.sum_congr rfl fun m hm => ?_
  rw [Finset.sum_mul]
  refine Finset.sum_congr rfl fun n hn => ?_
  have hm' := mem_range.1 hm
  have hn' := mem_range.1 hn
  simp only [hG]
  rw [Int.emod_eq_of_lt (by omega) (by omega), Int.emod_eq_of_lt (by omega) (by omega),
    Int.toNat_natCast, Int.toNat_natCast]
  have a1 : tw x.h (-((k : ℤ) * (m + s))) = tw x.h (-((k : ℤ) * m)) * tw x.h (-((k : ℤ) * s)) := by
    rw [← tw_add]; congr 1; ring
  have a2 : tw x.w (-((l : ℤ) * (n + t))) = tw x.w (-((l : ℤ) * n)) * tw x.w (-((l : ℤ) * t)) := by
    rw [← tw_add]; congr 1; ring
  rw [a1, a2]
  ring

theorem idft2_shifted {s t : ℤ} {x y : Img ℂ} (hh : y.h = x.h) (hw : y.w = x.w)
    (h : Shifted s t x y) : Spec.IsRoll2 x.h x.w s t (idft2 x).px (idft2 y).px := by
  intro m n hm hn
  have p1 := emod_toNat_lt ((m : ℤ) - s) (N := x.h) (by omega)
  have p2 := emod_toNat_lt ((n : ℤ) - t) (N := x.w) (by omega)
  rw [px_idft2 y (by rw [hh]; exact hm) (by rw [hw]; exact hn), px_idft2 x p1 p2,
    imp2_shifted hh hw h]
  apply imp2_congr
  · rw [Int.toNat_of_nonneg (Int.emod_nonneg _ (by omega)), Int.emod_emod_of_dvd _ (dvd_refl _)]
  · rw [Int.toNat_of_nonneg (Int.emod_nonneg _ (by omega)), Int.emod_emod_of_dvd _ (dvd_refl _)]

theorem roll2_map {α β : Type} [Zero β] (f : α → β) {x y : Img α} {s t : ℤ} (hh : y.h = x.h)
    (hw : y.w = x.w) (h : Spec.IsRoll2 x.h x.w s t x.px y.px) :
    Spec.IsRoll2 x.h x.w s t (x.map f).px (y.map f).px := by
  intro m n hm hn
  rw [Img.px_map _ _ (by rw [hh]; exact hm) (by rw [hw]; exact hn),
    Img.px_map _ _ (emod_toNat_lt _ (by omega)) (emod_toNat_lt _ (by omega)), h m n hm hn]

theorem subsample_shifted {x y a b : Img ℂ} {q : Nat} {s t : ℤ} (hh : y.h = x.h) (hw : y.w = x.w)
    (h : Shifted (q * s) (q * t) x y) (ha : np2Subsample x q = .ok a)
    (hb : np2Subsample y q = .ok b) : Shifted s t a b := by
  obtain ⟨hq, ⟨H, hH⟩, ⟨W, hW⟩, rfl⟩ := (np2Subsample_eq x q a).1 ha
  obtain ⟨-, -, -, rfl⟩ := (np2Subsample_eq y q b).1 hb
  have dH : x.h / q = H := by rw [hH, Nat.mul_div_cancel_left _ (Nat.pos_of_ne_zero hq)]
  have dW : x.w / q = W := by rw [hW, Nat.mul_div_cancel_left _ (Nat.pos_of_ne_zero hq)]
  intro k l hk hl
  rw [Img.h_tab, dH] at hk
  rw [Img.w_tab, dW] at hl
  simp only [hh, hw, dH, dW, Img.h_tab, Img.w_tab]
  rw [Img.px_tab hk hl, Img.px_tab hk hl, div_mul_eq_mul_div, Finset.sum_mul]
  congr 1
  refine Finset.sum_congr rfl fun i hi => ?_
  rw [Finset.sum_mul]
  refine Finset.sum_congr rfl fun j hj => ?_
  have bd : ∀ {i k H : Nat}, i < q → k < H → i * H + k < q * H := by
    intro i k H hi hk
    calc i * H + k < i * H + H := by omega
      _ = (i + 1) * H := by ring
      _ ≤ q * H := Nat.mul_le_mul_right _ hi
  rw [h _ _ (by rw [hH]; exact bd (mem_range.1 hi) hk) (by rw [hW]; exact bd (mem_range.1 hj) hl)]
  congr 2
  · rw [hH, show -(((i * H + k : ℕ) : ℤ) * (q * s)) = (q : ℤ) * (-((i * H + k) * s)) by
      push_cast; ring, tw_scale q H hq]
    apply tw_congr
    rw [show -(((i : ℤ) * H + k) * s) = -(k * s) + H * (-(i * s)) by ring,
      Int.add_mul_emod_self_left]
  · rw [hW, show -(((j * W + l : ℕ) : ℤ) * (q * t)) = (q : ℤ) * (-((j * W + l) * t)) by
      push_cast; ring, tw_scale q W hq]
    apply tw_congr
    rw [show -(((j : ℤ) * W + l) * t) = -(l * t) + W * (-(j * t)) by ring,
      Int.add_mul_emod_self_left]

theorem rfft2_roll {s t : ℤ} {x y : Img ℝ} (hh : y.h = x.h) (hw : y.w = x.w)
    (h : Spec.IsRoll2 x.h x.w s t x.px y.px) : Shifted s t (np2Rfft x) (np2Rfft y) :=
  dft2_roll hh hw (roll2_map (fun v : ℝ => (v : ℂ)) hh hw h)

theorem irfft2_shifted {s t : ℤ} {x y : Img ℂ} (hh : y.h = x.h) (hw : y.w = x.w)
    (h : Shifted s t x y) : Spec.IsRoll2 x.h x.w s t (np2Irfft x).px (np2Irfft y).px := by
  unfold np2Irfft
  exact roll2_map (x := idft2 x) (y := idft2 y) Complex.re hh hw (idft2_shifted hh hw h)

theorem modulus2_roll {s t : ℤ} {x y : Img ℂ} (hh : y.h = x.h) (hw : y.w = x.w)
    (h : Spec.IsRoll2 x.h x.w s t x.px y.px) :
    Spec.IsRoll2 x.h x.w s t (np2Modulus x).px (np2Modulus y).px :=
  roll2_map (fun z : ℂ => ‖z‖) hh hw h

/-- Translation of the padded image by `(s, t)`. -/
noncomputable def rollRel2 (s t : ℤ) : BackendRel np2Backend np2Backend where
  rR _ r x y := Img.h y = Img.h x ∧ Img.w y = Img.w x ∧ ((2 : ℤ) ^ r ∣ s → (2 : ℤ) ^ r ∣ t →
    Spec.IsRoll2 (Img.h x) (Img.w x) (s / 2 ^ r) (t / 2 ^ r) (Img.px x) (Img.px y))
  rC _ r x y := Img.h y = Img.h x ∧ Img.w y = Img.w x ∧ ((2 : ℤ) ^ r ∣ s → (2 : ℤ) ^ r ∣ t →
    Shifted (s / 2 ^ r) (t / 2 ^ r) x y)
  rZ _ r x y := Img.h y = Img.h x ∧ Img.w y = Img.w x ∧ ((2 : ℤ) ^ r ∣ s → (2 : ℤ) ^ r ∣ t →
    Spec.IsRoll2 (Img.h x) (Img.w x) (s / 2 ^ r) (t / 2 ^ r) (Img.px x) (Img.px y))
  rF _ f g := f = g
  rfft i r x y h := Sim.ok ⟨h.1, h.2.1, fun hs ht =>
    rfft2_roll (s := s / 2 ^ r) (t := t / 2 ^ r) (x := x) (y := y) h.1 h.2.1 (h.2.2 hs ht)⟩
  ifft i r x y h := Sim.ok ⟨h.1, h.2.1, fun hs ht => idft2_shifted h.1 h.2.1 (h.2.2 hs ht)⟩
  irfft i r x y h := Sim.ok ⟨h.1, h.2.1, fun hs ht => irfft2_shifted h.1 h.2.1 (h.2.2 hs ht)⟩
  modulus i r x y h := Sim.ok ⟨h.1, h.2.1, fun hs ht => modulus2_roll h.1 h.2.1 (h.2.2 hs ht)⟩
  cdgmm i r x y f g h hfg := by
    subst hfg
    intro a ha
    obtain ⟨h1, h2, rfl⟩ := (np2Cdgmm_eq _ _ _).1 ha
    refine ⟨_, (np2Cdgmm_eq y f _).2 ⟨by rw [h.1, h1], by rw [h.2.1, h2], rfl⟩, h.1, h.2.1, ?_⟩
    intro hs ht k l hk hl
    rw [Img.h_tab] at hk
    rw [Img.w_tab] at hl
    rw [Img.px_tab (by rw [h.1]; exact hk) (by rw [h.2.1]; exact hl), Img.px_tab hk hl,
      h.2.2 hs ht k l hk hl]
    simp only [Img.h_tab, Img.w_tab]
    ring
  subsample i r x y e h := by
    intro a ha
    have ha : np2Subsample x (2 ^ e) = .ok a := ha
    obtain ⟨hk, d1, d2, -⟩ := (np2Subsample_eq _ _ _).1 ha
    obtain ⟨b, hb⟩ : ∃ b, np2Subsample y (2 ^ e) = .ok b :=
      ⟨_, (np2Subsample_eq _ _ _).2 ⟨hk, by rw [h.1]; exact d1, by rw [h.2.1]; exact d2, rfl⟩⟩
    obtain ⟨a1, a2⟩ := size_subsample2 ha
    obtain ⟨b1, b2⟩ := size_subsample2 hb
    refine ⟨b, hb, Nat.eq_of_mul_eq_mul_right (Nat.pos_of_ne_zero hk) (by rw [b1, a1, h.1]),
      Nat.eq_of_mul_eq_mul_right (Nat.pos_of_ne_zero hk) (by rw [b2, a2, h.2.1]), ?_⟩
    intro hs ht
    have hs' : (2 : ℤ) ^ r ∣ s := (pow_dvd_pow 2 (Nat.le_add_right r e)).trans hs
    have ht' : (2 : ℤ) ^ r ∣ t := (pow_dvd_pow 2 (Nat.le_add_right r e)).trans ht
    have key : ∀ z : ℤ, (2 : ℤ) ^ (r + e) ∣ z → z / 2 ^ r = ((2 ^ e : ℕ) : ℤ) * (z / 2 ^ (r + e)) := by
      rintro z ⟨c, rfl⟩
      have h2 : ∀ m : Nat, (2 : ℤ) ^ m ≠ 0 := fun m => pow_ne_zero _ two_ne_zero
      rw [Int.mul_ediv_cancel_left _ (h2 _), pow_add, mul_assoc, Int.mul_ediv_cancel_left _ (h2 _)]
      push_cast
      rfl
    refine subsample_shifted h.1 h.2.1 ?_ ha hb
    rw [← key s hs, ← key t ht]
    exact h.2.2 hs' ht'

/-! ## Scaling -/

/-- `y` is `c` times `x`, pixel by pixel. -/
def ScaledC (c : ℂ) (x y : Img ℂ) : Prop :=
  ∀ i j, i < x.h → j < x.w → y.px i j = c * x.px i j

theorem dft2_scaled {c : ℂ} {x y : Img ℂ} (hh : y.h = x.h) (hw : y.w = x.w) (h : ScaledC c x y) :
    ScaledC c (dft2 x) (dft2 y) := by
  intro k l hk hl
  rw [h_dft2] at hk
  rw [w_dft2] at hl
  unfold dft2
  rw [Img.px_tab (by rw [hh]; exact hk) (by rw [hw]; exact hl), Img.px_tab hk hl, hh, hw,
    Finset.mul_sum]
  refine Finset.sum_congr rfl fun m hm => ?_
  rw [Finset.mul_sum]
  refine Finset.sum_congr rfl fun n hn => ?_
  rw [h m n (mem_range.1 hm) (mem_range.1 hn), mul_assoc]

theorem idft2_scaled {c : ℂ} {x y : Img ℂ} (hh : y.h = x.h) (hw : y.w = x.w) (h : ScaledC c x y) :
    ScaledC c (idft2 x) (idft2 y) := by
  intro k l hk hl
  rw [h_idft2] at hk
  rw [w_idft2] at hl
  unfold idft2
  rw [Img.px_tab (by rw [hh]; exact hk) (by rw [hw]; exact hl), Img.px_tab hk hl, hh, hw,
    mul_div_assoc', Finset.mul_sum]
  congr 1
  refine Finset.sum_congr rfl fun m hm => ?_
  rw [Finset.mul_sum]
  refine Finset.sum_congr rfl fun n hn => ?_
  rw [h m n (mem_range.1 hm) (mem_range.1 hn), mul_assoc]

/-- Multiplication of the image by `a`. -/
noncomputable def scaleRel2 (a : ℝ) : BackendRel np2Backend np2Backend where
  rR i _ x y := Img.h y = Img.h x ∧ Img.w y = Img.w x ∧
    ∀ m n, m < Img.h x → n < Img.w x → Img.px (α := ℝ) y m n = ampl a i * Img.px (α := ℝ) x m n
  rC i _ x y := Img.h y = Img.h x ∧ Img.w y = Img.w x ∧ ScaledC (ampl a i) x y
  rZ i _ x y := Img.h y = Img.h x ∧ Img.w y = Img.w x ∧ ScaledC (ampl a i) x y
  rF _ f g := f = g
  rfft i r x y h := Sim.ok ⟨h.1, h.2.1, by
    refine dft2_scaled (x := Img.map (fun v : ℝ => (v : ℂ)) x)
      (y := Img.map (fun v : ℝ => (v : ℂ)) y) h.1 h.2.1 ?_
    intro m n hm hn
    have hm' : m < Img.h x := hm
    have hn' : n < Img.w x := hn
    rw [Img.px_map _ _ (by rw [h.1]; exact hm) (by rw [h.2.1]; exact hn), Img.px_map _ _ hm' hn',
      h.2.2 m n hm hn]
    push_cast
    rfl⟩
  ifft i r x y h := Sim.ok ⟨h.1, h.2.1, idft2_scaled h.1 h.2.1 h.2.2⟩
  irfft i r x y h := Sim.ok ⟨h.1, h.2.1, fun m n hm hn => by
    have := idft2_scaled h.1 h.2.1 h.2.2 m n hm hn
    have hm' : m < Img.h (idft2 x) := hm
    have hn' : n < Img.w (idft2 x) := hn
    unfold np2Irfft
    rw [Img.px_map _ _ (by rw [h_idft2, h.1]; exact hm) (by rw [w_idft2, h.2.1]; exact hn),
      Img.px_map _ _ hm' hn', this, Complex.re_ofReal_mul]⟩
  modulus i r x y h := Sim.ok ⟨h.1, h.2.1, fun m n hm hn => by
    have hm' : m < Img.h x := hm
    have hn' : n < Img.w x := hn
    unfold np2Modulus
    rw [Img.px_map _ _ (by rw [h.1]; exact hm) (by rw [h.2.1]; exact hn), Img.px_map _ _ hm' hn',
      h.2.2 m n hm hn, norm_mul, Complex.norm_real, Real.norm_eq_abs, abs_ampl]⟩
  cdgmm i r x y f g h hfg := by
    subst hfg
    intro b hb
    obtain ⟨h1, h2, rfl⟩ := (np2Cdgmm_eq _ _ _).1 hb
    refine ⟨_, (np2Cdgmm_eq y f _).2 ⟨by rw [h.1, h1], by rw [h.2.1, h2], rfl⟩, h.1, h.2.1, ?_⟩
    intro k l hk hl
    rw [Img.h_tab] at hk
    rw [Img.w_tab] at hl
    rw [Img.px_tab (by rw [h.1]; exact hk) (by rw [h.2.1]; exact hl), Img.px_tab hk hl,
      h.2.2 k l hk hl, mul_assoc]
  subsample i r x y e h := by
    intro a ha
    have ha : np2Subsample x (2 ^ e) = .ok a := ha
    obtain ⟨hk, d1, d2, rfl⟩ := (np2Subsample_eq _ _ _).1 ha
    refine ⟨_, (np2Subsample_eq y _ _).2 ⟨hk, by rw [h.1]; exact d1, by rw [h.2.1]; exact d2, rfl⟩,
      ?_, ?_, ?_⟩
    · simp [h.1]
    · simp [h.2.1]
    · intro k l hk' hl'
      rw [Img.h_tab] at hk'
      rw [Img.w_tab] at hl'
      rw [Img.px_tab (by rw [h.1]; exact hk') (by rw [h.2.1]; exact hl'), Img.px_tab hk' hl',
        mul_div_assoc', Finset.mul_sum]
      congr 1
      refine Finset.sum_congr rfl fun i hi => ?_
      rw [Finset.mul_sum]
      refine Finset.sum_congr rfl fun j hj => ?_
      have bd : ∀ {i k X : Nat}, i < 2 ^ e → 2 ^ e ∣ X → k < X / 2 ^ e → i * (X / 2 ^ e) + k < X := by
        intro i k X hi hX hk
        obtain ⟨c, rfl⟩ := hX
        rw [Nat.mul_div_cancel_left _ (by positivity)] at hk ⊢
        calc i * c + k < i * c + c := by omega
          _ = (i + 1) * c := by ring
          _ ≤ 2 ^ e * c := Nat.mul_le_mul_right _ hi
      rw [h.1, h.2.1]
      exact h.2.2 _ _ (bd (mem_range.1 hi) d1 hk') (bd (mem_range.1 hj) d2 hl')

namespace Core2D

theorem filt2_refl {A : Backend1D} (S : BackendRel A A) (hS : ∀ r f, S.rF r f f) (f : Filt2 A.F) :
    filt2 S f f :=
  ⟨rfl, rfl, rfl, fun k a b ha hb => by rw [ha] at hb; cases hb; exact hS k a⟩

theorem filts2_refl {A : Backend1D} (S : BackendRel A A) (hS : ∀ r f, S.rF r f f)
    (l : List (Filt2 A.F)) : List.Forall₂ (filt2 S) l l := by
  induction l with
  | nil => exact List.Forall₂.nil
  | cons a l ih => exact List.Forall₂.cons (filt2_refl S hS a) ih

theorem phi2_refl {A : Backend1D} (S : BackendRel A A) (hS : ∀ r f, S.rF r f f)
    (l : List A.F) : phi2 S l l :=
  ⟨rfl, fun k a b ha hb => by rw [ha] at hb; cases hb; exact hS k a⟩

end Core2D

end Verif
