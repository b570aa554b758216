import Verif.Model.Backend2D
import Verif.Lemmas.Backend1D

/-!
# Two-dimensional discrete Fourier identities
-/

namespace Verif

open Finset

theorem Img.ext' {α : Type} {x y : Img α} (hh : x.h = y.h) (hw : x.w = y.w)
    (hp : ∀ i j, x.px i j = y.px i j) : x = y := by
  cases x; cases y
  simp only at hh hw hp
  subst hh; subst hw
  congr
  funext i j
  exact hp i j

theorem Img.tab_congr {α : Type} [Zero α] {h w : Nat} {f g : Nat → Nat → α}
    (hfg : ∀ i j, i < h → j < w → f i j = g i j) : Img.tab h w f = Img.tab h w g := by
  unfold Img.tab
  congr
  funext i j
  by_cases hc : i < h ∧ j < w
  · rw [if_pos hc, if_pos hc, hfg i j hc.1 hc.2]
  · rw [if_neg hc, if_neg hc]

theorem Img.px_tab {α : Type} [Zero α] {h w : Nat} {f : Nat → Nat → α} {i j : Nat}
    (hi : i < h) (hj : j < w) : (Img.tab h w f).px i j = f i j := by
  unfold Img.tab
  simp [hi, hj]

@[simp] theorem Img.h_tab {α : Type} [Zero α] (h w : Nat) (f : Nat → Nat → α) :
    (Img.tab h w f).h = h := rfl
@[simp] theorem Img.w_tab {α : Type} [Zero α] (h w : Nat) (f : Nat → Nat → α) :
    (Img.tab h w f).w = w := rfl
@[simp] theorem Img.h_map {α β : Type} [Zero β] (g : α → β) (x : Img α) : (x.map g).h = x.h := rfl
@[simp] theorem Img.w_map {α β : Type} [Zero β] (g : α → β) (x : Img α) : (x.map g).w = x.w := rfl

theorem Img.px_map {α β : Type} [Zero β] (g : α → β) (x : Img α) {i j : Nat} (hi : i < x.h)
    (hj : j < x.w) : (x.map g).px i j = g (x.px i j) := Img.px_tab hi hj

@[simp] theorem h_dft2 (x : Img ℂ) : (dft2 x).h = x.h := rfl
@[simp] theorem w_dft2 (x : Img ℂ) : (dft2 x).w = x.w := rfl
@[simp] theorem h_idft2 (x : Img ℂ) : (idft2 x).h = x.h := rfl
@[simp] theorem w_idft2 (x : Img ℂ) : (idft2 x).w = x.w := rfl
@[simp] theorem h_np2Rfft (x : Img ℝ) : (np2Rfft x).h = x.h := rfl
@[simp] theorem w_np2Rfft (x : Img ℝ) : (np2Rfft x).w = x.w := rfl
@[simp] theorem h_np2Irfft (x : Img ℂ) : (np2Irfft x).h = x.h := rfl
@[simp] theorem w_np2Irfft (x : Img ℂ) : (np2Irfft x).w = x.w := rfl
@[simp] theorem h_np2Modulus (x : Img ℂ) : (np2Modulus x).h = x.h := rfl
@[simp] theorem w_np2Modulus (x : Img ℂ) : (np2Modulus x).w = x.w := rfl

/-- The inverse DFT as a function on all pairs of integers (doubly periodic). -/
noncomputable def imp2 (x : Img ℂ) (m n : ℤ) : ℂ :=
  (∑ k ∈ range x.h, ∑ l ∈ range x.w, x.px k l * (tw x.h ((k : ℤ) * m) * tw x.w ((l : ℤ) * n))) /
    (x.h * x.w)

theorem px_idft2 (x : Img ℂ) {m n : Nat} (hm : m < x.h) (hn : n < x.w) :
    (idft2 x).px m n = imp2 x m n := Img.px_tab hm hn

theorem imp2_congr (x : Img ℂ) {a b c d : ℤ} (hab : a % x.h = b % x.h) (hcd : c % x.w = d % x.w) :
    imp2 x a c = imp2 x b d := by
  unfold imp2
  congr 1
  refine Finset.sum_congr rfl fun k _ => Finset.sum_congr rfl fun l _ => ?_
  congr 2
  · apply tw_congr
    rw [Int.mul_emod, hab, ← Int.mul_emod]
  · apply tw_congr
    rw [Int.mul_emod, hcd, ← Int.mul_emod]

/-- 1-D inversion on functions. -/
theorem inv1 (N : Nat) (f : Nat → ℂ) {n : Nat} (hn : n < N) :
    ∑ k ∈ range N, (∑ m ∈ range N, f m * tw N (-((k : ℤ) * m))) * tw N ((k : ℤ) * n) = N * f n := by
  have h := congrArg (fun l => l.getD n 0) (idft_dft (tab N f))
  rw [getD_idft _ (by simpa using hn), getD_tab_lt hn, length_dft, length_tab] at h
  have hN : (N : ℂ) ≠ 0 := by
    have : N ≠ 0 := by omega
    exact_mod_cast this
  rw [div_eq_iff hN] at h
  rw [mul_comm (N : ℂ), ← h]
  refine Finset.sum_congr rfl fun k hk => ?_
  rw [getD_dft _ (by simpa using Finset.mem_range.1 hk), length_tab]
  congr 1
  refine Finset.sum_congr rfl fun m hm => ?_
  rw [getD_tab_lt (Finset.mem_range.1 hm)]

theorem idft2_dft2 (x : Img ℂ) {m n : Nat} (hm : m < x.h) (hn : n < x.w) :
    (idft2 (dft2 x)).px m n = x.px m n := by
  rw [px_idft2 _ (by simpa using hm) (by simpa using hn)]
  unfold imp2
  have hH : (x.h : ℂ) ≠ 0 := by
    have : x.h ≠ 0 := by omega
    exact_mod_cast this
  have hW : (x.w : ℂ) ≠ 0 := by
    have : x.w ≠ 0 := by omega
    exact_mod_cast this
  rw [h_dft2, w_dft2, div_eq_iff (mul_ne_zero hH hW)]
  have e : ∀ k ∈ range x.h, ∑ l ∈ range x.w, (dft2 x).px k l *
      (tw x.h ((k : ℤ) * m) * tw x.w ((l : ℤ) * n)) =
      (∑ a ∈ range x.h, (x.w * x.px a n) * tw x.h (-((k : ℤ) * a))) * tw x.h ((k : ℤ) * m) := by
    intro k hk
    have e1 : ∀ a ∈ range x.h, (x.w * x.px a n) * tw x.h (-((k : ℤ) * a)) =
        ∑ l ∈ range x.w, (∑ b ∈ range x.w, x.px a b * tw x.w (-((l : ℤ) * b))) *
          tw x.w ((l : ℤ) * n) * tw x.h (-((k : ℤ) * a)) := by
      intro a _
      rw [← inv1 x.w (fun b => x.px a b) hn, Finset.sum_mul]
    rw [Finset.sum_congr rfl e1, Finset.sum_comm, Finset.sum_mul]
    refine Finset.sum_congr rfl fun l hl => ?_
    unfold dft2
    rw [Img.px_tab (Finset.mem_range.1 hk) (Finset.mem_range.1 hl), Finset.sum_mul, Finset.sum_mul]
    refine Finset.sum_congr rfl fun a _ => ?_
    rw [Finset.sum_mul, Finset.sum_mul, Finset.sum_mul, Finset.sum_mul]
    refine Finset.sum_congr rfl fun b _ => ?_
    ring
  rw [Finset.sum_congr rfl e, inv1 x.h (fun a => x.w * x.px a n) hm]
  ring

/-- Convolution theorem. -/
theorem imp2_mul_dft2 (x f : Img ℂ) (hh : x.h = f.h) (hw : x.w = f.w) (m n : ℤ) :
    imp2 (Img.tab x.h x.w fun k l => (dft2 x).px k l * f.px k l) m n =
      ∑ u ∈ range x.h, ∑ v ∈ range x.w, x.px u v * imp2 f (m - u) (n - v) := by
  unfold imp2
  simp only [Img.h_tab, Img.w_tab, ← hh, ← hw]
  simp_rw [mul_div_assoc', Finset.mul_sum, ← Finset.sum_div]
  congr 1
  have e1 : ∀ k ∈ range x.h, ∀ l ∈ range x.w,
      (Img.tab x.h x.w fun k l => (dft2 x).px k l * f.px k l).px k l *
        (tw x.h ((k : ℤ) * m) * tw x.w ((l : ℤ) * n)) =
      ∑ u ∈ range x.h, ∑ v ∈ range x.w, x.px u v *
        (f.px k l * (tw x.h ((k : ℤ) * (m - u)) * tw x.w ((l : ℤ) * (n - v)))) := by
    intro k hk l hl
    have hk' := Finset.mem_range.1 hk
    have hl' := Finset.mem_range.1 hl
    rw [Img.px_tab hk' hl']
    unfold dft2
    rw [Img.px_tab hk' hl', Finset.sum_mul, Finset.sum_mul]
    refine Finset.sum_congr rfl fun u _ => ?_
    rw [Finset.sum_mul, Finset.sum_mul]
    refine Finset.sum_congr rfl fun v _ => ?_
    have a1 : tw x.h ((k : ℤ) * (m - u)) = tw x.h (-((k : ℤ) * u)) * tw x.h ((k : ℤ) * m) := by
      rw [← tw_add]; congr 1; ring
    have a2 : tw x.w ((l : ℤ) * (n - v)) = tw x.w (-((l : ℤ) * v)) * tw x.w ((l : ℤ) * n) := by
      rw [← tw_add]; congr 1; ring
    rw [a1, a2]; ring
  rw [Finset.sum_congr rfl fun k hk => Finset.sum_congr rfl fun l hl => e1 k hk l hl]
  calc ∑ k ∈ range x.h, ∑ l ∈ range x.w, ∑ u ∈ range x.h, ∑ v ∈ range x.w, x.px u v *
        (f.px k l * (tw x.h ((k : ℤ) * (m - u)) * tw x.w ((l : ℤ) * (n - v))))
      = ∑ k ∈ range x.h, ∑ u ∈ range x.h, ∑ v ∈ range x.w, ∑ l ∈ range x.w, x.px u v *
        (f.px k l * (tw x.h ((k : ℤ) * (m - u)) * tw x.w ((l : ℤ) * (n - v)))) := by
        refine Finset.sum_congr rfl fun k _ => ?_
        rw [Finset.sum_comm]
        refine Finset.sum_congr rfl fun u _ => ?_
        rw [Finset.sum_comm]
    _ = _ := by
        rw [Finset.sum_comm]
        refine Finset.sum_congr rfl fun u _ => ?_
        rw [Finset.sum_comm]

theorem np2Subsample_eq (x : Img ℂ) (k : Nat) (y : Img ℂ) :
    np2Subsample x k = .ok y ↔ k ≠ 0 ∧ k ∣ x.h ∧ k ∣ x.w ∧
      y = Img.tab (x.h / k) (x.w / k) fun r c =>
        (∑ i ∈ range k, ∑ j ∈ range k, x.px (i * (x.h / k) + r) (j * (x.w / k) + c)) / (k * k) := by
  unfold np2Subsample
  by_cases hk : k = 0
  · simp [hk]
  · by_cases hd : k * (x.h / k) = x.h
    · have h1 : k ∣ x.h := ⟨_, hd.symm⟩
      by_cases hd2 : k * (x.w / k) = x.w
      · have h2 : k ∣ x.w := ⟨_, hd2.symm⟩
        simp only [hk, hd, hd2, if_false, ne_eq, not_true_eq_false, or_self, not_false_eq_true, h1,
          h2, true_and]
        constructor
        · intro h; injection h with h; exact h.symm
        · intro h; rw [h]
      · have h2 : ¬ k ∣ x.w := fun h => hd2 (Nat.mul_div_cancel' h)
        simp [hk, hd2, h2]
    · have h1 : ¬ k ∣ x.h := fun h => hd (Nat.mul_div_cancel' h)
      simp [hk, hd, h1]

theorem size_subsample2 {x y : Img ℂ} {k : Nat} (h : np2Subsample x k = .ok y) :
    y.h * k = x.h ∧ y.w * k = x.w := by
  obtain ⟨-, h1, h2, rfl⟩ := (np2Subsample_eq x k y).1 h
  exact ⟨Nat.div_mul_cancel h1, Nat.div_mul_cancel h2⟩

/-- Inverse DFT of the subsampled spectrum: decimation in both directions. -/
theorem imp2_subsample {x y : Img ℂ} {k : Nat} (h : np2Subsample x k = .ok y) (m n : ℤ) :
    imp2 y m n = imp2 x (m * k) (n * k) := by
  obtain ⟨hk, ⟨H, hH⟩, ⟨W, hW⟩, rfl⟩ := (np2Subsample_eq x k y).1 h
  have hk' : (k : ℂ) ≠ 0 := by exact_mod_cast hk
  have dH : x.h / k = H := by rw [hH, Nat.mul_div_cancel_left _ (Nat.pos_of_ne_zero hk)]
  have dW : x.w / k = W := by rw [hW, Nat.mul_div_cancel_left _ (Nat.pos_of_ne_zero hk)]
  unfold imp2
  simp only [Img.h_tab, Img.w_tab, dH, dW]
  have e : ∀ r ∈ range H, ∀ c ∈ range W,
      (Img.tab H W fun r c => (∑ i ∈ range k, ∑ j ∈ range k, x.px (i * H + r) (j * W + c)) /
        ((k : ℂ) * k)).px r c * (tw H ((r : ℤ) * m) * tw W ((c : ℤ) * n)) =
      (∑ i ∈ range k, ∑ j ∈ range k, x.px (i * H + r) (j * W + c) *
        (tw x.h (((i * H + r : ℕ) : ℤ) * (m * k)) * tw x.w (((j * W + c : ℕ) : ℤ) * (n * k)))) /
        ((k : ℂ) * k) := by
    intro r hr c hc
    rw [Img.px_tab (Finset.mem_range.1 hr) (Finset.mem_range.1 hc), div_mul_eq_mul_div,
      Finset.sum_mul]
    congr 1
    refine Finset.sum_congr rfl fun i _ => ?_
    rw [Finset.sum_mul]
    refine Finset.sum_congr rfl fun j _ => ?_
    congr 2
    · rw [hH, show (((i * H + r : ℕ) : ℤ) * (m * k)) = (k : ℤ) * ((i * H + r) * m) by push_cast; ring,
        tw_scale k H hk]
      apply tw_congr
      rw [show ((i : ℤ) * H + r) * m = r * m + H * (i * m) by ring, Int.add_mul_emod_self_left]
    · rw [hW, show (((j * W + c : ℕ) : ℤ) * (n * k)) = (k : ℤ) * ((j * W + c) * n) by push_cast; ring,
        tw_scale k W hk]
      apply tw_congr
      rw [show ((j : ℤ) * W + c) * n = c * n + W * (j * n) by ring, Int.add_mul_emod_self_left]
  rw [Finset.sum_congr rfl fun r hr => Finset.sum_congr rfl fun c hc => e r hr c hc]
  simp_rw [← Finset.sum_div]
  rw [div_div]
  have e2 : (∑ r ∈ range H, ∑ c ∈ range W, ∑ i ∈ range k, ∑ j ∈ range k,
      x.px (i * H + r) (j * W + c) * (tw x.h (((i * H + r : ℕ) : ℤ) * (m * k)) *
        tw x.w (((j * W + c : ℕ) : ℤ) * (n * k)))) =
      ∑ a ∈ range x.h, ∑ b ∈ range x.w, x.px a b * (tw x.h ((a : ℤ) * (m * k)) *
        tw x.w ((b : ℤ) * (n * k))) := by
    set g : Nat → Nat → ℂ := fun a b => x.px a b * (tw x.h ((a : ℤ) * (m * k)) *
        tw x.w ((b : ℤ) * (n * k))) with hg
    rw [show (∑ a ∈ range x.h, ∑ b ∈ range x.w, x.px a b * (tw x.h ((a : ℤ) * (m * k)) *
        tw x.w ((b : ℤ) * (n * k)))) = ∑ a ∈ range (k * H), ∑ b ∈ range (k * W), g a b by
      rw [← hH, ← hW]]
    rw [sum_range_mul_block k H (fun a => ∑ b ∈ range (k * W), g a b)]
    rw [Finset.sum_comm (s := range k)]
    refine Finset.sum_congr rfl fun r _ => ?_
    have e3 : ∀ i ∈ range k, (∑ b ∈ range (k * W), g (i * H + r) b) =
        ∑ c ∈ range W, ∑ j ∈ range k, g (i * H + r) (j * W + c) := by
      intro i _
      rw [sum_range_mul_block, Finset.sum_comm]
    rw [Finset.sum_congr rfl e3, Finset.sum_comm]
  rw [e2, hH, hW]
  congr 1
  push_cast
  ring

theorem np2Cdgmm_eq (A : Img ℂ) (f : Img ℝ) (y : Img ℂ) :
    np2Cdgmm A f = .ok y ↔ A.h = f.h ∧ A.w = f.w ∧
      y = Img.tab A.h A.w fun i j => A.px i j * (f.px i j : ℂ) := by
  unfold np2Cdgmm
  by_cases h1 : A.h = f.h
  · by_cases h2 : A.w = f.w
    · simp only [ne_eq, h1, h2, not_true_eq_false, or_self, if_false, true_and]
      constructor
      · intro h; injection h with h; exact h.symm
      · intro h; rw [h]
    · simp [h2]
  · simp [h1]

end Verif
