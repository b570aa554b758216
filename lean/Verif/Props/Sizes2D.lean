import Verif.Model.Object2D
import Verif.Props.Fourier1D
import Verif.Lemmas.DFT2

/-!
# C38 (sizes), C41, C42, C43: padding, filter periodisation, Fourier subsampling in 2-D
-/

namespace Verif

open Finset

/-! ## C38: sizes of the padded image -/

theorem padded2_eq (M J : Nat) : padded2 M J = (M / 2 ^ J + 2) * 2 ^ J := by
  unfold padded2
  have hP : 0 < 2 ^ J := by positivity
  rw [Nat.add_div_right _ hP]

/-- The padded side is a multiple of `2^J`; when `2^J ≤ M`, it is larger than `M`, both pads are at
most `2^J` and at most `M`, the bottom pad is the top pad or one more, and they fill the
difference. -/
theorem C38_padding (M J : Nat) (h : 2 ^ J ≤ M) :
    2 ^ J ∣ padded2 M J ∧ M < padded2 M J ∧
      (padded2 M J - M) / 2 + M + (padded2 M J - M + 1) / 2 = padded2 M J ∧
      (padded2 M J - M) / 2 ≤ 2 ^ J ∧ (padded2 M J - M + 1) / 2 ≤ 2 ^ J ∧
      (padded2 M J - M) / 2 ≤ M ∧ (padded2 M J - M + 1) / 2 ≤ M := by
  have hP : 0 < 2 ^ J := by positivity
  have e := Nat.div_add_mod M (2 ^ J)
  have hm := Nat.mod_lt M hP
  have hp : padded2 M J = 2 ^ J * (M / 2 ^ J) + 2 * 2 ^ J := by rw [padded2_eq]; ring
  refine ⟨?_, ?_, ?_, ?_, ?_, ?_, ?_⟩
  · rw [padded2_eq]; exact Dvd.intro_left _ rfl
  all_goals omega

/-- The number of output samples along one side: after subsampling the padded side by `2^J` and
removing one sample at each end there are `⌊M / 2^J⌋`, and sample `i` of them sits at padded
position `(i + 1) 2^J`, which is inside the image: it is the left pad plus an original index. -/
theorem C38_centres (M J : Nat) (h : 2 ^ J ≤ M) :
    padded2 M J / 2 ^ J - 2 = M / 2 ^ J ∧
      ∀ i, i < M / 2 ^ J → ∃ u, u < M ∧ (i + 1) * 2 ^ J = (padded2 M J - M) / 2 + u := by
  have hP : 0 < 2 ^ J := by positivity
  have e := Nat.div_add_mod M (2 ^ J)
  have hm := Nat.mod_lt M hP
  have hp : padded2 M J = 2 ^ J * (M / 2 ^ J) + 2 * 2 ^ J := by rw [padded2_eq]; ring
  constructor
  · rw [padded2_eq, Nat.mul_div_cancel _ hP, Nat.add_sub_cancel]
  · intro i hi
    have h1 : (i + 1) * 2 ^ J ≤ 2 ^ J * (M / 2 ^ J) := by
      rw [mul_comm]; exact Nat.mul_le_mul_left _ hi
    have h2 : 2 ^ J ≤ (i + 1) * 2 ^ J := Nat.le_mul_of_pos_left _ (by omega)
    refine ⟨(i + 1) * 2 ^ J - (padded2 M J - M) / 2, ?_, ?_⟩ <;> omega

/-- Images with a side smaller than `2^J` are rejected at construction, and no others. -/
theorem C38_rejects (a : Args2D) :
    (a.make = .error .runtime ↔ a.M < 2 ^ a.J ∨ a.N < 2 ^ a.J) ∧
      ((∃ s, a.make = .ok s) ↔ 2 ^ a.J ≤ a.M ∧ 2 ^ a.J ≤ a.N) := by
  unfold Args2D.make
  by_cases h : 2 ^ a.J > a.M ∨ 2 ^ a.J > a.N
  · rw [if_pos h]
    refine ⟨⟨fun _ => by omega, fun _ => rfl⟩, ⟨?_, fun hc => absurd h (by omega)⟩⟩
    rintro ⟨s, hs⟩
    cases hs
  · rw [if_neg h]
    refine ⟨⟨fun hc => (by cases hc), fun hc => absurd hc (by omega)⟩,
      ⟨fun _ => by omega, fun _ => ⟨_, rfl⟩⟩⟩

example : (2 : Nat) ^ 3 ≤ 35 ∧ padded2 35 3 = 48 ∧ padded2 35 3 / 2 ^ 3 - 2 = 4 := by decide
-- the extreme case: both pads equal to the side
example : (2 : Nat) ^ 3 ≤ 8 ∧ (padded2 8 3 - 8) / 2 = 8 := by decide

/-! ## C42: Fourier subsampling -/

/-- Subsampling by `k` succeeds exactly when `k ≠ 0` divides both sides. -/
theorem C42_ok_iff (x : Img ℂ) (k : Nat) :
    (∃ y, np2Subsample x k = .ok y) ↔ k ≠ 0 ∧ k ∣ x.h ∧ k ∣ x.w := by
  constructor
  · rintro ⟨y, hy⟩
    obtain ⟨h1, h2, h3, -⟩ := (np2Subsample_eq x k y).1 hy
    exact ⟨h1, h2, h3⟩
  · rintro ⟨h1, h2, h3⟩
    exact ⟨_, (np2Subsample_eq x k _).2 ⟨h1, h2, h3, rfl⟩⟩

/-- The inverse transform of the subsampled spectrum is the image at every `k`-th row and column. -/
theorem C42_decimates (x y : Img ℂ) (k : Nat) (h : np2Subsample x k = .ok y) :
    y.h * k = x.h ∧ y.w * k = x.w ∧
      ∀ m n, m < y.h → n < y.w → (idft2 y).px m n = (idft2 x).px (m * k) (n * k) := by
  obtain ⟨hh, hw⟩ := size_subsample2 h
  have hk : 0 < k := Nat.pos_of_ne_zero ((np2Subsample_eq x k y).1 h).1
  refine ⟨hh, hw, fun m n hm hn => ?_⟩
  have h1 : m * k < x.h := by rw [← hh]; exact Nat.mul_lt_mul_of_pos_right hm hk
  have h2 : n * k < x.w := by rw [← hw]; exact Nat.mul_lt_mul_of_pos_right hn hk
  rw [px_idft2 y hm hn, px_idft2 x h1 h2, imp2_subsample h]
  push_cast
  rfl

/-- In particular, subsampling the spectrum of an image gives the spectrum of the decimated image. -/
theorem C42_image (x : Img ℂ) (y : Img ℂ) (k : Nat) (h : np2Subsample (dft2 x) k = .ok y) :
    ∀ m n, m < y.h → n < y.w → (idft2 y).px m n = x.px (m * k) (n * k) := by
  obtain ⟨hh, hw, hd⟩ := C42_decimates _ _ _ h
  have hk : 0 < k := Nat.pos_of_ne_zero ((np2Subsample_eq _ k y).1 h).1
  intro m n hm hn
  rw [hd m n hm hn]
  apply idft2_dft2
  · rw [h_dft2] at hh; rw [← hh]; exact Nat.mul_lt_mul_of_pos_right hm hk
  · rw [w_dft2] at hw; rw [← hw]; exact Nat.mul_lt_mul_of_pos_right hn hk

example : ∃ y, np2Subsample (Img.tab 4 6 fun i j => (i + j : ℂ)) 2 = .ok y :=
  (C42_ok_iff _ _).2 ⟨by decide, by decide, by decide⟩

/-! ## C41: periodisation of the filters -/

/-- The frequency, in `[-M/2, M/2)`, of index `i` of an axis of length `M`. -/
def signedFreq (M i : Nat) : ℤ := if 2 * i < M then i else (i : ℤ) - M

/-- Index `i` of an axis of length `M` is, among the indices congruent to `k` modulo `m`, the one of
frequency closest to zero (the negative one in case of a tie). -/
def IsClosest (M m k i : Nat) : Prop :=
  i < M ∧ i % m = k % m ∧ ∀ i', i' < M → i' % m = k % m → i' ≠ i →
    |signedFreq M i| < |signedFreq M i'| ∨
      (|signedFreq M i| = |signedFreq M i'| ∧ signedFreq M i < 0 ∧ 0 < signedFreq M i')

/-- The index kept for output index `k`: `k` below `m / 2`, its last alias from there on. -/
def keptIndex (M m k : Nat) : Nat := if 2 * k < m then k else M - m + k

theorem masked_iff {c res i : Nat} :
    masked (2 ^ (res + 1) * c) res i = true ↔ c ≤ i ∧ i < 2 ^ (res + 1) * c - c := by
  unfold masked
  have h1 : 2 ^ (res + 1) * c / 2 ^ (res + 1) = c := Nat.mul_div_cancel_left _ (by positivity)
  have h2 : 2 ^ (res + 1) * c * (2 ^ res - 1) / 2 ^ res = 2 * c * (2 ^ res - 1) := by
    rw [pow_succ, show 2 ^ res * 2 * c * (2 ^ res - 1) = 2 ^ res * (2 * c * (2 ^ res - 1)) by ring,
      Nat.mul_div_cancel_left _ (by positivity)]
  have h3 : 2 * c * (2 ^ res - 1) = 2 ^ (res + 1) * c - 2 * c := by
    rw [Nat.mul_sub, pow_succ]; congr 1 <;> ring
  have h4 : 2 * c ≤ 2 ^ (res + 1) * c := by
    apply Nat.mul_le_mul_right
    calc 2 = 2 ^ 1 := rfl
      _ ≤ 2 ^ (res + 1) := Nat.pow_le_pow_right (by decide) (by omega)
  simp only [h1, h2, h3, Bool.and_eq_true, decide_eq_true_eq]
  omega

/-- Along one axis of length `M = 2^(res+1) c`: the only alias of `k` that survives the mask. -/
theorem masked_alias {c res k i : Nat} (hk : k < 2 * c) (hi : i < 2 ^ res) :
    masked (2 ^ (res + 1) * c) res (k + i * (2 * c)) = false ↔
      k + i * (2 * c) = keptIndex (2 ^ (res + 1) * c) (2 * c) k := by
  rw [← Bool.not_eq_true, masked_iff]
  unfold keptIndex
  obtain ⟨q, hq⟩ : ∃ q, 2 ^ res = q + 1 := ⟨2 ^ res - 1, by
    have : 0 < 2 ^ res := by positivity
    omega⟩
  have hM : 2 ^ (res + 1) * c = 2 * c * q + 2 * c := by rw [pow_succ, hq]; ring
  rw [hM]
  have hiq : i * (2 * c) ≤ 2 * c * q := by
    rw [mul_comm]; exact Nat.mul_le_mul_left _ (by omega)
  rcases Nat.eq_zero_or_pos i with rfl | hi0
  · by_cases h2 : 2 * k < 2 * c
    · rw [if_pos h2]; omega
    · rw [if_neg h2]
      have : q = 0 ∨ 2 * c ≤ 2 * c * q := by
        rcases Nat.eq_zero_or_pos q with h | h
        · exact .inl h
        · exact .inr (Nat.le_mul_of_pos_right _ h)
      rcases this with rfl | h
      · simp; omega
      · omega
  · have h3 : 2 * c ≤ i * (2 * c) := Nat.le_mul_of_pos_left _ hi0
    by_cases h2 : 2 * k < 2 * c
    · rw [if_pos h2]; omega
    · rw [if_neg h2]
      rcases Nat.lt_or_ge i q with h | h
      · have : i * (2 * c) + 2 * c ≤ 2 * c * q := by
          calc i * (2 * c) + 2 * c = 2 * c * (i + 1) := by ring
            _ ≤ _ := Nat.mul_le_mul_left _ h
        omega
      · have : i = q := by omega
        subst this
        have : i * (2 * c) = 2 * c * i := by ring
        omega

theorem keptIndex_alias {c res k : Nat} :
    ∃ i, i < 2 ^ res ∧ keptIndex (2 ^ (res + 1) * c) (2 * c) k = k + i * (2 * c) := by
  unfold keptIndex
  have hP : 0 < 2 ^ res := by positivity
  by_cases h : 2 * k < 2 * c
  · exact ⟨0, hP, by rw [if_pos h]; omega⟩
  · refine ⟨2 ^ res - 1, by omega, ?_⟩
    rw [if_neg h, Nat.sub_mul, pow_succ]
    have e : 2 ^ res * 2 * c = 2 ^ res * (2 * c) := by ring
    rw [e]
    have : 2 * c ≤ 2 ^ res * (2 * c) := Nat.le_mul_of_pos_left _ hP
    omega

theorem keptIndex_closest {c res k : Nat} (hk : k < 2 * c) :
    IsClosest (2 ^ (res + 1) * c) (2 * c) k (keptIndex (2 ^ (res + 1) * c) (2 * c) k) := by
  obtain ⟨i, hi, he⟩ := keptIndex_alias (res := res) (c := c) (k := k)
  have hP : 0 < 2 ^ res := by positivity
  have hM : 2 ^ (res + 1) * c = 2 * c * 2 ^ res := by rw [pow_succ]; ring
  have h1 : 2 * c ≤ 2 * c * 2 ^ res := Nat.le_mul_of_pos_right _ hP
  refine ⟨?_, ?_, ?_⟩
  · unfold keptIndex; split <;> omega
  · rw [he, Nat.add_mul_mod_self_right]
  · intro i' hi' hmod hne
    rw [Nat.mod_eq_of_lt hk] at hmod
    have e' := Nat.div_add_mod i' (2 * c)
    rw [hmod] at e'
    generalize hq : i' / (2 * c) = q at e'
    have hq' : q < 2 ^ res := by
      rw [← hq]
      apply Nat.div_lt_of_lt_mul
      omega
    rw [hM] at hi' hne ⊢
    unfold signedFreq
    unfold keptIndex at hne ⊢
    -- three regimes for the multiples of `2c`
    rcases Nat.eq_zero_or_pos q with h0 | h0
    · subst h0
      rw [Nat.mul_zero, Nat.zero_add] at e'
      subst e'
      by_cases h2 : 2 * k < 2 * c
      · rw [if_pos h2] at hne; exact absurd rfl hne
      · rw [if_neg h2] at hne ⊢
        have h3 : 2 * c * 2 ^ res - 2 * c + k ≠ k := fun h => hne h.symm
        have h4 : 2 ≤ 2 ^ res := by
          by_contra hc
          have : 2 ^ res = 1 := by omega
          rw [this] at h3; omega
        have h5 : 2 * c * 2 ≤ 2 * c * 2 ^ res := Nat.mul_le_mul_left _ h4
        rw [if_neg (by omega), if_pos (by omega)]
        rw [abs_of_neg (by omega), abs_of_nonneg (by omega)]
        omega
    · have h6 : 2 * c ≤ 2 * c * q := Nat.le_mul_of_pos_right _ h0
      have h7 : 2 * c * q + 2 * c ≤ 2 * c * 2 ^ res := by
        calc 2 * c * q + 2 * c = 2 * c * (q + 1) := by ring
          _ ≤ _ := Nat.mul_le_mul_left _ hq'
      by_cases h2 : 2 * k < 2 * c
      · rw [if_pos h2] at hne ⊢
        rw [if_pos (by omega), abs_of_nonneg (by omega)]
        split
        · rw [abs_of_nonneg (by omega)]; omega
        · rw [abs_of_nonpos (by omega)]; omega
      · rw [if_neg h2] at hne ⊢
        rw [if_neg (by omega), abs_of_neg (by omega)]
        have h8 : 2 * c * q + 2 * c ≠ 2 * c * 2 ^ res := by omega
        have h9 : 2 * c * q + 2 * (2 * c) ≤ 2 * c * 2 ^ res := by
          have : q + 1 ≠ 2 ^ res := by
            rintro h; apply h8; rw [← h]; ring
          calc 2 * c * q + 2 * (2 * c) = 2 * c * (q + 2) := by ring
            _ ≤ _ := Nat.mul_le_mul_left _ (by omega)
        split
        · rw [abs_of_nonneg (by omega)]; omega
        · rw [abs_of_nonpos (by omega)]; omega

/-- **Periodisation keeps one low-frequency copy**, provided both sides are divisible by
`2^(res+1)`: output frequency `(k, l)` is the input at the unique alias closest to frequency zero
in each direction; everything else is dropped. -/
theorem C41_periodize_partial (x : Img ℝ) (res : Nat) (hh : 2 ^ (res + 1) ∣ x.h)
    (hw : 2 ^ (res + 1) ∣ x.w) :
    (periodizeFilter x res).h = x.h / 2 ^ res ∧ (periodizeFilter x res).w = x.w / 2 ^ res ∧
      ∀ k l, k < x.h / 2 ^ res → l < x.w / 2 ^ res → ∃ i j,
        IsClosest x.h (x.h / 2 ^ res) k i ∧ IsClosest x.w (x.w / 2 ^ res) l j ∧
        (periodizeFilter x res).px k l = x.px i j := by
  obtain ⟨c, hc⟩ := hh
  obtain ⟨d, hd⟩ := hw
  have e1 : x.h / 2 ^ res = 2 * c := by
    rw [hc, pow_succ, mul_assoc, Nat.mul_div_cancel_left _ (by positivity)]
  have e2 : x.w / 2 ^ res = 2 * d := by
    rw [hd, pow_succ, mul_assoc, Nat.mul_div_cancel_left _ (by positivity)]
  refine ⟨rfl, rfl, fun k l hk hl => ?_⟩
  have hpx : (periodizeFilter x res).px k l =
      ∑ i ∈ range (2 ^ res), ∑ j ∈ range (2 ^ res),
        if masked x.h res (k + i * (x.h / 2 ^ res)) || masked x.w res (l + j * (x.w / 2 ^ res))
        then 0 else x.px (k + i * (x.h / 2 ^ res)) (l + j * (x.w / 2 ^ res)) :=
    Img.px_tab hk hl
  rw [e1] at hk
  rw [e2] at hl
  obtain ⟨i0, hi0, hei⟩ := keptIndex_alias (res := res) (c := c) (k := k)
  obtain ⟨j0, hj0, hej⟩ := keptIndex_alias (res := res) (c := d) (k := l)
  refine ⟨k + i0 * (2 * c), l + j0 * (2 * d), ?_, ?_, ?_⟩
  · rw [e1, hc, ← hei]; exact keptIndex_closest hk
  · rw [e2, hd, ← hej]; exact keptIndex_closest hl
  · rw [hpx, e1, e2, hc, hd]
    have hc0 : 0 < 2 * c := by omega
    have hd0 : 0 < 2 * d := by omega
    rw [Finset.sum_eq_single i0, Finset.sum_eq_single j0]
    · have a1 := (masked_alias (res := res) hk hi0).2 hei.symm
      have a2 := (masked_alias (res := res) hl hj0).2 hej.symm
      rw [a1, a2]
      simp
    · intro j hj hne
      have : masked (2 ^ (res + 1) * d) res (l + j * (2 * d)) = true := by
        rw [← Bool.not_eq_false]
        intro hf
        have := (masked_alias hl (Finset.mem_range.1 hj)).1 hf
        rw [hej] at this
        exact hne (Nat.eq_of_mul_eq_mul_right hd0 (by omega))
      rw [this]; simp
    · intro h; exact absurd (Finset.mem_range.2 hj0) h
    · intro i hi hne
      have : masked (2 ^ (res + 1) * c) res (k + i * (2 * c)) = true := by
        rw [← Bool.not_eq_false]
        intro hf
        have := (masked_alias hk (Finset.mem_range.1 hi)).1 hf
        rw [hei] at this
        exact hne (Nat.eq_of_mul_eq_mul_right hc0 (by omega))
      rw [this]; simp
    · intro h; exact absurd (Finset.mem_range.2 hi0) h

/-- Resolution zero is the filter itself. -/
theorem C41_level_zero (x : Img ℝ) (k l : Nat) (hk : k < x.h) (hl : l < x.w) :
    (periodizeFilter x 0).px k l = x.px k l := by
  unfold periodizeFilter
  rw [Img.px_tab (by simpa using hk) (by simpa using hl)]
  simp [masked]

/-- **Without the extra factor of two the claim fails**: for an axis of length 6 and `res = 1`, output
frequency 1 is read at input index 4 (frequency `-2`), although index 1 (frequency `1`) is closer to
zero. -/
theorem C41_odd_size_fails :
    ¬ ∀ (x : Img ℝ) (res : Nat), 2 ^ res ∣ x.h → 2 ^ res ∣ x.w →
      ∀ k l, k < x.h / 2 ^ res → l < x.w / 2 ^ res → ∃ i j,
        IsClosest x.h (x.h / 2 ^ res) k i ∧ IsClosest x.w (x.w / 2 ^ res) l j ∧
        (periodizeFilter x res).px k l = x.px i j := by
  intro h
  obtain ⟨i, j, hi, hj, he⟩ := h (Img.tab 6 4 fun i _ => (i : ℝ)) 1 (by decide) (by decide) 1 0
    (by decide) (by decide)
  simp only [Img.h_tab, Img.w_tab] at hi hj
  have hi1 : i = 1 := by
    obtain ⟨h1, h2, h3⟩ := hi
    have h4 : i = 1 ∨ i = 4 := by omega
    rcases h4 with rfl | rfl
    · rfl
    · have := h3 1 (by decide) (by decide) (by decide)
      simp [signedFreq] at this
  subst hi1
  have hj0 : j < 4 := hj.1
  rw [Img.px_tab (by decide) hj0] at he
  unfold periodizeFilter at he
  rw [Img.px_tab (by decide) (by decide)] at he
  simp [masked, Finset.sum_range_succ, Img.tab] at he

example : 2 ^ (1 + 1) ∣ (Img.tab 8 12 fun i j => (i * j : ℝ)).h ∧
    2 ^ (1 + 1) ∣ (Img.tab 8 12 fun i j => (i * j : ℝ)).w := by constructor <;> decide

/-! ## C43: reflection padding -/

theorem mirrorIndex_eq {n l i : Nat} (hn : 2 ≤ n) :
    mirrorIndex n l i = Spec.mirror n ((i : ℤ) - l) := by
  unfold mirrorIndex Spec.mirror
  simp only
  rw [if_neg (by omega)]
  have hp : ((2 * (n - 1) : Nat) : ℤ) = 2 * n - 2 := by omega
  rw [hp]
  have h1 := Int.emod_nonneg ((i : ℤ) - l) (show (2 * (n : ℤ) - 2) ≠ 0 by omega)
  have h2 := Int.emod_lt_of_pos ((i : ℤ) - l) (show 0 < (2 * (n : ℤ) - 2) by omega)
  generalize ((i : ℤ) - l) % (2 * (n : ℤ) - 2) = r at h1 h2
  split <;> omega

/-- The numpy padding reads the image by mirror reflection with period `2M - 2`, `2N - 2`. -/
theorem C43_numpy_mirror (x : Img ℝ) (t b l r : Nat) (hh : 2 ≤ x.h) (hw : 2 ≤ x.w) :
    ∃ y, np2Pad t b l r x = .ok y ∧ y.h = t + x.h + b ∧ y.w = l + x.w + r ∧
      ∀ i j, i < y.h → j < y.w →
        y.px i j = x.px (Spec.mirror x.h ((i : ℤ) - t)) (Spec.mirror x.w ((j : ℤ) - l)) := by
  unfold np2Pad
  rw [if_neg (by omega)]
  refine ⟨_, rfl, rfl, rfl, fun i j hi hj => ?_⟩
  rw [Img.h_tab] at hi
  rw [Img.w_tab] at hj
  rw [Img.px_tab hi hj, mirrorIndex_eq hh, mirrorIndex_eq hw]

/-- Along one axis: after reflecting by `n - 1` and prepending/appending the rows 1 and `len - 2`, the
index read is that of the mirror reflection by `n`. -/
theorem cat_axis {n i : Nat} (hn : 2 ≤ n) (hi : i < n + n + n) :
    (if i = 0 then reflectIndex n (n - 1) 1 else if i ≤ n - 1 + n + (n - 1) then
      reflectIndex n (n - 1) (i - 1) else reflectIndex n (n - 1) (n - 1 + n + (n - 1) - 2)) =
    Spec.mirror n ((i : ℤ) - n) := by
  by_cases h0 : i = 0
  · subst h0
    rw [if_pos rfl, reflectIndex_eq_mirror (r := n - 1) (by omega) (by omega) (by omega)]
    unfold Spec.mirror
    have e1 : (((1 : Nat) : ℤ) - ((n - 1 : Nat) : ℤ)) % (2 * n - 2) = n ∨ n = 2 := by
      rcases Nat.lt_or_ge 2 n with h | h
      · left
        rw [← Int.add_emod_right, Int.emod_eq_of_lt (by omega) (by omega)]
        omega
      · right; omega
    have e2 : (((0 : Nat) : ℤ) - (n : ℤ)) % (2 * n - 2) = n - 2 := by
      rw [← Int.add_emod_right, Int.emod_eq_of_lt (by omega) (by omega)]
      omega
    rcases e1 with e1 | rfl
    · simp only [e1, e2]; omega
    · decide
  · rw [if_neg h0]
    by_cases h1 : i ≤ n - 1 + n + (n - 1)
    · rw [if_pos h1, reflectIndex_eq_mirror (r := n - 1) (by omega) (by omega) (by omega)]
      congr 1
      omega
    · rw [if_neg h1, reflectIndex_eq_mirror (r := n - 1) (by omega) (by omega) (by omega)]
      have hi' : i = 3 * n - 1 := by omega
      subst hi'
      unfold Spec.mirror
      have e1 : (((n - 1 + n + (n - 1) - 2 : Nat) : ℤ) - ((n - 1 : Nat) : ℤ)) % (2 * n - 2) =
          2 * n - 3 := by
        rw [Int.emod_eq_of_lt (by omega) (by omega)]
        omega
      have e2 : (((3 * n - 1 : Nat) : ℤ) - (n : ℤ)) % (2 * n - 2) = 1 ∨ n = 2 := by
        rcases Nat.lt_or_ge 2 n with h | h
        · left
          rw [← Int.sub_emod_right, Int.emod_eq_of_lt (by omega) (by omega)]
          omega
        · right; omega
      rcases e2 with e2 | rfl
      · simp only [e1, e2]; omega
      · decide

/-- Row of the concatenation, as a row of the reflected image. -/
def catIndex (len i : Nat) : Nat := if i = 0 then 1 else if i ≤ len then i - 1 else len - 2

theorem cat_axis' {n i : Nat} (hn : 2 ≤ n) (hi : i < n + n + n) :
    reflectIndex n (n - 1) (catIndex (n - 1 + n + (n - 1)) i) = Spec.mirror n ((i : ℤ) - n) := by
  rw [← cat_axis hn hi]
  unfold catIndex
  split
  · rfl
  · split <;> rfl

theorem catIndex_lt {n i : Nat} (hn : 2 ≤ n) :
    catIndex (n - 1 + n + (n - 1)) i < n - 1 + n + (n - 1) := by
  unfold catIndex
  split
  · omega
  · split <;> omega

theorem catCols_eq (x : Img ℝ) (h : 2 ≤ x.w) :
    catCols x = .ok (Img.tab x.h (x.w + 2) fun i j => x.px i (catIndex x.w j)) := by
  unfold catCols
  rw [if_neg (by omega)]
  refine congrArg Except.ok (Img.tab_congr fun i j _ _ => ?_)
  unfold catIndex
  split
  · rfl
  · split <;> rfl

theorem catRows_eq (x : Img ℝ) (h : 2 ≤ x.h) :
    catRows x = .ok (Img.tab (x.h + 2) x.w fun i j => x.px (catIndex x.h i) j) := by
  unfold catRows
  rw [if_neg (by omega)]
  refine congrArg Except.ok (Img.tab_congr fun i j _ _ => ?_)
  unfold catIndex
  split
  · rfl
  · split <;> rfl

/-- `ReflectionPad2d` with pads smaller than the sides, read through the mirror. -/
theorem reflectionPad2d_ok (x : Img ℝ) {t b l r : Nat} (ht : t < x.h) (hb : b < x.h) (hl : l < x.w)
    (hr : r < x.w) : reflectionPad2d t b l r x =
      .ok (Img.tab (t + x.h + b) (l + x.w + r) fun i j =>
        x.px (reflectIndex x.h t i) (reflectIndex x.w l j)) := by
  unfold reflectionPad2d
  rw [if_neg (by omega)]

/-- **The torch padding, with its special case for pads equal to the image side, is the numpy
padding** for all the pads that `C38_padding` allows: each at most the side, top and bottom (left and
right) both equal to it or both smaller. -/
theorem torch2Pad_eq (x : Img ℝ) (t b l r : Nat) (hh : 2 ≤ x.h) (hw : 2 ≤ x.w)
    (ht : (t < x.h ∧ b < x.h) ∨ (t = x.h ∧ b = x.h))
    (hl : (l < x.w ∧ r < x.w) ∨ (l = x.w ∧ r = x.w)) :
    torch2Pad t b l r x.h x.w x = np2Pad t b l r x := by
  have hnp : np2Pad t b l r x = .ok (Img.tab (t + x.h + b) (l + x.w + r) fun i j =>
      x.px (Spec.mirror x.h ((i : ℤ) - t)) (Spec.mirror x.w ((j : ℤ) - l))) := by
    unfold np2Pad
    rw [if_neg (by omega)]
    congr 1
    apply Img.tab_congr
    intro i j _ _
    rw [mirrorIndex_eq hh, mirrorIndex_eq hw]
  rw [hnp]
  unfold torch2Pad
  simp only
  rw [if_neg (by omega)]
  rcases ht with ⟨ht, hb⟩ | ⟨rfl, rfl⟩
  · rw [if_neg (show ¬ t = x.h by omega)]
    rcases hl with ⟨hl, hr⟩ | ⟨rfl, rfl⟩
    · rw [if_neg (show ¬ l = x.w by omega)]
      simp only [condPy, if_neg (show ¬ t = x.h by omega), if_neg (show ¬ l = x.w by omega)]
      rw [reflectionPad2d_ok x ht hb hl hr]
      refine congrArg Except.ok (Img.tab_congr fun i j hi hj => ?_)
      rw [reflectIndex_eq_mirror ht hb hi, reflectIndex_eq_mirror hl hr hj]
    · rw [if_pos rfl]
      simp only [condPy, if_neg (show ¬ t = x.h by omega)]
      rw [reflectionPad2d_ok x ht hb (by omega) (by omega)]
      show catCols _ = _
      rw [catCols_eq _ (by simp only [Img.w_tab]; omega)]
      refine congrArg Except.ok ?_
      simp only [Img.h_tab, Img.w_tab]
      rw [show x.w - 1 + x.w + (x.w - 1) + 2 = x.w + x.w + x.w by omega]
      refine Img.tab_congr fun i j hi hj => ?_
      rw [Img.px_tab hi (catIndex_lt hw), cat_axis' hw hj, reflectIndex_eq_mirror ht hb hi]
  · rw [if_pos rfl]
    rcases hl with ⟨hl, hr⟩ | ⟨rfl, rfl⟩
    · rw [if_neg (show ¬ l = x.w by omega)]
      simp only [condPy, if_neg (show ¬ l = x.w by omega)]
      rw [reflectionPad2d_ok x (by omega) (by omega) hl hr]
      simp only [if_true]
      show (catRows _ >>= fun z => Except.ok z) = _
      rw [catRows_eq _ (by simp only [Img.h_tab]; omega)]
      refine congrArg Except.ok ?_
      simp only [Img.h_tab, Img.w_tab]
      rw [show x.h - 1 + x.h + (x.h - 1) + 2 = x.h + x.h + x.h by omega]
      refine Img.tab_congr fun i j hi hj => ?_
      rw [Img.px_tab (catIndex_lt hh) hj, cat_axis' hh hi, reflectIndex_eq_mirror hl hr hj]
    · rw [if_pos rfl]
      simp only [condPy]
      rw [reflectionPad2d_ok x (by omega) (by omega) (by omega) (by omega)]
      show (catRows _ >>= fun z => catCols z) = _
      rw [catRows_eq _ (by simp only [Img.h_tab]; omega)]
      show catCols _ = _
      rw [catCols_eq _ (by simp only [Img.w_tab]; omega)]
      refine congrArg Except.ok ?_
      simp only [Img.h_tab, Img.w_tab]
      rw [show x.h - 1 + x.h + (x.h - 1) + 2 = x.h + x.h + x.h by omega,
        show x.w - 1 + x.w + (x.w - 1) + 2 = x.w + x.w + x.w by omega]
      refine Img.tab_congr fun i j hi hj => ?_
      rw [Img.px_tab hi (catIndex_lt hw), Img.px_tab (catIndex_lt hh) (catIndex_lt hw),
        cat_axis' hw hj, cat_axis' hh hi]

/-- For every image with sides at least two and at least `2^J`, padded with the amounts computed by
`build`, the torch (and tensorflow) padding equals the numpy padding. -/
theorem C43_backends_agree (x : Img ℝ) (J : Nat) (hh : 2 ≤ x.h) (hw : 2 ≤ x.w)
    (hJh : 2 ^ J ≤ x.h) (hJw : 2 ^ J ≤ x.w) :
    let t := (padded2 x.h J - x.h) / 2
    let b := (padded2 x.h J - x.h + 1) / 2
    let l := (padded2 x.w J - x.w) / 2
    let r := (padded2 x.w J - x.w + 1) / 2
    torch2Pad t b l r x.h x.w x = np2Pad t b l r x := by
  intro t b l r
  have key : ∀ M, 2 ^ J ≤ M → ((padded2 M J - M) / 2 < M ∧ (padded2 M J - M + 1) / 2 < M) ∨
      ((padded2 M J - M) / 2 = M ∧ (padded2 M J - M + 1) / 2 = M) := by
    intro M hM
    have hP : 0 < 2 ^ J := by positivity
    have e := Nat.div_add_mod M (2 ^ J)
    have hm := Nat.mod_lt M hP
    have hp : padded2 M J = 2 ^ J * (M / 2 ^ J) + 2 * 2 ^ J := by rw [padded2_eq]; ring
    rcases Nat.lt_or_ge (2 ^ J) M with h | h
    · left; omega
    · right
      have hM' : M = 2 ^ J := by omega
      have : M % 2 ^ J = 0 := by rw [hM']; exact Nat.mod_self _
      omega
  exact torch2Pad_eq x t b l r hh hw (key _ hJh) (key _ hJw)

/-- With a side of one pixel (`J = 0`) the torch padding raises while numpy repeats the pixel. -/
theorem C43_one_pixel :
    torch2Pad 1 1 1 1 1 1 (Img.tab 1 1 fun _ _ => 5) = .error .index ∧
      ∃ y, np2Pad 1 1 1 1 (Img.tab 1 1 fun _ _ => 5) = .ok y := by
  constructor
  · simp only [torch2Pad, reflectionPad2d, condPy, Img.h_tab, Img.w_tab]
    simp only [one_ne_zero, or_self, and_false, ↓reduceIte, tsub_self, ge_iff_le]
    rfl
  · exact ⟨_, by unfold np2Pad; rw [if_neg (by simp [Img.tab])]⟩

example : 2 ≤ (Img.tab 8 13 fun i j => (i + j : ℝ)).h ∧ 2 ^ 3 ≤ (Img.tab 8 13 fun i j => (i + j : ℝ)).h ∧
    2 ^ 3 ≤ (Img.tab 8 13 fun i j => (i + j : ℝ)).w := by refine ⟨?_, ?_, ?_⟩ <;> decide

end Verif
