import Verif.Lemmas.Levels

/-!
# C04, C10, C11, C12: padding and Fourier-domain operations
-/

namespace Verif

open Finset

/-! ## C04 -/

theorem reflectIndex_eq_mirror {N l r i : Nat} (hl : l < N) (hr : r < N) (hi : i < l + N + r) :
    reflectIndex N l i = Spec.mirror N ((i : ℤ) - l) := by
  unfold reflectIndex Spec.mirror
  have hN : 0 < N := by omega
  simp only
  by_cases h1 : i < l
  · rw [if_pos h1]
    have : ((i : ℤ) - l) % (2 * N - 2) = 2 * N - 2 - (l - i) := by
      rw [← Int.add_emod_right, Int.emod_eq_of_lt (by omega) (by omega)]
      ring
    rw [this]
    omega
  · rw [if_neg h1]
    by_cases h2 : i - l < N
    · rw [if_pos h2]
      rcases Nat.lt_or_ge 1 N with hN1 | hN1
      · have : ((i : ℤ) - l) % (2 * N - 2) = i - l := Int.emod_eq_of_lt (by omega) (by omega)
        rw [this]; omega
      · have : N = 1 := by omega
        subst this
        simp; omega
    · rw [if_neg h2]
      by_cases h3 : i - l < 2 * N - 2
      · have : ((i : ℤ) - l) % (2 * N - 2) = i - l := Int.emod_eq_of_lt (by omega) (by omega)
        rw [this]; omega
      · have : ((i : ℤ) - l) = 2 * N - 2 := by omega
        rw [this, Int.emod_self]; omega

/-- Padding with amounts smaller than the signal succeeds, has the announced length, reads the
mirror-reflected signal at every position, and slicing `[l, l + N)` returns the signal. -/
theorem C04_pad_unpad (x : List ℝ) (l r : Nat) (hl : l < x.length) (hr : r < x.length) :
    ∃ y, npPad x l r = .ok y ∧ y.length = l + x.length + r ∧
      (∀ i, i < l + x.length + r →
        Spec.mirror x.length ((i : ℤ) - l) < x.length ∧
        y.getD i 0 = x.getD (Spec.mirror x.length ((i : ℤ) - l)) 0) ∧
      npUnpad y l (l + x.length) = x := by
  refine ⟨tab (l + x.length + r) fun i => x.getD (reflectIndex x.length l i) 0, ?_, ?_, ?_, ?_⟩
  · unfold npPad; rw [if_neg (by omega)]
  · simp
  · intro i hi
    constructor
    · rw [← reflectIndex_eq_mirror hl hr hi]
      unfold reflectIndex
      split
      · omega
      · split <;> omega
    · rw [getD_tab_lt hi, reflectIndex_eq_mirror hl hr hi]
  · unfold npUnpad
    apply list_ext_getD 0
    · simp
    · intro i hi
      have hi' : i < x.length := by
        simp only [List.length_drop, List.length_take, length_tab] at hi; omega
      rw [List.getD_eq_getElem?_getD, List.getElem?_drop, List.getElem?_take,
        if_pos (by omega), ← List.getD_eq_getElem?_getD, getD_tab_lt (by omega)]
      congr 1
      unfold reflectIndex
      rw [if_neg (by omega), if_pos (by omega)]
      omega

/-- Padding is rejected, with `ValueError`, exactly when one amount reaches the signal length. -/
theorem C04_pad_rejects (x : List ℝ) (l r : Nat) :
    npPad x l r = .error .value ↔ x.length ≤ l ∨ x.length ≤ r := by
  unfold npPad
  constructor
  · intro h
    by_contra hc
    rw [if_neg (by omega)] at h
    cases h
  · intro h; rw [if_pos (by omega)]

example : (2 : Nat) < ([1, 2, 3, 4] : List ℝ).length ∧ (3 : Nat) < ([1, 2, 3, 4] : List ℝ).length := by
  simp
-- the padded signal of `[1,2,3,4]` by (2,3) is `[3,2,1,2,3,4,3,2,1]`
example : (List.range 9).map (reflectIndex 4 2) = [2, 1, 0, 1, 2, 3, 2, 1, 0] := by decide

/-! ## C10 -/

/-- Subsampling by `k` succeeds exactly when `k` is a nonzero divisor of the length. -/
theorem C10_subsample_ok_iff (x : List ℂ) (k : Nat) :
    (∃ y, npSubsampleFourier x k = .ok y) ↔ k ≠ 0 ∧ k ∣ x.length := by
  constructor
  · rintro ⟨y, hy⟩
    obtain ⟨h1, h2, -⟩ := (npSubsampleFourier_eq x k y).1 hy
    exact ⟨h1, h2⟩
  · rintro ⟨h1, h2⟩
    exact ⟨_, (npSubsampleFourier_eq x k _).2 ⟨h1, h2, rfl⟩⟩

/-- In the time domain, Fourier subsampling keeps every `k`-th sample. -/
theorem C10_subsample_decimates (x y : List ℂ) (k : Nat) (h : npSubsampleFourier x k = .ok y) :
    y.length * k = x.length ∧
      ∀ n, n < y.length → (idft y).getD n 0 = (idft x).getD (n * k) 0 := by
  have hlen := length_of_subsample h
  refine ⟨hlen, fun n hn => ?_⟩
  have hk : k ≠ 0 := ((npSubsampleFourier_eq x k y).1 h).1
  have hnk : n * k < x.length := by
    rw [← hlen]; exact Nat.mul_lt_mul_of_pos_right hn (Nat.pos_of_ne_zero hk)
  rw [getD_idft_imp y hn, getD_idft_imp x hnk, imp_subsample x y k h]
  push_cast
  rfl

/-- Subsampling by `k` and then by `l` is subsampling by `k * l` (including which calls fail). -/
theorem C10_subsample_compose (x y z : List ℂ) (k l : Nat) (hy : npSubsampleFourier x k = .ok y) :
    npSubsampleFourier y l = .ok z ↔ npSubsampleFourier x (k * l) = .ok z := by
  have hlen := length_of_subsample hy
  obtain ⟨hk, hkd, -⟩ := (npSubsampleFourier_eq x k y).1 hy
  have hdvd : (l ≠ 0 ∧ l ∣ y.length) ↔ (k * l ≠ 0 ∧ k * l ∣ x.length) := by
    rw [← hlen, mul_comm y.length k, Nat.mul_dvd_mul_iff_left (Nat.pos_of_ne_zero hk)]
    simp [hk]
  have key : ∀ z w, npSubsampleFourier y l = .ok z → npSubsampleFourier x (k * l) = .ok w →
      z = w := by
    intro z w hz hw
    have h1 := length_of_subsample hz
    have h2 := length_of_subsample hw
    obtain ⟨hl0, -, -⟩ := (npSubsampleFourier_eq y l z).1 hz
    have hkl : 0 < k * l := Nat.mul_pos (Nat.pos_of_ne_zero hk) (Nat.pos_of_ne_zero hl0)
    apply eq_of_imp
    · apply Nat.eq_of_mul_eq_mul_right hkl
      rw [h2, ← hlen, ← h1]; ring
    · intro n _
      rw [imp_subsample y z l hz, imp_subsample x y k hy, imp_subsample x w (k * l) hw]
      congr 1
      push_cast; ring
  constructor
  · intro hz
    obtain ⟨w, hw⟩ := (C10_subsample_ok_iff x (k * l)).2 (hdvd.1 ((C10_subsample_ok_iff y l).1 ⟨z, hz⟩))
    rw [hw, key z w hz hw]
  · intro hw
    obtain ⟨z', hz'⟩ := (C10_subsample_ok_iff y l).2 (hdvd.2 ((C10_subsample_ok_iff x (k * l)).1 ⟨z, hw⟩))
    rw [hz', key z' z hz' hw]

/-- A factor that does not divide the length raises: `ValueError`, or `ZeroDivisionError` for 0. -/
theorem C10_subsample_rejects (x : List ℂ) (k : Nat) (h : ¬ (k ≠ 0 ∧ k ∣ x.length)) :
    npSubsampleFourier x k = .error (if k = 0 then .zeroDiv else .value) := by
  unfold npSubsampleFourier
  by_cases hk : k = 0
  · simp [hk]
  · have : k * (x.length / k) ≠ x.length := fun hc => h ⟨hk, ⟨_, hc.symm⟩⟩
    simp [hk, this]

example : (2 : Nat) ≠ 0 ∧ 2 ∣ ([1, Complex.I, 0, 3] : List ℂ).length := by simp

/-! ## C11 -/

/-- `ifft` inverts `fft` and conversely. -/
theorem C11_ifft_fft (x : List ℂ) : idft (dft x) = x ∧ dft (idft x) = x :=
  ⟨idft_dft x, dft_idft x⟩

/-- `ifft(cdgmm(rfft(x), h))` is the circular convolution of `x` with the impulse response
of `h`, and nothing is raised when the lengths agree. -/
theorem C11_convolution (x h : List ℝ) (hl : x.length = h.length) :
    ∃ y, npCdgmm (npRfft x) h = .ok y ∧ (idft y).length = x.length ∧
      ∀ n, n < x.length → (idft y).getD n 0 = Spec.convR x (Spec.impulseR h) n := by
  obtain ⟨y, hy⟩ : ∃ y, npCdgmm (npRfft x) h = .ok y :=
    ⟨_, (npCdgmm_eq _ _ _).2 ⟨by simpa using hl, rfl⟩⟩
  have hlen : y.length = x.length := by rw [length_of_cdgmm hy]; simp
  refine ⟨y, hy, by simpa using hlen, fun n hn => ?_⟩
  rw [getD_idft_imp y (hlen ▸ hn), imp_cdgmm_rfft hy]

/-- `cdgmm` raises `RuntimeError` exactly when the lengths differ. -/
theorem C11_cdgmm_rejects (a : List ℂ) (h : List ℝ) :
    npCdgmm a h = .error .runtime ↔ a.length ≠ h.length := by
  constructor
  · intro he hl
    rw [(npCdgmm_eq a h _).2 ⟨hl, rfl⟩] at he
    cases he
  · exact npCdgmm_error a h

example : ([1, 2, 3] : List ℝ).length = ([4, 5, 6] : List ℝ).length := rfl

/-! ## C12 -/

/-- The levels stored by the filter factory (sum reduction): level `l` has length `N / 2^l`, its
impulse response is `2^l` times the decimated full-rate impulse response, and its gain at frequency
zero is the sum of the aliases. -/
theorem C12_levels (h : List ℝ) (b : ℤ) (lv : List (List ℝ)) (hlv : makeLevels false h b = .ok lv)
    (l : Nat) (y : List ℝ) (hy : lv[l]? = some y) :
    y.length * 2 ^ l = h.length ∧
    (∀ n : ℤ, Spec.impulseR y n = 2 ^ l * Spec.impulseR h (n * 2 ^ l)) ∧
    (0 < h.length → y.getD 0 0 = ∑ i ∈ range (2 ^ l), h.getD (i * y.length) 0) := by
  have hr := makeLevels_get hlv hy
  have hlen := length_reduceLevel hr
  refine ⟨hlen, fun n => by rw [impulse_reduceLevel hr]; simp, fun hpos => ?_⟩
  unfold reduceLevel at hr
  split at hr
  · injection hr with hr
    have hyl : y.length = h.length / 2 ^ l := by
      rw [← hlen, Nat.mul_div_cancel _ (by positivity)]
    have : 0 < h.length / 2 ^ l := by
      rcases Nat.eq_zero_or_pos (h.length / 2 ^ l) with h0 | h0
      · rw [← hyl] at h0; rw [h0] at hlen; omega
      · exact h0
    rw [hyl, ← hr, getD_tab_lt this]
    simp
  · cases hr

/-- Low-pass filtering a signal that has already been decimated by `2^l` with the stored level is
the Riemann sum (step `2^l`) of the convolution with the full-rate filter. -/
theorem C12_riemann_sum (h : List ℝ) (b : ℤ) (lv : List (List ℝ))
    (hlv : makeLevels false h b = .ok lv) (l : Nat) (y u : List ℝ) (hy : lv[l]? = some y)
    (n : ℤ) :
    Spec.convR u (Spec.impulseR y) n =
      2 ^ l * ∑ m ∈ range u.length, (u.getD m 0 : ℂ) * Spec.impulseR h ((n - m) * 2 ^ l) := by
  unfold Spec.convR
  rw [Finset.mul_sum]
  apply Finset.sum_congr rfl
  intro m _
  rw [(C12_levels h b lv hlv l y hy).2.1]
  ring

/-- With the `mean` reduction of versions before 0.4, the same response is smaller by exactly
`2^l`. -/
theorem C12_mean_reduction (h : List ℝ) (b : ℤ) (lv lv' : List (List ℝ))
    (hlv : makeLevels false h b = .ok lv) (hlv' : makeLevels true h b = .ok lv')
    (l : Nat) (y y' : List ℝ) (hy : lv[l]? = some y) (hy' : lv'[l]? = some y') (n : ℤ) :
    Spec.impulseR y n = 2 ^ l * Spec.impulseR y' n := by
  rw [impulse_reduceLevel (makeLevels_get hlv hy), impulse_reduceLevel (makeLevels_get hlv' hy')]
  simp

/-- Every wavelet of the factory is stored with exactly these levels of its Morlet filter: one level
if it is never needed subsampled, `min(previous_J, j, 1 + log2_T)` levels otherwise. -/
theorem C12_factory_wavelet (mean : Bool) (N : Nat) (alpha : ℝ) (pJ lT : ℤ) (p : ℝ × ℝ)
    (f : FiltX) (hf : makePsi mean N alpha pJ lT p = .ok f) :
    f.xi = p.1 ∧ f.sigma = p.2 ∧ f.j = getMaxDyadicSubsampling p.1 p.2 alpha ∧
    f.levels.length = (max 1 (min (min pJ f.j) (1 + lT))).toNat ∧
    f.levels[0]? = some (morlet1d N (some p.1) p.2) := by
  unfold makePsi at hf
  obtain ⟨lv, hlv, h⟩ := bind_eq_ok.1 hf
  injection h with h
  subst h
  refine ⟨rfl, rfl, rfl, ?_, ?_⟩
  · rw [makeLevels_length hlv]
    simp only
    omega
  · obtain ⟨rest, -, hr⟩ := makeLevels_eq.1 hlv
    simp [hr]

-- a filter of length 4 has three levels
example : ∃ lv, makeLevels false [1, 2, 3, 4] 3 = .ok lv :=
  makeLevels_ok (d := 2) (by simp) (by norm_num)

end Verif
