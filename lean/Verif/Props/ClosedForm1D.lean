import Verif.Lemmas.NpOps
import Verif.Spec.Scattering1D

/-!
# C13: closed form of the 1-D scattering coefficients
-/

namespace Verif

open Finset Core1D

/-- The filter's levels are those the factory derives from the full-rate transfer function `h`. -/
def FromFull (f : Filt (List ℝ)) (h : List ℝ) : Prop := ∃ b, makeLevels false h b = .ok f.levels

theorem FromFull.impulse {f : Filt (List ℝ)} {h : List ℝ} (hf : FromFull f h) {l : Nat}
    {y : List ℝ} (hy : f.levels[l]? = some y) (n : ℤ) :
    Spec.impulseR y n = 2 ^ l * Spec.impulseR h (n * 2 ^ l) := by
  obtain ⟨b, hb⟩ := hf
  rw [impulse_reduceLevel (makeLevels_get hb hy)]
  simp

/-- Convolution of a sampled sequence with a stored level. -/
theorem convR_level {f : Filt (List ℝ)} {h : List ℝ} (hf : FromFull f h) {l : Nat}
    {y u : List ℝ} (hy : f.levels[l]? = some y) (n : ℤ) :
    Spec.convR u (Spec.impulseR y) n =
      ∑ m ∈ range u.length, (u.getD m 0 : ℂ) * (2 ^ l * Spec.impulseR h ((n - m) * 2 ^ l)) := by
  unfold Spec.convR
  apply Finset.sum_congr rfl
  intro m _
  rw [hf.impulse hy]

theorem length_div_of_mul {a b c : Nat} (h : a * 2 ^ b = c) : c / 2 ^ b = a := by
  rw [← h, Nat.mul_div_cancel _ (by positivity)]

/-- The modulus of a first-order path. -/
theorem U1_closed {psi : Filt (List ℝ)} {h : List ℝ} (hf : FromFull psi h) {x u : List ℝ} {k : Nat}
    (hu : bandpass npBackend psi (npRfft x) 0 k = .ok u) :
    u.length * 2 ^ k = x.length ∧
      ∀ t, t < u.length → u.getD t 0 = Spec.U1 x (Spec.impulseR h) k t := by
  obtain ⟨f, hfl, -, hlen, hval⟩ := np_bandpass hu
  refine ⟨hlen, fun t ht => ?_⟩
  rw [hval t ht, convR_level hf hfl]
  unfold Spec.U1
  simp only [pow_zero, one_mul, mul_one]
  rw [mul_comm]

theorem U2_closed {psi' : Filt (List ℝ)} {h2 : List ℝ} (hf : FromFull psi' h2) {x u v : List ℝ}
    {ψ1 : ℤ → ℂ} {k1 k2 : Nat} (hk : k1 ≤ k2) (hlen1 : u.length * 2 ^ k1 = x.length)
    (hu : ∀ t, t < u.length → u.getD t 0 = Spec.U1 x ψ1 k1 t)
    (hv : bandpass npBackend psi' (npRfft u) k1 (k2 - k1) = .ok v) :
    v.length * 2 ^ k2 = x.length ∧
      ∀ t, t < v.length → v.getD t 0 = Spec.U2 x ψ1 (Spec.impulseR h2) k1 k2 t := by
  obtain ⟨f, hfl, -, hlen, hval⟩ := np_bandpass hv
  have hkk : k2 = k2 - k1 + k1 := by omega
  refine ⟨?_, fun t ht => ?_⟩
  · conv_lhs => rw [hkk]
    rw [pow_add, ← mul_assoc, hlen, hlen1]
  · rw [hval t ht, convR_level hf hfl]
    unfold Spec.U2
    rw [length_div_of_mul hlen1]
    congr 1
    apply Finset.sum_congr rfl
    intro m hm
    rw [hu m (Finset.mem_range.1 hm)]
    congr 3
    rw [sub_mul, mul_assoc, ← pow_add, ← hkk]
    ring

theorem S_closed {phi : Filt (List ℝ)} {h : List ℝ} (hf : FromFull phi h) {x u c : List ℝ}
    {g : ℤ → ℝ} {k ls : Nat} (hk : k ≤ ls) (hlen1 : u.length * 2 ^ k = x.length)
    (hu : ∀ t, t < u.length → u.getD t 0 = g t)
    (hc : lowpass npBackend phi (npRfft u) k (ls - k) = .ok c) :
    c.length * 2 ^ ls = x.length ∧
      ∀ t, t < c.length → c.getD t 0 = (∑ m ∈ range (x.length / 2 ^ k),
        (g m : ℂ) * (2 ^ k * Spec.impulseR h (2 ^ ls * t - 2 ^ k * m))).re := by
  obtain ⟨f, hfl, -, hlen, hval⟩ := np_lowpass hc
  have hkk : ls = ls - k + k := by omega
  refine ⟨?_, fun t ht => ?_⟩
  · conv_lhs => rw [hkk]
    rw [pow_add, ← mul_assoc, hlen, hlen1]
  · rw [hval t ht, convR_level hf hfl, length_div_of_mul hlen1]
    congr 1
    apply Finset.sum_congr rfl
    intro m hm
    rw [hu m (Finset.mem_range.1 hm)]
    congr 3
    rw [sub_mul, mul_assoc, ← pow_add, ← hkk]
    ring

theorem take2_zero {α : Type} {a b q : α} {mo : Nat} (h : ([a, b].take mo)[0]? = some q) : q = a := by
  rw [List.getElem?_take] at h
  split at h
  · simpa using h.symm
  · cases h

theorem take2_one {α : Type} {a b q : α} {mo : Nat} (h : ([a, b].take mo)[1]? = some q) : q = b := by
  rw [List.getElem?_take] at h
  split at h
  · simpa using h.symm
  · cases h

/-- **Averaged scattering.**  Whenever the core returns, the coefficient of every path is the
time-domain cascade of `Spec.S0`, `Spec.S1`, `Spec.S2`, sampled with step `2^ls`, where a modulus
of scale `j` is kept on the grid of step `2^min(j, ls)`.  `hphi`, `H1`, `H2` name the full-rate
filters from which the filter tables were built. -/
theorem C13_averaged (x : List ℝ) (phi : Filt (List ℝ)) (psi1 psi2 : List (Filt (List ℝ)))
    (hphi : List ℝ) (H1 H2 : Nat → List ℝ) (Hphi : FromFull phi hphi)
    (HH1 : ∀ n f, psi1[n]? = some f → FromFull f (H1 n))
    (HH2 : ∀ n f, psi2[n]? = some f → FromFull f (H2 n))
    (mo ls : Nat) (out : List (Path (List ℝ)))
    (h : scattering1d npBackend x phi ([psi1, psi2].take mo) ls true = .ok out)
    (p : Path (List ℝ)) (hp : p ∈ out) :
    p.coef.length * 2 ^ ls = x.length ∧
    ((p.n = [] ∧ p.j = [] ∧ ∀ t, t < p.coef.length →
        p.coef.getD t 0 = Spec.S0 x (Spec.impulseR hphi) ls t) ∨
     (∃ n1 f1, psi1[n1]? = some f1 ∧ p.n = [n1] ∧ p.j = [f1.j] ∧ ∀ t, t < p.coef.length →
        p.coef.getD t 0 =
          Spec.S1 x (Spec.impulseR (H1 n1)) (Spec.impulseR hphi) (min f1.j ls) ls t) ∨
     (∃ n1 n2 f1 f2, psi1[n1]? = some f1 ∧ psi2[n2]? = some f2 ∧ p.n = [n1, n2] ∧
        p.j = [f1.j, f2.j] ∧ f1.j < f2.j ∧ ∀ t, t < p.coef.length →
        p.coef.getD t 0 = Spec.S2 x (Spec.impulseR (H1 n1)) (Spec.impulseR (H2 n2))
          (Spec.impulseR hphi) (min f1.j ls) (min f2.j ls) ls t)) := by
  have key := mem_scattering1d npBackend h hp
  change Path npBackend.R at p
  cases key with
  | zero U0hat c h0 hc =>
    have hU : U0hat = npRfft x := by injection h0 with h; exact h.symm
    subst hU
    have hc : lowpass npBackend phi (npRfft x) 0 (ls - 0) = .ok c := hc
    obtain ⟨h1, h2⟩ := S_closed Hphi (Nat.zero_le ls) (x := x) (g := fun m => x.getD m.toNat 0)
      (by simp) (by intro t _; simp) hc
    refine ⟨h1, Or.inl ⟨rfl, rfl, fun t ht => ?_⟩⟩
    rw [h2 t ht]
    unfold Spec.S0
    simp
  | one U0hat U1m c q1 n1 psi h0 hp1 hn1 hU hc =>
    have hU0 : U0hat = npRfft x := by injection h0 with h; exact h.symm
    subst hU0
    have : q1 = psi1 := take2_zero hp1
    subst this
    simp only [if_true] at hU hc
    obtain ⟨U1hat, hU1, hs⟩ := hc.1 rfl
    have : U1hat = npRfft U1m := by injection hU1 with h; exact h.symm
    subst this
    obtain ⟨hl1, hv1⟩ := U1_closed (HH1 n1 psi hn1) hU
    obtain ⟨h1, h2⟩ := S_closed Hphi (Nat.min_le_right psi.j ls) hl1 hv1 hs
    exact ⟨h1, Or.inr (Or.inl ⟨n1, psi, hn1, rfl, rfl, fun t ht => h2 t ht⟩)⟩
  | two U0hat U1m U1hat c q1 q2 n1 n2 psi psi' h0 hp1 hn1 hp2 hn2 hj hU hUh hc =>
    have hU0 : U0hat = npRfft x := by injection h0 with h; exact h.symm
    subst hU0
    have : q1 = psi1 := take2_zero hp1
    subst this
    have : q2 = psi2 := take2_one hp2
    subst this
    have : U1hat = npRfft U1m := by injection hUh with h; exact h.symm
    subst this
    simp only [if_true] at hU hc
    obtain ⟨U2m, hU2, hs, -⟩ := hc
    obtain ⟨U2hat, hU2h, hs⟩ := hs rfl
    have : U2hat = npRfft U2m := by injection hU2h with h; exact h.symm
    subst this
    simp only [if_true] at hU2
    have hk : min psi.j ls ≤ min psi'.j ls := by omega
    obtain ⟨hl1, hv1⟩ := U1_closed (HH1 n1 psi hn1) hU
    obtain ⟨hl2, hv2⟩ := U2_closed (HH2 n2 psi' hn2) hk hl1 hv1 hU2
    have e1 : min psi.j ls + (min psi'.j ls - min psi.j ls) = min psi'.j ls := by omega
    rw [e1] at hs
    obtain ⟨h1, h2⟩ := S_closed Hphi (Nat.min_le_right psi'.j ls) hl2 hv2 hs
    exact ⟨h1, Or.inr (Or.inr ⟨n1, n2, psi, psi', hn1, hn2, rfl, rfl, hj, fun t ht => h2 t ht⟩)⟩

/-- **Scattering without local averaging** (`T = 0` or `T = 'global'`): the coefficients are the
input itself and the moduli on the grids of step `2^j1`, `2^j2`. -/
theorem C13_unaveraged (x : List ℝ) (phi : Filt (List ℝ)) (psi1 psi2 : List (Filt (List ℝ)))
    (H1 H2 : Nat → List ℝ)
    (HH1 : ∀ n f, psi1[n]? = some f → FromFull f (H1 n))
    (HH2 : ∀ n f, psi2[n]? = some f → FromFull f (H2 n))
    (mo ls : Nat) (out : List (Path (List ℝ)))
    (h : scattering1d npBackend x phi ([psi1, psi2].take mo) ls false = .ok out)
    (p : Path (List ℝ)) (hp : p ∈ out) :
    (p.n = [] ∧ p.j = [] ∧ p.coef = x) ∨
    (∃ n1 f1, psi1[n1]? = some f1 ∧ p.n = [n1] ∧ p.j = [f1.j] ∧
      p.coef.length * 2 ^ f1.j = x.length ∧
      ∀ t, t < p.coef.length → p.coef.getD t 0 = Spec.U1 x (Spec.impulseR (H1 n1)) f1.j t) ∨
    (∃ n1 n2 f1 f2, psi1[n1]? = some f1 ∧ psi2[n2]? = some f2 ∧ p.n = [n1, n2] ∧
      p.j = [f1.j, f2.j] ∧ f1.j < f2.j ∧
      p.coef.length * 2 ^ f2.j = x.length ∧ ∀ t, t < p.coef.length →
        p.coef.getD t 0 =
          Spec.U2 x (Spec.impulseR (H1 n1)) (Spec.impulseR (H2 n2)) f1.j f2.j t) := by
  have key := mem_scattering1d npBackend h hp
  change Path npBackend.R at p
  cases key with
  | zero U0hat c h0 hc =>
    left
    refine ⟨rfl, rfl, ?_⟩
    injection hc with hc
    exact hc.symm
  | one U0hat U1m c q1 n1 psi h0 hp1 hn1 hU hc =>
    have hU0 : U0hat = npRfft x := by injection h0 with h; exact h.symm
    subst hU0
    have : q1 = psi1 := take2_zero hp1
    subst this
    simp only [Bool.false_eq_true, if_false] at hU hc
    have hcu := hc.2 rfl
    subst hcu
    obtain ⟨hl1, hv1⟩ := U1_closed (HH1 n1 psi hn1) hU
    exact Or.inr (Or.inl ⟨n1, psi, hn1, rfl, rfl, hl1, hv1⟩)
  | two U0hat U1m U1hat c q1 q2 n1 n2 psi psi' h0 hp1 hn1 hp2 hn2 hj hU hUh hc =>
    have hU0 : U0hat = npRfft x := by injection h0 with h; exact h.symm
    subst hU0
    have : q1 = psi1 := take2_zero hp1
    subst this
    have : q2 = psi2 := take2_one hp2
    subst this
    have : U1hat = npRfft U1m := by injection hUh with h; exact h.symm
    subst this
    simp only [Bool.false_eq_true, if_false] at hU hc
    obtain ⟨U2m, hU2, -, hs⟩ := hc
    have hcu := hs rfl
    subst hcu
    simp only [Bool.false_eq_true, if_false] at hU2
    obtain ⟨hl1, hv1⟩ := U1_closed (HH1 n1 psi hn1) hU
    obtain ⟨hl2, hv2⟩ := U2_closed (HH2 n2 psi' hn2) hj.le hl1 hv1 hU2
    exact Or.inr (Or.inr ⟨n1, n2, psi, psi', hn1, hn2, rfl, rfl, hj, hl2, hv2⟩)

end Verif
