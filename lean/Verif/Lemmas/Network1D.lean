import Verif.Lemmas.Decimate1D
import Verif.Props.Energy1D

/-!
# Energy of all paths of a run
-/

namespace Verif

open Finset Core1D Front1D

/-- The response of a stored level of a filter at the frequency `k`. -/
noncomputable def lev (f : Filt (List ℝ)) (l k : ℕ) : ℝ := (f.levels.getD l []).getD k 0

theorem lev_of {f : Filt (List ℝ)} {l : ℕ} {y : List ℝ} (h : f.levels[l]? = some y) (k : ℕ) :
    lev f l k = y.getD k 0 := by
  unfold lev
  rw [List.getD_eq_getElem?_getD (l := f.levels), h, Option.getD_some]

/-- The sums of the moduli of a stored level over the frequencies that decimation by `2^e` identifies are at most
`B`. -/
def AliasLe (f : Filt (List ℝ)) (l e : ℕ) (B : ℝ) : Prop :=
  ∀ y, f.levels[l]? = some y → ∀ M, M * 2 ^ e = y.length → ∀ r < M, ∑ a ∈ range (2 ^ e), |y.getD (a * M + r) 0| ≤ B

theorem band_decim {psi : Filt (List ℝ)} {x y u v : List ℝ} {k e : ℕ} {B : ℝ} (hl : y.length = x.length)
    (hu : bandpass npBackend psi (npRfft x) k e = .ok u) (hv : bandpass npBackend psi (npRfft y) k e = .ok v)
    (hB : AliasLe psi k e B) :
    v.length = u.length ∧ 2 ^ e * energy1 (diffL u v) ≤
      B * ∑ i ∈ range x.length, power1 (diffL x y) i * |lev psi k i| := by
  obtain ⟨f, hf, hfl, hul, huv⟩ := np_bandpass hu
  obtain ⟨g, hg, hgl, hvl, hvv⟩ := np_bandpass hv
  rw [hf] at hg
  injection hg with hg
  subst hg
  have hlen : v.length = u.length :=
    Nat.eq_of_mul_eq_mul_right (by positivity : 0 < 2 ^ e) (by rw [hvl, hul, hl])
  refine ⟨hlen, ?_⟩
  have := energy_decim (diffL x y) f (by rw [length_diffL, hfl]) (q := 2 ^ e) (M := u.length) (by positivity)
    (by rw [length_diffL, ← hul, mul_comm]) (hB f hf u.length (by rw [hul, hfl]))
  rw [length_diffL] at this
  simp only [lev_of hf]
  refine le_trans ?_ this
  push_cast
  apply mul_le_mul_of_nonneg_left _ (by positivity)
  rw [energy1_diffL]
  refine sum_le_sum fun t ht => ?_
  have ht := mem_range.1 ht
  rw [huv t ht, hvv t (by omega), convR_diffL hl, ← sq_abs]
  exact pow_le_pow_left₀ (abs_nonneg _) (abs_norm_sub_norm_le _ _) 2

theorem low_decim {phi : Filt (List ℝ)} {x y u v : List ℝ} {k e : ℕ} {B C : ℝ} (hB0 : 0 ≤ B) (hl : y.length = x.length)
    (hu : lowpass npBackend phi (npRfft x) k e = .ok u) (hv : lowpass npBackend phi (npRfft y) k e = .ok v)
    (hB : AliasLe phi k e B) (hC : ∀ i < x.length, |lev phi k i| ≤ C) :
    v.length = u.length ∧ 2 ^ e * energy1 (diffL u v) ≤ B * C * energy1 (diffL x y) := by
  obtain ⟨f, hf, hfl, hul, huv⟩ := np_lowpass hu
  obtain ⟨g, hg, hgl, hvl, hvv⟩ := np_lowpass hv
  rw [hf] at hg
  injection hg with hg
  subst hg
  have hlen : v.length = u.length :=
    Nat.eq_of_mul_eq_mul_right (by positivity : 0 < 2 ^ e) (by rw [hvl, hul, hl])
  refine ⟨hlen, ?_⟩
  have := energy_decim (diffL x y) f (by rw [length_diffL, hfl]) (q := 2 ^ e) (M := u.length) (by positivity)
    (by rw [length_diffL, ← hul, mul_comm]) (hB f hf u.length (by rw [hul, hfl]))
  have h2 : ∑ i ∈ range (diffL x y).length, power1 (diffL x y) i * |f.getD i 0| ≤ C * energy1 (diffL x y) := by
    rw [← sum_power1, mul_sum]
    refine sum_le_sum fun i hi => ?_
    have := hC i (by simpa using mem_range.1 hi)
    rw [lev_of hf] at this
    rw [mul_comm]
    exact mul_le_mul_of_nonneg_right this (power1_nonneg _ _)
  have h3 := this.trans (mul_le_mul_of_nonneg_left h2 hB0)
  rw [mul_assoc]
  refine le_trans ?_ h3
  push_cast
  apply mul_le_mul_of_nonneg_left _ (by positivity)
  rw [energy1_diffL]
  refine sum_le_sum fun t ht => ?_
  have ht := mem_range.1 ht
  rw [huv t ht, hvv t (by omega), convR_diffL hl, ← sq_abs, ← Complex.sub_re]
  exact pow_le_pow_left₀ (abs_nonneg _) (Complex.abs_re_le_norm _) 2

/-- Sum over the paths of two runs of the energy of the difference. -/
noncomputable def pathsD (xs ys : List (Path (List ℝ))) : ℝ :=
  ((xs.zip ys).map fun z => energy1 (diffL z.1.coef z.2.coef)).sum

/-- Corresponding paths. -/
def SamePath (p q : Path (List ℝ)) : Prop := p.n = q.n ∧ p.j = q.j ∧ q.coef.length = p.coef.length

theorem pathsD_append {xs xs' ys ys' : List (Path (List ℝ))} (h : xs.length = ys.length) :
    pathsD (xs ++ xs') (ys ++ ys') = pathsD xs ys + pathsD xs' ys' := by
  unfold pathsD
  rw [List.zip_append h, List.map_append, List.sum_append]

theorem pathsD_cons (p q : Path (List ℝ)) (xs ys : List (Path (List ℝ))) :
    pathsD (p :: xs) (q :: ys) = energy1 (diffL p.coef q.coef) + pathsD xs ys := by
  simp [pathsD]

theorem forEnum_pair {α : Type} {f g : α → ℕ → Py (List (Path (List ℝ)))} (w : α → ℝ) (l : List α) :
    ∀ (n : ℕ) xs ys, forEnum f l n = .ok xs → forEnum g l n = .ok ys →
    (∀ a ∈ l, ∀ i us vs, f a i = .ok us → g a i = .ok vs → List.Forall₂ SamePath us vs ∧ pathsD us vs ≤ w a) →
    List.Forall₂ SamePath xs ys ∧ pathsD xs ys ≤ (l.map w).sum := by
  induction l with
  | nil =>
    intro n xs ys hx hy _
    injection hx with hx
    injection hy with hy
    subst hx hy
    exact ⟨.nil, by simp [pathsD]⟩
  | cons a l ih =>
    intro n xs ys hx hy H
    obtain ⟨u, hu, hx⟩ := bind_eq_ok.1 hx
    obtain ⟨u', hu', hx⟩ := bind_eq_ok.1 hx
    obtain ⟨v, hv, hy⟩ := bind_eq_ok.1 hy
    obtain ⟨v', hv', hy⟩ := bind_eq_ok.1 hy
    injection hx with hx
    injection hy with hy
    subst hx hy
    obtain ⟨h1, h2⟩ := H a (by simp) n u v hu hv
    obtain ⟨h3, h4⟩ := ih (n + 1) u' v' hu' hv' fun b hb => H b (by simp [hb])
    refine ⟨List.rel_append h1 h3, ?_⟩
    rw [pathsD_append h1.length_eq, List.map_cons, List.sum_cons]
    linarith

/-- A sum over filters of weighted power spectra. -/
theorem sum_weights {α : Type} (l : List α) (P : ℕ → ℝ) (hP : ∀ i, 0 ≤ P i) (w : α → ℕ → ℝ) {A : ℝ} (n : ℕ)
    (hA : ∀ i < n, (l.map fun a => w a i).sum ≤ A) :
    (l.map fun a => ∑ i ∈ range n, P i * w a i).sum ≤ A * ∑ i ∈ range n, P i := by
  have e : (l.map fun a => ∑ i ∈ range n, P i * w a i).sum = ∑ i ∈ range n, P i * (l.map fun a => w a i).sum := by
    clear hA
    induction l with
    | nil => simp
    | cons a l ih => simp only [List.map_cons, List.sum_cons, ih, ← sum_add_distrib, mul_add]
  rw [e, mul_sum]
  refine sum_le_sum fun i hi => ?_
  rw [mul_comm]
  exact mul_le_mul_of_nonneg_right (hA i (mem_range.1 hi)) (hP i)

/-- What is needed of the filters of a run. -/
structure NetBounds (phi : Filt (List ℝ)) (psi1 psi2 : List (Filt (List ℝ))) (ls : ℕ) (A B C : ℝ) : Prop where
  hA : 0 ≤ A
  hB : 0 ≤ B
  hC : 0 ≤ C
  phiAlias : ∀ k ≤ ls, AliasLe phi k (ls - k) C
  phiGain : ∀ k ≤ ls, ∀ i, |lev phi k i| ≤ C
  alias1 : ∀ f ∈ psi1, AliasLe f 0 (min f.j ls) B
  sum1 : ∀ i, (psi1.map fun f => |lev f 0 i|).sum ≤ A
  alias2 : ∀ f ∈ psi2, ∀ l ≤ min f.j ls, AliasLe f l (min f.j ls - l) B
  sum2 : ∀ j1 i, (psi2.map fun f => if j1 < f.j then |lev f (min j1 ls) i| else 0).sum ≤ A

variable {phi : Filt (List ℝ)} {psi1 psi2 : List (Filt (List ℝ))} {ls : ℕ} {A B C : ℝ}

theorem samePath_single {p q : Path (List ℝ)} (h : SamePath p q) : List.Forall₂ SamePath [p] [q] := .cons h .nil

theorem second_pair (H : NetBounds phi psi1 psi2 ls A B C) {x y : List ℝ} (hl : y.length = x.length) {f : Filt (List ℝ)}
    (hf : f ∈ psi2) {j1 n1 n2 : ℕ} {us vs : List (Path (List ℝ))}
    (hu : secondOrder npBackend phi ls true j1 n1 (min j1 ls) (npRfft x) f n2 = .ok us)
    (hv : secondOrder npBackend phi ls true j1 n1 (min j1 ls) (npRfft y) f n2 = .ok vs) :
    List.Forall₂ SamePath us vs ∧ pathsD us vs ≤ C * C * B * 2 ^ min j1 ls / 2 ^ ls *
      ∑ i ∈ range x.length, power1 (diffL x y) i * (if j1 < f.j then |lev f (min j1 ls) i| else 0) := by
  unfold secondOrder at hu hv
  by_cases hj : j1 < f.j
  · simp only [gt_iff_lt, hj, if_true] at hu hv ⊢
    obtain ⟨U, hU, hu⟩ := bind_eq_ok.1 hu
    obtain ⟨V, hV, hv⟩ := bind_eq_ok.1 hv
    change ((lowpass npBackend phi (npRfft U) _ _).bind _) = _ at hu
    change ((lowpass npBackend phi (npRfft V) _ _).bind _) = _ at hv
    obtain ⟨S, hS, hu⟩ := bind_eq_ok.1 hu
    obtain ⟨S', hS', hv⟩ := bind_eq_ok.1 hv
    obtain rfl := Except.ok.inj hu
    obtain rfl := Except.ok.inj hv
    have hle : min j1 ls ≤ min f.j ls := by omega
    have e1 : min j1 ls + (min f.j ls - min j1 ls) = min f.j ls := by omega
    rw [e1] at hS hS'
    obtain ⟨b1, b2⟩ := band_decim hl hU hV (H.alias2 f hf _ hle)
    obtain ⟨c1, c2⟩ := low_decim H.hC b1 hS hS' (H.phiAlias _ (min_le_right _ _)) fun i _ => H.phiGain _ (min_le_right _ _) i
    refine ⟨samePath_single ⟨rfl, rfl, c1⟩, ?_⟩
    rw [pathsD_cons]
    simp only [pathsD, List.zip_nil_left, List.map_nil, List.sum_nil, add_zero]
    set E := ∑ i ∈ range x.length, power1 (diffL x y) i * |lev f (min j1 ls) i| with hE
    have p1 : (2 : ℝ) ^ ls = 2 ^ (ls - min f.j ls) * (2 ^ (min f.j ls - min j1 ls) * 2 ^ min j1 ls) := by
      rw [← pow_add, ← pow_add]; congr 1; omega
    rw [div_mul_eq_mul_div, le_div_iff₀ (by positivity), p1]
    have h3 := mul_le_mul_of_nonneg_left b2 (mul_nonneg H.hC H.hC)
    have h4 : (2 : ℝ) ^ (min f.j ls - min j1 ls) * (2 ^ (ls - min f.j ls) * energy1 (diffL S S')) ≤
        2 ^ (min f.j ls - min j1 ls) * (C * C * energy1 (diffL U V)) := mul_le_mul_of_nonneg_left c2 (by positivity)
    have h5 : (2 : ℝ) ^ (min f.j ls - min j1 ls) * (2 ^ (ls - min f.j ls) * energy1 (diffL S S')) ≤ C * C * (B * E) := by
      linarith
    have h6 := mul_le_mul_of_nonneg_right h5 (by positivity : (0 : ℝ) ≤ 2 ^ min j1 ls)
    change energy1 (diffL S S') * _ ≤ _
    linarith
  · simp only [gt_iff_lt, hj, if_false] at hu hv ⊢
    injection hu with hu
    injection hv with hv
    subst hu hv
    refine ⟨.nil, ?_⟩
    simp [pathsD]

theorem first_pair (H : NetBounds phi psi1 psi2 ls A B C) {x y : List ℝ} (hl : y.length = x.length) {mo : ℕ}
    {f : Filt (List ℝ)} (hf : f ∈ psi1) {n1 : ℕ} {us vs : List (Path (List ℝ))}
    (hu : firstOrder npBackend phi ([psi1, psi2].take mo) ls true (npRfft x) f n1 = .ok us)
    (hv : firstOrder npBackend phi ([psi1, psi2].take mo) ls true (npRfft y) f n1 = .ok vs) :
    List.Forall₂ SamePath us vs ∧ pathsD us vs ≤ C * C * (1 + A * B) * B / 2 ^ ls *
      ∑ i ∈ range x.length, power1 (diffL x y) i * |lev f 0 i| := by
  unfold firstOrder at hu hv
  simp only [if_true] at hu hv
  obtain ⟨U, hU, hu⟩ := bind_eq_ok.1 hu
  obtain ⟨V, hV, hv⟩ := bind_eq_ok.1 hv
  change ((firstPath npBackend phi ls true f.j n1 (min f.j ls) U (npRfft U)).bind _) = _ at hu
  change ((firstPath npBackend phi ls true f.j n1 (min f.j ls) V (npRfft V)).bind _) = _ at hv
  obtain ⟨p, hp, hu⟩ := bind_eq_ok.1 hu
  obtain ⟨q, hq, hv⟩ := bind_eq_ok.1 hv
  unfold firstPath at hp hq
  simp only [if_true] at hp hq
  obtain ⟨S, hS, hp⟩ := bind_eq_ok.1 hp
  obtain ⟨S', hS', hq⟩ := bind_eq_ok.1 hq
  obtain rfl := Except.ok.inj hp
  obtain rfl := Except.ok.inj hq
  obtain ⟨b1, b2⟩ := band_decim hl hU hV (H.alias1 f hf)
  obtain ⟨c1, c2⟩ := low_decim H.hC b1 hS hS' (H.phiAlias _ (min_le_right _ _)) fun i _ => H.phiGain _ (min_le_right _ _) i
  set E := ∑ i ∈ range x.length, power1 (diffL x y) i * |lev f 0 i| with hE
  have hAB : 0 ≤ A * B := mul_nonneg H.hA H.hB
  have hCC : 0 ≤ C * C := mul_nonneg H.hC H.hC
  have p1 : (2 : ℝ) ^ ls = 2 ^ (ls - min f.j ls) * 2 ^ min f.j ls := by
    rw [← pow_add]; congr 1; omega
  have hEU := energy1_nonneg (diffL U V)
  -- the first-order path
  have s1 : energy1 (diffL S S') ≤ C * C / 2 ^ ls * (2 ^ min f.j ls * energy1 (diffL U V)) := by
    rw [div_mul_eq_mul_div, le_div_iff₀ (by positivity), p1]
    have := mul_le_mul_of_nonneg_right c2 (by positivity : (0 : ℝ) ≤ 2 ^ min f.j ls)
    linarith
  -- the second-order paths
  have s2 : ∀ us' vs', forEnum (secondOrder npBackend phi ls true f.j n1 (min f.j ls) (npRfft U)) psi2 0 = .ok us' →
      forEnum (secondOrder npBackend phi ls true f.j n1 (min f.j ls) (npRfft V)) psi2 0 = .ok vs' →
      List.Forall₂ SamePath us' vs' ∧ pathsD us' vs' ≤ C * C / 2 ^ ls * (A * B) * (2 ^ min f.j ls * energy1 (diffL U V)) := by
    intro us' vs' hu' hv'
    obtain ⟨g1, g2⟩ := forEnum_pair (fun g => C * C * B * 2 ^ min f.j ls / 2 ^ ls *
      ∑ i ∈ range U.length, power1 (diffL U V) i * (if f.j < g.j then |lev g (min f.j ls) i| else 0)) psi2 0 us' vs' hu' hv'
      fun g hg i us vs h1 h2 => second_pair H b1 hg h1 h2
    refine ⟨g1, g2.trans ?_⟩
    rw [List.sum_map_mul_left]
    have g3 := sum_weights psi2 (power1 (diffL U V)) (power1_nonneg _)
      (fun g i => if f.j < g.j then |lev g (min f.j ls) i| else 0) (A := A) U.length fun i _ => H.sum2 f.j i
    have g4 : ∑ i ∈ range U.length, power1 (diffL U V) i = energy1 (diffL U V) := by
      rw [← sum_power1, length_diffL]
    rw [g4] at g3
    have hk : 0 ≤ C * C * B * 2 ^ min f.j ls / 2 ^ ls := by
      have := H.hB
      positivity
    refine (mul_le_mul_of_nonneg_left g3 hk).trans (le_of_eq ?_)
    ring
  have fin : ∀ D, D ≤ C * C / 2 ^ ls * (A * B) * (2 ^ min f.j ls * energy1 (diffL U V)) →
      energy1 (diffL S S') + D ≤ C * C * (1 + A * B) * B / 2 ^ ls * E := by
    intro D hD
    have hk : 0 ≤ C * C / 2 ^ ls * (1 + A * B) := by positivity
    have := mul_le_mul_of_nonneg_left b2 hk
    calc energy1 (diffL S S') + D ≤ C * C / 2 ^ ls * (1 + A * B) * (2 ^ min f.j ls * energy1 (diffL U V)) := by linarith
      _ ≤ C * C / 2 ^ ls * (1 + A * B) * (B * E) := this
      _ = _ := by ring
  have h0 : pathsD [] [] = 0 := by simp [pathsD]
  have hsame : SamePath ⟨S, [f.j], [n1]⟩ ⟨S', [f.j], [n1]⟩ := ⟨rfl, rfl, c1⟩
  have hD0 : (0 : ℝ) ≤ C * C / 2 ^ ls * (A * B) * (2 ^ min f.j ls * energy1 (diffL U V)) := by positivity
  cases hps : ([psi1, psi2].take mo)[1]? with
  | none =>
    rw [hps] at hu hv
    obtain rfl := Except.ok.inj hu
    obtain rfl := Except.ok.inj hv
    refine ⟨samePath_single hsame, ?_⟩
    rw [pathsD_cons, h0]
    exact fin 0 hD0
  | some r =>
    have hr : r = psi2 := take2_one hps
    subst hr
    rw [hps] at hu hv
    obtain ⟨us', hu', hu⟩ := bind_eq_ok.1 hu
    obtain ⟨vs', hv', hv⟩ := bind_eq_ok.1 hv
    obtain rfl := Except.ok.inj hu
    obtain rfl := Except.ok.inj hv
    obtain ⟨g1, g2⟩ := s2 us' vs' hu' hv'
    refine ⟨.cons hsame g1, ?_⟩
    rw [pathsD_cons]
    exact fin _ g2

/-- **Energy of all paths of two averaged runs.** -/
theorem network_pair (H : NetBounds phi psi1 psi2 ls A B C) {x y : List ℝ} (hl : y.length = x.length) {mo : ℕ}
    {out out' : List (Path (List ℝ))}
    (h : scattering1d npBackend x phi ([psi1, psi2].take mo) ls true = .ok out)
    (h' : scattering1d npBackend y phi ([psi1, psi2].take mo) ls true = .ok out') :
    List.Forall₂ SamePath out out' ∧
      pathsD out out' ≤ C * C * (1 + A * B + (A * B) ^ 2) / 2 ^ ls * energy1 (diffL x y) := by
  obtain ⟨Xh, c, q1, rest, hX, hc, hq1, hrest, rfl⟩ := scattering1d_eq_ok npBackend h
  obtain ⟨Yh, c', q1', rest', hY, hc', hq1', hrest', rfl⟩ := scattering1d_eq_ok npBackend h'
  obtain rfl : npRfft x = Xh := Except.ok.inj hX
  obtain rfl : npRfft y = Yh := Except.ok.inj hY
  obtain rfl : q1 = psi1 := take2_zero hq1
  obtain rfl : q1' = q1 := take2_zero hq1'
  obtain ⟨c1, c2⟩ := low_decim H.hC hl hc hc' (H.phiAlias 0 (Nat.zero_le _)) fun i _ => H.phiGain 0 (Nat.zero_le _) i
  obtain ⟨g1, g2⟩ := forEnum_pair (fun g => C * C * (1 + A * B) * B / 2 ^ ls *
    ∑ i ∈ range x.length, power1 (diffL x y) i * |lev g 0 i|) q1' 0 rest rest' hrest hrest'
    fun g hg i us vs h1 h2 => first_pair H hl hg h1 h2
  refine ⟨.cons ⟨rfl, rfl, c1⟩ g1, ?_⟩
  rw [pathsD_cons]
  rw [List.sum_map_mul_left] at g2
  have g3 := sum_weights q1' (power1 (diffL x y)) (power1_nonneg _) (fun g i => |lev g 0 i|) (A := A) x.length
    fun i _ => H.sum1 i
  have g4 : ∑ i ∈ range x.length, power1 (diffL x y) i = energy1 (diffL x y) := by
    rw [← sum_power1, length_diffL]
  rw [g4] at g3
  have hAB : 0 ≤ A * B := mul_nonneg H.hA H.hB
  have hB := H.hB
  have hk : 0 ≤ C * C * (1 + A * B) * B / 2 ^ ls := by
    have := mul_nonneg H.hC H.hC
    positivity
  have g5 := g2.trans (mul_le_mul_of_nonneg_left g3 hk)
  have s0 : energy1 (diffL c c') ≤ C * C / 2 ^ ls * energy1 (diffL x y) := by
    rw [div_mul_eq_mul_div, le_div_iff₀ (by positivity)]
    linarith
  calc energy1 (diffL c c') + pathsD rest rest' ≤
      C * C / 2 ^ ls * energy1 (diffL x y) + C * C * (1 + A * B) * B / 2 ^ ls * (A * energy1 (diffL x y)) :=
        add_le_add s0 g5
    _ = _ := by ring

end Verif
