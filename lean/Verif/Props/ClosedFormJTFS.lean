import Verif.Lemmas.NpJTFS
import Verif.Props.PathsJTFS

/-!
# C72: closed form of joint time-frequency scattering
-/

namespace Verif

open Finset JTFS

/-- The frequential low-pass realises a filter whose full-rate length is `'N'`. -/
def RealisesPhi (phi : PhiFr (List ℝ)) (v : ℤ → ℂ) : Prop :=
  ∃ h, h.length = phi.N ∧ FromFull ⟨phi.levels, phi.j⟩ h ∧ v = Spec.impulseR h

theorem FromFull.length {f : Filt (List ℝ)} {h : List ℝ} (hf : FromFull f h) {l : Nat} {y : List ℝ}
    (hy : f.levels[l]? = some y) : y.length * 2 ^ l = h.length := by
  obtain ⟨b, hb⟩ := hf
  exact length_reduceLevel (makeLevels_get hb hy)

/-- Rows of the second order on the grids the code chooses. -/
noncomputable def rows2' (x : List ℝ) (W : List Spec.Wavelet) (ψ2 : ℤ → ℂ) (ls : Nat) (avg : Bool)
    (j2 m t : ℕ) : ℂ :=
  match W[m]? with
  | some w => Spec.W2 x w.1 ψ2 (sub1 ls avg w.2) (sub1 ls avg w.2 + sub2 ls avg w.2 j2) t
  | none => 0

/-- The wavelets of smaller scale exponent. -/
def below (W : List Spec.Wavelet) (j2 : Nat) : List Spec.Wavelet := W.filter fun w => decide (w.2 < j2)

theorem zeroth_closed {phi : Filt (List ℝ)} {v : Spec.Wavelet} (hv : Realises phi v) {x z : List ℝ}
    {ls : Nat} (h : zeroth npJ phi ls true x (npRfft x) = .ok z) :
    z.length * 2 ^ ls = x.length ∧ ∀ t, t < z.length → z.getD t 0 = Spec.S0 x v.1 ls t := by
  obtain ⟨-, h0, hf, he⟩ := hv
  unfold zeroth at h
  rw [if_pos rfl] at h
  obtain ⟨f, h1, h⟩ := bind_eq_ok.1 h
  obtain ⟨c, h2, h⟩ := bind_eq_ok.1 h
  obtain ⟨s, h3, h⟩ := bind_eq_ok.1 h
  have h3 : (if (ls : Int) < 0 then .error .type else npSubsampleFourier c (2 ^ (ls : Int).toNat)) = Except.ok s := h3
  rw [if_neg (by omega), Int.toNat_natCast] at h3
  have hs : Core1D.lowpass npBackend phi (npRfft x) 0 (ls - 0) = .ok z :=
    bind_eq_ok.2 ⟨f, h1, bind_eq_ok.2 ⟨c, h2, bind_eq_ok.2 ⟨s, h3, h⟩⟩⟩
  obtain ⟨a1, a2⟩ := S_closed hf (Nat.zero_le ls) (x := x) (g := fun m => x.getD m.toNat 0)
    (by simp) (by intro t _; simp) hs
  refine ⟨a1, fun t ht => ?_⟩
  rw [a2 t ht, he]
  unfold Spec.S0
  simp

theorem getD_of_forall₂ {α β : Type} {R : List α → β → Prop} {l : List (List α)} {m : List β}
    (h : List.Forall₂ R l m) {i : Nat} (hi : i < l.length) : ∃ w, m[i]? = some w ∧ R (l.getD i []) w := by
  obtain ⟨w, hw, hr⟩ := forall₂_get' h (List.getElem?_eq_getElem hi)
  refine ⟨w, hw, ?_⟩
  rw [List.getD_eq_getElem?_getD, List.getElem?_eq_getElem hi]
  exact hr

/-- The stacks of `time_scattering_widthfirst`. -/
theorem widthFirst_closed {phi : Filt (List ℝ)} {v : Spec.Wavelet} (hv : Realises phi v)
    {psi1 psi2 : List (Filt (List ℝ))} {W1 W2 : List Spec.Wavelet}
    (h1 : List.Forall₂ Realises psi1 W1) (h2 : List.Forall₂ Realises psi2 W2) {x : List ℝ} {ls : Nat}
    {avg : Bool} {t : List ℝ × TPath (Img ℝ) × List (TPath (Img ℂ))}
    (h : widthFirst npJ x phi psi1 psi2 ls avg = .ok t) :
    (zeroth npJ phi ls avg x (npRfft x) = .ok t.1) ∧
    (∃ S, t.2.1 = ⟨S, [-1], [-1], W1.length⟩ ∧ S.w * 2 ^ ls = x.length ∧
      Is S W1.length S.w (Spec.rows1 x W1 v.1 (sub1 ls avg) ls)) ∧
    (∀ X ∈ t.2.2, ∃ (n2 : Nat) (w2 : Spec.Wavelet), W2[n2]? = some w2 ∧ X.j = [-1, (w2.2 : Int)] ∧ X.n = [-1, (n2 : Int)] ∧
      X.n1Max = (below W1 w2.2).length ∧ below W1 w2.2 ≠ [] ∧
      (∀ w ∈ below W1 w2.2, X.coef.w * 2 ^ (sub1 ls avg w.2 + sub2 ls avg w.2 w2.2) = x.length) ∧
      Is X.coef (below W1 w2.2).length X.coef.w (rows2' x (below W1 w2.2) w2.1 ls avg w2.2)) := by
  obtain ⟨U0hat, l, S1, e0, hz, hl, hS, ht, hY⟩ := widthFirst_eq_ok npJ h
  have e0 : U0hat = npRfft x := by injection e0 with e0; exact e0.symm
  subst e0
  obtain ⟨r1, r2⟩ := firsts_closed hv h1 (mapM_eq_ok.1 hl)
  refine ⟨hz, ⟨S1, ?_, ?_, ?_⟩, ?_⟩
  · rw [ht, ← r2.length_eq, List.length_map]
  · obtain ⟨hne, hlen, -⟩ := Is.stack hS
    obtain ⟨a, ha⟩ := List.exists_mem_of_ne_nil _ hne
    obtain ⟨w, -, hw⟩ := forall₂_mem_left r2 ha
    rw [← hlen a ha]
    exact hw.2.1
  · obtain ⟨-, hlen, his⟩ := Is.stack hS
    rw [← r2.length_eq]
    refine his.congr fun i t hi ht => ?_
    obtain ⟨w, hw, hr⟩ := getD_of_forall₂ r2 hi
    unfold Spec.rows1
    rw [hw]
    refine hr.2.2 t ?_
    rw [hlen _ ?_]
    · exact ht
    · rw [List.getD_eq_getElem?_getD, List.getElem?_eq_getElem hi]
      exact List.getElem_mem hi
  · intro X hX
    obtain ⟨n2, f2, o, hf2, ho, hXo⟩ := (Core1D.forEnum_mem hY X).1 hX
    obtain ⟨w2, hw2, hr⟩ := forall₂_get' h2 hf2
    obtain ⟨ys, hys, hcase⟩ := stack2_eq_ok npJ ho
    rcases hcase with ⟨-, rfl⟩ | ⟨hne, Y, hstk, rfl⟩
    · cases hXo
    · rw [List.mem_singleton] at hXo
      subst hXo
      have hfil : List.Forall₂ (Row x ls avg)
          ((List.zip (psi1.map fun p => p.j) (l.map Prod.fst)).filter fun u => decide (f2.j > u.1))
          (below W1 f2.j) := by
        refine List.rel_filter (R := Row x ls avg) ?_ r1
        intro u w huw
        simp [huw.1]
      have hsec := seconds_closed hr hfil (mapM_eq_ok.1 hys)
      rw [← hr.1] at hsec ⊢
      obtain ⟨-, hlen, his⟩ := Is.stack hstk
      refine ⟨n2, w2, hw2, rfl, rfl, hsec.length_eq, ?_, ?_, ?_⟩
      · intro he
        rw [he] at hsec
        cases hsec
        exact hne rfl
      · intro w hw
        obtain ⟨y, hy, hyw⟩ := forall₂_mem_right hsec hw
        rw [← hlen y hy]
        exact hyw.1
      · rw [← hsec.length_eq]
        refine his.congr fun i t hi ht => ?_
        obtain ⟨w, hw, hrw⟩ := getD_of_forall₂ hsec hi
        unfold rows2'
        rw [hw]
        refine hrw.2 t ?_
        rw [hlen _ ?_]
        · exact ht
        · rw [List.getD_eq_getElem?_getD, List.getElem?_eq_getElem hi]
          exact List.getElem_mem hi

/-- What is known of a path before averaging: rows on the grid of step `2^k` of the `N` padded
frequencies, `T` columns. -/
structure Pre (N lsFr : Nat) (avgFr : Bool) (psisFr : List (FiltFr (List ℝ)))
    (ω : FiltFr (List ℝ) → Spec.Wavelet)
    (n1 T : Nat) (Y : Nat → Nat → ℂ) (j : List Int) (n : List Int) (p : FPath (Img ℂ)) : Prop where
  ex : ∃ i psi, psisFr[i]? = some psi ∧ p.nFr = i ∧
    p.n = n ++ [(i : Int)] ∧ p.jFr = psi.j ∧ p.spin = psi.spin ∧ p.n1Stride = 2 ^ psi.j ∧
    ∃ H, H * 2 ^ subFr lsFr avgFr psi.j = N ∧
      Is p.coef H T (Spec.frConv n1 Y (ω psi).1 (subFr lsFr avgFr psi.j))
  hj : p.j = j
  hn1 : p.n1Max = n1

theorem toNat_sub {N n : Nat} (h : 0 ≤ (N : Int) - n) : n + ((N : Int) - n).toNat = N := by omega

theorem frequency_closed {N lsFr : Nat} {avgFr : Bool} {psisFr : List (FiltFr (List ℝ))}
    {ω : FiltFr (List ℝ) → Spec.Wavelet} (hW : ∀ f ∈ psisFr, RealisesFr f (ω f)) {j n : List Int} {n1 T : Nat}
    {Y : Nat → Nat → ℂ} {X Xp : Img ℂ} (hX : Is X n1 T Y)
    (hp : padFrequencyImg X.swap ((N : Int) - n1) = .ok Xp) {out : List (FPath (Img ℂ))}
    (h : Core1D.forEnum (frBody npJ lsFr avgFr j n n1 (rowDft Xp)) psisFr 0 = .ok out)
    {p : FPath (Img ℂ)} (hpo : p ∈ out) : Pre N lsFr avgFr psisFr ω n1 T Y j n.tail p := by
  obtain ⟨i, psi, o, hi, ho, hpo⟩ := (Core1D.forEnum_mem h p).1 hpo
  have hr := hW psi (List.mem_of_getElem? hi)
  obtain ⟨h0, hpad⟩ := hX.swap.pad hp
  obtain ⟨H, Z, hH, hZ, rfl⟩ := frBody_closed hr hpad ho
  rw [List.mem_singleton] at hpo
  subst hpo
  rw [toNat_sub h0] at hH
  exact ⟨⟨i, psi, hi, rfl, rfl, rfl, rfl, rfl, H, hH, hZ⟩, rfl, rfl⟩

theorem rowDft_map_swap {X Xp : Img ℝ} {p : Int} (h : padFrequencyImg X.swap p = .ok Xp) :
    padFrequencyImg (X.map fun r : ℝ => (r : ℂ)).swap p = .ok (Xp.map fun r : ℝ => (r : ℂ)) := by
  unfold padFrequencyImg at *
  split at h
  · cases h
  · rename_i hp
    rw [if_neg hp]
    injection h with h
    subst h
    congr 1
    unfold Img.map Img.swap Img.tab
    simp only [Img.mk.injEq, true_and]
    funext i t
    by_cases h1 : i < X.w ∧ t < X.h + p.toNat
    · simp only [if_pos h1]
      by_cases h2 : t < X.h
      · simp [h1.1, h2]
      · simp [h2]
    · simp only [if_neg h1]

/-- The filters with nonnegative centre frequency. -/
def upward (psisFr : List (FiltFr (List ℝ))) : List (FiltFr (List ℝ)) :=
  psisFr.filter fun p => decide (0 ≤ p.spin)

theorem joint_closed {phi : Filt (List ℝ)} {v : Spec.Wavelet} (hv : Realises phi v)
    {psi1 psi2 : List (Filt (List ℝ))} {W1 W2 : List Spec.Wavelet}
    (h1 : List.Forall₂ Realises psi1 W1) (h2 : List.Forall₂ Realises psi2 W2)
    {phiFr : PhiFr (List ℝ)} {psisFr : List (FiltFr (List ℝ))} {ω : FiltFr (List ℝ) → Spec.Wavelet}
    (hW : ∀ f ∈ psisFr, RealisesFr f (ω f)) {x : List ℝ} {ls lsFr : Nat} {avg avgFr : Bool}
    {g : List ℝ × List (FPath (Img ℂ))}
    (h : joint npJ x phi psi1 psi2 ls avg phiFr psisFr lsFr avgFr = .ok g) :
    zeroth npJ phi ls avg x (npRfft x) = .ok g.1 ∧
    ∀ p ∈ g.2,
      (∃ T, T * 2 ^ ls = x.length ∧ Pre phiFr.N lsFr avgFr (upward psisFr) ω W1.length T
        (fun m t => (Spec.rows1 x W1 v.1 (sub1 ls avg) ls m t : ℂ)) [-1] [] p) ∨
      (∃ (n2 : Nat) (w2 : Spec.Wavelet) (T : Nat), W2[n2]? = some w2 ∧ below W1 w2.2 ≠ [] ∧
        (∀ w ∈ below W1 w2.2, T * 2 ^ (sub1 ls avg w.2 + sub2 ls avg w.2 w2.2) = x.length) ∧
        Pre phiFr.N lsFr avgFr psisFr ω (below W1 w2.2).length T
          (rows2' x (below W1 w2.2) w2.1 ls avg w2.2) [-1, (w2.2 : Int)] [(n2 : Int)] p) := by
  obtain ⟨t, y1, y2, ht, hy1, hy2, rfl⟩ := joint_eq_ok npJ h
  obtain ⟨hz, ⟨S, hS, hSw, hSi⟩, hX⟩ := widthFirst_closed hv h1 h2 ht
  refine ⟨hz, fun p hp => ?_⟩
  rcases List.mem_append.1 hp with hp | hp
  · left
    obtain ⟨XT, Xp, Xhat, e1, e2, e3, hf⟩ := frequencyReal_eq_ok npJ hy1
    rw [hS] at e1 e2 hf
    have e1 : XT = S.swap := by injection e1 with e1; exact e1.symm
    have e3 : Xhat = rowDft (Xp.map fun r : ℝ => (r : ℂ)) := by injection e3 with e3; exact e3.symm
    subst e1 e3
    refine ⟨S.w, hSw, ?_⟩
    exact frequency_closed (fun f hf => hW f (List.mem_filter.1 hf).1)
      (hSi.map fun r : ℝ => (r : ℂ)) (rowDft_map_swap e2) hf hp
  · right
    obtain ⟨o, ho, hp⟩ := List.mem_flatten.1 hp
    obtain ⟨X, hXm, hXo⟩ := forall₂_mem_right (mapM_eq_ok.1 hy2) ho
    obtain ⟨n2, w2, hw2, a1, a2, a3, a0, a4, a5⟩ := hX X hXm
    obtain ⟨XT, Xp, Xhat, e1, e2, e3, hf⟩ := frequencyComplex_eq_ok npJ hXo
    have e1 : XT = X.coef.swap := by injection e1 with e1; exact e1.symm
    have e3 : Xhat = rowDft Xp := by injection e3 with e3; exact e3.symm
    subst e1 e3
    rw [a3] at e2 hf
    rw [a1, a2] at hf
    exact ⟨n2, w2, X.coef.w, hw2, a0, a4, frequency_closed hW a5 e2 hf hp⟩

/-! ## Averaging -/

/-- Averaging of the rows of a real stack by a level of a low-pass. -/
theorem smooth_closed {U b : Img ℝ} {c s : Img ℂ} {h w k ls : Nat} {g : Nat → Nat → ℝ} {phi : Filt (List ℝ)}
    {hphi : List ℝ} (hf : FromFull phi hphi) {f : List ℝ} (hl : phi.levels[k]? = some f) (H : Is U h w g)
    (hc : rowCdgmm (rowDft (U.map fun r : ℝ => (r : ℂ))) f = .ok c)
    (hs : rowSubsample c ((ls : Int) - k) = .ok s) (hb : b = (rowIdft s).map Complex.re) :
    k ≤ ls ∧ w * 2 ^ k = hphi.length ∧ b.w * 2 ^ (ls - k) = w ∧
      Is b h b.w fun r t => Spec.smooth w k ls (Spec.impulseR hphi) (g r) t := by
  subst hb
  obtain ⟨h1, h2, h3, h4⟩ := (H.map fun r : ℝ => (r : ℂ)).filter hc hs
  have e : ((ls : Int) - k).toNat = ls - k := by omega
  rw [e] at h3 h4
  have hk : k ≤ ls := by omega
  refine ⟨hk, by rw [← h2]; exact hf.length hl, h3, ?_⟩
  refine (h4.map Complex.re).congr fun r t _ _ => ?_
  unfold Spec.smooth
  congr 1
  refine Finset.sum_congr rfl fun m _ => ?_
  rw [hf.impulse hl]
  congr 3
  rw [sub_mul, mul_assoc, ← pow_add]
  have : ls - k + k = ls := by omega
  rw [this]
  ring

/-- Temporal averaging: `T` columns on the grid of step `2^k`.  With local averaging the first order is
already averaged. -/
noncomputable def timeAvg (a : Average) (second : Bool) (T k ls : ℕ) (φ : ℤ → ℂ) (U : ℕ → ℕ → ℝ) (r t : ℕ) : ℝ :=
  match a, second with
  | .glob, _ => ∑ s ∈ range T, U r s
  | .loc, true => Spec.smooth T k ls φ (U r) t
  | _, _ => U r t

/-- Number of columns after temporal averaging. -/
def timeCols (a : Average) (second : Bool) (T N ls : ℕ) : ℕ :=
  match a, second with
  | .glob, _ => 1
  | .loc, true => N / 2 ^ ls
  | _, _ => T

/-- Frequential averaging: `H` rows on the grid of step `2^k`. -/
noncomputable def freqAvg (a : Average) (spin : ℤ) (H k lsFr : ℕ) (φ : ℤ → ℂ) (U : ℕ → ℕ → ℝ) (r t : ℕ) : ℝ :=
  if a = .no ∨ spin = 0 then U r t
  else if a = .glob then ∑ s ∈ range H, U s t
  else Spec.smooth H k lsFr φ (fun s => U s t) r

/-- Number of rows after frequential averaging. -/
def freqRows (a : Average) (spin : ℤ) (N k lsFr : ℕ) : ℕ :=
  if a = .no ∨ spin = 0 then N / 2 ^ k else if a = .glob then 1 else N / 2 ^ lsFr

/-- The frequential stride carried by a path. -/
def freqStride (a : Average) (spin : ℤ) (j n1 lsFr : ℕ) : ℕ :=
  if a = .no ∨ spin = 0 then 2 ^ j else if a = .glob then n1 else 2 ^ lsFr

theorem Is.average {U : Img ℝ} {h w : Nat} {g : Nat → Nat → ℝ} (H : Is U h w g) :
    Is (rowAverage U) h 1 fun r _ => ∑ s ∈ range w, g r s := by
  obtain ⟨rfl, rfl, H⟩ := H
  refine ⟨rfl, rfl, fun i t hi ht => (Img.px_tab' hi ht).trans ?_⟩
  exact Finset.sum_congr rfl fun s hs => H i s hi (Finset.mem_range.1 hs)

theorem averageFreq_closed {phiFr : PhiFr (List ℝ)} {vFr : ℤ → ℂ} (hv : RealisesPhi phiFr vFr)
    {lsFr : Nat} {a : Average} {p : FPath (Img ℂ)} {U : Img ℝ} {S : Img ℝ × Nat} {k H T : Nat}
    {g : Nat → Nat → ℝ} (hH : H * 2 ^ k = phiFr.N) (hU : Is U H T g) (hst : p.n1Stride = 2 ^ p.jFr)
    (h : averageFreq npJ phiFr lsFr a p U = .ok S) :
    S.2 = freqStride a p.spin p.jFr p.n1Max lsFr ∧
      Is S.1 (freqRows a p.spin phiFr.N k lsFr) T (freqAvg a p.spin (phiFr.N / 2 ^ k) k lsFr vFr g) := by
  have hHd := length_div_of_mul hH
  unfold averageFreq at h
  unfold freqStride freqRows freqAvg
  by_cases hc : a = .no ∨ p.spin = 0
  · rw [if_neg (by rintro ⟨h1, h2⟩; rcases hc with hc | hc; exacts [h1 hc, h2 hc])] at h
    injection h with h
    subst h
    simp only [if_pos hc, hHd]
    exact ⟨hst, hU⟩
  · rw [if_pos ⟨fun h => hc (.inl h), fun h => hc (.inr h)⟩] at h
    simp only [if_neg hc]
    unfold frequencyAveraging at h
    obtain ⟨UT, hUT, h⟩ := bind_eq_ok.1 h
    have hUT : UT = U.swap := by injection hUT with hUT; exact hUT.symm
    subst hUT
    by_cases hg : a = .glob
    · subst hg
      rw [if_pos (by simp)] at h
      obtain ⟨A, hA, h⟩ := bind_eq_ok.1 h
      obtain ⟨A', hA', h⟩ := bind_eq_ok.1 h
      injection h with h
      injection hA with hA
      injection hA' with hA'
      subst h hA' hA
      simp only [if_true, hHd]
      exact ⟨trivial, hU.swap.average.swap⟩
    · rw [if_neg (by simpa using hg)] at h
      simp only [if_neg hg]
      obtain ⟨hh, h1, h⟩ := bind_eq_ok.1 h
      obtain ⟨f, h2, h⟩ := bind_eq_ok.1 h
      obtain ⟨c, h3, h⟩ := bind_eq_ok.1 h
      obtain ⟨s, h4, h⟩ := bind_eq_ok.1 h
      obtain ⟨A, h5, h⟩ := bind_eq_ok.1 h
      obtain ⟨A', h6, h⟩ := bind_eq_ok.1 h
      injection h with h
      injection h1 with h1
      injection h5 with h5
      injection h6 with h6
      subst h h6 h1
      obtain ⟨hphi, hN, hfull, rfl⟩ := hv
      obtain ⟨b1, b2, b3, b4⟩ := smooth_closed hfull (listGet_eq_ok.1 h2) hU.swap h3 h4 h5.symm
      refine ⟨rfl, ?_⟩
      have hrows : phiFr.N / 2 ^ lsFr = A.w := by
        rw [← hN, ← b2, ← b3, mul_assoc, ← pow_add, Nat.sub_add_cancel b1,
          Nat.mul_div_cancel _ (by positivity)]
      rw [hrows, hHd]
      refine b4.swap.congr fun r t hr _ => ?_
      have hHpos : 0 < H := by rw [← b3]; exact Nat.mul_pos (by omega) (by positivity)
      have hkk : min p.jFr phiFr.j = k := by
        have : H * 2 ^ min p.jFr phiFr.j = H * 2 ^ k := by rw [b2, hN, hH]
        exact Nat.pow_right_injective (le_refl 2) (Nat.eq_of_mul_eq_mul_left hHpos this)
      rw [hkk]

theorem sub_collapse {ls j1 j2 : Nat} {avg : Bool} (h : avg = true → j2 ≤ ls) (hj : j1 < j2) :
    sub1 ls avg j1 = j1 ∧ sub1 ls avg j1 + sub2 ls avg j1 j2 = j2 := by
  unfold sub1 sub2 sub1
  cases avg with
  | false => simp; omega
  | true =>
    have := h rfl
    simp only [if_true]
    omega

theorem rows2'_eq {x : List ℝ} {W : List Spec.Wavelet} {ψ2 : ℤ → ℂ} {ls j2 : Nat} {avg : Bool}
    (h : avg = true → j2 ≤ ls) : rows2' x (below W j2) ψ2 ls avg j2 = Spec.rows2 x (below W j2) ψ2 j2 := by
  funext m t
  unfold rows2' Spec.rows2
  cases hm : (below W j2)[m]? with
  | none => rfl
  | some w =>
    have hw : w.2 < j2 := of_decide_eq_true (List.mem_filter.1 (List.mem_of_getElem? hm)).2
    obtain ⟨h1, h2⟩ := sub_collapse h hw
    simp only [h2]
    rw [h1]

theorem averageTime_second {phi : Filt (List ℝ)} {v : Spec.Wavelet} (hv : Realises phi v) {ls N j2 H T : Nat}
    {a : Average} {p : FPath (Img ℂ)} {U U' : Img ℝ} {g : Nat → Nat → ℝ} (hj : p.j = [-1, (j2 : Int)])
    (hn : 1 < p.n.length) (hU : Is U H T g) (h : averageTime npJ phi ls a p U = .ok U') :
    (a = .loc → j2 ≤ ls) ∧ (T * 2 ^ j2 = N →
      Is U' H (timeCols a true T N ls) (timeAvg a true T j2 ls v.1 g)) := by
  unfold averageTime at h
  cases a with
  | glob =>
    rw [if_pos rfl] at h
    injection h with h
    subst h
    exact ⟨(fun h => by cases h), fun _ => hU.average⟩
  | no =>
    rw [if_neg (by decide), if_neg (by rintro ⟨h, -⟩; cases h)] at h
    injection h with h
    subst h
    exact ⟨(fun h => by cases h), fun _ => hU⟩
  | loc =>
    rw [if_neg (by decide), if_pos ⟨rfl, hn⟩] at h
    unfold timeAveraging at h
    rw [hj] at h
    obtain ⟨hh, h1, h⟩ := bind_eq_ok.1 h
    obtain ⟨f, h2, h⟩ := bind_eq_ok.1 h
    obtain ⟨c, h3, h⟩ := bind_eq_ok.1 h
    obtain ⟨s, h4, h5⟩ := bind_eq_ok.1 h
    injection h1 with h1
    injection h5 with h5
    subst h1
    obtain ⟨-, hphi, hfull, he⟩ := hv
    have h2 : listGetI phi.levels (j2 : Int) = .ok f := h2
    unfold listGetI at h2
    rw [if_pos (by omega), Int.toNat_natCast] at h2
    have h4 : rowSubsample c ((ls : Int) - (j2 : Nat)) = .ok s := h4
    obtain ⟨b1, b2, b3, b4⟩ := smooth_closed hfull (listGet_eq_ok.1 h2) hU h3 h4 h5.symm
    refine ⟨fun _ => b1, fun hN => ?_⟩
    have hcols : timeCols .loc true T N ls = U'.w := by
      unfold timeCols
      rw [← hN, ← b3, mul_assoc, ← pow_add, Nat.sub_add_cancel b1, Nat.mul_div_cancel _ (by positivity)]
    rw [hcols]
    unfold timeAvg
    rw [he]
    exact b4

theorem averageTime_first {phi : Filt (List ℝ)} {ls N H T k : Nat} {φ : ℤ → ℂ}
    {a : Average} {p : FPath (Img ℂ)} {U U' : Img ℝ} {g : Nat → Nat → ℝ}
    (hn : p.n.length = 1) (hU : Is U H T g) (h : averageTime npJ phi ls a p U = .ok U') :
    Is U' H (timeCols a false T N ls) (timeAvg a false T k ls φ g) := by
  unfold averageTime at h
  cases a with
  | glob =>
    rw [if_pos rfl] at h
    injection h with h
    subst h
    exact hU.average
  | no =>
    rw [if_neg (by decide), if_neg (by rintro ⟨h, -⟩; cases h)] at h
    injection h with h
    subst h
    exact hU
  | loc =>
    rw [if_neg (by decide), if_neg (by rintro ⟨-, h⟩; omega)] at h
    injection h with h
    subst h
    exact hU

/-- How the rows `B 0, ..., B (H-1)` of a path of index `n` appear in the output.  Joint format: one stack
under the key `n`, cut to `1 + n1 // s` rows unless it goes into an array.  Time format: row `i` under the
key `(i * s,) + n`, for every `i` with `i * s < n1`. -/
def Entry (fmt : Format) (arrayOut : Bool) (n : List Int) (n1 s H T : Nat) (B : ℕ → ℕ → ℝ)
    (q : JPath (List ℝ) (Img ℝ)) : Prop :=
  match fmt with
  | .joint => q.n = n ∧ ∃ X, q.coef = .stk X ∧ Is X (if arrayOut then H else min H (1 + n1 / s)) T B
  | .time => ∃ i : ℕ, i * s < n1 ∧ i < H ∧ q.n = ((i * s : ℕ) : ℤ) :: n ∧
      ∃ y, q.coef = .sig y ∧ y.length = T ∧ ∀ t, t < T → y.getD t 0 = B i t
  | .other => False

theorem format_closed {fmt : Format} {arrayOut : Bool} {j n : List Int} {n1 jFr nFr s H T : Nat} {spin : Int}
    {B : ℕ → ℕ → ℝ} {S S' : Img ℝ} (hS : Is S H T B) (h1 : unpadFr npJ arrayOut fmt n1 s S = .ok S')
    {out : List (JPath (List ℝ) (Img ℝ))}
    (h2 : formatPath npJ fmt ⟨S', j, n, n1, jFr, nFr, s, spin⟩ = .ok out)
    {q : JPath (List ℝ) (Img ℝ)} (hq : q ∈ out) : Entry fmt arrayOut n n1 s H T B q := by
  have unpad : ¬ (arrayOut = true ∧ fmt = .joint) → s ≠ 0 ∧ Is S' (min H (1 + n1 / s)) T B := by
    intro hc
    unfold unpadFr at h1
    rw [if_pos hc] at h1
    have h1 : unpadFrequencyImg S n1 s = .ok S' := h1
    unfold unpadFrequencyImg at h1
    split at h1
    · cases h1
    · rename_i hs
      injection h1 with h1
      subst h1
      obtain ⟨rfl, rfl, hS⟩ := hS
      exact ⟨hs, rfl, rfl, fun i t hi ht => (Img.px_tab' hi ht).trans (hS i t (by omega) ht)⟩
  cases fmt with
  | other =>
    injection h2 with h2
    subst h2
    cases hq
  | joint =>
    injection h2 with h2
    subst h2
    rw [List.mem_singleton] at hq
    subst hq
    refine ⟨rfl, S', rfl, ?_⟩
    cases arrayOut with
    | false => exact (unpad (by simp)).2
    | true =>
      unfold unpadFr at h1
      rw [if_neg (by simp)] at h1
      injection h1 with h1
      subst h1
      exact hS
  | time =>
    obtain ⟨hs, hr, hw, hpx⟩ := unpad (by simp)
    obtain ⟨l, hl, hf⟩ := timeFormatting_eq_ok npJ h2
    have hl : l = splitImg S' := by injection hl with hl; exact hl.symm
    subst hl
    obtain ⟨⟨m, i⟩, hmi, c, hc, rfl⟩ := forall₂_mem_right hf hq
    have hmi := List.mem_zipIdx_iff_getElem?.1 hmi
    obtain ⟨hm, hi⟩ := n1Range_getElem? hmi
    simp only at hm hi hc
    subst hm
    rw [lt_ceil_iff (by omega)] at hi
    unfold splitImg tab at hc
    rw [List.getElem?_map] at hc
    obtain ⟨i', hi', rfl⟩ := Option.map_eq_some_iff.1 hc
    obtain ⟨hlt, hii⟩ := List.getElem?_eq_some_iff.1 hi'
    rw [List.getElem_range] at hii
    rw [List.length_range] at hlt
    subst hii
    refine ⟨i, hi, by omega, rfl, _, rfl, ?_, fun t ht => ?_⟩
    · simp [hw]
    · have := hpx i t (by omega) ht
      rw [← this]
      exact getD_tab_lt (by omega)

/-- The rows of a first-order path: frequential wavelet modulus of the first-order coefficients, then the
two averagings. -/
noncomputable def firstRows (o : JObj (List ℝ)) (x : List ℝ) (W1 : List Spec.Wavelet) (φ φFr ψFr : ℤ → ℂ)
    (ls lsFr : ℕ) (psi : FiltFr (List ℝ)) : ℕ → ℕ → ℝ :=
  let k := if o.averageFr = .loc then min psi.j lsFr else psi.j
  let k1 := fun j => if o.average = .loc then min j ls else j
  freqAvg o.averageFr psi.spin (o.phiFr.N / 2 ^ k) k lsFr φFr
    (timeAvg o.average false (x.length / 2 ^ ls) 0 ls φ fun r t =>
      ‖Spec.frConv W1.length (fun m t => (Spec.rows1 x W1 φ k1 ls m t : ℂ)) ψFr k r t‖)

/-- The rows of a second-order path of scale `j2`: joint wavelet modulus, then the two averagings. -/
noncomputable def secondRows (o : JObj (List ℝ)) (x : List ℝ) (W1 : List Spec.Wavelet) (φ φFr ψ2 ψFr : ℤ → ℂ)
    (ls lsFr j2 : ℕ) (psi : FiltFr (List ℝ)) : ℕ → ℕ → ℝ :=
  let k := if o.averageFr = .loc then min psi.j lsFr else psi.j
  freqAvg o.averageFr psi.spin (o.phiFr.N / 2 ^ k) k lsFr φFr
    (timeAvg o.average true (x.length / 2 ^ j2) j2 ls φ fun r t =>
      ‖Spec.frConv (below W1 j2).length (Spec.rows2 x (below W1 j2) ψ2 j2) ψFr k r t‖)

theorem subFr_eq (lsFr j : Nat) (a : Average) :
    subFr lsFr (decide (a = .loc)) j = if a = .loc then min j lsFr else j := by
  unfold subFr
  by_cases h : a = .loc <;> simp [h]

theorem sub1_eq (ls : Nat) (a : Average) :
    sub1 ls (decide (a = .loc)) = fun j => if a = .loc then min j ls else j := by
  funext j
  unfold sub1
  by_cases h : a = .loc <;> simp [h]

/-- **C72.** Whenever joint time-frequency scattering of the padded signal `x` returns, every coefficient
has its closed form.  `v`, `W1`, `W2`, `vFr`, `ω` name the full-rate filters from which the tables were
built. -/
theorem C72_closed_form {o : JObj (List ℝ)} {v : Spec.Wavelet} (hv : Realises o.phi v)
    {W1 W2 : List Spec.Wavelet} (h1 : List.Forall₂ Realises o.psi1 W1) (h2 : List.Forall₂ Realises o.psi2 W2)
    {vFr : ℤ → ℂ} (hvFr : RealisesPhi o.phiFr vFr) {ω : FiltFr (List ℝ) → Spec.Wavelet}
    (hω : ∀ f ∈ o.psisFr, RealisesFr f (ω f)) {x : List ℝ} {ls lsFr : Nat}
    {out : List (JPath (List ℝ) (Img ℝ))} (h : FrontJ.paths npJ o ls lsFr x = .ok out)
    {q : JPath (List ℝ) (Img ℝ)} (hq : q ∈ out) :
    (q.n = [] ∧ ∃ z, q.coef = .sig z ∧
      match o.average with
      | .loc => z.length * 2 ^ ls = x.length ∧ ∀ t, t < z.length → z.getD t 0 = Spec.S0 x v.1 ls t
      | .glob => z = [x.sum]
      | .no => z = x) ∨
    (∃ (i : ℕ) (psi : FiltFr (List ℝ)), (upward o.psisFr)[i]? = some psi ∧
      Entry o.fmt (decide (o.outType = .array)) [(i : ℤ)] W1.length
        (freqStride o.averageFr psi.spin psi.j W1.length lsFr)
        (freqRows o.averageFr psi.spin o.phiFr.N (if o.averageFr = .loc then min psi.j lsFr else psi.j) lsFr)
        (timeCols o.average false (x.length / 2 ^ ls) x.length ls)
        (firstRows o x W1 v.1 vFr (ω psi).1 ls lsFr psi) q) ∨
    (∃ (n2 i : ℕ) (w2 : Spec.Wavelet) (psi : FiltFr (List ℝ)), W2[n2]? = some w2 ∧ o.psisFr[i]? = some psi ∧
      below W1 w2.2 ≠ [] ∧ (o.average = .loc → w2.2 ≤ ls) ∧
      Entry o.fmt (decide (o.outType = .array)) [(n2 : ℤ), (i : ℤ)] (below W1 w2.2).length
        (freqStride o.averageFr psi.spin psi.j (below W1 w2.2).length lsFr)
        (freqRows o.averageFr psi.spin o.phiFr.N (if o.averageFr = .loc then min psi.j lsFr else psi.j) lsFr)
        (timeCols o.average true (x.length / 2 ^ w2.2) x.length ls)
        (secondRows o x W1 v.1 vFr w2.1 (ω psi).1 ls lsFr w2.2 psi) q) := by
  unfold FrontJ.paths at h
  obtain ⟨g, hg, h⟩ := bind_eq_ok.1 h
  obtain ⟨z, l, hz, hl, rfl⟩ := averageAndFormat_eq_ok npJ h
  obtain ⟨hz0, hP⟩ := joint_closed hv h1 h2 hω hg
  rcases List.mem_cons.1 hq with rfl | hq
  · left
    refine ⟨rfl, z, rfl, ?_⟩
    unfold averageZeroth at hz
    cases ha : o.average with
    | loc =>
      rw [ha] at hz hz0
      injection hz with hz
      rw [hz] at hz0
      exact zeroth_closed hv hz0
    | glob =>
      rw [ha] at hz hz0
      rw [if_pos rfl] at hz
      injection hz with hz
      injection hz0 with hz0
      rw [← hz, ← hz0]
      rfl
    | no =>
      rw [ha] at hz hz0
      injection hz with hz
      injection hz0 with hz0
      exact (hz0.trans hz).symm
  · right
    obtain ⟨r, hr, hqr⟩ := List.mem_flatten.1 hq
    obtain ⟨p, hp, hpr⟩ := forall₂_mem_right (mapM_eq_ok.1 hl) hr
    obtain ⟨U, U', S, S', b1, b2, b3, -, b5, b6⟩ := averageBody_eq_ok npJ hpr
    have b1 : U = p.coef.map fun z => ‖z‖ := by injection b1 with b1; exact b1.symm
    subst b1
    rcases hP p hp with ⟨T, hT, hpre⟩ | ⟨n2, w2, T, hw2, hne, hT, hpre⟩
    · left
      obtain ⟨⟨i, psi, c1, c2, c3, c4, c5, c6, H, c7, c8⟩, cj, cn⟩ := hpre
      rw [List.nil_append] at c3
      refine ⟨i, psi, c1, ?_⟩
      have d1 := averageTime_first (N := x.length) (k := 0) (φ := v.1) (by rw [c3]; rfl)
        (c8.map fun z => ‖z‖) b2
      obtain ⟨d2, d3⟩ := averageFreq_closed hvFr c7 d1 (by rw [c6, c4]) b3
      rw [c5, c4, cn] at d2
      rw [c5] at d3
      have d4 := format_closed d3 b5 b6 hqr
      rw [c3, cn, d2, subFr_eq, sub1_eq, ← length_div_of_mul hT] at d4
      exact d4
    · right
      obtain ⟨⟨i, psi, c1, c2, c3, c4, c5, c6, H, c7, c8⟩, cj, cn⟩ := hpre
      obtain ⟨d0, d1⟩ := averageTime_second (N := x.length) hv cj (by rw [c3]; simp)
        (c8.map fun z => ‖z‖) b2
      have hav : decide (o.average = .loc) = true → w2.2 ≤ ls := fun h => d0 (of_decide_eq_true h)
      have hTj : T * 2 ^ w2.2 = x.length := by
        obtain ⟨w, hw⟩ := List.exists_mem_of_ne_nil _ hne
        have hlt : w.2 < w2.2 := of_decide_eq_true (List.mem_filter.1 hw).2
        rw [← hT w hw, (sub_collapse hav hlt).2]
      refine ⟨n2, i, w2, psi, hw2, c1, hne, d0, ?_⟩
      obtain ⟨d2, d3⟩ := averageFreq_closed hvFr c7 (d1 hTj) (by rw [c6, c4]) b3
      rw [c5, c4, cn] at d2
      rw [c5] at d3
      have d4 := format_closed d3 b5 b6 hqr
      rw [c3, cn, d2, subFr_eq, rows2'_eq hav, ← length_div_of_mul hTj] at d4
      exact d4

end Verif
