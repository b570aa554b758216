import Verif.Lemmas.MetaJTFS
import Verif.Props.ClosedForm1D
import Verif.Spec.JTFS

/-!
# The stack operations of the numpy backend, row by row
-/

namespace Verif

open Finset

namespace Img

variable {α β : Type}

/-- A row as a signal. -/
def row (x : Img α) (i : Nat) : List α := _root_.Verif.tab x.w fun t => x.px i t

@[simp] theorem length_row (x : Img α) (i : Nat) : (x.row i).length = x.w := by simp [row]

theorem getD_row {x : Img α} {i t : Nat} {d : α} (ht : t < x.w) : (x.row i).getD t d = x.px i t :=
  getD_tab_lt ht

@[simp] theorem h_tab [Zero α] (h w : Nat) (f : Nat → Nat → α) : (Img.tab h w f).h = h := rfl
@[simp] theorem w_tab [Zero α] (h w : Nat) (f : Nat → Nat → α) : (Img.tab h w f).w = w := rfl

theorem px_tab' [Zero α] {h w : Nat} {f : Nat → Nat → α} {i j : Nat} (hi : i < h) (hj : j < w) :
    (Img.tab h w f).px i j = f i j := if_pos ⟨hi, hj⟩

theorem row_tab [Zero α] {h w : Nat} {f : Nat → Nat → α} {i : Nat} (hi : i < h) :
    (Img.tab h w f).row i = _root_.Verif.tab w (f i) := by
  unfold row
  exact tab_congr fun t ht => px_tab' hi ht

end Img

theorem row_dft {x : Img ℂ} {i : Nat} (hi : i < x.h) : (rowDft x).row i = dft (x.row i) := by
  unfold rowDft
  rw [Img.row_tab hi]
  unfold dft
  rw [Img.length_row]
  refine tab_congr fun k _ => ?_
  exact Finset.sum_congr rfl fun n hn => by rw [Img.getD_row (Finset.mem_range.1 hn)]

theorem row_idft {x : Img ℂ} {i : Nat} (hi : i < x.h) : (rowIdft x).row i = idft (x.row i) := by
  unfold rowIdft
  rw [Img.row_tab hi]
  unfold idft
  rw [Img.length_row]
  refine tab_congr fun k _ => ?_
  congr 1
  exact Finset.sum_congr rfl fun n hn => by rw [Img.getD_row (Finset.mem_range.1 hn)]

theorem row_cdgmm {A c : Img ℂ} {f : List ℝ} (h : rowCdgmm A f = .ok c) :
    A.w = f.length ∧ c.h = A.h ∧ c.w = A.w ∧ ∀ i, i < A.h → npCdgmm (A.row i) f = .ok (c.row i) := by
  unfold rowCdgmm at h
  split at h
  · cases h
  · rename_i hw
    rw [not_not] at hw
    injection h with h
    subst h
    refine ⟨hw, rfl, rfl, fun i hi => ?_⟩
    rw [npCdgmm_eq]
    refine ⟨by simp [hw], ?_⟩
    rw [Img.row_tab hi]
    apply list_ext_getD 0
    · simp [hw, toC]
    · intro t ht
      rw [length_tab] at ht
      rw [getD_tab_lt ht]
      have h1 : t < (A.row i).length := by simpa using ht
      have h2 : t < (toC f).length := by simp [toC, ← hw, ht]
      have e0 : (List.zipWith (fun x1 x2 => x1 * x2) (A.row i) (toC f)).getD t 0
          = (A.row i)[t] * (toC f)[t] := by
        rw [List.getD_eq_getElem?_getD, List.getElem?_zipWith, List.getElem?_eq_getElem h1,
          List.getElem?_eq_getElem h2]
        rfl
      refine Eq.trans ?_ e0.symm
      have e1 : (A.row i)[t] = A.px i t := by simp [Img.row, Verif.tab]
      have e2 : (toC f)[t] = ((f.getD t 0 : ℝ) : ℂ) := by
        rw [← getD_toC, List.getD_eq_getElem?_getD, List.getElem?_eq_getElem h2]; rfl
      rw [e1, e2]

theorem row_subsample {x y : Img ℂ} {e : Int} (h : rowSubsample x e = .ok y) :
    0 ≤ e ∧ y.h = x.h ∧ y.w * 2 ^ e.toNat = x.w ∧
      ∀ i, i < x.h → npSubsampleFourier (x.row i) (2 ^ e.toNat) = .ok (y.row i) := by
  unfold rowSubsample at h
  split at h
  · cases h
  · rename_i he
    split at h
    · cases h
    · rename_i hd
      rw [not_not] at hd
      injection h with h
      subst h
      refine ⟨by omega, rfl, by rw [mul_comm]; exact hd, fun i hi => ?_⟩
      unfold npSubsampleFourier
      rw [if_neg (by positivity), Img.length_row, if_neg (by rw [not_not]; exact hd), Img.row_tab hi]
      congr 1
      refine tab_congr fun m hm => ?_
      congr 1
      refine Finset.sum_congr rfl fun r hr => ?_
      rw [Img.getD_row]
      have h1 : r < 2 ^ e.toNat := Finset.mem_range.1 hr
      calc r * (x.w / 2 ^ e.toNat) + m < r * (x.w / 2 ^ e.toNat) + x.w / 2 ^ e.toNat := by omega
        _ = (r + 1) * (x.w / 2 ^ e.toNat) := by ring
        _ ≤ 2 ^ e.toNat * (x.w / 2 ^ e.toNat) := Nat.mul_le_mul_right _ h1
        _ = x.w := hd

/-- Filtering and subsampling every row of a complex stack. -/
theorem rowFilter {X a b : Img ℂ} {f : List ℝ} {e : Int} (ha : rowCdgmm (rowDft X) f = .ok a)
    (hb : rowSubsample a e = .ok b) :
    0 ≤ e ∧ f.length = X.w ∧ b.h = X.h ∧ b.w * 2 ^ e.toNat = X.w ∧
      ∀ i t, i < X.h → t < b.w → (rowIdft b).px i t =
        ∑ m ∈ range X.w, X.px i m * Spec.impulseR f ((t : ℤ) * 2 ^ e.toNat - m) := by
  obtain ⟨h1, h2, h3, h4⟩ := row_cdgmm ha
  obtain ⟨g1, g2, g3, g4⟩ := row_subsample hb
  have hw : (rowDft X).w = X.w := rfl
  have hh : (rowDft X).h = X.h := rfl
  rw [hw] at h1 h3
  rw [hh] at h2 h4
  refine ⟨g1, h1.symm, by rw [g2, h2], by rw [g3, h3], fun i t hi ht => ?_⟩
  have hia : i < a.h := by rw [h2]; exact hi
  have hib : i < b.h := by rw [g2]; exact hia
  have e1 : (rowIdft b).px i t = ((rowIdft b).row i).getD t 0 := (Img.getD_row (x := rowIdft b) ht).symm
  rw [e1, row_idft hib, getD_idft_imp _ (by simpa using ht), imp_subsample _ _ _ (g4 i hia)]
  have h5 := h4 i hi
  rw [row_dft hi] at h5
  obtain ⟨hl, he⟩ := (npCdgmm_eq _ _ _).1 h5
  rw [he, imp_mul_dft _ _ (by simpa [toC] using hl), Img.length_row]
  refine Finset.sum_congr rfl fun m hm => ?_
  rw [Img.getD_row (Finset.mem_range.1 hm)]
  push_cast
  rfl

/-- The entries of an array. -/
def Is {α : Type} (X : Img α) (h w : Nat) (g : Nat → Nat → α) : Prop :=
  X.h = h ∧ X.w = w ∧ ∀ i t, i < h → t < w → X.px i t = g i t

theorem Is.swap {α : Type} [Zero α] {X : Img α} {h w : Nat} {g : Nat → Nat → α} (H : Is X h w g) :
    Is X.swap w h fun i t => g t i := by
  obtain ⟨rfl, rfl, H⟩ := H
  exact ⟨rfl, rfl, fun i t hi ht => (Img.px_tab' hi ht).trans (H t i ht hi)⟩

theorem Is.map {α β : Type} [Zero β] {X : Img α} {h w : Nat} {g : Nat → Nat → α} (H : Is X h w g)
    (f : α → β) : Is (X.map f) h w fun i t => f (g i t) := by
  obtain ⟨rfl, rfl, H⟩ := H
  exact ⟨rfl, rfl, fun i t hi ht => (Img.px_tab' hi ht).trans (by rw [H i t hi ht])⟩

theorem Is.congr {α : Type} {X : Img α} {h w : Nat} {g g' : Nat → Nat → α} (H : Is X h w g)
    (hg : ∀ i t, i < h → t < w → g i t = g' i t) : Is X h w g' :=
  ⟨H.1, H.2.1, fun i t hi ht => (H.2.2 i t hi ht).trans (hg i t hi ht)⟩

theorem Is.pad {α : Type} [Zero α] {X Y : Img α} {h w : Nat} {g : Nat → Nat → α} {p : Int}
    (H : Is X h w g) (hY : padFrequencyImg X p = .ok Y) :
    0 ≤ p ∧ Is Y h (w + p.toNat) fun i t => if t < w then g i t else 0 := by
  obtain ⟨rfl, rfl, H⟩ := H
  unfold padFrequencyImg at hY
  split at hY
  · cases hY
  · rename_i hp
    injection hY with hY
    subst hY
    refine ⟨by omega, rfl, rfl, fun i t hi ht => (Img.px_tab' hi ht).trans ?_⟩
    by_cases h : t < X.w
    · simp only [if_pos h]; exact H i t hi h
    · simp only [if_neg h]

theorem Is.stack {α : Type} [Zero α] {l : List (List α)} {X : Img α} (hX : stackImg l = .ok X) :
    l ≠ [] ∧ (∀ a ∈ l, a.length = X.w) ∧ Is X l.length X.w fun i t => (l.getD i []).getD t 0 := by
  unfold stackImg at hX
  split at hX
  · cases hX
  · rename_i a l'
    split at hX
    · rename_i hall
      injection hX with hX
      subst hX
      refine ⟨by simp, ?_, rfl, rfl, fun i t hi ht => Img.px_tab' hi ht⟩
      intro b hb
      exact beq_iff_eq.1 (List.all_eq_true.1 hall b hb)
    · cases hX

theorem Is.filter {X a b : Img ℂ} {h w : Nat} {g : Nat → Nat → ℂ} {f : List ℝ} {e : Int}
    (H : Is X h w g) (ha : rowCdgmm (rowDft X) f = .ok a) (hb : rowSubsample a e = .ok b) :
    0 ≤ e ∧ f.length = w ∧ b.w * 2 ^ e.toNat = w ∧ Is (rowIdft b) h b.w fun i t =>
      ∑ m ∈ range w, g i m * Spec.impulseR f ((t : ℤ) * 2 ^ e.toNat - m) := by
  obtain ⟨rfl, rfl, H⟩ := H
  obtain ⟨h1, h2, h3, h4, h5⟩ := rowFilter ha hb
  refine ⟨h1, h2, h4, h3, rfl, fun i t hi ht => ?_⟩
  rw [h5 i t hi ht]
  exact Finset.sum_congr rfl fun m hm => by rw [H i m hi (Finset.mem_range.1 hm)]

theorem sum_pad {n p : Nat} (g : Nat → ℂ) (f : Nat → ℂ) :
    ∑ m ∈ range (n + p), (if m < n then g m else 0) * f m = ∑ m ∈ range n, g m * f m := by
  rw [Finset.sum_range_add]
  rw [Finset.sum_eq_zero (s := range p) (fun m _ => by
    rw [if_neg (by omega), zero_mul]), add_zero]
  exact Finset.sum_congr rfl fun m hm => by rw [if_pos (Finset.mem_range.1 hm)]

/-- The table of a filter realises a wavelet. -/
def Realises (f : Filt (List ℝ)) (w : Spec.Wavelet) : Prop :=
  w.2 = f.j ∧ ∃ h, FromFull f h ∧ w.1 = Spec.impulseR h

theorem Realises.impulse {f : Filt (List ℝ)} {w : Spec.Wavelet} (hf : Realises f w) {l : Nat}
    {y : List ℝ} (hy : f.levels[l]? = some y) (n : ℤ) :
    Spec.impulseR y n = 2 ^ l * w.1 (n * 2 ^ l) := by
  obtain ⟨-, h, hh, hw⟩ := hf
  rw [hw]
  exact hh.impulse hy n

/-- A frequential filter realises a wavelet. -/
def RealisesFr (f : FiltFr (List ℝ)) (w : Spec.Wavelet) : Prop := Realises ⟨f.levels, f.j⟩ w

namespace JTFS

/-- The loop body of `frequency_scattering` applied to a padded stack. -/
theorem frBody_closed {lsFr : Nat} {avgFr : Bool} {j n : List Int} {n1Max : Nat} {Xp : Img ℂ}
    {psi : FiltFr (List ℝ)} {nFr : Nat} {out : List (FPath (Img ℂ))} {T N p : Nat} {Y : Nat → Nat → ℂ}
    {w : Spec.Wavelet} (hw : RealisesFr psi w)
    (hX : Is Xp T (N + p) fun t m => if m < N then Y m t else 0)
    (h : frBody npJ lsFr avgFr j n n1Max (rowDft Xp) psi nFr = .ok out) :
    ∃ H Z, H * 2 ^ subFr lsFr avgFr psi.j = N + p ∧
      Is Z H T (Spec.frConv N Y w.1 (subFr lsFr avgFr psi.j)) ∧
      out = [⟨Z, j, n.tail ++ [(nFr : Int)], n1Max, psi.j, nFr, 2 ^ psi.j, psi.spin⟩] := by
  obtain ⟨f, c, y, z, Z, hf, hc, hy, hz, hZ, rfl⟩ := frBody_eq_ok npJ h
  have hz' : z = rowIdft y := by injection hz with hz; exact hz.symm
  have hZ' : Z = z.swap := by injection hZ with hZ; exact hZ.symm
  subst hz' hZ'
  have hy : rowSubsample c (subFr lsFr avgFr psi.j : Nat) = .ok y := hy
  obtain ⟨-, h2, h3, h4⟩ := hX.filter hc hy
  rw [Int.toNat_natCast] at h3 h4
  refine ⟨_, _, h3, ?_, rfl⟩
  refine h4.swap.congr fun r t _ _ => ?_
  rw [sum_pad]
  unfold Spec.frConv
  refine Finset.sum_congr rfl fun m _ => ?_
  rw [hw.impulse (l := 0) (listGet_eq_ok.1 hf)]
  simp [mul_comm]

open Core1D in
/-- The loop body over the first-order wavelets. -/
theorem first_closed {phi psi : Filt (List ℝ)} {ls : Nat} {avg : Bool} {x : List ℝ}
    {r : List ℂ × List ℝ} {w v : Spec.Wavelet} (hw : Realises psi w) (hv : Realises phi v)
    (h : first npJ phi ls avg (npRfft x) psi = .ok r) :
    sub1 ls avg psi.j ≤ ls ∧ ∃ u, r.1 = npRfft u ∧ u.length * 2 ^ sub1 ls avg psi.j = x.length ∧
      (∀ t, t < u.length → u.getD t 0 = Spec.U1 x w.1 (sub1 ls avg psi.j) t) ∧
      r.2.length * 2 ^ ls = x.length ∧
      ∀ t, t < r.2.length → r.2.getD t 0 = Spec.S1 x w.1 v.1 (sub1 ls avg psi.j) ls t := by
  obtain ⟨f, c, y, z, m, g, c', h', h1, h2, h3, h4, h5, h6, h7, h8, h9, h10⟩ := first_eq_ok npJ h
  obtain ⟨-, hw0, hwf, hwe⟩ := hw
  obtain ⟨-, hv0, hvf, hve⟩ := hv
  set k := sub1 ls avg psi.j with hk
  have h3 : (if ((k : Nat) : Int) < 0 then .error .type else npSubsampleFourier c (2 ^ (k : Int).toNat)) = Except.ok y := h3
  rw [if_neg (by omega), Int.toNat_natCast] at h3
  have h9 : (if (ls : Int) - k < 0 then .error .type
    else npSubsampleFourier c' (2 ^ ((ls : Int) - k).toNat)) = Except.ok h' := h9
  split at h9
  · cases h9
  rename_i hle
  have hkl : k ≤ ls := by omega
  have e : ((ls : Int) - k).toNat = ls - k := by omega
  rw [e] at h9
  have hr : r.1 = npRfft m := by injection h6 with h6; exact h6.symm
  rw [hr] at h8
  have hu : bandpass npBackend psi (npRfft x) 0 k = .ok m :=
    bind_eq_ok.2 ⟨f, h1, bind_eq_ok.2 ⟨c, h2, bind_eq_ok.2 ⟨y, h3, bind_eq_ok.2 ⟨z, h4, h5⟩⟩⟩⟩
  have hs : lowpass npBackend phi (npRfft m) k (ls - k) = .ok r.2 :=
    bind_eq_ok.2 ⟨g, h7, bind_eq_ok.2 ⟨c', h8, bind_eq_ok.2 ⟨h', h9, h10⟩⟩⟩
  obtain ⟨a1, a2⟩ := U1_closed hwf hu
  obtain ⟨b1, b2⟩ := S_closed hvf hkl a1 a2 hs
  rw [← hwe] at a2 b2
  rw [← hve] at b2
  exact ⟨hkl, m, hr, a1, a2, b1, b2⟩

open Core1D in
/-- One row of the second order. -/
theorem second_closed {psi2 : Filt (List ℝ)} {ls : Nat} {avg : Bool} {j1 : Nat} {x u : List ℝ}
    {y : List ℂ} {ψ1 : ℤ → ℂ} {w : Spec.Wavelet} (hw : Realises psi2 w)
    (hl : u.length * 2 ^ sub1 ls avg j1 = x.length)
    (hu : ∀ t, t < u.length → u.getD t 0 = Spec.U1 x ψ1 (sub1 ls avg j1) t)
    (h : second npJ ls avg psi2 (j1, npRfft u) = .ok y) :
    y.length * 2 ^ (sub1 ls avg j1 + sub2 ls avg j1 psi2.j) = x.length ∧
      ∀ t, t < y.length →
        y.getD t 0 = Spec.W2 x ψ1 w.1 (sub1 ls avg j1) (sub1 ls avg j1 + sub2 ls avg j1 psi2.j) t := by
  unfold second at h
  obtain ⟨f, hf, h⟩ := bind_eq_ok.1 h
  obtain ⟨c, hc, h⟩ := bind_eq_ok.1 h
  obtain ⟨s, hs, h⟩ := bind_eq_ok.1 h
  have hy : y = idft s := by injection h with h; exact h.symm
  subst hy
  set k := sub1 ls avg j1
  set k' := sub2 ls avg j1 psi2.j
  have hs : (if ((k' : Nat) : Int) < 0 then .error .type else npSubsampleFourier c (2 ^ (k' : Int).toNat)) = Except.ok s := hs
  rw [if_neg (by omega), Int.toNat_natCast] at hs
  have hc : npCdgmm (npRfft u) f = .ok c := hc
  have hlc := length_of_cdgmm hc
  have hls := length_of_subsample hs
  rw [length_npRfft] at hlc
  refine ⟨?_, fun t ht => ?_⟩
  · rw [length_idft, Nat.add_comm, pow_add, ← mul_assoc, hls, hlc, hl]
  · rw [length_idft] at ht
    rw [getD_idft_imp _ ht, imp_subsample _ _ _ hs, imp_cdgmm_rfft hc]
    unfold Spec.convR Spec.W2
    rw [length_div_of_mul hl]
    refine Finset.sum_congr rfl fun m hm => ?_
    rw [hu m (Finset.mem_range.1 hm), hw.impulse (listGet_eq_ok.1 hf)]
    congr 3
    push_cast
    rw [pow_add]
    ring_nf

/-- What the second order reads from the first. -/
def Row (x : List ℝ) (ls : Nat) (avg : Bool) (u : Nat × List ℂ) (w : Spec.Wavelet) : Prop :=
  u.1 = w.2 ∧ ∃ m : List ℝ, u.2 = npRfft m ∧ m.length * 2 ^ sub1 ls avg w.2 = x.length ∧
    ∀ t, t < m.length → m.getD t 0 = Spec.U1 x w.1 (sub1 ls avg w.2) t

/-- What the first-order stack contains. -/
def Row1 (x : List ℝ) (φ : ℤ → ℂ) (ls : Nat) (avg : Bool) (s : List ℝ) (w : Spec.Wavelet) : Prop :=
  sub1 ls avg w.2 ≤ ls ∧ s.length * 2 ^ ls = x.length ∧
    ∀ t, t < s.length → s.getD t 0 = Spec.S1 x w.1 φ (sub1 ls avg w.2) ls t

theorem firsts_closed {phi : Filt (List ℝ)} {ls : Nat} {avg : Bool} {x : List ℝ} {v : Spec.Wavelet}
    (hv : Realises phi v) {psi1 : List (Filt (List ℝ))} {W1 : List Spec.Wavelet}
    (hW : List.Forall₂ Realises psi1 W1) {l : List (List ℂ × List ℝ)}
    (hl : List.Forall₂ (fun f r => first npJ phi ls avg (npRfft x) f = .ok r) psi1 l) :
    List.Forall₂ (Row x ls avg) (List.zip (psi1.map fun p => p.j) (l.map Prod.fst)) W1 ∧
      List.Forall₂ (Row1 x v.1 ls avg) (l.map Prod.snd) W1 := by
  induction hW generalizing l with
  | nil => cases hl; exact ⟨.nil, .nil⟩
  | cons hf _ ih =>
    cases hl with
    | cons h1 h2 =>
      obtain ⟨i1, i2⟩ := ih h2
      obtain ⟨a, m, b1, b2, b3, b4, b5⟩ := first_closed hf hv h1
      have e := hf.1
      rw [← e] at a b2 b3 b5
      exact ⟨.cons ⟨e.symm, m, b1, b2, b3⟩ i1, .cons ⟨a, b4, b5⟩ i2⟩

theorem seconds_closed {psi2 : Filt (List ℝ)} {ls : Nat} {avg : Bool} {x : List ℝ} {w2 : Spec.Wavelet}
    (hw : Realises psi2 w2) {us : List (Nat × List ℂ)} {W : List Spec.Wavelet}
    (hu : List.Forall₂ (Row x ls avg) us W) {ys : List (List ℂ)}
    (hy : List.Forall₂ (fun u y => second npJ ls avg psi2 u = .ok y) us ys) :
    List.Forall₂ (fun (y : List ℂ) (w : Spec.Wavelet) =>
      y.length * 2 ^ (sub1 ls avg w.2 + sub2 ls avg w.2 w2.2) = x.length ∧ ∀ t, t < y.length →
        y.getD t 0 = Spec.W2 x w.1 w2.1 (sub1 ls avg w.2) (sub1 ls avg w.2 + sub2 ls avg w.2 w2.2) t)
      ys W := by
  induction hu generalizing ys with
  | nil => cases hy; exact .nil
  | @cons u w _ _ hr _ ih =>
    cases hy with
    | cons h1 h2 =>
      refine .cons ?_ (ih h2)
      obtain ⟨u1, u2⟩ := u
      obtain ⟨rfl, m, rfl, hl, hm⟩ := hr
      rw [hw.1]
      exact second_closed hw hl hm h1

end JTFS

end Verif
