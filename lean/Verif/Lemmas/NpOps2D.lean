import Verif.Lemmas.DFT2
import Verif.Lemmas.Core2D
import Verif.Spec.Image

/-!
# The steps of the 2-D core on the numpy backend
-/

namespace Verif

open Finset

/-- A real filter as a complex image. -/
noncomputable def imgC (f : Img ℝ) : Img ℂ := f.map fun r : ℝ => (r : ℂ)

@[simp] theorem h_imgC (f : Img ℝ) : (imgC f).h = f.h := rfl
@[simp] theorem w_imgC (f : Img ℝ) : (imgC f).w = f.w := rfl

theorem px_imgC (f : Img ℝ) {i j : Nat} (hi : i < f.h) (hj : j < f.w) :
    (imgC f).px i j = (f.px i j : ℂ) := Img.px_map _ _ hi hj

theorem imp2_imgC (f : Img ℝ) (m n : ℤ) : imp2 (imgC f) m n = Spec.impulse2 f.h f.w f.px m n := by
  unfold imp2 Spec.impulse2
  rw [h_imgC, w_imgC]
  congr 1
  refine Finset.sum_congr rfl fun k hk => Finset.sum_congr rfl fun l hl => ?_
  rw [px_imgC f (Finset.mem_range.1 hk) (Finset.mem_range.1 hl)]
  congr 1
  unfold tw
  rw [← Complex.exp_add]
  congr 1
  push_cast
  ring

/-- The filtered spectrum of a real image, seen through `imp2`. -/
theorem imp2_cdgmm {u f : Img ℝ} {c : Img ℂ} (h : np2Cdgmm (np2Rfft u) f = .ok c) (m n : ℤ) :
    imp2 c m n = Spec.conv2 u.h u.w u.px (Spec.impulse2 f.h f.w f.px) m n := by
  obtain ⟨h1, h2, rfl⟩ := (np2Cdgmm_eq _ _ _).1 h
  rw [h_np2Rfft] at h1
  rw [w_np2Rfft] at h2
  have e := imp2_mul_dft2 (imgC u) (imgC f) h1 h2 m n
  have e2 : (Img.tab (np2Rfft u).h (np2Rfft u).w fun i j => (np2Rfft u).px i j * (f.px i j : ℂ)) =
      Img.tab (imgC u).h (imgC u).w fun k l => (dft2 (imgC u)).px k l * (imgC f).px k l := by
    refine Img.tab_congr fun i j hi hj => ?_
    rw [h_np2Rfft, h1] at hi
    rw [w_np2Rfft, h2] at hj
    rw [px_imgC f hi hj]
    rfl
  rw [e2, e]
  unfold Spec.conv2
  refine Finset.sum_congr rfl fun a ha => Finset.sum_congr rfl fun b hb => ?_
  rw [px_imgC u (Finset.mem_range.1 ha) (Finset.mem_range.1 hb), imp2_imgC]

theorem size_cdgmm2 {A c : Img ℂ} {f : Img ℝ} (h : np2Cdgmm A f = .ok c) : c.h = A.h ∧ c.w = A.w := by
  obtain ⟨-, -, rfl⟩ := (np2Cdgmm_eq _ _ _).1 h
  exact ⟨rfl, rfl⟩

namespace Core2D

/-- Result of one low-pass step on the spectrum of a real image `u`. -/
structure LowOf (ops : Ops2D (Img ℝ)) (phi : List (Img ℝ)) (u : Img ℝ) (J lev : Nat)
    (y : Img ℝ) : Prop where
  ex : ∃ f r : Img ℝ, phi[lev]? = some f ∧ u.h = f.h ∧ u.w = f.w ∧ lev ≤ J ∧
    r.h * 2 ^ (J - lev) = u.h ∧ r.w * 2 ^ (J - lev) = u.w ∧ y = ops.unpad r ∧
    ∀ m n : Nat, m < r.h → n < r.w → r.px m n =
      (Spec.conv2 u.h u.w u.px (Spec.impulse2 f.h f.w f.px) ((m * 2 ^ (J - lev) : ℕ) : ℤ)
        ((n * 2 ^ (J - lev) : ℕ) : ℤ)).re

theorem lowpass_np {ops : Ops2D (Img ℝ)} {J : Nat} {phi : List (Img ℝ)} {u : Img ℝ} {lev : Nat}
    {y : Img ℝ} (h : lowpass np2Backend ops J phi (np2Rfft u) lev = .ok y) :
    LowOf ops phi u J lev y := by
  unfold lowpass at h
  obtain ⟨f, hf, h⟩ := bind_eq_ok.1 h
  obtain ⟨c, hc, h⟩ := bind_eq_ok.1 h
  obtain ⟨e, he, h⟩ := bind_eq_ok.1 h
  obtain ⟨hle, rfl⟩ := subExp_eq_ok.1 he
  obtain ⟨s, hs, h⟩ := bind_eq_ok.1 h
  obtain ⟨r, hr, h⟩ := bind_eq_ok.1 h
  injection h with h
  injection hr with hr
  have hc : np2Cdgmm (np2Rfft u) f = .ok c := hc
  have hs : np2Subsample c (2 ^ (J - lev)) = .ok s := hs
  obtain ⟨h1, h2, -⟩ := (np2Cdgmm_eq _ _ _).1 hc
  obtain ⟨h3, h4⟩ := size_cdgmm2 hc
  obtain ⟨h5, h6⟩ := size_subsample2 hs
  have hrh : r.h = s.h := by rw [← hr]; rfl
  have hrw : r.w = s.w := by rw [← hr]; rfl
  refine ⟨f, r, listGet_eq_ok.1 hf, h1, h2, hle, ?_, ?_, h.symm, ?_⟩
  · rw [hrh, h5, h3]; rfl
  · rw [hrw, h6, h4]; rfl
  · intro m n hm hn
    rw [hrh] at hm
    rw [hrw] at hn
    have : r.px m n = ((idft2 s).px m n).re := by
      rw [← hr]
      exact Img.px_map _ _ hm hn
    rw [this, px_idft2 s hm hn, imp2_subsample hs, imp2_cdgmm hc]
    push_cast
    rfl

/-- Result of one band-pass step on the spectrum of a real image `u`: the new real image `v`. -/
structure BandOf (f u : Img ℝ) (e : Nat) (v : Img ℝ) : Prop where
  fh : u.h = f.h
  fw : u.w = f.w
  h : v.h * 2 ^ e = u.h
  w : v.w * 2 ^ e = u.w
  px : ∀ m n : Nat, m < v.h → n < v.w → v.px m n =
    ‖Spec.conv2 u.h u.w u.px (Spec.impulse2 f.h f.w f.px) ((m * 2 ^ e : ℕ) : ℤ)
      ((n * 2 ^ e : ℕ) : ℤ)‖

theorem band_np {f u : Img ℝ} {e : Nat} {c s : Img ℂ} (hc : np2Cdgmm (np2Rfft u) f = .ok c)
    (hs : np2Subsample c (2 ^ e) = .ok s) : BandOf f u e (np2Modulus (idft2 s)) := by
  obtain ⟨h1, h2, -⟩ := (np2Cdgmm_eq _ _ _).1 hc
  obtain ⟨h3, h4⟩ := size_cdgmm2 hc
  obtain ⟨h5, h6⟩ := size_subsample2 hs
  refine ⟨h1, h2, ?_, ?_, ?_⟩
  · rw [h_np2Modulus, h_idft2, h5, h3]; rfl
  · rw [w_np2Modulus, w_idft2, h6, h4]; rfl
  · intro m n hm hn
    rw [h_np2Modulus, h_idft2] at hm
    rw [w_np2Modulus, w_idft2] at hn
    have : (np2Modulus (idft2 s)).px m n = ‖(idft2 s).px m n‖ := Img.px_map _ _ hm hn
    rw [this, px_idft2 s hm hn, imp2_subsample hs, imp2_cdgmm hc]
    push_cast
    rfl

theorem subsample_one {c s : Img ℂ} (hc : c = Img.tab c.h c.w c.px)
    (hs : np2Subsample c (2 ^ 0) = .ok s) : s = c := by
  obtain ⟨-, -, -, rfl⟩ := (np2Subsample_eq _ _ _).1 hs
  conv_rhs => rw [hc]
  simp

theorem subIfPos_eq {c s : Img ℂ} {j : Nat} (hc : c = Img.tab c.h c.w c.px) :
    subIfPos np2Backend c j = .ok s ↔ np2Subsample c (2 ^ j) = .ok s := by
  unfold subIfPos
  by_cases hj : j > 0
  · rw [if_pos hj]
  · rw [if_neg hj]
    have : j = 0 := by omega
    subst this
    have hok : np2Subsample c (2 ^ 0) = .ok c := by
      rw [np2Subsample_eq]
      refine ⟨by decide, by simp, by simp, ?_⟩
      conv_lhs => rw [hc]
      simp
    rw [hok]

theorem cdgmm_tab {A c : Img ℂ} {f : Img ℝ} (h : np2Cdgmm A f = .ok c) :
    c = Img.tab c.h c.w c.px := by
  obtain ⟨-, -, rfl⟩ := (np2Cdgmm_eq _ _ _).1 h
  refine Img.ext' rfl rfl fun i j => ?_
  unfold Img.tab
  simp only
  split <;> rfl

theorem first_np {psi : Filt2 (Img ℝ)} {u : Img ℝ} {U1c : Img ℂ}
    (h : first np2Backend psi (np2Rfft u) = .ok U1c) :
    ∃ f v, psi.levels[0]? = some f ∧ BandOf f u psi.j v ∧ U1c = np2Rfft v := by
  unfold first at h
  obtain ⟨f, hf, h⟩ := bind_eq_ok.1 h
  obtain ⟨c, hc, h⟩ := bind_eq_ok.1 h
  obtain ⟨s, hs, h⟩ := bind_eq_ok.1 h
  obtain ⟨y, hy, h⟩ := bind_eq_ok.1 h
  obtain ⟨m, hm, h⟩ := bind_eq_ok.1 h
  injection hy with hy
  injection hm with hm
  injection h with h
  subst hy; subst hm
  have hs' := (subIfPos_eq (cdgmm_tab hc)).1 hs
  exact ⟨f, _, listGet_eq_ok.1 hf, band_np hc hs', h.symm⟩

theorem second_np {psi : Filt2 (Img ℝ)} {j1 : Nat} {u : Img ℝ} {U2c : Img ℂ}
    (h : second np2Backend psi j1 (np2Rfft u) = .ok U2c) :
    ∃ f v, psi.levels[j1]? = some f ∧ j1 ≤ psi.j ∧ BandOf f u (psi.j - j1) v ∧
      U2c = np2Rfft v := by
  unfold second at h
  obtain ⟨f, hf, h⟩ := bind_eq_ok.1 h
  obtain ⟨c, hc, h⟩ := bind_eq_ok.1 h
  obtain ⟨e, he, h⟩ := bind_eq_ok.1 h
  obtain ⟨hle, rfl⟩ := subExp_eq_ok.1 he
  obtain ⟨s, hs, h⟩ := bind_eq_ok.1 h
  obtain ⟨y, hy, h⟩ := bind_eq_ok.1 h
  obtain ⟨m, hm, h⟩ := bind_eq_ok.1 h
  injection hy with hy
  injection hm with hm
  injection h with h
  subst hy; subst hm
  exact ⟨f, _, listGet_eq_ok.1 hf, hle, band_np hc hs, h.symm⟩

/-! ## Success when the sizes fit -/

theorem lowpass_ok {ops : Ops2D (Img ℝ)} {J : Nat} {phi : List (Img ℝ)} {Uc : Img ℂ} {lev : Nat}
    {f : Img ℝ} (hf : phi[lev]? = some f) (hle : lev ≤ J) (h1 : Uc.h = f.h) (h2 : Uc.w = f.w)
    (d1 : 2 ^ (J - lev) ∣ Uc.h) (d2 : 2 ^ (J - lev) ∣ Uc.w) :
    ∃ y, lowpass np2Backend ops J phi Uc lev = .ok y := by
  unfold lowpass
  have hc := (np2Cdgmm_eq Uc f _).2 ⟨h1, h2, rfl⟩
  have hs := (np2Subsample_eq (Img.tab Uc.h Uc.w fun i j => Uc.px i j * (f.px i j : ℂ))
    (2 ^ (J - lev)) _).2 ⟨by positivity, d1, d2, rfl⟩
  exact ⟨_, bind_eq_ok.2 ⟨f, listGet_eq_ok.2 hf, bind_eq_ok.2 ⟨_, hc, bind_eq_ok.2 ⟨_,
    subExp_eq_ok.2 ⟨hle, rfl⟩, bind_eq_ok.2 ⟨_, hs, bind_eq_ok.2 ⟨_, rfl, rfl⟩⟩⟩⟩⟩⟩

theorem first_ok {psi : Filt2 (Img ℝ)} {Uc : Img ℂ} {f : Img ℝ} (hf : psi.levels[0]? = some f)
    (h1 : Uc.h = f.h) (h2 : Uc.w = f.w) (d1 : 2 ^ psi.j ∣ Uc.h) (d2 : 2 ^ psi.j ∣ Uc.w) :
    ∃ y, first np2Backend psi Uc = .ok y ∧ y.h = Uc.h / 2 ^ psi.j ∧ y.w = Uc.w / 2 ^ psi.j := by
  unfold first
  have hc := (np2Cdgmm_eq Uc f _).2 ⟨h1, h2, rfl⟩
  have hs := (np2Subsample_eq (Img.tab Uc.h Uc.w fun i j => Uc.px i j * (f.px i j : ℂ))
    (2 ^ psi.j) _).2 ⟨by positivity, d1, d2, rfl⟩
  have hs' := (subIfPos_eq (cdgmm_tab hc)).2 hs
  refine ⟨_, bind_eq_ok.2 ⟨f, listGet_eq_ok.2 hf, bind_eq_ok.2 ⟨_, hc, bind_eq_ok.2 ⟨_, hs',
    bind_eq_ok.2 ⟨_, rfl, bind_eq_ok.2 ⟨_, rfl, rfl⟩⟩⟩⟩⟩, rfl, rfl⟩

theorem second_ok {psi : Filt2 (Img ℝ)} {j1 : Nat} {Uc : Img ℂ} {f : Img ℝ}
    (hf : psi.levels[j1]? = some f) (hle : j1 ≤ psi.j)
    (h1 : Uc.h = f.h) (h2 : Uc.w = f.w) (d1 : 2 ^ (psi.j - j1) ∣ Uc.h)
    (d2 : 2 ^ (psi.j - j1) ∣ Uc.w) :
    ∃ y, second np2Backend psi j1 Uc = .ok y ∧ y.h = Uc.h / 2 ^ (psi.j - j1) ∧
      y.w = Uc.w / 2 ^ (psi.j - j1) := by
  unfold second
  have hc := (np2Cdgmm_eq Uc f _).2 ⟨h1, h2, rfl⟩
  have hs := (np2Subsample_eq (Img.tab Uc.h Uc.w fun i j => Uc.px i j * (f.px i j : ℂ))
    (2 ^ (psi.j - j1)) _).2 ⟨by positivity, d1, d2, rfl⟩
  refine ⟨_, bind_eq_ok.2 ⟨f, listGet_eq_ok.2 hf, bind_eq_ok.2 ⟨_, hc, bind_eq_ok.2 ⟨_,
    subExp_eq_ok.2 ⟨hle, rfl⟩, bind_eq_ok.2 ⟨_, hs,
    bind_eq_ok.2 ⟨_, rfl, bind_eq_ok.2 ⟨_, rfl, rfl⟩⟩⟩⟩⟩⟩, rfl, rfl⟩

/-- A bank whose levels have the sizes of the padded image divided by `2^level`, with enough
levels. -/
structure GoodBank (H W J : Nat) (phi : List (Img ℝ)) (psi : List (Filt2 (Img ℝ))) : Prop where
  phi_len : phi.length = J
  phi_size : ∀ (k : Nat) f, phi[k]? = some f → f.h = H / 2 ^ k ∧ f.w = W / 2 ^ k
  psi_j : ∀ f ∈ psi, f.j < J
  psi_len : ∀ f ∈ psi, ∀ g ∈ psi, f.j < g.j → f.j < g.levels.length
  psi_zero : ∀ f ∈ psi, 0 < f.levels.length
  psi_size : ∀ g ∈ psi, ∀ (k : Nat) f, g.levels[k]? = some f → f.h = H / 2 ^ k ∧ f.w = W / 2 ^ k

theorem div_pow_dvd {H J k : Nat} (hk : k ≤ J) (h : 2 ^ J ∣ H) : 2 ^ (J - k) ∣ H / 2 ^ k := by
  obtain ⟨c, rfl⟩ := h
  have : 2 ^ J = 2 ^ k * 2 ^ (J - k) := by rw [← pow_add, Nat.add_sub_cancel' hk]
  rw [this, mul_assoc, Nat.mul_div_cancel_left _ (by positivity)]
  exact Dvd.intro _ rfl

/-- **Every step of the transform succeeds** on an image of the padded size. -/
theorem paths_ok {ops : Ops2D (Img ℝ)} {H W J : Nat} {phi : List (Img ℝ)}
    {psi : List (Filt2 (Img ℝ))} (hb : GoodBank H W J phi psi) (hJ : 1 ≤ J) (dH : 2 ^ J ∣ H)
    (dW : 2 ^ J ∣ W) {x u : Img ℝ} (hu : ops.pad x = .ok u) (hh : u.h = H) (hw : u.w = W)
    (mo : Int) : ∃ out, paths np2Backend ops x J phi psi mo = .ok out := by
  have get : ∀ k, k < J → ∃ f, phi[k]? = some f := fun k hk =>
    ⟨_, List.getElem?_eq_getElem (by rw [hb.phi_len]; exact hk)⟩
  obtain ⟨f0, hf0⟩ := get 0 (by omega)
  have s0 := hb.phi_size 0 f0 hf0
  rw [pow_zero, Nat.div_one, Nat.div_one] at s0
  have uh : (np2Rfft u).h = H := hh
  have uw : (np2Rfft u).w = W := hw
  obtain ⟨S0, hS0⟩ := lowpass_ok (ops := ops) (J := J) (phi := phi) (Uc := np2Rfft u) hf0
    (Nat.zero_le _) (by rw [uh, s0.1]) (by rw [uw, s0.2]) (by rw [uh]; exact dH)
    (by rw [uw]; exact dW)
  have hfirst : ∀ i f, psi[i]? = some f → ∃ z,
      firstOrder np2Backend ops J phi psi mo (np2Rfft u) f (0 + i) = .ok z := by
    intro i f hif
    have hmem : f ∈ psi := List.mem_of_getElem? hif
    have hj := hb.psi_j f hmem
    have hl0 : f.levels[0]? = some (f.levels[0]'(hb.psi_zero f hmem)) := List.getElem?_eq_getElem _
    have sl := hb.psi_size f hmem 0 _ hl0
    rw [pow_zero, Nat.div_one, Nat.div_one] at sl
    obtain ⟨U1c, hU1, hh1, hw1⟩ := first_ok (psi := f) (Uc := np2Rfft u) hl0 (by rw [uh, sl.1])
      (by rw [uw, sl.2]) (by rw [uh]; exact (pow_dvd_pow 2 hj.le).trans dH)
      (by rw [uw]; exact (pow_dvd_pow 2 hj.le).trans dW)
    rw [uh] at hh1
    rw [uw] at hw1
    obtain ⟨g, hg⟩ := get f.j hj
    have sg := hb.phi_size _ g hg
    obtain ⟨S1, hS1⟩ := lowpass_ok (ops := ops) (J := J) (phi := phi) (Uc := U1c) hg hj.le
      (by rw [hh1, sg.1]) (by rw [hw1, sg.2]) (by rw [hh1]; exact div_pow_dvd hj.le dH)
      (by rw [hw1]; exact div_pow_dvd hj.le dW)
    by_cases hm : mo < 2
    · exact ⟨_, bind_eq_ok.2 ⟨U1c, hU1, bind_eq_ok.2 ⟨S1, hS1, if_pos hm⟩⟩⟩
    · have hsec : ∀ k g, psi[k]? = some g → ∃ z,
          secondOrder np2Backend ops J phi f (0 + i) U1c g (0 + k) = .ok z := by
        intro k g hkg
        have hgm : g ∈ psi := List.mem_of_getElem? hkg
        unfold secondOrder
        by_cases hle : g.j ≤ f.j
        · exact ⟨_, if_pos hle⟩
        · rw [if_neg hle]
          have hlt : f.j < g.j := by omega
          have hgj := hb.psi_j g hgm
          have hl1 : g.levels[f.j]? = some (g.levels[f.j]'(hb.psi_len f hmem g hgm hlt)) :=
            List.getElem?_eq_getElem _
          have sl1 := hb.psi_size g hgm _ _ hl1
          have d1 : ∀ X, 2 ^ J ∣ X → 2 ^ (g.j - f.j) ∣ X / 2 ^ f.j := fun X hX =>
            (pow_dvd_pow 2 (by omega)).trans (div_pow_dvd hj.le hX)
          obtain ⟨U2c, hU2, hh2, hw2⟩ := second_ok (psi := g) (j1 := f.j) (Uc := U1c) hl1 hlt.le
            (by rw [hh1, sl1.1]) (by rw [hw1, sl1.2]) (by rw [hh1]; exact d1 _ dH)
            (by rw [hw1]; exact d1 _ dW)
          have dd : ∀ X : Nat, X / 2 ^ f.j / 2 ^ (g.j - f.j) = X / 2 ^ g.j := fun X => by
            rw [Nat.div_div_eq_div_mul, ← pow_add, Nat.add_sub_cancel' hlt.le]
          rw [hh1, dd] at hh2
          rw [hw1, dd] at hw2
          obtain ⟨p, hp⟩ := get g.j hgj
          have sp := hb.phi_size _ p hp
          obtain ⟨S2, hS2⟩ := lowpass_ok (ops := ops) (J := J) (phi := phi) (Uc := U2c) hp hgj.le
            (by rw [hh2, sp.1]) (by rw [hw2, sp.2]) (by rw [hh2]; exact div_pow_dvd hgj.le dH)
            (by rw [hw2]; exact div_pow_dvd hgj.le dW)
          exact ⟨_, bind_eq_ok.2 ⟨U2c, hU2, bind_eq_ok.2 ⟨S2, hS2, rfl⟩⟩⟩
      obtain ⟨p2, hp2⟩ := Core1D.forEnum_ok hsec
      unfold firstOrder
      refine ⟨[(⟨S1, [f.j], [0 + i], [f.theta]⟩, p2)],
        bind_eq_ok.2 ⟨U1c, hU1, bind_eq_ok.2 ⟨S1, hS1, ?_⟩⟩⟩
      rw [if_neg hm]
      exact bind_eq_ok.2 ⟨p2, hp2, rfl⟩
  obtain ⟨l, hl⟩ := Core1D.forEnum_ok hfirst
  exact ⟨_, bind_eq_ok.2 ⟨u, hu, bind_eq_ok.2 ⟨_, rfl, bind_eq_ok.2 ⟨S0, hS0,
    bind_eq_ok.2 ⟨l, hl, rfl⟩⟩⟩⟩⟩

end Core2D

end Verif
