import Verif.Props.ClosedFormJTFS
import Verif.Props.NoError1D

/-!
# When joint time-frequency scattering returns
-/

namespace Verif

open JTFS Core1D

theorem rowSubsample_ok {x : Img ℂ} {e : Nat} (he : 2 ^ e ∣ x.w) :
    ∃ b, rowSubsample x (e : Int) = .ok b ∧ b.h = x.h ∧ b.w * 2 ^ e = x.w := by
  unfold rowSubsample
  rw [if_neg (by omega), Int.toNat_natCast, if_neg (by rw [not_not]; exact Nat.mul_div_cancel' he)]
  exact ⟨_, rfl, rfl, Nat.div_mul_cancel he⟩

theorem row_ok {X : Img ℂ} {f : List ℝ} {e : Nat} (hf : f.length = X.w) (he : 2 ^ e ∣ X.w) :
    ∃ a b, rowCdgmm (rowDft X) f = .ok a ∧ rowSubsample a (e : Int) = .ok b ∧ b.h = X.h ∧ b.w * 2 ^ e = X.w := by
  have h1 : rowCdgmm (rowDft X) f = .ok _ := if_neg (by rw [not_not]; exact hf.symm)
  obtain ⟨b, h2, h3, h4⟩ := rowSubsample_ok (x := Img.tab (rowDft X).h (rowDft X).w
    fun i j => (rowDft X).px i j * ((f.getD j 0 : ℝ) : ℂ)) (e := e) he
  exact ⟨_, b, h1, h2, h3, h4⟩

theorem stack_ok {α : Type} [Zero α] {l : List (List α)} {w : Nat} (hne : l ≠ [])
    (hw : ∀ a ∈ l, a.length = w) : ∃ X, stackImg l = .ok X ∧ X.h = l.length ∧ X.w = w := by
  cases l with
  | nil => exact absurd rfl hne
  | cons a l =>
    unfold stackImg
    have : (a :: l).all (fun b => b.length == a.length) = true := by
      rw [List.all_eq_true]
      intro b hb
      rw [beq_iff_eq, hw b hb, hw a (by simp)]
    simp only [this, if_true]
    exact ⟨_, rfl, rfl, hw a (by simp)⟩

theorem first_ok {N ls : Nat} {avg : Bool} {phi psi : Filt (List ℝ)} {x : List ℝ} (hx : x.length = N)
    (hphi : Sized N phi) (hpsi : Sized N psi) (hl : 0 < psi.levels.length)
    (hk : sub1 ls avg psi.j ≤ ls) (hkl : sub1 ls avg psi.j < phi.levels.length) (hls : 2 ^ ls ∣ N) :
    ∃ r, first npJ phi ls avg (npRfft x) psi = .ok r ∧
      (∃ u, r.1 = npRfft u ∧ u.length * 2 ^ sub1 ls avg psi.j = N) ∧ r.2.length * 2 ^ ls = N := by
  set k := sub1 ls avg psi.j with hkd
  obtain ⟨u, hu, hul⟩ := sized_bandpass hpsi (k := 0) (e := k) (u := x) (by simp [hx]) hl
    (by rw [Nat.zero_add]; exact (pow_dvd_pow 2 hk).trans hls)
  rw [Nat.zero_add] at hul
  obtain ⟨s, hs⟩ := sized_lowpass hphi (e := ls - k) hul hkl (by rw [Nat.add_sub_cancel' hk]; exact hls)
  obtain ⟨-, -, -, hsl, -⟩ := np_lowpass hs
  refine ⟨(npRfft u, s), ?_, ⟨u, rfl, hul⟩, ?_⟩
  · obtain ⟨f, h1, hu⟩ := bind_eq_ok.1 hu
    obtain ⟨c, h2, hu⟩ := bind_eq_ok.1 hu
    obtain ⟨y, h3, hu⟩ := bind_eq_ok.1 hu
    obtain ⟨z, h4, h5⟩ := bind_eq_ok.1 hu
    obtain ⟨g, h6, hs⟩ := bind_eq_ok.1 hs
    obtain ⟨c', h7, hs⟩ := bind_eq_ok.1 hs
    obtain ⟨y', h8, h9⟩ := bind_eq_ok.1 hs
    have h3' : npJ.subsample c ((k : Nat) : Int) = .ok y := by
      change (if ((k : Nat) : Int) < 0 then .error .type else npSubsampleFourier c (2 ^ (k : Int).toNat)) = Except.ok y
      rw [if_neg (by omega), Int.toNat_natCast]
      exact h3
    have h8' : npJ.subsample c' ((ls : Int) - k) = .ok y' := by
      change (if (ls : Int) - k < 0 then .error .type
        else npSubsampleFourier c' (2 ^ ((ls : Int) - k).toNat)) = Except.ok y'
      have e : ((ls : Int) - k).toNat = ls - k := by omega
      rw [if_neg (by omega), e]
      exact h8
    unfold first
    rw [← hkd]
    exact bind_eq_ok.2 ⟨f, h1, bind_eq_ok.2 ⟨c, h2, bind_eq_ok.2 ⟨y, h3', bind_eq_ok.2 ⟨z, h4,
      bind_eq_ok.2 ⟨u, h5, bind_eq_ok.2 ⟨_, rfl, bind_eq_ok.2 ⟨g, h6, bind_eq_ok.2 ⟨c', h7,
      bind_eq_ok.2 ⟨y', h8', bind_eq_ok.2 ⟨s, h9, rfl⟩⟩⟩⟩⟩⟩⟩⟩⟩⟩
  · change s.length * 2 ^ ls = N
    calc s.length * 2 ^ ls = s.length * 2 ^ (ls - k) * 2 ^ k := by
          rw [mul_assoc, ← pow_add, Nat.sub_add_cancel hk]
      _ = N := by rw [hsl, hul]

theorem second_ok {N ls j1 : Nat} {avg : Bool} {psi2 : Filt (List ℝ)} {u : List ℝ} (h2 : Sized N psi2)
    (hu : u.length * 2 ^ sub1 ls avg j1 = N) (hj : j1 < psi2.j) (hav : avg = true → psi2.j ≤ ls)
    (hl : j1 < psi2.levels.length) (hd : 2 ^ psi2.j ∣ N) :
    ∃ y, second npJ ls avg psi2 (j1, npRfft u) = .ok y ∧ y.length * 2 ^ psi2.j = N := by
  obtain ⟨e1, e2⟩ := sub_collapse hav hj
  rw [e1] at e2 hu
  obtain ⟨m, hm, hml⟩ := sized_bandpass h2 (k := j1) (e := sub2 ls avg j1 psi2.j) hu hl (by rw [e2]; exact hd)
  obtain ⟨f, g1, hm⟩ := bind_eq_ok.1 hm
  obtain ⟨c, g2, hm⟩ := bind_eq_ok.1 hm
  obtain ⟨y, g3, hm⟩ := bind_eq_ok.1 hm
  obtain ⟨z, g4, g5⟩ := bind_eq_ok.1 hm
  refine ⟨z, ?_, ?_⟩
  · unfold second
    rw [e1]
    have g3' : npJ.subsample c ((sub2 ls avg j1 psi2.j : Nat) : Int) = .ok y := by
      change (if ((sub2 ls avg j1 psi2.j : Nat) : Int) < 0 then .error .type
        else npSubsampleFourier c (2 ^ ((sub2 ls avg j1 psi2.j : Nat) : Int).toNat)) = Except.ok y
      rw [if_neg (by omega), Int.toNat_natCast]
      exact g3
    exact bind_eq_ok.2 ⟨f, g1, bind_eq_ok.2 ⟨c, g2, bind_eq_ok.2 ⟨y, g3', g4⟩⟩⟩
  · injection g5 with g5
    rw [e2, ← g5, length_npModulus] at hml
    exact hml

/-- Sizes that make every operation of the transform possible. -/
structure Fits (o : JObj (List ℝ)) (N ls lsFr : Nat) : Prop where
  phi : Sized N o.phi
  phi0 : 0 < o.phi.levels.length
  ne : o.psi1 ≠ []
  psi1 : ∀ f ∈ o.psi1, Sized N f ∧ 0 < f.levels.length ∧
    sub1 ls (decide (o.average = .loc)) f.j ≤ ls ∧
    sub1 ls (decide (o.average = .loc)) f.j < o.phi.levels.length
  stride : 2 ^ ls ∣ N
  psi2 : ∀ f ∈ o.psi2, ∀ g ∈ o.psi1, g.j < f.j → Sized N f ∧ g.j < f.levels.length ∧ 2 ^ f.j ∣ N ∧
    (o.average = .loc → f.j ≤ ls ∧ f.j < o.phi.levels.length)
  room : o.psi1.length ≤ o.phiFr.N
  psisFr : ∀ f ∈ o.psisFr, (∃ h, f.levels[0]? = some h ∧ h.length = o.phiFr.N) ∧ 2 ^ f.j ∣ o.phiFr.N
  phiFr : o.averageFr = .loc → Sized o.phiFr.N ⟨o.phiFr.levels, o.phiFr.j⟩ ∧ o.phiFr.j = lsFr ∧
    lsFr < o.phiFr.levels.length ∧ 2 ^ lsFr ∣ o.phiFr.N

theorem zeroth_ok {N ls : Nat} {avg : Bool} {phi : Filt (List ℝ)} {x : List ℝ} (hx : x.length = N)
    (hphi : Sized N phi) (h0 : 0 < phi.levels.length) (hls : 2 ^ ls ∣ N) :
    ∃ z, JTFS.zeroth npJ phi ls avg x (npRfft x) = .ok z := by
  unfold JTFS.zeroth
  cases avg with
  | false => exact ⟨x, rfl⟩
  | true =>
    rw [if_pos rfl]
    obtain ⟨z, hz⟩ := sized_lowpass hphi (k := 0) (e := ls) (u := x) (by simp [hx]) h0 (by rw [Nat.zero_add]; exact hls)
    obtain ⟨f, h1, hz⟩ := bind_eq_ok.1 hz
    obtain ⟨c, h2, hz⟩ := bind_eq_ok.1 hz
    obtain ⟨y, h3, h4⟩ := bind_eq_ok.1 hz
    refine ⟨z, bind_eq_ok.2 ⟨f, h1, bind_eq_ok.2 ⟨c, h2, bind_eq_ok.2 ⟨y, ?_, h4⟩⟩⟩⟩
    change (if (ls : Int) < 0 then .error .type else npSubsampleFourier c (2 ^ (ls : Int).toNat)) = Except.ok y
    rw [if_neg (by omega), Int.toNat_natCast]
    exact h3

theorem stack2_ok {N ls : Nat} {avg : Bool} {psi2 : Filt (List ℝ)} {us : List (Nat × List ℂ)} {n2 : Nat}
    (hus : ∀ u ∈ us, (∃ m : List ℝ, u.2 = npRfft m ∧ m.length * 2 ^ sub1 ls avg u.1 = N) ∧
      (u.1 < psi2.j → Sized N psi2 ∧ u.1 < psi2.levels.length ∧ 2 ^ psi2.j ∣ N ∧ (avg = true → psi2.j ≤ ls))) :
    ∃ out, stack2 npJ ls avg us psi2 n2 = .ok out ∧
      ∀ X ∈ out, X.j = [-1, (psi2.j : Int)] ∧ (∃ u ∈ us, u.1 < psi2.j) ∧ X.n = [-1, (n2 : Int)] ∧
        X.n1Max ≤ us.length ∧ 0 < X.n1Max ∧ X.coef.h = X.n1Max ∧ X.coef.w * 2 ^ psi2.j = N := by
  have key : ∀ u ∈ us.filter fun u => decide (psi2.j > u.1), ∃ y, second npJ ls avg psi2 u = .ok y ∧
      y.length * 2 ^ psi2.j = N := by
    rintro ⟨j1, U⟩ hu
    obtain ⟨hm, hd⟩ := List.mem_filter.1 hu
    have hlt : j1 < psi2.j := of_decide_eq_true hd
    obtain ⟨⟨m, hme, hml⟩, h2⟩ := hus _ hm
    obtain ⟨a1, a2, a3, a4⟩ := h2 hlt
    have hme : U = npRfft m := hme
    rw [hme]
    exact second_ok a1 hml hlt a4 a2 a3
  obtain ⟨ys, hys⟩ := mapM_ok_of_forall (f := second npJ ls avg psi2) fun u hu =>
    (key u hu).imp fun _ h => h.1
  have hlen : ∀ y ∈ ys, y.length * 2 ^ psi2.j = N := by
    intro y hy
    obtain ⟨u, hu, huy⟩ := forall₂_mem_right (mapM_eq_ok.1 hys) hy
    obtain ⟨y', h1, h2⟩ := key u hu
    rw [h1] at huy
    injection huy with huy
    rw [← huy]
    exact h2
  have hysl := (mapM_eq_ok.1 hys).length_eq
  by_cases hne : ys = []
  · refine ⟨[], ?_, (fun X hX => by cases hX)⟩
    unfold stack2
    refine bind_eq_ok.2 ⟨ys, hys, ?_⟩
    rw [hne]
    rfl
  · obtain ⟨y0, hy0⟩ := List.exists_mem_of_ne_nil _ hne
    obtain ⟨Y, hY, hYh, hYw⟩ := stack_ok hne (w := y0.length) (fun a ha => by
      have := (hlen a ha).trans (hlen y0 hy0).symm
      exact Nat.eq_of_mul_eq_mul_right (by positivity) this)
    have hpos : 0 < ys.length := List.length_pos_iff.2 hne
    refine ⟨[⟨Y, [-1, (psi2.j : Int)], [-1, (n2 : Int)], ys.length⟩], ?_, ?_⟩
    · unfold stack2
      refine bind_eq_ok.2 ⟨ys, hys, ?_⟩
      rw [if_pos hpos]
      exact bind_eq_ok.2 ⟨Y, hY, rfl⟩
    · intro X hX
      rw [List.mem_singleton] at hX
      subst hX
      refine ⟨rfl, ?_, rfl, ?_, hpos, hYh, ?_⟩
      · obtain ⟨u, hu⟩ := List.exists_mem_of_length_pos (hysl.symm ▸ hpos)
        obtain ⟨h1, h2⟩ := List.mem_filter.1 hu
        exact ⟨u, h1, by simpa using h2⟩
      · rw [← hysl]; exact List.length_filter_le _ _
      · change Y.w * 2 ^ psi2.j = N
        rw [hYw]
        exact hlen y0 hy0

theorem widthFirst_ok {o : JObj (List ℝ)} {N ls lsFr : Nat} (F : Fits o N ls lsFr) {x : List ℝ}
    (hx : x.length = N) :
    ∃ t, widthFirst npJ x o.phi o.psi1 o.psi2 ls (decide (o.average = .loc)) = .ok t ∧
      (t.2.1.n1Max = o.psi1.length ∧ t.2.1.coef.h = o.psi1.length ∧ t.2.1.coef.w * 2 ^ ls = N ∧
        t.2.1.n = [-1] ∧ t.2.1.j = [-1]) ∧
      ∀ X ∈ t.2.2, (∃ f ∈ o.psi2, (∃ g ∈ o.psi1, g.j < f.j) ∧ X.j = [-1, (f.j : Int)] ∧
        X.coef.w * 2 ^ f.j = N) ∧ (∃ n2 : Nat, X.n = [-1, (n2 : Int)]) ∧
        X.n1Max ≤ o.psi1.length ∧ 0 < X.n1Max ∧ X.coef.h = X.n1Max := by
  set avg := decide (o.average = .loc) with havg
  obtain ⟨z, hz⟩ := zeroth_ok (avg := avg) hx F.phi F.phi0 F.stride
  have key : ∀ f ∈ o.psi1, ∃ r, first npJ o.phi ls avg (npRfft x) f = .ok r ∧
      (∃ u, r.1 = npRfft u ∧ u.length * 2 ^ sub1 ls avg f.j = N) ∧ r.2.length * 2 ^ ls = N := by
    intro f hf
    obtain ⟨a1, a2, a3, a4⟩ := F.psi1 f hf
    exact first_ok hx F.phi a1 a2 a3 a4 F.stride
  obtain ⟨l, hl⟩ := mapM_ok_of_forall (f := first npJ o.phi ls avg (npRfft x)) fun u hu =>
    (key u hu).imp fun _ h => h.1
  have hfl := mapM_eq_ok.1 hl
  have hlen : ∀ s ∈ l.map Prod.snd, s.length = N / 2 ^ ls := by
    intro s hs
    obtain ⟨r, hr, rfl⟩ := List.mem_map.1 hs
    obtain ⟨f, hf, hfr⟩ := forall₂_mem_right hfl hr
    obtain ⟨r', h1, -, h2⟩ := key f hf
    rw [h1] at hfr
    injection hfr with hfr
    rw [← hfr]
    exact (length_div_of_mul h2).symm
  have hlne : l.map Prod.snd ≠ [] := by
    intro h
    apply F.ne
    rw [← List.length_eq_zero_iff, hfl.length_eq]
    simpa using h
  obtain ⟨S, hS, hSh, hSw⟩ := stack_ok hlne hlen
  have hus : ∀ u ∈ List.zip (o.psi1.map fun p => p.j) (l.map Prod.fst),
      (∃ m : List ℝ, u.2 = npRfft m ∧ m.length * 2 ^ sub1 ls avg u.1 = N) ∧ ∃ g ∈ o.psi1, g.j = u.1 := by
    rintro ⟨j1, U⟩ hu
    obtain ⟨i, hi⟩ := List.mem_iff_getElem?.1 hu
    rw [List.getElem?_zip_eq_some] at hi
    obtain ⟨h1, h2⟩ := hi
    rw [List.getElem?_map] at h1 h2
    obtain ⟨f, hf, rfl⟩ := Option.map_eq_some_iff.1 h1
    obtain ⟨r, hr, rfl⟩ := Option.map_eq_some_iff.1 h2
    obtain ⟨f', hf', hfr⟩ := forall₂_get hfl hr
    rw [hf] at hf'
    cases hf'
    have hfm := List.mem_of_getElem? hf
    obtain ⟨r', h3, h4, -⟩ := key f hfm
    rw [h3] at hfr
    injection hfr with hfr
    rw [← hfr]
    exact ⟨h4, f, hfm, rfl⟩
  have hzl : (List.zip (o.psi1.map fun p => p.j) (l.map Prod.fst)).length = o.psi1.length := by
    simp [List.length_zip, hfl.length_eq]
  have hst : ∀ i f, o.psi2[i]? = some f → ∃ out,
      stack2 npJ ls avg (List.zip (o.psi1.map fun p => p.j) (l.map Prod.fst)) f (0 + i) = .ok out ∧
      ∀ X ∈ out, X.j = [-1, (f.j : Int)] ∧
        (∃ u ∈ List.zip (o.psi1.map fun p => p.j) (l.map Prod.fst), u.1 < f.j) ∧
        X.n = [-1, ((0 + i : Nat) : Int)] ∧
        X.n1Max ≤ (List.zip (o.psi1.map fun p => p.j) (l.map Prod.fst)).length ∧ 0 < X.n1Max ∧
        X.coef.h = X.n1Max ∧ X.coef.w * 2 ^ f.j = N := by
    intro i f hf
    apply stack2_ok
    intro u hu
    obtain ⟨h1, g, hg, hgj⟩ := hus u hu
    refine ⟨h1, fun hlt => ?_⟩
    obtain ⟨a1, a2, a3, a4⟩ := F.psi2 f (List.mem_of_getElem? hf) g hg (by rw [hgj]; exact hlt)
    exact ⟨a1, by rw [← hgj]; exact a2, a3, fun h => (a4 (of_decide_eq_true h)).1⟩
  obtain ⟨Y, hY⟩ := forEnum_ok (f := stack2 npJ ls avg (List.zip (o.psi1.map fun p => p.j) (l.map Prod.fst)))
    (l := o.psi2) (n := 0) fun i f hf => (hst i f hf).imp fun _ h => h.1
  refine ⟨(z, ⟨S, [-1], [-1], l.length⟩, Y), ?_, ?_, ?_⟩
  · exact bind_eq_ok.2 ⟨_, rfl, bind_eq_ok.2 ⟨z, hz, bind_eq_ok.2 ⟨l, hl, bind_eq_ok.2 ⟨S, hS,
      bind_eq_ok.2 ⟨Y, hY, rfl⟩⟩⟩⟩⟩
  · refine ⟨hfl.length_eq.symm, ?_, ?_, rfl, rfl⟩
    · change S.h = _
      rw [hSh, List.length_map, hfl.length_eq]
    · change S.w * 2 ^ ls = N
      rw [hSw]
      exact Nat.div_mul_cancel F.stride
  · intro X hX
    obtain ⟨i, f, out, hf, ho, hXo⟩ := (forEnum_mem hY X).1 hX
    obtain ⟨out', ho', hprop⟩ := hst i f hf
    rw [Nat.zero_add] at ho'
    rw [ho'] at ho
    injection ho with ho
    subst ho
    obtain ⟨b1, ⟨u, hu, hlt⟩, b2, b3, b4, b5, b6⟩ := hprop X hXo
    obtain ⟨-, g, hg, hgj⟩ := hus u hu
    rw [hzl] at b3
    exact ⟨⟨f, List.mem_of_getElem? hf, ⟨g, hg, by rw [hgj]; exact hlt⟩, b1, b6⟩, ⟨_, b2⟩, b3, b4, b5⟩

/-- Sizes of a path before averaging. -/
structure FitP (o : JObj (List ℝ)) (N ls lsFr : Nat) (p : FPath (Img ℂ)) : Prop where
  fr : ∃ f ∈ o.psisFr, p.jFr = f.j ∧ p.spin = f.spin
  rows : p.coef.h * 2 ^ subFr lsFr (decide (o.averageFr = .loc)) p.jFr = o.phiFr.N
  stride : p.n1Stride = 2 ^ p.jFr
  n1 : p.n1Max ≤ o.psi1.length ∧ 0 < p.n1Max
  cols : (p.n.length = 1 ∧ p.coef.w * 2 ^ ls = N) ∨
    (1 < p.n.length ∧ ∃ f ∈ o.psi2, (∃ g ∈ o.psi1, g.j < f.j) ∧ p.j = [-1, (f.j : Int)] ∧ p.coef.w * 2 ^ f.j = N)

theorem padFr_ok {α : Type} [Zero α] {X : Img α} {p : Int} (hp : 0 ≤ p) :
    ∃ Y, padFrequencyImg X p = .ok Y ∧ Y.h = X.h ∧ Y.w = X.w + p.toNat := by
  unfold padFrequencyImg
  rw [if_neg (by omega)]
  exact ⟨_, rfl, rfl, rfl⟩

theorem frBody_ok {lsFr Nfr : Nat} {avgFr : Bool} {j n : List Int} {n1Max : Nat} {Xp : Img ℂ}
    {psi : FiltFr (List ℝ)} {nFr : Nat} (hX : Xp.w = Nfr)
    (hf : (∃ h, psi.levels[0]? = some h ∧ h.length = Nfr) ∧ 2 ^ psi.j ∣ Nfr) :
    ∃ out, frBody npJ lsFr avgFr j n n1Max (rowDft Xp) psi nFr = .ok out ∧
      ∀ p ∈ out, p.jFr = psi.j ∧ p.spin = psi.spin ∧ p.coef.h * 2 ^ subFr lsFr avgFr psi.j = Nfr ∧
        p.coef.w = Xp.h ∧ p.n1Stride = 2 ^ psi.j ∧ p.n1Max = n1Max ∧ p.j = j ∧ p.n = n.tail ++ [(nFr : Int)] := by
  obtain ⟨⟨h, h1, h2⟩, h3⟩ := hf
  have hk : subFr lsFr avgFr psi.j ≤ psi.j := by
    unfold subFr
    split <;> omega
  obtain ⟨a, b, g1, g2, g3, g4⟩ := row_ok (X := Xp) (f := h) (e := subFr lsFr avgFr psi.j)
    (by rw [h2, hX]) (by rw [hX]; exact (pow_dvd_pow 2 hk).trans h3)
  refine ⟨_, bind_eq_ok.2 ⟨h, listGet_eq_ok.2 h1, bind_eq_ok.2 ⟨a, g1, bind_eq_ok.2 ⟨b, g2,
    bind_eq_ok.2 ⟨_, rfl, bind_eq_ok.2 ⟨_, rfl, rfl⟩⟩⟩⟩⟩, ?_⟩
  intro p hp
  rw [List.mem_singleton] at hp
  subst hp
  exact ⟨rfl, rfl, by rw [← hX]; exact g4, g3, rfl, rfl, rfl, rfl⟩

theorem frequency_ok {lsFr Nfr : Nat} {avgFr : Bool} {j n : List Int} {n1Max : Nat} {Xp : Img ℂ}
    {psis : List (FiltFr (List ℝ))} (hX : Xp.w = Nfr)
    (hf : ∀ psi ∈ psis, (∃ h, psi.levels[0]? = some h ∧ h.length = Nfr) ∧ 2 ^ psi.j ∣ Nfr) :
    ∃ out, forEnum (frBody npJ lsFr avgFr j n n1Max (rowDft Xp)) psis 0 = .ok out ∧
      ∀ p ∈ out, ∃ psi ∈ psis, p.jFr = psi.j ∧ p.spin = psi.spin ∧
        p.coef.h * 2 ^ subFr lsFr avgFr psi.j = Nfr ∧
        p.coef.w = Xp.h ∧ p.n1Stride = 2 ^ psi.j ∧ p.n1Max = n1Max ∧ p.j = j ∧
        p.n.length = n.tail.length + 1 := by
  have key := fun (i : Nat) (psi : FiltFr (List ℝ)) (h : psis[i]? = some psi) =>
    frBody_ok (lsFr := lsFr) (avgFr := avgFr) (j := j) (n := n) (n1Max := n1Max) (nFr := 0 + i) hX
      (hf psi (List.mem_of_getElem? h))
  obtain ⟨out, ho⟩ := forEnum_ok (f := frBody npJ lsFr avgFr j n n1Max (rowDft Xp)) (l := psis) (n := 0)
    fun i psi h => (key i psi h).imp fun _ h => h.1
  refine ⟨out, ho, fun p hp => ?_⟩
  obtain ⟨i, psi, r, hi, hr, hpr⟩ := (forEnum_mem ho p).1 hp
  obtain ⟨r', hr', hprop⟩ := key i psi hi
  rw [Nat.zero_add] at hr'
  rw [hr'] at hr
  injection hr with hr
  subst hr
  obtain ⟨a1, a2, a3, a4, a5, a6, a7, a8⟩ := hprop p hpr
  exact ⟨psi, List.mem_of_getElem? hi, a1, a2, a3, a4, a5, a6, a7, by rw [a8]; simp⟩

theorem joint_ok {o : JObj (List ℝ)} {N ls lsFr : Nat} (F : Fits o N ls lsFr) {x : List ℝ}
    (hx : x.length = N) :
    ∃ g, joint npJ x o.phi o.psi1 o.psi2 ls (decide (o.average = .loc)) o.phiFr o.psisFr lsFr
        (decide (o.averageFr = .loc)) = .ok g ∧ ∀ p ∈ g.2, FitP o N ls lsFr p := by
  obtain ⟨t, ht, ⟨t1, t2, t3, t4, t5⟩, hX⟩ := widthFirst_ok F hx
  have hpos : 0 < o.psi1.length := List.length_pos_iff.2 F.ne
  have hroom := F.room
  -- first order
  have first : ∃ y1, frequencyReal npJ o.phiFr o.psisFr lsFr (decide (o.averageFr = .loc)) t.2.1 = .ok y1 ∧
      ∀ p ∈ y1, FitP o N ls lsFr p := by
    obtain ⟨Xp, p1, p2, p3⟩ := padFr_ok (X := t.2.1.coef.swap) (p := (o.phiFr.N : Int) - t.2.1.n1Max) (by omega)
    obtain ⟨out, ho, hp⟩ := frequency_ok (lsFr := lsFr) (avgFr := decide (o.averageFr = .loc)) (j := t.2.1.j)
      (n := t.2.1.n) (n1Max := t.2.1.n1Max) (Xp := Xp.map fun r : ℝ => (r : ℂ))
      (psis := o.psisFr.filter fun p => decide (0 ≤ p.spin)) (Nfr := o.phiFr.N)
      (by
        change Xp.w = _
        rw [p3]
        change t.2.1.coef.h + _ = _
        omega)
      (fun psi hpsi => F.psisFr psi (List.mem_filter.1 hpsi).1)
    refine ⟨out, bind_eq_ok.2 ⟨_, rfl, bind_eq_ok.2 ⟨Xp, p1, bind_eq_ok.2 ⟨_, rfl, ho⟩⟩⟩, ?_⟩
    intro p hpo
    obtain ⟨psi, b0, b1, b2, b3, b4, b5, b6, b7, b8⟩ := hp p hpo
    refine ⟨⟨psi, (List.mem_filter.1 b0).1, b1, b2⟩, by rw [b1]; exact b3, by rw [b5, b1], ?_, .inl ⟨?_, ?_⟩⟩
    · rw [b6, t1]; exact ⟨le_refl _, hpos⟩
    · rw [b8, t4]; rfl
    · rw [b4]
      change Xp.h * 2 ^ ls = N
      rw [p2]
      exact t3
  -- second order
  have second : ∀ X ∈ t.2.2, ∃ y, frequencyComplex npJ o.phiFr o.psisFr lsFr (decide (o.averageFr = .loc)) X = .ok y ∧
      ∀ p ∈ y, FitP o N ls lsFr p := by
    intro X hXm
    obtain ⟨⟨f, hf, hg, hj, hw⟩, ⟨n2, hn2⟩, hn1, hn1', hh⟩ := hX X hXm
    obtain ⟨Xp, p1, p2, p3⟩ := padFr_ok (X := X.coef.swap) (p := (o.phiFr.N : Int) - X.n1Max) (by omega)
    obtain ⟨out, ho, hp⟩ := frequency_ok (lsFr := lsFr) (avgFr := decide (o.averageFr = .loc)) (j := X.j)
      (n := X.n) (n1Max := X.n1Max) (Xp := Xp) (psis := o.psisFr) (Nfr := o.phiFr.N)
      (by
        rw [p3]
        change X.coef.h + _ = _
        omega)
      (fun psi hpsi => F.psisFr psi hpsi)
    refine ⟨out, bind_eq_ok.2 ⟨_, rfl, bind_eq_ok.2 ⟨Xp, p1, bind_eq_ok.2 ⟨_, rfl, ho⟩⟩⟩, ?_⟩
    intro p hpo
    obtain ⟨psi, b0, b1, b2, b3, b4, b5, b6, b7, b8⟩ := hp p hpo
    refine ⟨⟨psi, b0, b1, b2⟩, by rw [b1]; exact b3, by rw [b5, b1], ?_, .inr ⟨?_, f, hf, hg, ?_, ?_⟩⟩
    · rw [b6]; exact ⟨hn1, hn1'⟩
    · rw [b8, hn2]; simp
    · rw [b7, hj]
    · rw [b4, p2]
      exact hw
  obtain ⟨y1, hy1, hp1⟩ := first
  obtain ⟨y2, hy2⟩ := mapM_ok_of_forall fun X hXm => (second X hXm).imp fun _ h => h.1
  refine ⟨(t.1, y1 ++ y2.flatten), bind_eq_ok.2 ⟨t, ht, bind_eq_ok.2 ⟨y1, hy1, bind_eq_ok.2 ⟨y2, hy2, rfl⟩⟩⟩, ?_⟩
  intro p hp
  rcases List.mem_append.1 hp with hp | hp
  · exact hp1 p hp
  · obtain ⟨y, hy, hpy⟩ := List.mem_flatten.1 hp
    obtain ⟨X, hXm, hXy⟩ := forall₂_mem_right (mapM_eq_ok.1 hy2) hy
    obtain ⟨y', hy', hprop⟩ := second X hXm
    rw [hy'] at hXy
    injection hXy with hXy
    subst hXy
    exact hprop p hpy

theorem averageTime_ok {o : JObj (List ℝ)} {N ls lsFr : Nat} (F : Fits o N ls lsFr) {p : FPath (Img ℂ)}
    (P : FitP o N ls lsFr p) {U : Img ℝ} (hw : U.w = p.coef.w) :
    ∃ U', averageTime npJ o.phi ls o.average p U = .ok U' ∧ U'.h = U.h := by
  unfold averageTime
  split
  · exact ⟨_, rfl, rfl⟩
  · split
    · rename_i hl
      obtain ⟨ha, hn⟩ := hl
      rcases P.cols with ⟨hn', -⟩ | ⟨-, f, hf, ⟨g, hg, hgf⟩, hj, hcw⟩
      · omega
      · obtain ⟨-, -, hd, h4⟩ := F.psi2 f hf g hg hgf
        obtain ⟨h5, h6⟩ := h4 ha
        have hy := List.getElem?_eq_getElem h6
        have hyl := F.phi _ _ hy
        have e : o.phi.levels[f.j].length = U.w := by
          rw [hw]
          exact Nat.eq_of_mul_eq_mul_right (by positivity) (hyl.trans hcw.symm)
        obtain ⟨a, b, g1, g2, g3, g4⟩ := row_ok (X := U.map fun r : ℝ => (r : ℂ)) (e := ls - f.j) e (by
          change _ ∣ U.w
          rw [hw]
          have h7 := F.stride
          rw [← hcw, ← Nat.sub_add_cancel h5, pow_add] at h7
          exact Nat.dvd_of_mul_dvd_mul_right (by positivity) h7)
        unfold timeAveraging
        rw [hj]
        refine ⟨_, bind_eq_ok.2 ⟨_, rfl, bind_eq_ok.2 ⟨o.phi.levels[f.j], ?_, bind_eq_ok.2 ⟨a, g1,
          bind_eq_ok.2 ⟨b, ?_, rfl⟩⟩⟩⟩, ?_⟩
        · change listGetI o.phi.levels (f.j : Int) = _
          unfold listGetI
          rw [if_pos (by omega), Int.toNat_natCast]
          exact listGet_eq_ok.2 hy
        · change rowSubsample a ((ls : Int) - (f.j : Nat)) = _
          have e2 : ((ls : Int) - (f.j : Nat)) = ((ls - f.j : Nat) : Int) := by omega
          rw [e2]
          exact g2
        · exact g3
    · exact ⟨U, rfl, rfl⟩

theorem averageFreq_ok {o : JObj (List ℝ)} {N ls lsFr : Nat} (F : Fits o N ls lsFr) {p : FPath (Img ℂ)}
    (P : FitP o N ls lsFr p) {U : Img ℝ} (hh : U.h = p.coef.h) :
    ∃ S, averageFreq npJ o.phiFr lsFr o.averageFr p U = .ok S ∧ 0 < S.2 ∧
      ∀ i, i * S.2 < p.n1Max → i < S.1.h := by
  have hroom := F.room
  have hn1 := P.n1
  unfold averageFreq
  split
  · rename_i hc
    unfold frequencyAveraging
    by_cases hg : o.averageFr = .glob
    · refine ⟨((rowAverage U.swap).swap, p.n1Max), bind_eq_ok.2 ⟨U.swap, rfl, ?_⟩, ?_, ?_⟩
      · rw [if_pos (by simpa using hg)]
        exact bind_eq_ok.2 ⟨_, rfl, bind_eq_ok.2 ⟨_, rfl, rfl⟩⟩
      · exact hn1.2
      · intro i hi
        change i < 1
        have : i * p.n1Max < 1 * p.n1Max := by rw [Nat.one_mul]; exact hi
        exact Nat.lt_of_mul_lt_mul_right this
    · have hloc : o.averageFr = .loc := by
        cases h : o.averageFr with
        | loc => rfl
        | glob => exact absurd h hg
        | no => exact absurd h hc.1
      obtain ⟨f1, f2, f3, f4⟩ := F.phiFr hloc
      have hrows := P.rows
      rw [hloc] at hrows
      have hk : subFr lsFr (decide (Average.loc = .loc)) p.jFr = min p.jFr lsFr := rfl
      rw [hk] at hrows
      have hlt : min p.jFr lsFr < o.phiFr.levels.length := by omega
      have hy := List.getElem?_eq_getElem hlt
      have hyl := f1 _ _ hy
      have e : (o.phiFr.levels[min p.jFr lsFr]).length = U.h := by
        rw [hh]
        exact Nat.eq_of_mul_eq_mul_right (by positivity) (hyl.trans hrows.symm)
      have hle : min p.jFr lsFr ≤ lsFr := by omega
      obtain ⟨a, b, g1, g2, g3, g4⟩ := row_ok (X := U.swap.map fun r : ℝ => (r : ℂ))
        (e := lsFr - min p.jFr lsFr) e (by
          change _ ∣ U.h
          rw [hh]
          have h7 := f4
          rw [← hrows, ← Nat.sub_add_cancel hle, pow_add, Nat.sub_add_cancel hle] at h7
          exact Nat.dvd_of_mul_dvd_mul_right (by positivity) h7)
      have g4 : b.w * 2 ^ (lsFr - min p.jFr lsFr) = U.h := g4
      have g2 : rowSubsample a ((lsFr : Int) - (min p.jFr o.phiFr.j : Nat)) = .ok b := by
        rw [f2]
        have e2 : ((lsFr : Int) - (min p.jFr lsFr : Nat)) = ((lsFr - min p.jFr lsFr : Nat) : Int) := by omega
        rw [e2]
        exact g2
      have hget : listGet o.phiFr.levels (min p.jFr o.phiFr.j) = .ok o.phiFr.levels[min p.jFr lsFr] := by
        rw [f2]
        exact listGet_eq_ok.2 hy
      refine ⟨(((rowIdft b).map Complex.re).swap, 2 ^ lsFr), bind_eq_ok.2 ⟨U.swap, rfl, ?_⟩, ?_, ?_⟩
      · rw [if_neg (by simpa using hg)]
        exact bind_eq_ok.2 ⟨_, rfl, bind_eq_ok.2 ⟨_, hget, bind_eq_ok.2 ⟨a, g1,
          bind_eq_ok.2 ⟨b, g2, bind_eq_ok.2 ⟨_, rfl, bind_eq_ok.2 ⟨_, rfl, rfl⟩⟩⟩⟩⟩⟩
      · positivity
      · intro i hi
        change i < b.w
        have hi : i * 2 ^ lsFr < p.n1Max := hi
        have hbw : b.w * 2 ^ lsFr = o.phiFr.N := by
          rw [← hrows, ← hh, ← g4, mul_assoc, ← pow_add, Nat.sub_add_cancel hle]
        have : i * 2 ^ lsFr < b.w * 2 ^ lsFr := by omega
        exact Nat.lt_of_mul_lt_mul_right this
  · refine ⟨(U, p.n1Stride), rfl, ?_, ?_⟩
    · change 0 < p.n1Stride
      rw [P.stride]
      positivity
    · intro i hi
      have hi : i * p.n1Stride < p.n1Max := hi
      change i < U.h
      rw [P.stride] at hi
      rw [hh]
      have hrows := P.rows
      have hk : subFr lsFr (decide (o.averageFr = .loc)) p.jFr ≤ p.jFr := by
        unfold subFr
        split <;> omega
      have h1 : i * 2 ^ subFr lsFr (decide (o.averageFr = .loc)) p.jFr ≤ i * 2 ^ p.jFr :=
        Nat.mul_le_mul_left _ (Nat.pow_le_pow_right (by norm_num) hk)
      refine Nat.lt_of_mul_lt_mul_right (a := 2 ^ subFr lsFr (decide (o.averageFr = .loc)) p.jFr) ?_
      rw [hrows]
      omega

theorem averageBody_ok {o : JObj (List ℝ)} {N ls lsFr : Nat} (F : Fits o N ls lsFr) {p : FPath (Img ℂ)}
    (P : FitP o N ls lsFr p) (arrayOut : Bool) :
    ∃ out, averageBody npJ o.phi ls o.average o.phiFr lsFr o.averageFr arrayOut o.fmt p = .ok out := by
  obtain ⟨U', h1, h2⟩ := averageTime_ok F P (U := p.coef.map fun z => ‖z‖) rfl
  obtain ⟨S, h3, h4, h5⟩ := averageFreq_ok F P (U := U') h2
  have unpad : ∃ S', unpadFr npJ arrayOut o.fmt p.n1Max S.2 S.1 = .ok S' ∧
      (o.fmt = .time → S'.h = min S.1.h (1 + p.n1Max / S.2)) := by
    unfold unpadFr
    split
    · refine ⟨Img.tab (min S.1.h (1 + p.n1Max / S.2)) S.1.w S.1.px, ?_, fun _ => rfl⟩
      change unpadFrequencyImg S.1 p.n1Max S.2 = _
      unfold unpadFrequencyImg
      rw [if_neg (by omega)]
    · rename_i hc
      rw [not_not] at hc
      exact ⟨S.1, rfl, fun h => by rw [hc.2] at h; cases h⟩
  obtain ⟨S', h6, h7⟩ := unpad
  have fmt : ∃ out, formatPath npJ o.fmt ⟨S', p.j, p.n, p.n1Max, p.jFr, p.nFr, S.2, p.spin⟩ = .ok out := by
    unfold formatPath
    cases hf : o.fmt with
    | joint => exact ⟨_, rfl⟩
    | other => exact ⟨_, rfl⟩
    | time =>
      have h7 := h7 hf
      simp only
      unfold timeFormatting
      have : ∃ out, forEnum (fun (n1 : Nat) i => do
          let c ← listGet (splitImg S') i
          Except.ok [(⟨.sig c, p.j, (n1 : Int) :: p.n, p.n.length - 1, some (p.jFr, p.nFr, p.spin), none⟩ :
            JPath (List ℝ) (Img ℝ))]) (n1Range p.n1Max S.2) 0 = .ok out := by
        refine forEnum_ok fun i a ha => ?_
        obtain ⟨g1, g2⟩ := n1Range_getElem? ha
        rw [lt_ceil_iff h4] at g2
        have g3 : i < S.1.h := h5 i g2
        have g4 : i ≤ p.n1Max / S.2 := (Nat.le_div_iff_mul_le h4).2 g2.le
        have g5 : 0 + i < (splitImg S').length := by
          unfold splitImg
          rw [length_tab, h7]
          omega
        exact ⟨_, bind_eq_ok.2 ⟨_, listGet_eq_ok.2 (List.getElem?_eq_getElem g5), rfl⟩⟩
      obtain ⟨out, ho⟩ := this
      exact ⟨out, bind_eq_ok.2 ⟨_, rfl, ho⟩⟩
  obtain ⟨out, h8⟩ := fmt
  exact ⟨out, bind_eq_ok.2 ⟨_, rfl, bind_eq_ok.2 ⟨U', h1, bind_eq_ok.2 ⟨S, h3, bind_eq_ok.2 ⟨S', h6, h8⟩⟩⟩⟩⟩

/-- When everything fits, all paths are computed. -/
theorem paths_ok {o : JObj (List ℝ)} {N ls lsFr : Nat} (F : Fits o N ls lsFr) {x : List ℝ}
    (hx : x.length = N) : ∃ out, FrontJ.paths npJ o ls lsFr x = .ok out := by
  obtain ⟨g, hg, hP⟩ := joint_ok F hx
  have hz : ∃ z, averageZeroth npJ o.average g.1 = .ok z := by
    unfold averageZeroth
    split
    · exact ⟨_, rfl⟩
    · exact ⟨_, rfl⟩
  obtain ⟨z, hz⟩ := hz
  obtain ⟨l, hl⟩ := mapM_ok_of_forall fun p hp => averageBody_ok F (hP p hp) (decide (o.outType = .array))
  exact ⟨_, bind_eq_ok.2 ⟨g, hg, bind_eq_ok.2 ⟨z, hz, bind_eq_ok.2 ⟨l, hl, rfl⟩⟩⟩⟩

end Verif
