import Verif.Props.NdJTFS
import Verif.Props.NdArray3D
import Verif.Props.Returns1D
import Verif.Props.Returns2D

/-!
# C101: which exception a refused input raises

With the numpy frontends.  An object that accepts some signal refuses every signal of another length; the exception is
`ValueError` (raised by `pad`) when the signal is not longer than the padding on the right and `RuntimeError` (raised by
the first product with a filter) otherwise.  The 2-D and 3-D frontends check the shape and raise `RuntimeError`.
-/

namespace Verif

/-- The exception for a 1-D signal of a wrong length `n`, where `pad` is the number of samples added on the right. -/
def Spec.lengthError (pad n : ℕ) : PyErr := if n ≤ pad then .value else .runtime

theorem error_bind {α β : Type} (e : PyErr) (f : α → Py β) : ((Except.error e : Py α) >>= f) = .error e := rfl

theorem listGet_some {α : Type} {l : List α} {i : ℕ} {a : α} (h : l[i]? = some a) : listGet l i = .ok a := by
  unfold listGet; rw [h]

/-- The low-pass and the first wavelet of an object are stored at the padded length. -/
theorem make_top {a : Args1D} {s : Sc1D} (h : a.make = .ok s) :
    (∃ g, s.phi.levels[0]? = some g ∧ g.length = s.built.Npadded) ∧
    ∃ f rest g, s.psi1 = f :: rest ∧ f.levels[0]? = some g ∧ g.length = s.built.Npadded := by
  obtain ⟨t, R1, R2, lT, M1, M2, hR1, hR2, ht, hT, hR, hfl, h1, -, -, -, hlv, -⟩ := make_filters h
  constructor
  · refine ⟨_, makeLevels_zero hlv, length_morlet1d ?_⟩
    have : (0 : ℝ) < t := by exact_mod_cast (by linarith : (0 : ℚ) < t)
    positivity
  · obtain ⟨p, hp⟩ := anden_nonempty (J := a.J) hR1
    obtain ⟨f, hf, hpf⟩ := forall₂_get' h1 hp
    obtain ⟨-, -, -, e4⟩ := makePsi_fields hpf
    cases hc : s.psi1 with
    | nil => rw [hc] at hf; cases hf
    | cons f' rest =>
      rw [hc] at hf
      cases hf
      exact ⟨_, rest, _, rfl, makeLevels_zero e4,
        length_morlet1d (lt_of_lt_of_le (by positivity) (anden_pos hR1 (List.mem_of_getElem? hp)).2.2)⟩

namespace Core1D

/-- The exception of the first product with a filter is that of the transform. -/
theorem scattering1d_error {B : Backend1D} {U0 : B.R} {Uh : B.C} {e : PyErr} {phi f : Filt B.F} {g h : B.F}
    {psis : List (List (Filt B.F))} {rest : List (Filt B.F)} (hr : B.rfft U0 = .ok Uh)
    (hg : phi.levels[0]? = some g) (hge : B.cdgmm Uh g = .error e) (hps : psis[0]? = some (f :: rest))
    (hh : f.levels[0]? = some h) (hhe : B.cdgmm Uh h = .error e) (ls : ℕ) (avg : Bool) :
    scattering1d B U0 phi psis ls avg = .error e := by
  unfold scattering1d zeroth
  rw [hr, ok_bind]
  cases avg
  · rw [if_neg (by simp), ok_bind, listGet_some hps, ok_bind]
    unfold forEnum firstOrder bandpass
    simp only [listGet_some hh, ok_bind, hhe, error_bind]
  · rw [if_pos rfl]
    unfold lowpass
    simp only [listGet_some hg, ok_bind, hge, error_bind]

end Core1D

namespace JTFS

theorem widthFirst_error {B : JBackend} {U0 : B.R} {Uh : B.C} {e : PyErr} {phi f : Filt B.F} {g h : B.F}
    {rest psi2 : List (Filt B.F)} (hr : B.rfft U0 = .ok Uh)
    (hg : phi.levels[0]? = some g) (hge : B.cdgmm Uh g = .error e)
    (hh : f.levels[0]? = some h) (hhe : B.cdgmm Uh h = .error e) (ls : ℕ) (avg : Bool) :
    widthFirst B U0 phi (f :: rest) psi2 ls avg = .error e := by
  unfold widthFirst zeroth
  rw [hr, ok_bind]
  cases avg
  · rw [if_neg (by simp), ok_bind, List.mapM_cons]
    unfold first
    simp only [listGet_some hh, ok_bind, hhe, error_bind]
  · rw [if_pos rfl]
    simp only [listGet_some hg, ok_bind, hge, error_bind]

end JTFS

theorem npPad_cases {s : Built1D} (hlr : s.padLeft ≤ s.padRight) (x : List ℝ) :
    npPad x s.padLeft s.padRight = if x.length ≤ s.padRight then .error .value
      else .ok (tab (s.padLeft + x.length + s.padRight) fun i => x.getD (reflectIndex x.length s.padLeft i) 0) := by
  unfold npPad
  by_cases h : x.length ≤ s.padRight
  · rw [if_pos (Or.inr h), if_pos h]
  · rw [if_neg (by omega), if_neg h]

theorem ndPad_cases {s : Built1D} (hlr : s.padLeft ≤ s.padRight) (x : Nd ℝ) :
    NdFront.pad x s.padLeft s.padRight = if x.last ≤ s.padRight then .error .value
      else .ok (x.mapLast (s.padLeft + x.last + s.padRight) fun a =>
        tab (s.padLeft + x.last + s.padRight) fun i => a.getD (reflectIndex x.last s.padLeft i) 0) := by
  unfold NdFront.pad
  by_cases h : x.last ≤ s.padRight
  · rw [if_pos (Or.inr h), if_pos h]
  · rw [if_neg (by omega), if_neg h]

theorem last_mapLast {α β : Type} (n : ℕ) (f : List α → List β) (x : Nd α) : (x.mapLast n f).last = n := by
  unfold Nd.last Nd.mapLast
  simp

/-- `reshape_input` of an array with at least one axis: refused when the last axis is empty, otherwise the last axis is
kept. -/
theorem reshapeInput_last {x : Nd ℝ} {n : ℕ} (hn : x.shape.getLast? = some n) :
    (n = 0 ∧ NdFront.reshapeInput x [x.last] = .error .value) ∨
    (n ≠ 0 ∧ ∃ y, NdFront.reshapeInput x [x.last] = .ok y ∧ y.last = n) := by
  have hl : x.last = n := by unfold Nd.last; rw [hn]; rfl
  have hd : n ∣ x.size := by
    unfold Nd.size
    exact List.dvd_prod (List.mem_of_getLast? hn)
  have e : NdFront.reshapeInput x [x.last] = if n = 0 ∨ x.size % n ≠ 0 then .error .value
      else .ok ⟨[x.size / n, 1, n], x.data⟩ := by
    rw [hl]
    unfold NdFront.reshapeInput Nd.reshape
    simp
  rw [e]
  by_cases h0 : n = 0
  · exact Or.inl ⟨h0, by rw [if_pos (Or.inl h0)]⟩
  · refine Or.inr ⟨h0, _, if_neg ?_, rfl⟩
    rw [not_or, not_not]
    exact ⟨h0, Nat.mod_eq_zero_of_dvd hd⟩

/-! ## One dimension -/

section Scattering1D

open Front1D

/-- What a successful call says about the object. -/
theorem run_facts {a : Args1D} {y : List ℝ} {r : Out1D (List ℝ)} (hy : a.run y = .ok r) :
    ∃ s ls, a.make = .ok s ∧ y.length = s.built.Ninput ∧ checkRuntimeArgs (a.obj s) = .ok () ∧
      log2Stride s.built.stride a.T a.J s.built.Ninput = .ok ls ∧
      (psis (a.obj s))[0]? = some (s.psi1.map FiltX.toFilt) := by
  obtain ⟨s, hs, hrun⟩ := bind_eq_ok.1 hy
  have hl := C57_length_checked a s hs y r hy
  obtain ⟨hc, m, hm, -⟩ := Front1D.scattering_eq_ok.1 hrun
  obtain ⟨U, ls, out, -, hls, hcore, -⟩ := paths_eq_ok.1 hm
  obtain ⟨_, _, psi1, _, -, -, hp, -, -⟩ := Core1D.scattering1d_eq_ok _ hcore
  refine ⟨s, ls, hs, hl, ?_, hls, ?_⟩
  · unfold checkRuntimeArgs
    rw [if_neg hc.1, if_neg hc.2]
  · rw [psis_eq, List.getElem?_take] at hp ⊢
    split at hp
    · rename_i h
      rw [if_pos h]
      rfl
    · cases hp

/-- **C101 (1-D, one signal).** -/
theorem C101_length_1d (a : Args1D) (y : List ℝ) (r : Out1D (List ℝ)) (hy : a.run y = .ok r) :
    ∃ s, a.make = .ok s ∧ ∀ x : List ℝ, x.length ≠ y.length →
      a.run x = .error (Spec.lengthError s.built.padRight x.length) := by
  obtain ⟨s, ls, hs, hl, hc, hls, hp⟩ := run_facts hy
  refine ⟨s, hs, fun x hx => ?_⟩
  obtain ⟨t, lT, -, -, -, hsum, hlr, -⟩ := make_sizes hs
  obtain ⟨⟨g, hg, hgl⟩, f, rest, h, hf, hh, hhl⟩ := make_top hs
  unfold Args1D.run
  rw [hs, ok_bind]
  unfold scattering
  rw [hc, ok_bind]
  show npPad x s.built.padLeft s.built.padRight >>= _ = _
  rw [npPad_cases hlr]
  unfold Spec.lengthError
  by_cases hn : x.length ≤ s.built.padRight
  · rw [if_pos hn, if_pos hn]; rfl
  · rw [if_neg hn, if_neg hn, ok_bind]
    rw [show (a.obj s).log2Stride = .ok ls from hls, ok_bind]
    have hbad : ∀ (u : List ℝ) (k : List ℝ), u.length = s.built.padLeft + x.length + s.built.padRight →
        k.length = s.built.Npadded → npCdgmm (npRfft u) k = .error .runtime := by
      intro u k hu hk
      unfold npCdgmm
      rw [if_pos]
      rw [length_npRfft, hu, hk]
      omega
    rw [hf] at hp
    rw [Core1D.scattering1d_error (B := npBackend) (e := .runtime) rfl (show (a.obj s).phi.levels[0]? = some g from hg)
      (hbad _ _ (length_tab _ _) hgl) hp (show f.toFilt.levels[0]? = some h from hh) (hbad _ _ (length_tab _ _) hhl)]
    rfl

/-- **C101 (1-D, arrays).** An object that accepts some signal refuses every array whose last axis has another length;
an array without axes is refused with `ValueError`. -/
theorem C101_array_1d (a : Args1D) (y : List ℝ) (r : Out1D (List ℝ)) (hy : a.run y = .ok r) :
    ∃ s, a.make = .ok s ∧ (∀ X : Nd ℝ, X.shape = [] → a.runNd X = .error .value) ∧
      ∀ (X : Nd ℝ) (n : ℕ), X.shape.getLast? = some n → n ≠ y.length →
        a.runNd X = .error (Spec.lengthError s.built.padRight n) := by
  obtain ⟨s, ls, hs, hl, hc, hls, hp⟩ := run_facts hy
  refine ⟨s, hs, fun X hX => ?_, fun X n hXn hn => ?_⟩
  · unfold Args1D.runNd
    rw [hs, ok_bind]
    unfold NdFront.scattering
    rw [hc, ok_bind, if_pos hX]
  obtain ⟨t, lT, -, -, -, hsum, hlr, -⟩ := make_sizes hs
  obtain ⟨⟨g, hg, hgl⟩, f, rest, h, hf, hh, hhl⟩ := make_top hs
  unfold Args1D.runNd
  rw [hs, ok_bind]
  unfold NdFront.scattering
  have hne : X.shape ≠ [] := by intro h; rw [h] at hXn; cases hXn
  rw [hc, ok_bind, if_neg hne]
  unfold Spec.lengthError
  rcases reshapeInput_last hXn with ⟨h0, hr⟩ | ⟨h0, Y, hr, hYl⟩
  · rw [hr, if_pos (by omega)]; rfl
  rw [hr, ok_bind]
  show NdFront.pad Y s.built.padLeft s.built.padRight >>= _ = _
  rw [ndPad_cases hlr, hYl]
  by_cases hn' : n ≤ s.built.padRight
  · rw [if_pos hn', if_pos hn']; rfl
  · rw [if_neg hn', if_neg hn', ok_bind, show (a.obj s).log2Stride = .ok ls from hls, ok_bind]
    have hbad : ∀ (u : Nd ℝ) (k : List ℝ), u.last = s.built.padLeft + n + s.built.padRight →
        k.length = s.built.Npadded → ndBackend.cdgmm (u.mapLast u.last npRfft) k = .error .runtime := by
      intro u k hu hk
      refine if_pos ?_
      rw [last_mapLast, hu, hk]
      omega
    rw [hf] at hp
    rw [Core1D.scattering1d_error (B := ndBackend) (e := .runtime) rfl (show (a.obj s).phi.levels[0]? = some g from hg)
      (hbad _ _ (last_mapLast _ _ _) hgl) hp (show f.toFilt.levels[0]? = some h from hh)
      (hbad _ _ (last_mapLast _ _ _) hhl)]
    rfl

/-- **C101 (1-D, `out_type`).** Whatever the input, an unknown `out_type`, and `out_type='array'` without averaging, raise
`ValueError` at the call. -/
theorem C101_args_1d (a : Args1D) (s : Sc1D) (hs : a.make = .ok s)
    (h : a.outType = .other ∨ (s.average = .no ∧ a.outType = .array)) :
    (∀ x : List ℝ, a.run x = .error .value) ∧ ∀ X : Nd ℝ, a.runNd X = .error .value := by
  have hc : checkRuntimeArgs (a.obj s) = .error .value := by
    unfold checkRuntimeArgs
    rcases h with h | h
    · rw [if_pos (show (a.obj s).outType = .other from h)]
    · rw [if_pos (show (a.obj s).average = .no ∧ (a.obj s).outType = .array from h)]
      split <;> rfl
  constructor
  · intro x
    unfold Args1D.run
    rw [hs, ok_bind]
    unfold scattering
    rw [hc]; rfl
  · intro x
    unfold Args1D.runNd
    rw [hs, ok_bind]
    unfold NdFront.scattering
    rw [hc]; rfl

/-- An object for 1000 samples: 999 samples raise `RuntimeError`, no sample at all raises `ValueError`. -/
example : (exArgs .none .array).run (List.replicate 999 1) = .error .runtime ∧
    (exArgs .none .array).run [] = .error .value ∧ (exArgs .none .array).runNd ⟨[], [1]⟩ = .error .value ∧
    (exArgs .none .other).run [] = .error .value := by
  obtain ⟨s, h1, h2, -, h4⟩ := exArgs_run (av := .loc) .array (Or.inl ⟨rfl, rfl⟩)
    (Or.inr (Or.inr ⟨rfl, by simp⟩))
  obtain ⟨r, hr⟩ := h4 (List.replicate 1000 1) List.length_replicate
  obtain ⟨s', hs', h⟩ := C101_length_1d _ _ r hr
  obtain ⟨-, -, h0, -⟩ := C101_array_1d _ _ r hr
  rw [h1] at hs'
  cases hs'
  obtain ⟨t, lT, -, -, -, hsum, hlr, hrl, hrN, hNp, -⟩ := make_sizes h1
  refine ⟨?_, ?_, h0 _ rfl, ?_⟩
  · rw [h _ (by rw [List.length_replicate, List.length_replicate]; omega), List.length_replicate]
    unfold Spec.lengthError
    rw [if_neg]
    intro hle
    set k := jPad s.built.Ninput (minToPad s.built.Ninput t)
    rcases Nat.lt_or_ge k 12 with hk | hk
    · have := Nat.pow_le_pow_right (n := 2) (by norm_num) (show k ≤ 11 by omega)
      omega
    · have := Nat.pow_le_pow_right (n := 2) (by norm_num) hk
      omega
  · rw [h _ (by rw [List.length_replicate]; simp)]
    rfl
  · exact (C101_args_1d (exArgs .none .other) s h1 (Or.inl rfl)).1 []

end Scattering1D

/-! ## Joint time-frequency scattering -/

section JTFS

open FrontJ

theorem runJ_facts {a : JArgs} {y : List ℝ} {r : JOut (List ℝ) (Img ℝ)} (hy : a.run y = .ok r) :
    ∃ s Q ls lsFr, a.make = .ok s ∧ parseQ a.Q = .ok Q ∧ y.length = s.base.built.Ninput ∧
      checkRuntimeArgs (a.obj s Q.1.toNat) = .ok () ∧
      (a.obj s Q.1.toNat).log2Stride = .ok ls ∧ (a.obj s Q.1.toNat).log2StrideFr = .ok lsFr := by
  unfold JArgs.run at hy
  obtain ⟨s, hs, hy⟩ := bind_eq_ok.1 hy
  obtain ⟨Q, hQ, hy⟩ := bind_eq_ok.1 hy
  obtain ⟨hc, P, ⟨U0, ls, lsFr, S, h1, h2, h3, h4, -⟩, -⟩ := scattering_eq_ok hy
  refine ⟨s, Q, ls, lsFr, hs, hQ, ?_, hc, h2, h3⟩
  obtain ⟨_, _, _, hb, -⟩ := JArgs.make_eq_ok hs
  obtain ⟨t, lT, -, -, -, hsum, -⟩ := make_sizes hb
  obtain ⟨-, f, rest, h, hf, hh, hhl⟩ := make_top hb
  have hU := length_npPad (show npPad y s.base.built.padLeft s.base.built.padRight = .ok U0 from h1)
  unfold paths JTFS.joint JTFS.widthFirst at h4
  obtain ⟨g, hg, -⟩ := bind_eq_ok.1 h4
  obtain ⟨w, hw, -⟩ := bind_eq_ok.1 hg
  obtain ⟨Uh, hUh, hw⟩ := bind_eq_ok.1 hw
  obtain ⟨S0, -, hw⟩ := bind_eq_ok.1 hw
  obtain ⟨l, hl, -⟩ := bind_eq_ok.1 hw
  have hUh : npRfft U0 = Uh := Except.ok.inj hUh
  obtain ⟨c, -, hc⟩ := forall₂_mem_left (mapM_eq_ok.1 hl)
    (show f.toFilt ∈ (a.obj s Q.1.toNat).psi1 from List.mem_map_of_mem (by rw [hf]; exact List.mem_cons_self))
  unfold JTFS.first at hc
  obtain ⟨k, hk, hc⟩ := bind_eq_ok.1 hc
  obtain ⟨c', hc', -⟩ := bind_eq_ok.1 hc
  have hk : k = h := by
    rw [listGet_some (show f.toFilt.levels[0]? = some h from hh)] at hk
    exact (Except.ok.inj hk).symm
  subst hk
  have hc' : npCdgmm Uh k = .ok c' := hc'
  unfold npCdgmm at hc'
  split at hc'
  · cases hc'
  · rename_i hne
    rw [not_not, ← hUh, length_npRfft] at hne
    omega

/-- **C101 (joint time-frequency, one signal).** -/
theorem C101_length_jtfs (a : JArgs) (y : List ℝ) (r : JOut (List ℝ) (Img ℝ)) (hy : a.run y = .ok r) :
    ∃ s, a.make = .ok s ∧ ∀ x : List ℝ, x.length ≠ y.length →
      a.run x = .error (Spec.lengthError s.base.built.padRight x.length) := by
  obtain ⟨s, Q, ls, lsFr, hs, hQ, hl, hc, hls, hlsF⟩ := runJ_facts hy
  refine ⟨s, hs, fun x hx => ?_⟩
  obtain ⟨_, _, _, hb, -⟩ := JArgs.make_eq_ok hs
  obtain ⟨t, lT, -, -, -, hsum, hlr, -⟩ := make_sizes hb
  obtain ⟨⟨g, hg, hgl⟩, f, rest, h, hf, hh, hhl⟩ := make_top hb
  unfold JArgs.run
  rw [hs, ok_bind, hQ, ok_bind]
  unfold scattering
  rw [hc, ok_bind]
  show npPad x s.base.built.padLeft s.base.built.padRight >>= _ = _
  rw [npPad_cases hlr]
  unfold Spec.lengthError
  by_cases hn : x.length ≤ s.base.built.padRight
  · rw [if_pos hn, if_pos hn]; rfl
  · rw [if_neg hn, if_neg hn, ok_bind, hls, ok_bind, hlsF, ok_bind]
    have hbad : ∀ (u : List ℝ) (k : List ℝ), u.length = s.base.built.padLeft + x.length + s.base.built.padRight →
        k.length = s.base.built.Npadded → npCdgmm (npRfft u) k = .error .runtime := by
      intro u k hu hk
      unfold npCdgmm
      rw [if_pos]
      rw [length_npRfft, hu, hk]
      omega
    unfold paths JTFS.joint
    rw [show (a.obj s Q.1.toNat).psi1 = f.toFilt :: rest.map FiltX.toFilt by
      show s.base.psi1.map FiltX.toFilt = _; rw [hf]; rfl]
    rw [JTFS.widthFirst_error (B := npJ) (e := .runtime) rfl
      (show (a.obj s Q.1.toNat).phi.levels[0]? = some g from hg) (hbad _ _ (length_tab _ _) hgl)
      (show f.toFilt.levels[0]? = some h from hh) (hbad _ _ (length_tab _ _) hhl)]
    rfl

/-- **C101 (joint time-frequency, arrays).** -/
theorem C101_array_jtfs (a : JArgs) (y : List ℝ) (r : JOut (List ℝ) (Img ℝ)) (hy : a.run y = .ok r) :
    ∃ s, a.make = .ok s ∧ (∀ X : Nd ℝ, X.shape = [] → a.runNd X = .error .value) ∧
      ∀ (X : Nd ℝ) (n : ℕ), X.shape.getLast? = some n → n ≠ y.length →
        a.runNd X = .error (Spec.lengthError s.base.built.padRight n) := by
  obtain ⟨s, Q, ls, lsFr, hs, hQ, hl, hc, hls, hlsF⟩ := runJ_facts hy
  refine ⟨s, hs, fun X hX => ?_, fun X n hXn hn => ?_⟩
  · unfold JArgs.runNd
    rw [hs, ok_bind, hQ, ok_bind]
    unfold NdFrontJ.scattering
    rw [hc, ok_bind, if_pos hX]
  obtain ⟨_, _, _, hb, -⟩ := JArgs.make_eq_ok hs
  obtain ⟨t, lT, -, -, -, hsum, hlr, -⟩ := make_sizes hb
  obtain ⟨⟨g, hg, hgl⟩, f, rest, h, hf, hh, hhl⟩ := make_top hb
  unfold JArgs.runNd
  rw [hs, ok_bind, hQ, ok_bind]
  unfold NdFrontJ.scattering
  have hne : X.shape ≠ [] := by intro h; rw [h] at hXn; cases hXn
  rw [hc, ok_bind, if_neg hne]
  unfold Spec.lengthError
  rcases reshapeInput_last hXn with ⟨h0, hr⟩ | ⟨h0, Y, hr, hYl⟩
  · rw [hr, if_pos (by omega)]; rfl
  rw [hr, ok_bind]
  show NdFront.pad Y s.base.built.padLeft s.base.built.padRight >>= _ = _
  rw [ndPad_cases hlr, hYl]
  by_cases hn' : n ≤ s.base.built.padRight
  · rw [if_pos hn', if_pos hn']; rfl
  · rw [if_neg hn', if_neg hn', ok_bind, hls, ok_bind, hlsF, ok_bind]
    have hbad : ∀ (u : Nd ℝ) (k : List ℝ), u.last = s.base.built.padLeft + n + s.base.built.padRight →
        k.length = s.base.built.Npadded → ndBackend.cdgmm (u.mapLast u.last npRfft) k = .error .runtime := by
      intro u k hu hk
      refine if_pos ?_
      rw [last_mapLast, hu, hk]
      omega
    unfold paths JTFS.joint
    rw [show (a.obj s Q.1.toNat).psi1 = f.toFilt :: rest.map FiltX.toFilt by
      show s.base.psi1.map FiltX.toFilt = _; rw [hf]; rfl]
    rw [JTFS.widthFirst_error (B := ndJ) (e := .runtime) rfl
      (show (a.obj s Q.1.toNat).phi.levels[0]? = some g from hg) (hbad _ _ (last_mapLast _ _ _) hgl)
      (show f.toFilt.levels[0]? = some h from hh) (hbad _ _ (last_mapLast _ _ _) hhl)]
    rfl

/-- **C101 (joint time-frequency, `out_type` and `format`).** -/
theorem C101_args_jtfs (a : JArgs) (s : ScJ) (hs : a.make = .ok s)
    (h : a.outType = .other ∨ a.fmt = .other ∨ (s.base.average = .no ∧ a.outType = .array) ∨
      (a.fmt = .joint ∧ s.averageFr = .no ∧ a.outType = .array)) :
    (∀ x : List ℝ, a.run x = .error .value) ∧ ∀ X : Nd ℝ, a.runNd X = .error .value := by
  obtain ⟨Q, _, _, -, hQ, -⟩ := JArgs.make_eq_ok hs
  have hc : checkRuntimeArgs (a.obj s Q.1.toNat) = .error .value := by
    have e : checkRuntimeArgs (a.obj s Q.1.toNat) = if a.outType = .other then .error .value
        else if s.base.average = .no ∧ a.outType = .array then .error .value
        else if a.fmt = .joint ∧ s.averageFr = .no ∧ a.outType = .array then .error .value
        else if a.fmt = .other then .error .value else .ok () := rfl
    rw [e]
    split
    · rfl
    split
    · rfl
    split
    · rfl
    split
    · rfl
    · simp_all
  constructor
  · intro x
    unfold JArgs.run
    rw [hs, ok_bind, hQ, ok_bind]
    unfold scattering
    rw [hc]; rfl
  · intro x
    unfold JArgs.runNd
    rw [hs, ok_bind, hQ, ok_bind]
    unfold NdFrontJ.scattering
    rw [hc]; rfl

/-- An object for 1000 samples given none. -/
example : (⟨3, 2, .int 8, .int (1000 : ℕ), .none, none, .int 1, .none, none, .list, .joint⟩ : JArgs).run [] =
      .error .value ∧
    (⟨3, 2, .int 8, .int (1000 : ℕ), .none, none, .int 1, .none, none, .list, .joint⟩ : JArgs).runNd ⟨[], [1]⟩ =
      .error .value := by
  obtain ⟨r, hr⟩ := C76_defaults 3 2 1000 8 1 (by norm_num) (by norm_num) (by norm_num) .list (by simp) .joint (by simp)
    (List.replicate 1000 1) List.length_replicate
  obtain ⟨s, -, h⟩ := C101_length_jtfs _ _ r hr
  obtain ⟨-, -, h0, -⟩ := C101_array_jtfs _ _ r hr
  refine ⟨?_, h0 _ rfl⟩
  rw [h [] (by rw [List.length_replicate]; simp)]
  rfl

end JTFS

/-! ## Two and three dimensions -/

/-- **C101 (2-D).** Every refusal of an array by a constructed object is a `RuntimeError`: fewer than two axes, other sides
than those announced, an unknown `out_type`. -/
theorem C101_refused_2d (a : Args2D) (s : Sc2D) (hs : a.make = .ok s) (X : Nd ℝ)
    (h : X.shape.length < 2 ∨ a.outType = .other ∨
      ¬ ∃ bs : List ℕ, X.shape = bs ++ (if a.prePad then [padded2 a.M a.J, padded2 a.N a.J] else [a.M, a.N])) :
    a.runNd X = .error .runtime := by
  obtain ⟨-, -, h3, h4, -⟩ := make_eq_ok hs
  unfold Args2D.runNd
  rw [hs, ok_bind]
  by_cases h2 : X.shape.length < 2
  · rw [if_pos h2]
  rw [if_neg h2]
  have hc : a.check s (X.shape.getD (X.shape.length - 2) 0) (X.shape.getD (X.shape.length - 1) 0) =
      .error .runtime := by
    have hsplit : X.shape = X.shape.take (X.shape.length - 2) ++
        [X.shape.getD (X.shape.length - 2) 0, X.shape.getD (X.shape.length - 1) 0] := by
      conv_lhs => rw [← List.take_append_drop (X.shape.length - 2) X.shape]
      congr 1
      rw [List.drop_eq_getElem_cons (by omega), List.drop_eq_getElem_cons (by omega),
        List.drop_of_length_le (by omega)]
      simp only [List.getD_eq_getElem?_getD]
      rw [List.getElem?_eq_getElem (by omega), List.getElem?_eq_getElem (by omega)]
      simp only [Option.getD_some, show X.shape.length - 2 + 1 = X.shape.length - 1 by omega]
    unfold Args2D.check
    split
    · rfl
    split
    · rfl
    split
    · rfl
    · rename_i n1 n2 n3
      exfalso
      rcases h with h | h | h
      · exact h2 h
      · exact n3 h
      · refine h ⟨X.shape.take (X.shape.length - 2), hsplit.trans ?_⟩
        cases hp : a.prePad
        · simp only [hp, and_true] at n1
          push Not at n1
          rw [n1.1, n1.2]; rfl
        · simp only [hp, and_true] at n2
          push Not at n2
          rw [n2.1, n2.2, h3, h4]; rfl
  simp only [hc, error_bind]

/-- **C101 (3-D).** -/
theorem C101_refused_3d (a : Args3D) (Y : ℤ → ℕ → ℝ → ℝ → ℂ) (X : Nd ℝ)
    (h : ¬ ∃ bs : List ℕ, X.shape = bs ++ [a.shape.1, a.shape.2.1, a.shape.2.2]) : a.runNd Y X = .error .runtime := by
  unfold Args3D.runNd
  by_cases h2 : X.shape.length < 3
  · rw [if_pos h2]
  rw [if_neg h2]
  refine if_pos ?_
  by_contra hn
  push Not at hn
  refine h ⟨X.shape.take (X.shape.length - 3), ?_⟩
  rw [← hn.1, ← hn.2.1, ← hn.2.2]
  conv_lhs => rw [← List.take_append_drop (X.shape.length - 3) X.shape]
  congr 1
  rw [List.drop_eq_getElem_cons (by omega), List.drop_eq_getElem_cons (by omega),
    List.drop_eq_getElem_cons (by omega), List.drop_of_length_le (by omega)]
  simp only [List.getD_eq_getElem?_getD]
  rw [List.getElem?_eq_getElem (by omega), List.getElem?_eq_getElem (by omega), List.getElem?_eq_getElem (by omega)]
  simp only [Option.getD_some, show X.shape.length - 3 + 1 = X.shape.length - 2 by omega,
    show X.shape.length - 2 + 1 = X.shape.length - 1 by omega]

/-- A batch of images and of volumes with their sides in the wrong order, and a single row of pixels. -/
example (Y : ℤ → ℕ → ℝ → ℝ → ℂ) (d : List ℝ) : exArgs2.runNd ⟨[4, 14, 9], d⟩ = .error .runtime ∧
    exArgs2.runNd ⟨[14], d⟩ = .error .runtime ∧
    ∀ a : Args3D, a.shape = (8, 8, 4) → a.runNd Y ⟨[2, 4, 8, 8], d⟩ = .error .runtime := by
  have key : ∀ (bs l u v : List ℕ), l = bs ++ v → v.length = u.length → (∃ bs', l = bs' ++ u) → v = u := by
    rintro bs l u v rfl huv ⟨bs', h⟩
    exact (List.append_inj' h huv).2
  obtain ⟨s, hs⟩ : ∃ s, exArgs2.make = .ok s := by
    obtain ⟨r, hr⟩ := (C94_returns_iff_2d exArgs2 ⟨9, 14, fun _ _ => 0⟩).2 (by simp [exArgs2])
    exact ⟨_, (bind_eq_ok.1 hr).choose_spec.1⟩
  refine ⟨C101_refused_2d _ s hs _ (Or.inr (Or.inr fun h => ?_)), C101_refused_2d _ s hs _ (Or.inl (by simp)),
    fun a ha => C101_refused_3d a Y _ fun h => ?_⟩
  · have := key [4] _ [9, 14] [14, 9] rfl rfl h
    simp at this
  · have := key [2] _ [8, 8, 4] [4, 8, 8] rfl rfl (by rw [ha] at h; exact h)
    simp at this

end Verif
