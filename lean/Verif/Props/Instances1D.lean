import Verif.Props.Morlet1D
import Verif.Props.MaxOrder
import Verif.Props.NdArray
import Verif.Props.Support1D
import Verif.Props.Filters1D
import Verif.Props.OrderArg
import Verif.Props.Laws1D
import Verif.Props.PathsObject1D

/-!
# The one-dimensional theorems on a concrete object

The theorems with hypotheses applied to `Scattering1D(J=3, shape=1000, Q=(8, 1), T=None or 0)` (`exArgs`) and to small
filters; nothing new is claimed.  What is shown is that the hypotheses hold together and what the conclusion then says.
-/

namespace Verif

open Core1D

/-- `C19_sign` on the object. -/
example (x : List ℝ) (hx : x.length = 1000) : ∃ s l m,
    Front1D.scattering npBackend npFront ((exArgs .none .list).obj s) x = .ok (.list l) ∧
    Front1D.scattering npBackend npFront ((exArgs .none .list).obj s) (x.map fun v => -v) = .ok (.list m) ∧
    List.Forall₂ (fun p q => p.n = q.n ∧ (p.n ≠ [] → q.coef = p.coef)) l m := by
  obtain ⟨s, l, hs, -, -, h⟩ := exArgs_list (T := .none) (av := .loc) (Or.inl ⟨rfl, rfl⟩) x hx
  have h' : Front1D.scattering npBackend npFront ((exArgs .none .list).obj s) x = .ok (.list l) := by
    unfold Args1D.run at h
    rw [hs] at h
    exact h
  obtain ⟨m, hm, hlm⟩ := C19_sign _ rfl x l h'
  exact ⟨s, l, m, h', hm, hlm⟩

/-- `C19_zero`: the transform of 1000 zeros is zero. -/
example : ∃ l, (exArgs .none .list).run (List.replicate 1000 0) = .ok (.list l) ∧ ∀ p ∈ l, ∀ v ∈ p.coef, v = 0 := by
  obtain ⟨s, l, hs, -, -, h⟩ := exArgs_list (T := .none) (av := .loc) (Or.inl ⟨rfl, rfl⟩) (List.replicate 1000 0)
    List.length_replicate
  refine ⟨l, h, ?_⟩
  unfold Args1D.run at h
  rw [hs] at h
  exact C19_zero _ rfl 1000 l h

/-- `C22_batch_succeeds` and `C22_rows`: a batch of three signals. -/
example (x y z : List ℝ) (hx : x.length = 1000) (hy : y.length = 1000) (hz : z.length = 1000) : ∃ s l m,
    Front1D.scattering (batchBackend npBackend) npBatchFront ((exArgs .none .list).obj s) [x, y, z] = .ok (.list l) ∧
    Front1D.scattering npBackend npFront ((exArgs .none .list).obj s) y = .ok (.list m) ∧
    List.Forall₂ (fun p q => p.n = q.n ∧ p.j = q.j ∧ p.coef[1]? = some q.coef) l m := by
  obtain ⟨s, l, hs, -, -, h⟩ := exArgs_list (T := .none) (av := .loc) (Or.inl ⟨rfl, rfl⟩) x hx
  unfold Args1D.run at h
  rw [hs] at h
  obtain ⟨l', hl', -⟩ := C22_batch_succeeds _ rfl x l h [x, y, z] (by
    intro u hu
    simp only [List.mem_cons, List.not_mem_nil, or_false] at hu
    rcases hu with rfl | rfl | rfl <;> omega)
  obtain ⟨m, hm, hr⟩ := C22_rows _ rfl [x, y, z] l' hl' 1 y rfl
  exact ⟨s, l', m, hl', hm, hr⟩

/-- `C85_array` and `C85_dict`: the object with `max_order = 1`. -/
example (x : List ℝ) (hx : x.length = 1000) : ∃ s r1 r2 d d1,
    Front1D.scattering npBackend npFront ((exArgs .none .array).obj s) x = .ok (.array (r1 ++ r2)) ∧
    Front1D.scattering npBackend npFront { (exArgs .none .array).obj s with maxOrder := 1 } x = .ok (.array r1) ∧
    Front1D.scattering npBackend npFront ((exArgs .none .dict).obj s) x = .ok (.dict d) ∧
    Front1D.scattering npBackend npFront { (exArgs .none .dict).obj s with maxOrder := 1 } x = .ok (.dict d1) ∧
    d1.Perm (d.filter fun e => e.1.length ≤ 1) := by
  obtain ⟨s, hs, -, -, h⟩ := exArgs_run (T := .none) (av := .loc) .array (Or.inl ⟨rfl, rfl⟩)
    (Or.inr (Or.inr ⟨rfl, by simp⟩))
  obtain ⟨s', hs', -, -, h'⟩ := exArgs_run (T := .none) (av := .loc) .dict (Or.inl ⟨rfl, rfl⟩) (Or.inr (Or.inl rfl))
  have e : (exArgs .none .dict).make = (exArgs .none .array).make := rfl
  rw [e, hs] at hs'
  cases hs'
  obtain ⟨r, hr⟩ := h x hx
  obtain ⟨r', hr'⟩ := h' x hx
  unfold Args1D.run at hr hr'
  rw [hs] at hr
  rw [e, hs] at hr'
  obtain ⟨-, l, -, ha⟩ := Front1D.scattering_eq_ok.1 hr
  obtain ⟨-, l', -, ha'⟩ := Front1D.scattering_eq_ok.1 hr'
  obtain ⟨rows, -, hrows⟩ := bind_eq_ok.1 (show Front1D.stackRows npFront _ >>= _ = .ok r from ha)
  have hd : ∃ d, r' = .dict d := ⟨_, (Except.ok.inj ha').symm⟩
  obtain ⟨d, rfl⟩ := hd
  obtain rfl := Except.ok.inj hrows
  obtain ⟨r1, r2, rfl, h1⟩ := C85_array npBackend npFront ((exArgs .none .array).obj s) (le_refl (2 : ℤ)) x rows hr
  obtain ⟨d1, h2, h3⟩ := C85_dict npBackend npFront ((exArgs .none .dict).obj s) (le_refl (2 : ℤ)) x d hr'
  exact ⟨s, r1, r2, d, d1, hr, h1, hr', h2, h3⟩

/-- `C20_constant_partial`: a constant signal has no coefficient of order one or two. -/
example (c : ℝ) : ∃ l, (exArgs .none .list).run (List.replicate 1000 c) = .ok (.list l) ∧
    (∃ p ∈ l, p.n = [0]) ∧ ∀ p ∈ l, p.n ≠ [] → ∀ v ∈ p.coef, v = 0 := by
  obtain ⟨s, l, hs, hN, -, h⟩ := exArgs_list (T := .none) (av := .loc) (Or.inl ⟨rfl, rfl⟩) (List.replicate 1000 c)
    List.length_replicate
  exact ⟨l, h, exArgs_first hs h, fun p hp hn => C20_constant_partial _ s hs (by omega) 1000 c l h p hp hn⟩

/-- `C21_bounded_partial`: without averaging, the first order of a signal bounded by 5 lies between 0 and 5. -/
example (x : List ℝ) (hx : x.length = 1000) (h5 : ∀ v ∈ x, |v| ≤ 5) : ∃ l,
    (exArgs (.num 0) .list).run x = .ok (.list l) ∧ ∀ p ∈ l, p.n.length = 1 → ∀ v ∈ p.coef, 0 ≤ v ∧ v ≤ 5 := by
  obtain ⟨s, l, hs, hN, hav, h⟩ := exArgs_list (T := .num 0) (av := .no) (Or.inr (Or.inr (Or.inl ⟨rfl, rfl⟩))) x hx
  exact ⟨l, h, fun p hp hn => C21_bounded_partial _ s hs (by omega) hav x 5 h5 l h p hp hn⟩

/-- `C28_lowpass`: the low-pass of the object. -/
example : ∃ s h, (exArgs .none .list).make = .ok s ∧ s.phi.levels[0]? = some h ∧
    (∀ k < s.built.Npadded, 0 < h.getD k 0) ∧ 1000 ≤ s.built.Npadded := by
  obtain ⟨s, hs, hN, -⟩ := exArgs_run (T := .none) (av := .loc) .list (Or.inl ⟨rfl, rfl⟩) (Or.inl rfl)
  obtain ⟨h, h0, -, hp, -⟩ := C28_lowpass _ s hs
  obtain ⟨_, _, -, -, -, hsum, -⟩ := make_sizes hs
  exact ⟨s, h, hs, h0, hp, by omega⟩

/-- `C16_array_refused`: `T = 0` with `out_type = 'array'`. -/
example (x : List ℝ) : (exArgs (.num 0) .array).run x = .error .value := by
  obtain ⟨s, hs, -, hav, -⟩ := exArgs_run (T := .num 0) (av := .no) .list (Or.inr (Or.inr (Or.inl ⟨rfl, rfl⟩)))
    (Or.inl rfl)
  have hs' : (exArgs (.num 0) .array).make = .ok s := hs
  unfold Args1D.run
  rw [hs']
  exact C16_array_refused npBackend npFront _ x hav rfl

/-- `C10_subsample_decimates`: four samples by two. -/
example : ∃ y, npSubsampleFourier [1, Complex.I, 0, 3] 2 = .ok y ∧ y.length = 2 ∧
    (idft y).getD 1 0 = (idft [1, Complex.I, 0, 3]).getD 2 0 := by
  obtain ⟨y, hy⟩ := (C10_subsample_ok_iff [1, Complex.I, 0, 3] 2).2 (by simp)
  obtain ⟨h1, h2⟩ := C10_subsample_decimates _ y 2 hy
  have h1 : y.length * 2 = 4 := h1
  exact ⟨y, hy, by omega, h2 1 (by omega)⟩

/-- `C31_intersection` and `C31_xi_max` for `Q = 8`. -/
example : ∃ w, 0.4 / (2 : ℝ) ^ ((1 : ℝ) / (8 : ℕ)) < w ∧ w < 0.4 ∧
    Real.exp (-(w - 0.4) ^ 2 / (2 * computeSigmaPsi 0.4 8 (1 / Real.sqrt 2) ^ 2)) = 1 / Real.sqrt 2 := by
  have h2 : (1 : ℝ) < Real.sqrt 2 := by
    rw [Real.lt_sqrt (by norm_num)]
    norm_num
  obtain ⟨w, h1, h3, h4, -⟩ := C31_intersection 0.4 8 (1 / Real.sqrt 2) (by norm_num) (by norm_num) (by positivity)
    ((div_lt_one (by linarith)).2 h2)
  exact ⟨w, h1, h3, h4⟩

example : 0.35 ≤ computeXiMax 8 ∧ computeXiMax 8 < 1 / 2 := C31_xi_max 8 (by norm_num)

/-- `C87_bank_unique`: the bank of the library is the only one for `J = 3`, `Q = 8`. -/
example (l : List (ℝ × ℝ)) (hl : Spec.IsBank 3 8 l) : l = anden 3 8 :=
  C87_bank_unique 3 8 (by norm_num) l _ hl (C87_bank 3 8 (by norm_num))

/-- `C30_truncation_partial` with the low-pass used by the constructor and a signal bounded by 2. -/
example (x : List ℝ) (hx : x.length = 1000) (h2 : ∀ m < x.length, |x.getD m 0| ≤ 2) (t : ℤ) :
    ‖Spec.convR x (Spec.impulseR (gauss1d 1000 (0.1 / 8))) t - Spec.convR x
        (Spec.truncate x.length (computeTemporalSupport [gauss1d 1000 (0.1 / 8)] x.length 1e-3)
          (Spec.impulseR (gauss1d 1000 (0.1 / 8)))) t‖ ≤
      (2 * 1e-3 + 2 * ‖Spec.impulseR (gauss1d 1000 (0.1 / 8)) (x.length / 2 : ℕ)‖) * 2 :=
  C30_truncation_partial _ _ (by norm_num) _ List.mem_cons_self x
    ((length_morlet1d (by norm_num)).trans hx.symm) 2 (by norm_num) h2 t

/-- `C100_wanted_1d_partial` and `C100_meta_saturates`: `max_order = 5` and `max_order = 0`. -/
example (x : List ℝ) : { exArgs .none .list with maxOrder := 5 }.run x = (exArgs .none .list).run x ∧
    ∀ r, { exArgs .none .list with maxOrder := 0 }.run x ≠ .ok r :=
  ⟨(C100_wanted_1d_partial { exArgs .none .list with maxOrder := 5 } x (by simp)).1 2 rfl,
    (C100_wanted_1d_partial { exArgs .none .list with maxOrder := 0 } x (by simp)).2 rfl⟩

example (s : Sc1D) : Front1D.metaKey ({ exArgs .none .list with maxOrder := 5 }.obj s) =
    Front1D.metaKey ((exArgs .none .list).obj s) :=
  C100_meta_saturates _ (show (2 : ℤ) ≤ 5 by norm_num)

/-- `C100_wanted_2d_partial` and `C100_violated_2d`. -/
example (x : Img ℝ) : { exArgs2 with maxOrder := 7 }.run x = exArgs2.run x :=
  C100_wanted_2d_partial { exArgs2 with maxOrder := 7 } x 2 rfl

example : ∃ l, { exArgs2 with maxOrder := -3 }.run (Img.tab 9 14 fun i j => (i * j : ℝ)) = .ok (.list l) :=
  (C100_violated_2d (-3) (by norm_num) _ rfl rfl).2

end Verif
