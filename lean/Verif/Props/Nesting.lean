import Verif.Props.MaxOrder
import Verif.Props.Scattering3D
import Verif.Props.Params

/-!
# C107: parameters that only add coefficients
-/

namespace Verif

/-! ## 3-D -/

/-- **3-D.**  The coefficient of a path, an angular order and a power does not depend on the number of scales, the number of
angular orders, the list of powers or the order of the object that computes it. -/
theorem C107_3d (a b : Args3D) (Y : ℤ → ℕ → ℝ → ℝ → ℂ) (hs : b.shape = a.shape) (hg : b.sigma0 = a.sigma0)
    (hr : b.rot = a.rot) (x : Vol ℝ) (hx : x.shape = a.shape) (ha : a.powers ≠ []) (hb : b.powers ≠ []) :
    ∃ out out', a.run Y x = .ok out ∧ b.run Y x = .ok out' ∧
      ∀ (i i' : ℕ) (p : List ℕ), (Spec.paths3 a.J (a.maxOrder = 2))[i]? = some p →
        (Spec.paths3 b.J (b.maxOrder = 2))[i']? = some p → ∀ l ≤ min a.L b.L, ∀ (k k' : ℕ) (q : ℝ), a.powers[k]? = some q →
        b.powers[k']? = some q → ∃ row row' e e' v, out[i]? = some row ∧ out'[i']? = some row' ∧ row[l]? = some e ∧
          row'[l]? = some e' ∧ e[k]? = some v ∧ e'[k']? = some v := by
  obtain ⟨out, h1, h2⟩ := C63_closed_form a Y x hx ha
  obtain ⟨out', h1', h2'⟩ := C63_closed_form b Y x (hx.trans hs.symm) hb
  refine ⟨out, out', h1, h1', fun i i' p hi hi' l hl k k' q hk hk' => ?_⟩
  obtain ⟨row, e, v, e1, e2, e3, e4⟩ := h2 i p hi l (le_min_iff.1 hl).1 k q hk
  obtain ⟨row', e', v', e1', e2', e3', e4'⟩ := h2' i' p hi' l (le_min_iff.1 hl).2 k' q hk'
  refine ⟨row, row', e, e', v, e1, e1', e2, e2', e3, ?_⟩
  rw [e3', e4, e4', hs, hg, hr]

/-! ## 1-D -/

/-- Two computations that both return a value return the same value. -/
def Compat {α : Type} (f g : Py α) : Prop := ∀ a b : α, f = .ok a → g = .ok b → a = b

theorem Compat.refl {α : Type} (f : Py α) : Compat f f := fun _ _ h h' => Except.ok.inj (h.symm.trans h')

theorem Compat.bind {α β : Type} {f g : Py α} {F G : α → Py β} (h : Compat f g) (H : ∀ a, Compat (F a) (G a)) :
    Compat (f >>= F) (g >>= G) := by
  intro a b ha hb
  obtain ⟨c, hc, ha⟩ := bind_eq_ok.1 ha
  obtain ⟨d, hd, hb⟩ := bind_eq_ok.1 hb
  cases h c d hc hd
  exact H c a b ha hb

theorem Compat.bind_right {α β : Type} {f : Py α} {F G : α → Py β} (H : ∀ a, Compat (F a) (G a)) :
    Compat (f >>= F) (f >>= G) := (Compat.refl f).bind H

theorem Compat.forEnum {α β : Type} {F G : α → Nat → Py (List β)} (H : ∀ a n, Compat (F a n) (G a n)) (l : List α) :
    ∀ n, Compat (Core1D.forEnum F l n) (Core1D.forEnum G l n) := by
  induction l with
  | nil => intro n; exact Compat.refl _
  | cons a l ih =>
    intro n
    unfold Core1D.forEnum
    exact (H a n).bind fun x => (ih (n + 1)).bind fun y => Compat.refl _

namespace Core1D

variable (B : Backend1D)

theorem compat_lowpass {phi phi' : Filt B.F} (h : ∀ k, Compat (listGet phi.levels k) (listGet phi'.levels k)) (U : B.C)
    (k e : Nat) : Compat (lowpass B phi U k e) (lowpass B phi' U k e) := by
  unfold lowpass
  exact (h k).bind fun f => Compat.refl _

theorem compat_first {phi phi' : Filt B.F} (h : ∀ k, Compat (listGet phi.levels k) (listGet phi'.levels k))
    (psi1 : List (Filt B.F)) (ls : Nat) (avg : Bool) (U0 : B.R) :
    Compat (scattering1d B U0 phi [psi1] ls avg) (scattering1d B U0 phi' [psi1] ls avg) := by
  unfold scattering1d
  refine Compat.bind_right fun U0hat => Compat.bind ?_ fun S0 => Compat.bind_right fun psi => Compat.bind ?_ fun r =>
    Compat.refl _
  · unfold zeroth
    split
    · exact compat_lowpass B h _ _ _
    · exact Compat.refl _
  · refine Compat.forEnum (fun p n => ?_) _ _
    unfold firstOrder
    refine Compat.bind_right fun U1m => ?_
    cases avg
    · exact Compat.refl _
    · refine Compat.bind_right fun U1hat => Compat.bind ?_ fun p1 => Compat.refl _
      unfold firstPath
      simp only [if_true]
      exact (compat_lowpass B h _ _ _).bind fun S1 => Compat.refl _

end Core1D

/-- The levels of a filter up to two different depths. -/
theorem compat_levels {mean : Bool} {h : List ℝ} {b b' : ℤ} {l l' : List (List ℝ)} (hl : makeLevels mean h b = .ok l)
    (hl' : makeLevels mean h b' = .ok l') (k : Nat) : Compat (listGet l k) (listGet l' k) := by
  obtain ⟨r, hr, hl⟩ := bind_eq_ok.1 hl
  obtain ⟨r', hr', hl'⟩ := bind_eq_ok.1 hl'
  cases hl
  cases hl'
  have hr := mapM_eq_ok.1 hr
  have hr' := mapM_eq_ok.1 hr'
  intro x y hx hy
  cases k with
  | zero =>
    cases hx
    cases hy
    rfl
  | succ k =>
    have key : ∀ {n : Nat} {r : List (List ℝ)} {x : List ℝ},
        List.Forall₂ (fun a b => reduceLevel mean h a = .ok b) (List.range' 1 n) r → listGet (h :: r) (k + 1) = .ok x →
        reduceLevel mean h (1 + k) = .ok x := by
      intro n r x hr hx
      unfold listGet at hx
      rw [List.getElem?_cons_succ] at hx
      cases hk : r[k]? with
      | none => rw [hk] at hx; cases hx
      | some y =>
        rw [hk] at hx
        cases hx
        obtain ⟨hlt, hy⟩ := List.getElem?_eq_some_iff.1 hk
        obtain ⟨hlen, hget⟩ := List.forall₂_iff_get.1 hr
        have := hget k (by rw [hlen]; exact hlt) hlt
        simpa [hy] using this
    exact Except.ok.inj ((key hr hx).symm.trans (key hr' hy))

theorem forall₂_unique {α β : Type} {f : α → Py β} {l : List α} {r r' : List β}
    (h : List.Forall₂ (fun a b => f a = .ok b) l r) (h' : List.Forall₂ (fun a b => f a = .ok b) l r') : r = r' :=
  Except.ok.inj ((mapM_eq_ok.2 h).symm.trans (mapM_eq_ok.2 h'))

/-- Two objects that differ in the second quality factor, in the order and in the kind of output. -/
theorem make_secondQ {a b : Args1D} {s s' : Sc1D} (ha : a.make = .ok s) (hb : b.make = .ok s') (hJ : b.J = a.J)
    (hsh : b.shape = a.shape) (hT : b.T = a.T) (hst : b.stride = a.stride) (hov : b.oversampling = a.oversampling)
    {Q Q' : Int × Int} (hQ : parseQ a.Q = .ok Q) (hQ' : parseQ b.Q = .ok Q') (h1 : Q'.1 = Q.1) :
    s'.built = s.built ∧ s'.average = s.average ∧ s'.psi1 = s.psi1 ∧
      ∀ k, Compat (listGet s.phi.levels k) (listGet s'.phi.levels k) := by
  have hbu : s'.built = s.built ∧ s'.average = s.average := by
    obtain ⟨N, hN, h⟩ := bind_eq_ok.1 ha
    obtain ⟨T, hT', h⟩ := bind_eq_ok.1 h
    obtain ⟨bd, hbd, h⟩ := bind_eq_ok.1 h
    obtain ⟨_, -, h⟩ := bind_eq_ok.1 h
    obtain ⟨f, -, h⟩ := bind_eq_ok.1 h
    cases h
    obtain ⟨N', hN', h⟩ := bind_eq_ok.1 hb
    rw [hsh, hN] at hN'
    cases hN'
    obtain ⟨T', hT'', h⟩ := bind_eq_ok.1 h
    rw [hT, hJ, hT'] at hT''
    cases hT''
    obtain ⟨bd', hbd', h⟩ := bind_eq_ok.1 h
    rw [hsh, hJ, hT, hst, hov, hbd] at hbd'
    cases hbd'
    obtain ⟨_, -, h⟩ := bind_eq_ok.1 h
    obtain ⟨f', -, h⟩ := bind_eq_ok.1 h
    cases h
    exact ⟨rfl, rfl⟩
  refine ⟨hbu.1, hbu.2, ?_⟩
  obtain ⟨t, Q1, Q2, lT, M1, M2, -, -, -, f4, f5, f6, f7, -, -, -, f11, -⟩ := make_filters ha
  obtain ⟨t', Q1', Q2', lT', M1', M2', -, -, -, g4, g5, g6, g7, -, -, -, g11, -⟩ := make_filters hb
  rw [hbu.1, hbu.2, hT, hJ, f4] at g4
  have et : t = t' := (Prod.mk.inj (Except.ok.inj g4)).1
  subst et
  rw [f6] at g6
  have el : lT = lT' := by exact_mod_cast g6
  subst el
  rw [hQ] at f5
  rw [hQ'] at g5
  have e1 : Q1' = Q1 := by
    have e := congrArg Prod.fst (Except.ok.inj f5)
    have e' := congrArg Prod.fst (Except.ok.inj g5)
    rw [h1, e] at e'
    exact (Int.ofNat_inj.1 e').symm
  rw [hbu.1, hJ, e1] at g7
  rw [hbu.1] at g11
  exact ⟨(forall₂_unique f7 g7).symm, fun k => compat_levels f11 g11 k⟩

namespace Front1D

theorem compat_scattering (B : Backend1D) (ops : FrontOps B.R) (o : Obj1D B.F) (ho : o.maxOrder = 1) (phi : Filt B.F)
    (psi2 : List (Filt B.F)) (h : ∀ k, Compat (listGet o.phi.levels k) (listGet phi.levels k)) (x : B.R) :
    Compat (scattering B ops o x) (scattering B ops { o with phi := phi, psi2 := psi2 } x) := by
  rw [scattering_eq, scattering_eq]
  show Compat (checkRuntimeArgs o >>= _) (checkRuntimeArgs o >>= _)
  refine Compat.bind_right fun _ => Compat.bind ?_ fun l => Compat.refl _
  unfold paths
  show Compat (ops.pad x o.padLeft o.padRight >>= _) (ops.pad x o.padLeft o.padRight >>= _)
  refine Compat.bind_right fun U => ?_
  show Compat (o.log2Stride >>= _) (o.log2Stride >>= _)
  refine Compat.bind_right fun k => ?_
  refine Compat.bind ?_ fun out => Compat.refl _
  have e : psis o = [o.psi1] := by
    unfold psis
    rw [ho]
    rfl
  have e' : psis { o with phi := phi, psi2 := psi2 } = [o.psi1] := by
    unfold psis
    simp only
    rw [ho]
    rfl
  rw [e, e']
  exact Core1D.compat_first B h _ _ _ _

end Front1D

/-- **1-D, `max_order=1`.**  The second quality factor does not matter, whatever the kind of output. -/
theorem C107_1d_first (a : Args1D) (Q : Int × Int) (hQ : parseQ a.Q = .ok Q) (q : PyQ) (Q' : Int)
    (hq : parseQ q = .ok (Q.1, Q')) (ho : a.maxOrder = 1) (x : List ℝ) (r r' : Out1D (List ℝ)) (h : a.run x = .ok r)
    (h' : { a with Q := q }.run x = .ok r') : r = r' := by
  obtain ⟨s, hs, h⟩ := bind_eq_ok.1 h
  obtain ⟨s', hs', h'⟩ := bind_eq_ok.1 h'
  obtain ⟨e1, e2, e3, e4⟩ := make_secondQ hs hs' rfl rfl rfl rfl rfl hQ hq rfl
  have e : ({ a with Q := q } : Args1D).obj s' = { a.obj s with phi := s'.phi.toFilt, psi2 := s'.psi2.map FiltX.toFilt } := by
    unfold Args1D.obj
    simp only [e1, e2, e3]
  rw [e] at h'
  exact Front1D.compat_scattering npBackend npFront (a.obj s) ho s'.phi.toFilt _ (fun k => e4 k) x _ _ h h'

/-- **1-D.**  The zeroth and first orders do not depend on the second quality factor. -/
theorem C107_1d (a : Args1D) (Q : Int × Int) (hQ : parseQ a.Q = .ok Q) (q : PyQ) (Q' : Int) (hq : parseQ q = .ok (Q.1, Q'))
    (ho : 2 ≤ a.maxOrder) (x : List ℝ) (l l' : List (Path (List ℝ))) (h : a.run x = .ok (.list l))
    (h' : { a with Q := q }.run x = .ok (.list l')) :
    (l.filter fun p => p.n.length ≤ 1) = l'.filter fun p => p.n.length ≤ 1 := by
  obtain ⟨l1, l2, e, h1, h2, h3⟩ := C85_object a ho x l h
  obtain ⟨m1, m2, e', h1', h2', h3'⟩ := C85_object { a with Q := q } ho x l' h'
  have hf : ∀ {l1 l2 : List (Path (List ℝ))}, (∀ p ∈ l1, p.n.length ≤ 1) → (∀ p ∈ l2, ¬ p.n.length ≤ 1) →
      ((l1 ++ l2).filter fun p => p.n.length ≤ 1) = l1 := by
    intro l1 l2 h1 h2
    rw [List.filter_append, List.filter_eq_self.2 (by simpa using h1), List.filter_eq_nil_iff.2 (by simpa using h2),
      List.append_nil]
  rw [e, e', hf h2 h3, hf h2' h3']
  have := C107_1d_first { a with maxOrder := 1 } Q hQ q Q' hq rfl x _ _ h1 h1'
  cases this
  rfl

/-! ## Concrete cases -/

/-- `HarmonicScattering3D` with one more scale, one more angular order and the powers in another order: the path `[0, 1]` is
row 3 of one result and row 4 of the other. -/
example (Y : ℤ → ℕ → ℝ → ℝ → ℂ) (s : Idx3) (x : Vol ℝ) (hx : x.shape = s) : ∃ out out',
    (Args3D.mk 2 s 1 1 2 true true [1 / 2, 1]).run Y x = .ok out ∧ (Args3D.mk 3 s 2 1 2 true true [1]).run Y x = .ok out' ∧
    ∃ row row' e e' v, out[3]? = some row ∧ out'[4]? = some row' ∧ row[1]? = some e ∧ row'[1]? = some e' ∧
      e[1]? = some v ∧ e'[0]? = some v := by
  obtain ⟨out, out', h1, h2, h⟩ := C107_3d (Args3D.mk 2 s 1 1 2 true true [1 / 2, 1]) (Args3D.mk 3 s 2 1 2 true true [1]) Y rfl rfl
    rfl x hx (by simp) (by simp)
  exact ⟨out, out', h1, h2, h 3 4 [0, 1] rfl rfl 1 (le_refl 1) 1 0 1 rfl rfl⟩

/-- `Q=(8, 1)` and `Q=(8, 2)`. -/
example (x : List ℝ) (hx : x.length = 1000) : ∃ l l', (exArgs .none .list).run x = .ok (.list l) ∧
    ({ exArgs .none .list with Q := .tuple [8, 2] } : Args1D).run x = .ok (.list l') ∧
    (l.filter fun p => p.n.length ≤ 1) = l'.filter fun p => p.n.length ≤ 1 := by
  obtain ⟨s, l, -, -, -, hl⟩ := exArgs_list (T := .none) (av := .loc) (.inl ⟨rfl, rfl⟩) x hx
  obtain ⟨s', hs', -, -, hrun⟩ := C17_no_error ({ exArgs .none .list with Q := .tuple [8, 2] } : Args1D) 1000 rfl (by norm_num)
    (2 ^ 3) .loc rfl 8 2 rfl (by norm_num) (le_jPad_of_pow (by norm_num) (by norm_num [exArgs])) rfl (by norm_num [exArgs])
    (Or.inl rfl) (Or.inl rfl)
  obtain ⟨r, hr⟩ := hrun x hx
  obtain ⟨l', rfl⟩ : ∃ l', r = .list l' := by
    obtain ⟨t, -, h⟩ := bind_eq_ok.1 hr
    obtain ⟨-, m, -, h⟩ := Front1D.scattering_eq_ok.1 h
    exact ⟨_, (Except.ok.inj h).symm⟩
  exact ⟨l, l', hl, hr, C107_1d (exArgs .none .list) (8, 1) rfl _ 2 rfl (by norm_num [exArgs]) x l l' hl hr⟩

end Verif
