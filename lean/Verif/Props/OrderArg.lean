import Verif.Props.MaxOrder
import Verif.Props.Returns1D
import Verif.Props.Meta1D

/-!
# C100: any integer as `max_order`
-/

namespace Verif

open Front1D

namespace Spec

/-- What one expects of `max_order`: 1 and 2 mean themselves, larger values saturate, smaller ones are refused. -/
def wantedOrder (mo : ℤ) : Option ℤ := if 2 ≤ mo then some 2 else if mo = 1 then some 1 else none

/-- What the 1-D transform does: `-2` works like 1. -/
def order1D (mo : ℤ) : Option ℤ := if 2 ≤ mo then some 2 else if mo = 1 ∨ mo = -2 then some 1 else none

/-- What the 2-D transform does: nothing is refused. -/
def order2D (mo : ℤ) : ℤ := if 2 ≤ mo then 2 else 1

/-- What the 3-D transform does: nothing is refused and only 2 itself means 2. -/
def order3D (mo : ℤ) : ℤ := if mo = 2 then 2 else 1

end Spec

/-! ## 1-D -/

theorem psis_minus_two {F : Type} (o : Obj1D F) (h : o.maxOrder = -2) : psis o = [o.psi1] := by
  rw [psis_eq, h]
  rfl

theorem psis_none {F : Type} (o : Obj1D F) (h : Spec.order1D o.maxOrder = none) : psis o = [] := by
  rw [psis_eq]
  unfold Spec.order1D at h
  have : nBanks o.maxOrder = 0 := by
    by_contra hc
    have h1 : 1 ≤ o.maxOrder ∨ o.maxOrder = -2 := one_le_nBanks.1 (by omega)
    by_cases h2 : 2 ≤ o.maxOrder
    · rw [if_pos h2] at h; cases h
    · rw [if_neg h2, if_pos (by omega)] at h; cases h
  rw [this]
  rfl

theorem psis_order {F : Type} (o : Obj1D F) {k : ℤ} (h : Spec.order1D o.maxOrder = some k) :
    psis o = psis { o with maxOrder := k } := by
  unfold Spec.order1D at h
  by_cases h2 : 2 ≤ o.maxOrder
  · rw [if_pos h2] at h
    obtain rfl := Option.some.inj h
    rw [psis_two o h2, psis_two _ (le_refl 2)]
  · rw [if_neg h2] at h
    by_cases h1 : o.maxOrder = 1 ∨ o.maxOrder = -2
    · rw [if_pos h1] at h
      obtain rfl := Option.some.inj h
      rw [psis_one { o with maxOrder := 1 } rfl]
      rcases h1 with h1 | h1
      · exact psis_one o h1
      · exact psis_minus_two o h1
    · rw [if_neg h1] at h; cases h

/-- **C100 (1-D, any backend).**  The transform of an object depends on `max_order` through `Spec.order1D` only:
where that is `k` the result is that of `max_order=k`, elsewhere the call does not return. -/
theorem C100_frontend_1d (B : Backend1D) (ops : FrontOps B.R) (o : Obj1D B.F) (x : B.R) :
    (∀ k, Spec.order1D o.maxOrder = some k → scattering B ops o x = scattering B ops { o with maxOrder := k } x) ∧
    (Spec.order1D o.maxOrder = none → ∀ r, scattering B ops o x ≠ .ok r) := by
  constructor
  · intro k hk
    unfold scattering
    rw [psis_order o hk]
    rfl
  · intro h r hr
    obtain ⟨-, m, hm, -⟩ := scattering_eq_ok.1 hr
    obtain ⟨U, ls, out, -, -, hcore, -⟩ := paths_eq_ok.1 hm
    obtain ⟨_, _, psi1, _, -, -, hp, -, -⟩ := Core1D.scattering1d_eq_ok B hcore
    rw [psis_none o h] at hp
    cases hp

/-- **C100 (1-D, the whole constructor and call).** -/
theorem C100_order_1d (a : Args1D) (x : List ℝ) :
    (∀ k, Spec.order1D a.maxOrder = some k → a.run x = { a with maxOrder := k }.run x) ∧
    (Spec.order1D a.maxOrder = none → ∀ r, a.run x ≠ .ok r) := by
  constructor
  · intro k hk
    unfold Args1D.run
    have hm : ({ a with maxOrder := k } : Args1D).make = a.make := rfl
    rw [hm]
    cases a.make with
    | error e => rfl
    | ok s => exact (C100_frontend_1d npBackend npFront (a.obj s) x).1 k hk
  · intro h r hr
    obtain ⟨s, -, hrun⟩ := bind_eq_ok.1 hr
    exact (C100_frontend_1d npBackend npFront (a.obj s) x).2 h r hrun

/-- **C100, what holds in 1-D**: for every order but `-2` the transform does what is expected. -/
theorem C100_wanted_1d_partial (a : Args1D) (x : List ℝ) (h : a.maxOrder ≠ -2) :
    (∀ k, Spec.wantedOrder a.maxOrder = some k → a.run x = { a with maxOrder := k }.run x) ∧
    (Spec.wantedOrder a.maxOrder = none → ∀ r, a.run x ≠ .ok r) := by
  have e : Spec.wantedOrder a.maxOrder = Spec.order1D a.maxOrder := by
    unfold Spec.wantedOrder Spec.order1D
    simp [h]
  rw [e]
  exact C100_order_1d a x

/-- **C100 (1-D metadata).**  Every order above 2 gives the `meta()['key']` of order 2. -/
theorem C100_meta_saturates {F : Type} (o : Obj1D F) (h : 2 ≤ o.maxOrder) :
    metaKey o = metaKey { o with maxOrder := 2 } := by
  unfold metaKey metaPaths
  have hp : psis o = psis { o with maxOrder := 2 } := by
    rw [psis_two o h, psis_two _ (le_refl 2)]
  have hl : o.log2Stride = ({ o with maxOrder := 2 } : Obj1D F).log2Stride := rfl
  rw [← hp, ← hl]
  cases o.log2Stride with
  | error e => rfl
  | ok ls =>
    rw [ok_bind, ok_bind]
    cases hc : Core1D.scattering1d (dryBackend F) () o.phi (psis o) ls.toNat false with
    | error e => rfl
    | ok out =>
      obtain ⟨r, hr⟩ := metaN_ok_of_run (o := o) (by omega) hc
      have hc' : Core1D.scattering1d (dryBackend F) () o.phi (psis { o with maxOrder := 2 }) ls.toNat false =
          .ok out := by rw [← hp]; exact hc
      obtain ⟨r', hr'⟩ := metaN_ok_of_run (o := { o with maxOrder := 2 }) (by norm_num) hc'
      rw [ok_bind, ok_bind, hr, hr']
      rfl

/-- **C100 (1-D metadata of the accepted `-2`).**  The transform returns, but `meta()` never does, since the rows of
`meta()['n']` have different lengths. -/
theorem C100_meta_minus_two (a : Args1D) (s : Sc1D) (hmake : a.make = .ok s) (h : a.maxOrder = -2) :
    ∀ keys, metaKey (a.obj s) ≠ .ok keys := by
  intro keys hk
  obtain ⟨S, hS, -⟩ := bind_eq_ok.1 hk
  unfold metaPaths at hS
  obtain ⟨ls, -, hS⟩ := bind_eq_ok.1 hS
  obtain ⟨out, hout, hS⟩ := bind_eq_ok.1 hS
  obtain ⟨rows, hrows, -⟩ := bind_eq_ok.1 hS
  have hlab := Core1D.labels_eq (dryBackend (List ℝ)) hout
  rw [psis_minus_two (a.obj s) h] at hlab
  obtain ⟨t, R1, R2, lT, M1, M2, hR1, hR2, ht, hT, hR, hfl, h1, -⟩ := make_filters hmake
  obtain ⟨p, hp0⟩ := anden_nonempty (J := a.J) hR1
  obtain ⟨f, hf, -⟩ := forall₂_mem_left h1 (List.mem_of_getElem? hp0)
  obtain ⟨n1, hn1⟩ := List.getElem?_of_mem (List.mem_map_of_mem (f := FiltX.toFilt) hf)
  have m0 : ([], []) ∈ out.map fun p => (p.j, p.n) := by
    rw [hlab]
    exact (Core1D.mem_labels (dryBackend (List ℝ))).2 (Or.inl rfl)
  have m1 : ([f.toFilt.j], [n1]) ∈ out.map fun p => (p.j, p.n) := by
    rw [hlab]
    exact (Core1D.mem_labels (dryBackend (List ℝ))).2 (Or.inr (Or.inl ⟨n1, f.toFilt, hn1, rfl⟩))
  obtain ⟨p0, hp0, e0⟩ := List.mem_map.1 m0
  obtain ⟨p1, hp1, e1⟩ := List.mem_map.1 m1
  have e0 : p0.n = [] := congrArg Prod.snd e0
  have e1 : p1.n = [n1] := congrArg Prod.snd e1
  have hmo : (a.obj s).maxOrder = -2 := h
  unfold metaN at hrows
  rw [hmo] at hrows
  simp only at hrows
  split at hrows
  · rename_i hall
    rw [List.all_eq_true] at hall
    have q0 := List.mem_map_of_mem (f := fun p : Path Unit => p.n.map some ++
      List.replicate ((-2 : ℤ) - p.n.length).toNat (none : Option Nat)) (show p0 ∈ sortPaths out from
        (List.mergeSort_perm _ _).mem_iff.2 hp0)
    have q1 := List.mem_map_of_mem (f := fun p : Path Unit => p.n.map some ++
      List.replicate ((-2 : ℤ) - p.n.length).toNat (none : Option Nat)) (show p1 ∈ sortPaths out from
        (List.mergeSort_perm _ _).mem_iff.2 hp1)
    have := hall _ q0
    rw [List.all_eq_true] at this
    have := this _ q1
    rw [e0, e1] at this
    simp at this
  · cases hrows

/-- **C100 is false in 1-D**: `Scattering1D(J=3, shape=1000, Q=8, max_order=-2)` transforms every signal of the declared
length, and `meta()` raises. -/
theorem C100_violated_1d : ∃ a : Args1D, Spec.wantedOrder a.maxOrder = none ∧
    (∀ x : List ℝ, x.length = 1000 → ∃ r, a.run x = .ok r) ∧
    ∃ s, a.make = .ok s ∧ ∀ keys, metaKey (a.obj s) ≠ .ok keys := by
  refine ⟨{ exArgs .none .array with maxOrder := -2 }, by decide, ?_, ?_⟩
  · intro x hx
    obtain ⟨h, -⟩ := C100_order_1d { exArgs .none .array with maxOrder := -2 } x
    rw [h 1 (by decide)]
    exact (C94_returns_iff _ 1000 rfl (by norm_num) (2 ^ 3) .loc rfl 8 1 rfl (by norm_num)
      (le_jPad_of_pow (by norm_num) (by norm_num [exArgs])) 3 le_rfl (by norm_num) (by intro m h; cases h) x).2
      ⟨hx, Or.inl le_rfl, Or.inr (Or.inr ⟨rfl, by simp⟩), Or.inr (Or.inl ⟨rfl, Or.inl rfl⟩)⟩
  · obtain ⟨s, hs, -⟩ := make_of { exArgs .none .array with maxOrder := -2 } 1000 rfl (by norm_num) (2 ^ 3) .loc rfl
      8 1 rfl (by norm_num) (le_jPad_of_pow (by norm_num) (by norm_num [exArgs])) none rfl
    exact ⟨s, hs, C100_meta_minus_two _ s hs rfl⟩

/-! ## 2-D -/

/-- **C100 (2-D, any backend).** -/
theorem C100_core_2d (B : Backend1D) (ops : Ops2D B.R) (x : B.R) (J : Nat) (phi : List B.F)
    (psi : List (Filt2 B.F)) (mo : ℤ) (arr : Bool) :
    Core2D.scattering2d B ops x J phi psi mo arr =
      Core2D.scattering2d B ops x J phi psi (Spec.order2D mo) arr := by
  have hlt : (mo < 2) = (Spec.order2D mo < 2) := by
    unfold Spec.order2D
    split <;> simp <;> omega
  have hf : Core2D.firstOrder B ops J phi psi mo = Core2D.firstOrder B ops J phi psi (Spec.order2D mo) := by
    funext U f n
    unfold Core2D.firstOrder
    simp only [hlt]
  unfold Core2D.scattering2d Core2D.paths
  rw [hf]

/-- **C100 (2-D, the whole constructor and call).** -/
theorem C100_order_2d (a : Args2D) (x : Img ℝ) : a.run x = { a with maxOrder := Spec.order2D a.maxOrder }.run x := by
  unfold Args2D.run
  have hm : ({ a with maxOrder := Spec.order2D a.maxOrder } : Args2D).make = a.make := rfl
  rw [hm]
  cases a.make with
  | error e => rfl
  | ok s =>
    rw [ok_bind, ok_bind]
    have hc : ({ a with maxOrder := Spec.order2D a.maxOrder } : Args2D).check s x.h x.w = a.check s x.h x.w := rfl
    rw [hc]
    cases a.check s x.h x.w with
    | error e => rfl
    | ok u => exact C100_core_2d np2Backend (a.ops s) x a.J s.phi s.psi a.maxOrder _

/-- **C100, what holds in 2-D**: orders from 1 on do what is expected. -/
theorem C100_wanted_2d_partial (a : Args2D) (x : Img ℝ) (k : ℤ) (hk : Spec.wantedOrder a.maxOrder = some k) :
    a.run x = { a with maxOrder := k }.run x := by
  rw [C100_order_2d a x]
  have : Spec.order2D a.maxOrder = k := by
    unfold Spec.wantedOrder at hk
    unfold Spec.order2D
    split at hk
    · rw [if_pos ‹_›]; exact Option.some.inj hk
    · rw [if_neg ‹_›]
      split at hk
      · exact Option.some.inj hk
      · cases hk
  rw [this]

/-- **C100 is false in 2-D**: every `max_order` below 1 is accepted and works like 1. -/
theorem C100_violated_2d (mo : ℤ) (h : mo < 1) (x : Img ℝ) (hh : x.h = 9) (hw : x.w = 14) :
    Spec.wantedOrder mo = none ∧ ∃ l, { exArgs2 with maxOrder := mo }.run x = .ok (.list l) := by
  refine ⟨?_, ?_⟩
  · unfold Spec.wantedOrder
    rw [if_neg (by omega), if_neg (by omega)]
  · have e : Spec.order2D mo = 1 := if_neg (by omega)
    obtain ⟨l, hl⟩ := exArgs2_run x hh hw
    refine ⟨l.take (1 + exArgs2.J * exArgs2.L), ?_⟩
    rw [C100_order_2d]
    show Args2D.run { exArgs2 with maxOrder := Spec.order2D mo } x = _
    rw [e]
    exact (C85_object2 exArgs2 x).1 l rfl hl

/-! ## 3-D -/

/-- **C100 (3-D).**  The orders 1 and 2 are as expected and every other order works like 1. -/
theorem C100_order_3d (a : Args3D) (Y : ℤ → ℕ → ℝ → ℝ → ℂ) (x : Vol ℝ) :
    a.run Y x = { a with maxOrder := Spec.order3D a.maxOrder }.run Y x := by
  unfold Spec.order3D
  split
  · rename_i h
    rw [← h]
  · rename_i h
    exact C45_other_orders a Y x h

/-- **C100 is false in 3-D**: with `max_order=3` the second order is missing, although `max_order=2` returns it; and every
order below 1 is accepted. -/
theorem C100_violated_3d (a : Args3D) (Y : ℤ → ℕ → ℝ → ℝ → ℂ) (hq : a.powers ≠ []) (hJ : 1 ≤ a.J) (mo : ℤ)
    (hmo : mo ≠ 2) (x : Vol ℝ) (hx : x.shape = a.shape) :
    ∃ out out2, { a with maxOrder := mo }.run Y x = .ok out ∧ out.length = a.J + 1 ∧
      { a with maxOrder := 2 }.run Y x = .ok out2 ∧ a.J + 1 < out2.length := by
  have r1 := run3_eq { a with maxOrder := mo } Y hq hx
  have r2 := run3_eq { a with maxOrder := 2 } Y hq hx
  refine ⟨_, _, r1, ?_, r2, ?_⟩
  · simp [Spec.paths3, hmo]
  · simp only [List.length_map, Spec.paths3, decide_true, if_true, List.length_append, List.length_range]
    have : 0 < ((List.range (a.J + 1)).flatMap fun j1 =>
        (List.range (a.J - j1)).map fun d => [j1, j1 + 1 + d]).length := by
      refine List.length_pos_of_mem (a := [0, 1]) (List.mem_flatMap.2 ⟨0, List.mem_range.2 (by omega), ?_⟩)
      exact List.mem_map.2 ⟨0, List.mem_range.2 (by omega), rfl⟩
    omega

/-! ## Cases -/

/-- The expected orders and the ones used, side by side. -/
example : [-3, -2, -1, 0, 1, 2, 3].map Spec.wantedOrder = [none, none, none, none, some 1, some 2, some 2] ∧
    [-3, -2, -1, 0, 1, 2, 3].map Spec.order1D = [none, some 1, none, none, some 1, some 2, some 2] ∧
    [-3, -2, -1, 0, 1, 2, 3].map Spec.order2D = [1, 1, 1, 1, 1, 2, 2] ∧
    [-3, -2, -1, 0, 1, 2, 3].map Spec.order3D = [1, 1, 1, 1, 1, 2, 1] := by decide

end Verif
