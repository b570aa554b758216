import Verif.Lemmas.NdArray
import Verif.Props.NoError1D
import Verif.Spec.Array

/-!
# C22 (batches of any shape) and C52
-/

namespace Verif

namespace NdFront

open Nd (Row block)

/-- Coefficients of one signal, and row `i` of the coefficients of an array with leading axes `bs`. -/
def OutRel (bs : List Nat) (i : Nat) : Out1D (List ℝ) → Out → Prop
  | .list l, .list m =>
    List.Forall₂ (fun p q => p.n = q.n ∧ p.j = q.j ∧ Row q.coef bs i p.coef) l m
  | .dict l, .dict m => List.Forall₂ (fun a b => a.1 = b.1 ∧ Row b.2 bs i a.2) l m
  | .array rows, .array S => ∃ n, (∀ r ∈ rows, r.length = n) ∧ S.shape = bs ++ [rows.length, n] ∧
      S.data.length = bs.prod * (rows.length * n) ∧
      (i < bs.prod → block (rows.length * n) i S.data = rows.flatten)
  | _, _ => False

theorem dictInsert_rel {α β : Type} {R : α → β → Prop} {d : List (List Nat × α)} {d' : List (List Nat × β)}
    (h : List.Forall₂ (fun a b => a.1 = b.1 ∧ R a.2 b.2) d d') (k : List Nat) {v : α} {v' : β} (hv : R v v') :
    List.Forall₂ (fun a b => a.1 = b.1 ∧ R a.2 b.2) (Front1D.dictInsert d k v) (Front1D.dictInsert d' k v') := by
  have hany : d.any (fun e => e.1 == k) = d'.any (fun e => e.1 == k) := by
    induction h with
    | nil => rfl
    | cons hab _ ih => simp only [List.any_cons, hab.1, ih]
  unfold Front1D.dictInsert
  rw [hany]
  split
  · rw [List.forall₂_map_left_iff, List.forall₂_map_right_iff]
    refine h.imp fun a b hab => ?_
    rw [hab.1]
    split
    · exact ⟨rfl, hv⟩
    · exact hab
  · exact List.rel_append h (List.Forall₂.cons ⟨rfl, hv⟩ List.Forall₂.nil)

theorem foldl_dict_rel {bs : List Nat} {i : Nat} {l : List (Path (List ℝ))} {m : List (Path (Nd ℝ))}
    (h : List.Forall₂ (fun (p : Path (List ℝ)) (q : Path (Nd ℝ)) => p.n = q.n ∧ p.j = q.j ∧
      Row q.coef bs i p.coef) l m)
    {d : List (List Nat × List ℝ)} {d' : List (List Nat × Nd ℝ)}
    (hd : List.Forall₂ (fun a b => a.1 = b.1 ∧ Row b.2 bs i a.2) d d') :
    List.Forall₂ (fun a b => a.1 = b.1 ∧ Row b.2 bs i a.2)
      (l.foldl (fun d p => Front1D.dictInsert d p.n p.coef) d)
      (m.foldl (fun d p => Front1D.dictInsert d p.n p.coef) d') := by
  induction h generalizing d d' with
  | nil => exact hd
  | @cons a b _ _ hab _ ih =>
    simp only [List.foldl_cons]
    refine ih ?_
    rw [hab.1]
    exact dictInsert_rel (R := fun x X => Row X bs i x) hd b.n hab.2.2

/-- Stacking, row by row. -/
theorem stack_row {bs : List Nat} {i : Nat} {l : List (List ℝ)} {m : List (Nd ℝ)}
    (h : List.Forall₂ (fun y X => Row X bs i y) l m) :
    (∀ rows, Front1D.stackRows npFront l = .ok rows →
      ∃ S, Nd.stack2 m = .ok S ∧ OutRel bs i (.array rows) (.array S)) ∧
    ((∃ S, Nd.stack2 m = .ok S) → ∃ rows, Front1D.stackRows npFront l = .ok rows) := by
  have hshape : ∀ {y z : List ℝ} {X Y : Nd ℝ}, Row X bs i y → Row Y bs i z →
      (X.shape = Y.shape ↔ y.length = z.length) := by
    intro y z X Y hX hY
    rw [hX.1, hY.1]
    simp
  have hall : ∀ {a : List ℝ} {A : Nd ℝ}, Row A bs i a →
      m.all (fun b => b.shape == A.shape) = l.all (fun b => npFront.size b == npFront.size a) := by
    intro a A hA
    induction h with
    | nil => rfl
    | cons hab _ ih =>
      rw [List.all_cons, List.all_cons, ih]
      congr 1
      rw [Bool.eq_iff_iff, beq_iff_eq, beq_iff_eq]
      exact hshape hab hA
  cases h with
  | nil =>
    constructor
    · intro rows hr; cases hr
    · rintro ⟨S, hS⟩; cases hS
  | @cons a A l m hab hlm =>
    have hcons : List.Forall₂ (fun y X => Row X bs i y) (a :: l) (A :: m) := List.Forall₂.cons hab hlm
    constructor
    · intro rows hr
      simp only [Front1D.stackRows] at hr
      split at hr
      · rename_i hc
        obtain rfl := Except.ok.inj hr
        refine ⟨⟨A.shape.dropLast ++ [(A :: m).length, A.last], (List.range A.outer).flatMap fun o =>
          (A :: m).flatMap fun b => block A.last o b.data⟩, ?_, a.length, ?_, ?_, ?_, ?_⟩
        · simp only [Nd.stack2]
          rw [hall hab, if_pos hc]
        · intro r hr
          simpa [npFront] using List.all_eq_true.1 hc r hr
        · rw [hab.dropLast_eq, hab.last_eq, hcons.length_eq]
        · have hL : ∀ o ∈ List.range A.outer, ((A :: m).flatMap fun b => block A.last o b.data).length =
              (a :: l).length * a.length := by
            intro o ho
            rw [hab.outer_eq] at ho
            rw [Nd.length_flatMap_unif (m := a.length), hcons.length_eq]
            intro b hb
            obtain ⟨y, hy, hyb⟩ := forall₂_mem_right hcons hb
            have hya : y.length = a.length := by simpa [npFront] using List.all_eq_true.1 hc y hy
            rw [hab.last_eq, ← hya]
            exact Nd.length_block hyb.2.1 (List.mem_range.1 ho)
          rw [Nd.length_flatMap_unif hL, List.length_range, hab.outer_eq]
        · intro hi
          have hL : ∀ o ∈ List.range A.outer, ((A :: m).flatMap fun b => block A.last o b.data).length =
              (a :: l).length * a.length := by
            intro o ho
            rw [hab.outer_eq] at ho
            rw [Nd.length_flatMap_unif (m := a.length), hcons.length_eq]
            intro b hb
            obtain ⟨y, hy, hyb⟩ := forall₂_mem_right hcons hb
            have hya : y.length = a.length := by simpa [npFront] using List.all_eq_true.1 hc y hy
            rw [hab.last_eq, ← hya]
            exact Nd.length_block hyb.2.1 (List.mem_range.1 ho)
          rw [Nd.block_flatMap hL (by rw [hab.outer_eq]; exact List.getElem?_range hi), hab.last_eq]
          have hc' : ∀ r ∈ a :: l, r.length = a.length := fun r hr => by
            simpa [npFront] using List.all_eq_true.1 hc r hr
          generalize a.length = n at hc' ⊢
          generalize a :: l = l' at hcons hc' ⊢
          generalize A :: m = m' at hcons ⊢
          clear * - hcons hc' hi
          induction hcons with
          | nil => rfl
          | @cons y Y l m hyY _ ih =>
            rw [List.flatMap_cons, List.flatten_cons, ih fun r hr => hc' r (by simp [hr])]
            congr 1
            rw [← hc' y (by simp)]
            exact hyY.2.2 hi
      · cases hr
    · rintro ⟨S, hS⟩
      simp only [Nd.stack2] at hS
      split at hS
      · rename_i hc
        rw [hall hab] at hc
        exact ⟨a :: l, if_pos hc⟩
      · cases hS

theorem filt_refl_nd (bs : List Nat) (i : Nat) (f : Filt (List ℝ)) : (ndRel bs i).filt f f :=
  ⟨rfl, rfl, fun k a b ha hb => by rw [ha] at hb; cases hb; rfl⟩

theorem filts_refl_nd (bs : List Nat) (i : Nat) (l : List (Filt (List ℝ))) :
    List.Forall₂ (ndRel bs i).filt l l := by
  induction l with
  | nil => exact List.Forall₂.nil
  | cons a l ih => exact List.Forall₂.cons (filt_refl_nd bs i a) ih

theorem psis_refl_nd (bs : List Nat) (i : Nat) (l : List (List (Filt (List ℝ)))) :
    List.Forall₂ (List.Forall₂ (ndRel bs i).filt) l l := by
  induction l with
  | nil => exact List.Forall₂.nil
  | cons a l ih => exact List.Forall₂.cons (filts_refl_nd bs i a) ih

/-- One signal and a row of an array, all output types. -/
theorem scattering_row (o : Obj1D (List ℝ)) {X : Nd ℝ} {bs : List Nat} {i : Nat} {x : List ℝ}
    (h : Row X bs i x) :
    Sim (OutRel bs i) (Front1D.scattering npBackend npFront o x) (scattering o X) := by
  unfold Front1D.scattering scattering
  refine Sim.bind (Front1D.sim_self _) ?_
  rintro _ _ rfl
  rw [if_neg (by rw [h.1]; simp)]
  intro z hz
  have hx : 0 < x.length := by
    obtain ⟨U, hU, -⟩ := bind_eq_ok.1 hz
    have hU : npPad x o.padLeft o.padRight = .ok U := hU
    unfold npPad at hU
    split at hU
    · cases hU
    · omega
  obtain ⟨Y, hY, hYr⟩ := reshapeInput_row h hx
  revert z
  rw [hY, h.dropLast_eq]
  show Sim _ _ (pad Y o.padLeft o.padRight >>= _)
  refine Sim.bind (pad_row hYr _ _) ?_
  intro U V hUV
  refine Sim.bind (Front1D.sim_self _) ?_
  rintro ls _ rfl
  refine Sim.bind (Core1D.sim_scattering1d (ndRel [bs.prod, 1] i) (filt_refl_nd _ _ _)
    (psis_refl_nd _ _ _) hUV) ?_
  intro out out' ho
  refine Sim.bind (Front1D.sim_mapM (R := (ndRel [bs.prod, 1] i).path ls.toNat (decide (o.average = .loc)))
    (fun a b hab => post_row hab.1 hab.2.1 hab.2.2) ho) ?_
  intro l m hlm
  unfold Front1D.assemble
  cases o.outType with
  | dict => exact Sim.ok (foldl_dict_rel hlm List.Forall₂.nil)
  | list => exact Sim.ok (Front1D.sortPaths_rel (fun p q hpq => hpq.1) hlm)
  | array =>
    intro z hz
    obtain ⟨rows, hr, hz⟩ := bind_eq_ok.1 hz
    obtain rfl := Except.ok.inj hz
    have := Front1D.sortPaths_rel (fun p q hpq => hpq.1) hlm
    obtain ⟨S, hS, hrel⟩ := (stack_row (bs := bs) (i := i) (List.forall₂_map_left_iff.2
      (List.forall₂_map_right_iff.2 (this.imp fun _ _ hh => hh.2.2)))).1 rows hr
    exact ⟨.array S, by rw [hS]; rfl, hrel⟩
  | other =>
    intro z hz
    obtain ⟨rows, hr, hz⟩ := bind_eq_ok.1 hz
    obtain rfl := Except.ok.inj hz
    have := Front1D.sortPaths_rel (fun p q hpq => hpq.1) hlm
    obtain ⟨S, hS, hrel⟩ := (stack_row (bs := bs) (i := i) (List.forall₂_map_left_iff.2
      (List.forall₂_map_right_iff.2 (this.imp fun _ _ hh => hh.2.2)))).1 rows hr
    exact ⟨.array S, by rw [hS]; rfl, hrel⟩

theorem filt_refl_rev (bs : List Nat) (i : Nat) (hi : i < bs.prod) (f : Filt (List ℝ)) :
    (ndRelRev bs i hi).filt f f :=
  ⟨rfl, rfl, fun k a b ha hb => by rw [ha] at hb; cases hb; rfl⟩

theorem filts_refl_rev (bs : List Nat) (i : Nat) (hi : i < bs.prod) (l : List (Filt (List ℝ))) :
    List.Forall₂ (ndRelRev bs i hi).filt l l := by
  induction l with
  | nil => exact List.Forall₂.nil
  | cons a l ih => exact List.Forall₂.cons (filt_refl_rev bs i hi a) ih

theorem psis_refl_rev (bs : List Nat) (i : Nat) (hi : i < bs.prod) (l : List (List (Filt (List ℝ)))) :
    List.Forall₂ (List.Forall₂ (ndRelRev bs i hi).filt) l l := by
  induction l with
  | nil => exact List.Forall₂.nil
  | cons a l ih => exact List.Forall₂.cons (filts_refl_rev bs i hi a) ih

/-- If the array can be scattered, so can each of its rows. -/
theorem scattering_row_ok (o : Obj1D (List ℝ)) {X : Nd ℝ} {bs : List Nat} {i : Nat} {x : List ℝ}
    (h : Row X bs i x) (hi : i < bs.prod) (hx : 0 < x.length) :
    Sim (fun _ _ => True) (scattering o X) (Front1D.scattering npBackend npFront o x) := by
  unfold Front1D.scattering scattering
  refine Sim.bind (Front1D.sim_self _) ?_
  rintro _ _ rfl
  rw [if_neg (by rw [h.1]; simp)]
  obtain ⟨Y, hY, hYr⟩ := reshapeInput_row h hx
  rw [hY, h.dropLast_eq]
  show Sim _ (pad Y o.padLeft o.padRight >>= _) _
  refine Sim.bind (pad_row_rev hYr _ _) ?_
  intro U V hUV
  refine Sim.bind (Front1D.sim_self _) ?_
  rintro ls _ rfl
  have hi' : i < [bs.prod, 1].prod := by simpa using hi
  refine Sim.bind (Core1D.sim_scattering1d (ndRelRev [bs.prod, 1] i hi') (filt_refl_rev _ _ _ _)
    (psis_refl_rev _ _ _ _) hUV) ?_
  intro out out' ho
  refine Sim.bind (Front1D.sim_mapM (R := (ndRelRev [bs.prod, 1] i hi').path ls.toNat (decide (o.average = .loc)))
    (fun a b hab => post_row_rev hab.1.symm hab.2.1.symm hab.2.2) ho) ?_
  intro l m hlm
  unfold Front1D.assemble
  have hlm' := Front1D.sortPaths_rel (P := fun (p : Path (List ℝ)) (q : Path (Nd ℝ)) => p.n = q.n ∧ p.j = q.j ∧
    Row q.coef bs i p.coef) (fun p q hpq => hpq.1) hlm.flip
  cases o.outType with
  | dict => exact Sim.ok trivial
  | list => exact Sim.ok trivial
  | array =>
    intro z hz
    obtain ⟨S, hS, hz⟩ := bind_eq_ok.1 hz
    obtain ⟨rows, hr⟩ := (stack_row (bs := bs) (i := i) (List.forall₂_map_left_iff.2
      (List.forall₂_map_right_iff.2 (hlm'.imp fun _ _ hh => hh.2.2)))).2 ⟨S, hS⟩
    exact ⟨.array rows, by simp only [bind, Except.bind, hr], trivial⟩
  | other =>
    intro z hz
    obtain ⟨S, hS, hz⟩ := bind_eq_ok.1 hz
    obtain ⟨rows, hr⟩ := (stack_row (bs := bs) (i := i) (List.forall₂_map_left_iff.2
      (List.forall₂_map_right_iff.2 (hlm'.imp fun _ _ hh => hh.2.2)))).2 ⟨S, hS⟩
    exact ⟨.array rows, by simp only [bind, Except.bind, hr], trivial⟩

/-! ### Positions -/

open Spec (position entry signal)

theorem position_lt {s ix : List Nat} {k : Nat} (h : position s ix = some k) : k < s.prod := by
  induction s generalizing ix k with
  | nil =>
    cases ix with
    | nil => simp only [position, Option.some.injEq] at h; subst h; simp
    | cons => simp [position] at h
  | cons d s ih =>
    cases ix with
    | nil => simp [position] at h
    | cons i ix =>
      simp only [position] at h
      split at h
      · rename_i hi
        obtain ⟨j, hj, rfl⟩ := Option.map_eq_some_iff.1 h
        have := ih hj
        rw [List.prod_cons]
        have h2 : (i + 1) * s.prod ≤ d * s.prod := Nat.mul_le_mul_right _ hi
        have h3 : (i + 1) * s.prod = i * s.prod + s.prod := by ring
        omega
      · cases h

/-- Every position is reached. -/
theorem position_surj {s : List Nat} {k : Nat} (h : k < s.prod) : ∃ ix, position s ix = some k := by
  induction s generalizing k with
  | nil => exact ⟨[], by simp at h; subst h; rfl⟩
  | cons d s ih =>
    rw [List.prod_cons] at h
    have hs : 0 < s.prod := Nat.pos_of_mul_pos_left (by omega : 0 < d * s.prod)
    obtain ⟨ix, hix⟩ := ih (Nat.mod_lt k hs)
    refine ⟨k / s.prod :: ix, ?_⟩
    simp only [position]
    rw [if_pos (by rw [Nat.div_lt_iff_lt_mul hs]; exact h), hix]
    simp only [Option.map_some, Option.some.injEq]
    rw [mul_comm]
    exact Nat.div_add_mod k s.prod

theorem position_append {s ix : List Nat} {k : Nat} (h : position s ix = some k) (t jx : List Nat) :
    position (s ++ t) (ix ++ jx) = (position t jx).map (k * t.prod + ·) := by
  induction s generalizing ix k with
  | nil =>
    cases ix with
    | nil =>
      simp only [position, Option.some.injEq] at h
      subst h
      simp
    | cons => simp [position] at h
  | cons d s ih =>
    cases ix with
    | nil => simp [position] at h
    | cons i ix =>
      simp only [position] at h
      split at h
      · rename_i hi
        obtain ⟨j, hj, rfl⟩ := Option.map_eq_some_iff.1 h
        simp only [List.cons_append, position, if_pos hi, ih hj, Option.map_map, List.prod_append]
        congr 1
        funext q
        simp only [Function.comp]
        ring
      · cases h

theorem position_one (n t : Nat) : position [n] [t] = if t < n then some t else none := by
  simp only [position]
  split <;> simp

theorem position_two (m n c t : Nat) :
    position [m, n] [c, t] = if c < m ∧ t < n then some (c * n + t) else none := by
  simp only [position]
  by_cases hc : c < m
  · by_cases ht : t < n
    · simp [hc, ht]
    · simp [hc, ht]
  · simp [hc]

/-- Entries of one row. -/
theorem entry_row {α : Type} {x : Nd α} {bs : List Nat} {n : Nat} (hs : x.shape = bs ++ [n]) {b : List Nat}
    {i : Nat} (hb : position bs b = some i) (t : Nat) : entry x (b ++ [t]) = (block n i x.data)[t]? := by
  unfold entry
  rw [hs, position_append hb, position_one, Nd.getElem?_block]
  split <;> simp

theorem row_signal {X : Nd ℝ} {bs : List Nat} {N : Nat} (hs : X.shape = bs ++ [N])
    (hd : X.data.length = bs.prod * N) {b : List Nat} {i : Nat} (hb : position bs b = some i) :
    Row X bs i (signal X N b) := by
  have hl : (signal X N b).length = N := length_tab _ _
  refine ⟨by rw [hl]; exact hs, by rw [hl]; exact hd, fun hi => ?_⟩
  rw [hl]
  apply list_ext_getD 0
  · rw [Nd.length_block hd hi, hl]
  · intro t ht
    rw [Nd.length_block hd hi] at ht
    unfold signal
    rw [getD_tab_lt ht, entry_row hs hb, List.getD_eq_getElem?_getD]

/-- Entries of a concatenation of rows of the same length. -/
theorem getElem?_flatten_unif {α : Type} {l : List (List α)} {n : Nat} (h : ∀ r ∈ l, r.length = n) {c t : Nat}
    (ht : t < n) : l.flatten[c * n + t]? = l[c]?.bind (·[t]?) := by
  induction l generalizing c with
  | nil => simp
  | cons r l ih =>
    have hr := h r (by simp)
    rw [List.flatten_cons]
    cases c with
    | zero =>
      rw [List.getElem?_append_left (by rw [hr]; omega)]
      simp
    | succ c =>
      rw [List.getElem?_append_right (by rw [hr]; have : (c + 1) * n = c * n + n := by ring
                                         omega), hr]
      rw [show (c + 1) * n + t - n = c * n + t by
        have : (c + 1) * n = c * n + n := by ring
        omega]
      rw [ih fun r hr => h r (by simp [hr])]
      simp

end NdFront

open Spec (position entry signal)
open NdFront Nd

/-! ### C22 -/

/-- **Batch independence for arrays of any shape, array output.**  Let `X` have shape `bs + (N,)` with any
leading axes `bs`, and suppose scattering it returns.  Then for every index `b` of the leading axes,
scattering the lone signal `X[b]` returns, the result has shape `bs + (C, n)`, and its entry at
`b + (c, t)` is entry `(c, t)` of the scattering of `X[b]`. -/
theorem C22_nd_array (o : Obj1D (List ℝ)) (ho : o.outType = .array) (bs : List Nat) (N : Nat) (hN : 0 < N)
    (X : Nd ℝ) (hs : X.shape = bs ++ [N]) (hd : X.data.length = bs.prod * N) (r : NdFront.Out)
    (hr : NdFront.scattering o X = .ok r) (b : List Nat) (i : Nat) (hb : position bs b = some i) :
    ∃ S rows n, r = .array S ∧ Front1D.scattering npBackend npFront o (signal X N b) = .ok (.array rows) ∧
      S.shape = bs ++ [rows.length, n] ∧ (∀ y ∈ rows, y.length = n) ∧
      ∀ c t, entry S (b ++ [c, t]) = rows[c]?.bind (·[t]?) := by
  have hrow := row_signal hs hd hb
  have hi := position_lt hb
  obtain ⟨w, hw, -⟩ := scattering_row_ok o hrow hi (by rw [signal, length_tab]; exact hN) r hr
  obtain ⟨r', hr', hrel⟩ := scattering_row o hrow w hw
  rw [hr] at hr'
  obtain rfl := Except.ok.inj hr'
  have hw' := hw
  unfold Front1D.scattering at hw'
  obtain ⟨_, _, hw'⟩ := bind_eq_ok.1 hw'
  obtain ⟨_, _, hw'⟩ := bind_eq_ok.1 hw'
  obtain ⟨_, _, hw'⟩ := bind_eq_ok.1 hw'
  obtain ⟨_, _, hw'⟩ := bind_eq_ok.1 hw'
  obtain ⟨_, _, hw'⟩ := bind_eq_ok.1 hw'
  unfold Front1D.assemble at hw'
  rw [ho] at hw'
  obtain ⟨rows, _, hw'⟩ := bind_eq_ok.1 hw'
  obtain rfl := Except.ok.inj hw'
  cases r with
  | list => exact hrel.elim
  | dict => exact hrel.elim
  | array S =>
    obtain ⟨n, hn, hS, hSd, hblock⟩ := hrel
    refine ⟨S, rows, n, rfl, hw, hS, hn, fun c t => ?_⟩
    unfold entry
    rw [hS, position_append hb, position_two]
    by_cases hct : c < rows.length ∧ t < n
    · rw [if_pos hct]
      simp only [Option.map_some, Option.bind_some, List.prod_cons, List.prod_nil, mul_one]
      have := congrArg (fun l => l[c * n + t]?) (hblock hi)
      have hlt : c * n + t < rows.length * n := by
        have h2 : (c + 1) * n ≤ rows.length * n := Nat.mul_le_mul_right _ hct.1
        have h3 : (c + 1) * n = c * n + n := by ring
        omega
      simp only [Nd.getElem?_block, if_pos hlt] at this
      rw [this, getElem?_flatten_unif hn hct.2]
    · rw [if_neg hct]
      simp only [Option.map_none, Option.bind_none]
      by_cases hc : c < rows.length
      · rw [List.getElem?_eq_getElem hc]
        simp only [Option.bind_some]
        rw [List.getElem?_eq_none]
        rw [hn _ (List.getElem_mem hc)]
        push Not at hct
        exact hct hc
      · rw [List.getElem?_eq_none (by omega)]
        rfl

/-- If one signal of length `N` can be scattered then so can every array whose last axis has length `N`,
including arrays without any signal; the leading axes are kept. -/
theorem C22_nd_array_returns (o : Obj1D (List ℝ)) (z : List ℝ) (rows : List (List ℝ))
    (hz : Front1D.scattering npBackend npFront o z = .ok (.array rows)) (bs : List Nat)
    (X : Nd ℝ) (hs : X.shape = bs ++ [z.length]) (hd : X.data.length = bs.prod * z.length) :
    ∃ S n, NdFront.scattering o X = .ok (.array S) ∧ S.shape = bs ++ [rows.length, n] ∧
      (∀ y ∈ rows, y.length = n) ∧ S.data.length = bs.prod * (rows.length * n) := by
  have hrow : Row X bs bs.prod z := ⟨hs, hd, fun h => absurd h (lt_irrefl _)⟩
  obtain ⟨r, hr, hrel⟩ := scattering_row o hrow _ hz
  cases r with
  | list => exact hrel.elim
  | dict => exact hrel.elim
  | array S =>
    obtain ⟨n, hn, hS, hSd, -⟩ := hrel
    exact ⟨S, n, hr, hS, hn, hSd⟩

/-- The same for the list output: same paths, and each coefficient has shape `bs + (n,)` with entry `b + (t,)`
equal to entry `t` of the coefficient of `X[b]`. -/
theorem C22_nd_list (o : Obj1D (List ℝ)) (ho : o.outType = .list) (bs : List Nat) (N : Nat) (hN : 0 < N)
    (X : Nd ℝ) (hs : X.shape = bs ++ [N]) (hd : X.data.length = bs.prod * N) (r : NdFront.Out)
    (hr : NdFront.scattering o X = .ok r) (b : List Nat) (i : Nat) (hb : position bs b = some i) :
    ∃ l m, r = .list l ∧ Front1D.scattering npBackend npFront o (signal X N b) = .ok (.list m) ∧
      List.Forall₂ (fun p q => p.n = q.n ∧ p.j = q.j ∧ q.coef.shape = bs ++ [p.coef.length] ∧
        ∀ t, entry q.coef (b ++ [t]) = p.coef[t]?) m l := by
  have hrow := row_signal hs hd hb
  have hi := position_lt hb
  obtain ⟨w, hw, -⟩ := scattering_row_ok o hrow hi (by rw [signal, length_tab]; exact hN) r hr
  obtain ⟨r', hr', hrel⟩ := scattering_row o hrow w hw
  rw [hr] at hr'
  obtain rfl := Except.ok.inj hr'
  have hw' := hw
  unfold Front1D.scattering at hw'
  obtain ⟨_, _, hw'⟩ := bind_eq_ok.1 hw'
  obtain ⟨_, _, hw'⟩ := bind_eq_ok.1 hw'
  obtain ⟨_, _, hw'⟩ := bind_eq_ok.1 hw'
  obtain ⟨_, _, hw'⟩ := bind_eq_ok.1 hw'
  obtain ⟨_, _, hw'⟩ := bind_eq_ok.1 hw'
  unfold Front1D.assemble at hw'
  rw [ho] at hw'
  obtain rfl := Except.ok.inj hw'
  cases r with
  | array => exact hrel.elim
  | dict => exact hrel.elim
  | list l =>
    refine ⟨l, _, rfl, hw, ?_⟩
    refine List.Forall₂.imp (fun p q hpq => ?_) hrel
    exact ⟨hpq.1, hpq.2.1, hpq.2.2.1, fun t => by rw [entry_row hpq.2.2.1 hb, hpq.2.2.2.2 hi]⟩

/-- The same for the dictionary output. -/
theorem C22_nd_dict (o : Obj1D (List ℝ)) (ho : o.outType = .dict) (bs : List Nat) (N : Nat) (hN : 0 < N)
    (X : Nd ℝ) (hs : X.shape = bs ++ [N]) (hd : X.data.length = bs.prod * N) (r : NdFront.Out)
    (hr : NdFront.scattering o X = .ok r) (b : List Nat) (i : Nat) (hb : position bs b = some i) :
    ∃ l m, r = .dict l ∧ Front1D.scattering npBackend npFront o (signal X N b) = .ok (.dict m) ∧
      List.Forall₂ (fun p q => p.1 = q.1 ∧ q.2.shape = bs ++ [p.2.length] ∧
        ∀ t, entry q.2 (b ++ [t]) = p.2[t]?) m l := by
  have hrow := row_signal hs hd hb
  have hi := position_lt hb
  obtain ⟨w, hw, -⟩ := scattering_row_ok o hrow hi (by rw [signal, length_tab]; exact hN) r hr
  obtain ⟨r', hr', hrel⟩ := scattering_row o hrow w hw
  rw [hr] at hr'
  obtain rfl := Except.ok.inj hr'
  have hw' := hw
  unfold Front1D.scattering at hw'
  obtain ⟨_, _, hw'⟩ := bind_eq_ok.1 hw'
  obtain ⟨_, _, hw'⟩ := bind_eq_ok.1 hw'
  obtain ⟨_, _, hw'⟩ := bind_eq_ok.1 hw'
  obtain ⟨_, _, hw'⟩ := bind_eq_ok.1 hw'
  obtain ⟨_, _, hw'⟩ := bind_eq_ok.1 hw'
  unfold Front1D.assemble at hw'
  rw [ho] at hw'
  obtain rfl := Except.ok.inj hw'
  cases r with
  | array => exact hrel.elim
  | list => exact hrel.elim
  | dict l =>
    refine ⟨l, _, rfl, hw, ?_⟩
    refine List.Forall₂.imp (fun p q hpq => ?_) hrel
    exact ⟨hpq.1, hpq.2.1, fun t => by rw [entry_row hpq.2.1 hb, hpq.2.2.2 hi]⟩

/-- `Scattering1D(J=3, shape=1000, Q=8)` returns an array on every signal of 1000 samples. -/
theorem exArgs_array (z : List ℝ) (hz : z.length = 1000) : ∃ s rows, (exArgs .none .array).make = .ok s ∧
    s.built.Ninput = 1000 ∧ (exArgs .none .array).run z = .ok (.array rows) ∧
    Front1D.scattering npBackend npFront ((exArgs .none .array).obj s) z = .ok (.array rows) := by
  obtain ⟨s, hmake, hN, -, hrun⟩ := exArgs_run (av := .loc) .array (Or.inl ⟨rfl, rfl⟩)
    (Or.inr (Or.inr ⟨rfl, by simp⟩))
  obtain ⟨r, hr⟩ := hrun z hz
  have hr0 := hr
  unfold Args1D.run at hr
  rw [hmake] at hr
  have hr : Front1D.scattering npBackend npFront ((exArgs .none .array).obj s) z = .ok r := hr
  have hr1 := hr
  unfold Front1D.scattering at hr
  obtain ⟨_, _, hr⟩ := bind_eq_ok.1 hr
  obtain ⟨_, _, hr⟩ := bind_eq_ok.1 hr
  obtain ⟨_, _, hr⟩ := bind_eq_ok.1 hr
  obtain ⟨_, _, hr⟩ := bind_eq_ok.1 hr
  obtain ⟨_, _, hr⟩ := bind_eq_ok.1 hr
  obtain ⟨rows, _, hr⟩ := bind_eq_ok.1 hr
  obtain rfl := Except.ok.inj hr
  exact ⟨s, rows, hmake, hN, hr0, hr1⟩

/-- `Scattering1D(J=3, shape=1000, Q=8)` on an array of shape `(2, 5, 1000)`: returned, and the signal `(1, 3)` is
found at its place. -/
example (d : List ℝ) (hd : d.length = 10000) : ∃ S rows n,
    (exArgs .none .array).runNd ⟨[2, 5, 1000], d⟩ = .ok (.array S) ∧
    S.shape = [2, 5, rows.length, n] ∧
    (exArgs .none .array).run (signal ⟨[2, 5, 1000], d⟩ 1000 [1, 3]) = .ok (.array rows) ∧
    ∀ c t, entry S [1, 3, c, t] = rows[c]?.bind (·[t]?) := by
  have hl : (signal ⟨[2, 5, 1000], d⟩ 1000 [1, 3]).length = 1000 := length_tab _ _
  obtain ⟨s, rows, hmake, -, -, hr⟩ := exArgs_array _ hl
  obtain ⟨S, n, hS, -, -, -⟩ := C22_nd_array_returns _ _ rows hr [2, 5] ⟨[2, 5, 1000], d⟩ (by rw [hl]; rfl)
    (by rw [hl, hd]; rfl)
  obtain ⟨S', rows', n, hS', hw, hsh, -, hent⟩ := C22_nd_array ((exArgs .none .array).obj s) rfl [2, 5] 1000
    (by norm_num) ⟨[2, 5, 1000], d⟩ rfl (by rw [hd]; rfl) _ hS [1, 3] 8 rfl
  obtain rfl : S = S' := by injection hS'
  refine ⟨S, rows', n, ?_, hsh, ?_, hent⟩
  · unfold Args1D.runNd
    rw [hmake]
    exact hS
  · unfold Args1D.run
    rw [hmake]
    exact hw

/-! ### C52 -/

/-- `reshape((-1,) + shape)` of a matrix of flattened samples. -/
theorem reshape_samples {X : Nd ℝ} {bs shape : List Nat} (hs : X.shape = bs ++ [shape.prod])
    (hp : 0 < shape.prod) : X.reshape (none :: shape.map some) = .ok ⟨bs.prod :: shape, X.data⟩ := by
  have hc : (none :: shape.map some).count none = 1 := by
    rw [List.count_cons_self, List.count_eq_zero.2 (by simp)]
  have hf : (none :: shape.map some).filterMap id = shape := by
    rw [List.filterMap_cons_none rfl, List.filterMap_map]; simp
  have hsz : X.size = bs.prod * shape.prod := by rw [Nd.size, hs, List.prod_append, List.prod_singleton]
  unfold Nd.reshape
  rw [hc, hf]
  simp only
  rw [if_neg, hsz, Nat.mul_div_cancel _ hp]
  · simp
  · rw [hsz]
    push Not
    exact ⟨by omega, Nat.mul_mod_left _ _⟩

/-- `reshape(batch_shape + (-1,))` of the batch of coefficients. -/
theorem reshape_flat {S : Nd ℝ} {bs osh : List Nat} (hs : S.shape = bs.prod :: osh) (hp : 0 < bs.prod) :
    S.reshape (bs.map some ++ [none]) = .ok ⟨bs ++ [osh.prod], S.data⟩ := by
  have hc : (bs.map some ++ [none]).count none = 1 := by
    rw [List.count_append, List.count_eq_zero.2 (by simp)]; rfl
  have hf : (bs.map some ++ [none]).filterMap id = bs := by
    rw [List.filterMap_append, List.filterMap_map]; simp
  have hsz : S.size = bs.prod * osh.prod := by rw [Nd.size, hs, List.prod_cons]
  unfold Nd.reshape
  rw [hc, hf]
  simp only
  rw [if_neg, hsz, Nat.mul_div_cancel_left _ hp]
  · simp
  · rw [hsz]
    push Not
    exact ⟨by omega, Nat.mul_mod_right _ _⟩

theorem reshape_flat_empty {S : Nd ℝ} {bs : List Nat} (hp : bs.prod = 0) :
    S.reshape (bs.map some ++ [none]) = .error .value := by
  have hc : (bs.map some ++ [none]).count none = 1 := by
    rw [List.count_append, List.count_eq_zero.2 (by simp)]; rfl
  have hf : (bs.map some ++ [none]).filterMap id = bs := by
    rw [List.filterMap_append, List.filterMap_map]; simp
  unfold Nd.reshape
  rw [hc, hf]
  simp only
  rw [if_pos (Or.inl hp)]

/-- **Flattened interface**, 1-D.  Let the samples be the rows of an array of shape `bs + (N,)`, not empty.  If
`predict` returns then scattering each sample returns, and the row `b` of the result is the scattering of
the sample `b`, flattened. -/
theorem C52_predict_partial (a : Args1D) (s : Sc1D) (hmake : a.make = .ok s)
    (hN : 0 < s.built.Ninput) (bs : List Nat) (hbs : 0 < bs.prod) (X : Nd ℝ)
    (hs : X.shape = bs ++ [s.built.Ninput]) (hd : X.data.length = bs.prod * s.built.Ninput) (P : Nd ℝ)
    (hP : a.predict X = .ok P) (b : List Nat) (i : Nat) (hb : position bs b = some i) :
    ∃ rows, a.run (signal X s.built.Ninput b) = .ok (.array rows) ∧
      P.shape = bs ++ [rows.flatten.length] ∧ ∀ k, entry P (b ++ [k]) = rows.flatten[k]? := by
  generalize hNe : s.built.Ninput = N at *
  unfold Args1D.predict at hP
  rw [hmake] at hP
  simp only [bind, Except.bind] at hP
  rw [hNe] at hP
  unfold sklearnPredict at hP
  rw [reshape_samples (shape := [N]) (by simpa using hs) (by simpa using hN)] at hP
  simp only [bind, Except.bind] at hP
  have hX' : (⟨[bs.prod, N], X.data⟩ : Nd ℝ).shape = [bs.prod] ++ [N] := rfl
  have hi := position_lt hb
  have hdrop : X.shape.dropLast = bs := by rw [hs, List.dropLast_concat]
  rw [hdrop] at hP
  unfold NdFront.scatterArray at hP
  simp only [bind, Except.bind] at hP
  cases hr : NdFront.scattering (a.obj s) ⟨[bs.prod, N], X.data⟩ with
  | error e => rw [hr] at hP; cases hP
  | ok r =>
    have hpos : position [bs.prod] [i] = some i := by rw [position_one, if_pos hi]
    have hrow := row_signal (X := ⟨[bs.prod, N], X.data⟩) hX' (by simpa using hd) hpos
    have hsig : signal ⟨[bs.prod, N], X.data⟩ N [i] = signal X N b := by
      unfold signal tab
      apply List.map_congr_left
      intro t _
      rw [entry_row hs hb, entry_row hX' hpos]
    obtain ⟨w, hw, -⟩ := scattering_row_ok (a.obj s) hrow (by simpa using hi)
      (by rw [signal, length_tab]; exact hN) r hr
    obtain ⟨r', hr', hrel⟩ := scattering_row (a.obj s) hrow w hw
    rw [hr] at hr'
    obtain rfl := Except.ok.inj hr'
    rw [hr] at hP
    cases r with
    | list => cases hP
    | dict => cases hP
    | array S =>
      simp only at hP
      cases w with
      | list => exact hrel.elim
      | dict => exact hrel.elim
      | array rows =>
        obtain ⟨n, hn, hS, hSd, hblock⟩ := hrel
        rw [reshape_flat hS hbs] at hP
        obtain rfl := Except.ok.inj hP
        have hlen : rows.flatten.length = rows.length * n := by
          rw [← List.flatMap_id]
          exact Nd.length_flatMap_unif (f := id) (m := n) (fun y hy => hn y hy)
        refine ⟨rows, ?_, ?_, fun k => ?_⟩
        · unfold Args1D.run
          rw [hmake, ← hsig]
          exact hw
        · simp [hlen]
        · have hblock := hblock (by simpa using hi)
          rw [entry_row (n := rows.length * n) (by simp) hb]
          simp only
          rw [hblock]

/-- When the object can be built as in C17, every non-empty batch of flattened samples is transformed. -/
theorem C52_returns (a : Args1D) (s : Sc1D) (hmake : a.make = .ok s)
    (z : List ℝ) (hz : z.length = s.built.Ninput) (rows : List (List ℝ)) (hrun : a.run z = .ok (.array rows))
    (hN : 0 < s.built.Ninput) (bs : List Nat) (hbs : 0 < bs.prod) (X : Nd ℝ)
    (hs : X.shape = bs ++ [s.built.Ninput]) (hd : X.data.length = bs.prod * s.built.Ninput) :
    ∃ P, a.predict X = .ok P := by
  unfold Args1D.run at hrun
  rw [hmake] at hrun
  obtain ⟨S, n, hS, hsh, -, -⟩ := C22_nd_array_returns (a.obj s) z rows hrun [bs.prod]
    ⟨[bs.prod, z.length], X.data⟩ rfl (by simpa [hz] using hd)
  refine ⟨⟨bs ++ [([rows.length, n] : List Nat).prod], S.data⟩, ?_⟩
  unfold Args1D.predict
  rw [hmake]
  simp only [bind, Except.bind]
  unfold sklearnPredict
  rw [reshape_samples (shape := [s.built.Ninput]) (by simpa using hs) (by simpa using hN)]
  simp only [bind, Except.bind]
  rw [hz] at hS
  have : NdFront.scatterArray (a.obj s) ⟨[bs.prod, s.built.Ninput], X.data⟩ = .ok S := by
    unfold NdFront.scatterArray
    rw [hS]
    rfl
  rw [this]
  simp only
  rw [hs, List.dropLast_concat, reshape_flat (osh := [rows.length, n]) hsh hbs]

/-- **The code disagrees for an empty batch**: `predict` never returns on an array without samples, although
`scattering` does (`C22_nd_array_returns`). -/
theorem C52_empty_violated (a : Args1D) (X : Nd ℝ) (bs : List Nat) (N : Nat) (hs : X.shape = bs ++ [N])
    (hbs : bs.prod = 0) (P : Nd ℝ) : a.predict X ≠ .ok P := by
  intro h
  unfold Args1D.predict at h
  obtain ⟨s, -, h⟩ := bind_eq_ok.1 h
  unfold sklearnPredict at h
  obtain ⟨Y, -, h⟩ := bind_eq_ok.1 h
  obtain ⟨Z, -, h⟩ := bind_eq_ok.1 h
  rw [hs, List.dropLast_concat, reshape_flat_empty hbs] at h
  cases h

/-- A batch of six flattened samples, arranged as `(2, 3)`. -/
example (d : List ℝ) (hd : d.length = 6000) : ∃ P, (exArgs .none .array).predict ⟨[2, 3, 1000], d⟩ = .ok P := by
  obtain ⟨s, rows, hmake, hN, hr, -⟩ := exArgs_array (tab 1000 fun _ => 0) (length_tab _ _)
  exact C52_returns _ s hmake _ (by rw [hN]; exact length_tab _ _) rows hr (by rw [hN]; norm_num) [2, 3]
    (by norm_num) _ (by rw [hN]; rfl) (by rw [hN]; exact hd)

end Verif
