import Verif.Model.Buffers
import Mathlib.Data.List.Basic
import Mathlib.Data.List.Flatten
import Mathlib.Algebra.Order.Group.Nat
import Mathlib.Tactic.NormNum

/-!
# C50
-/

namespace Verif

namespace Buffers

open Select (Str)

variable {N T : Type}

/-- The names are pairwise different. -/
theorem C50_names_injective (m n : Nat) (h : name m = name n) : m = n := by
  have h1 : Nat.toDigits 10 m = Nat.toDigits 10 n := List.append_cancel_left h
  have h2 := congrArg (fun l => Nat.ofDigitChars 10 l 0) h1
  simpa only [Nat.ofDigitChars_toDigits (by norm_num : 1 < 10) (le_refl 10)] using h2

theorem C50_names_gaussian (n : Nat) : name n ≠ "tensor_gaussian_filter".toList := by
  intro h
  have h1 : Nat.toDigits 10 n = "_gaussian_filter".toList := by
    have : "tensor_gaussian_filter".toList = "tensor".toList ++ "_gaussian_filter".toList := by decide
    rw [this] at h
    exact List.append_cancel_left h
  exact Nat.underscore_not_in_toDigits (n := n) (by rw [h1]; decide)

/-- The buffers number `n`, `n + 1`, ... are the tensors of a list. -/
def Holds (d : Buf T) (n : Nat) (ts : List T) : Prop := ∀ i t, ts[i]? = some t → d (name (n + i)) = some t

theorem Holds.append {d : Buf T} {n : Nat} {a b : List T} (ha : Holds d n a) (hb : Holds d (n + a.length) b) :
    Holds d n (a ++ b) := by
  intro i t h
  rcases Nat.lt_or_ge i a.length with hi | hi
  · rw [List.getElem?_append_left hi] at h
    exact ha i t h
  · rw [List.getElem?_append_right hi] at h
    have := hb _ t h
    rwa [show n + a.length + (i - a.length) = n + i by omega] at this

theorem Holds.left {d : Buf T} {n : Nat} {a b : List T} (h : Holds d n (a ++ b)) : Holds d n a :=
  fun i t hi => h i t (by
    rw [List.getElem?_append_left (List.getElem?_eq_some_iff.1 hi).1]; exact hi)

theorem Holds.right {d : Buf T} {n : Nat} {a b : List T} (h : Holds d n (a ++ b)) :
    Holds d (n + a.length) b := fun i t hi => by
  have := h (a.length + i) t (by
    rw [List.getElem?_append_right (by omega)]
    rw [show a.length + i - a.length = i by omega]; exact hi)
  rwa [← add_assoc] at this

theorem Holds.congr {d e : Buf T} {n : Nat} {a : List T} (h : Holds d n a)
    (he : ∀ k, n ≤ k → k < n + a.length → e (name k) = d (name k)) : Holds e n a := fun i t hi => by
  have hl := (List.getElem?_eq_some_iff.1 hi).1
  rw [he _ (by omega) (by omega)]
  exact h i t hi

/-! ### Registering -/

theorem regLevels_spec (conv : N → T) (l : List N) (n : Nat) (d : Buf T) :
    (regLevels conv l n d).1 = l.map conv ∧ (regLevels conv l n d).2.2 = n + l.length ∧
      Holds (regLevels conv l n d).2.1 n (l.map conv) ∧
      ∀ k < n, (regLevels conv l n d).2.1 (name k) = d (name k) := by
  induction l generalizing n d with
  | nil => exact ⟨rfl, rfl, fun i t h => by simp at h, fun _ _ => rfl⟩
  | cons x l ih =>
    obtain ⟨h1, h2, h3, h4⟩ := ih (n + 1) (register d (name n) (conv x))
    refine ⟨by simp only [regLevels, h1, List.map_cons], ?_, ?_, ?_⟩
    · simp only [regLevels, h2, List.length_cons]; omega
    · intro i t hi
      cases i with
      | zero =>
        simp only [List.map_cons, List.getElem?_cons_zero] at hi
        simp only [regLevels, add_zero]
        rw [h4 n (by omega), register, if_pos rfl, hi]
      | succ i =>
        simp only [List.map_cons, List.getElem?_cons_succ] at hi
        have := h3 i t hi
        rwa [show n + 1 + i = n + (i + 1) by omega] at this
    · intro k hk
      simp only [regLevels]
      rw [h4 k (by omega), register, if_neg]
      intro h
      have := C50_names_injective _ _ h
      omega

theorem regBank_spec (conv : N → T) (l : List (List N)) (n : Nat) (d : Buf T) :
    (regBank conv l n d).1 = l.map (List.map conv) ∧ (regBank conv l n d).2.2 = n + l.flatten.length ∧
      Holds (regBank conv l n d).2.1 n (l.flatten.map conv) ∧
      ∀ k < n, (regBank conv l n d).2.1 (name k) = d (name k) := by
  induction l generalizing n d with
  | nil => exact ⟨rfl, rfl, fun i t h => by simp at h, fun _ _ => rfl⟩
  | cons p l ih =>
    obtain ⟨a1, a2, a3, a4⟩ := regLevels_spec conv p n d
    obtain ⟨b1, b2, b3, b4⟩ := ih (n + p.length) (regLevels conv p n d).2.1
    refine ⟨?_, ?_, ?_, ?_⟩
    · simp only [regBank, a1, a2, b1, List.map_cons]
    · simp only [regBank, a2, b2, List.flatten_cons, List.length_append]; omega
    · rw [List.flatten_cons, List.map_append]
      simp only [regBank, a2]
      refine Holds.append (a3.congr fun k _ hk => b4 k (by simpa using hk)) ?_
      simpa only [List.length_map] using b3
    · intro k hk
      simp only [regBank, a2]
      rw [b4 k (by omega), a4 k hk]

/-! ### Loading -/

theorem loadLevels_spec {d : Buf T} {n : Nat} {ts : List T} (h : Holds d n ts) (l : List T)
    (hl : l.length = ts.length) : loadLevels d l n = .ok (ts, n + ts.length) := by
  induction l generalizing n ts with
  | nil =>
    cases ts with
    | nil => rfl
    | cons t ts => cases hl
  | cons x l ih =>
    cases ts with
    | nil => cases hl
    | cons t ts =>
      have h0 := h 0 t rfl
      have h1 : Holds d (n + 1) ts := Holds.right (a := [t]) h
      have hn : n + (t :: ts).length = n + 1 + ts.length := by simp only [List.length_cons]; omega
      rw [hn]
      rw [add_zero] at h0
      simp only [loadLevels, get, h0, bind, Except.bind, ih h1 (by simpa using hl)]

theorem loadBank_spec {d : Buf T} {n : Nat} {ts : List (List T)} (h : Holds d n ts.flatten)
    (l : List (List T)) (hl : l.map List.length = ts.map List.length) :
    loadBank d l n = .ok (ts, n + ts.flatten.length) := by
  induction l generalizing n ts with
  | nil =>
    cases ts with
    | nil => rfl
    | cons t ts => cases hl
  | cons x l ih =>
    cases ts with
    | nil => cases hl
    | cons t ts =>
      rw [List.flatten_cons] at h
      simp only [List.map_cons, List.cons.injEq] at hl
      simp only [loadBank, bind, Except.bind, loadLevels_spec h.left x hl.1, ih h.right hl.2,
        List.flatten_cons, List.length_append, add_assoc]

/-! ### Specification -/

/-- The filters in the order of registration. -/
def Filters.flat {α : Type} (f : Filters α) : List α :=
  f.phi ++ (f.psi1.flatten ++ (f.psi2.flatten ++ (f.fr0 ++ f.fr1.flatten)))

/-- How many levels each filter has. -/
def Filters.shape {α : Type} (f : Filters α) : Nat × List Nat × List Nat × Nat × List Nat :=
  (f.phi.length, f.psi1.map List.length, f.psi2.map List.length, f.fr0.length, f.fr1.map List.length)

/-- What a buffer has become: all replacements so far, in order. -/
def history (k : Str) : List (Step T) → T → T
  | [], t => t
  | .replace g :: l, t => history k l (g k t)
  | .call :: l, t => history k l t

theorem shape_inj {α : Type} {f g : Filters α} (hs : f.shape = g.shape) (hf : f.flat = g.flat) : f = g := by
  have key : ∀ {l m : List (List α)}, l.map List.length = m.map List.length → l.flatten = m.flatten → l = m := by
    intro l
    induction l with
    | nil => intro m h _; cases m with
      | nil => rfl
      | cons => cases h
    | cons a l ih => intro m h h'; cases m with
      | nil => cases h
      | cons b m =>
        simp only [List.map_cons, List.cons.injEq] at h
        rw [List.flatten_cons, List.flatten_cons] at h'
        obtain ⟨rfl, h2⟩ := List.append_inj h' h.1
        rw [ih h.2 h2]
  have hfl : ∀ {l m : List (List α)}, l.map List.length = m.map List.length →
      l.flatten.length = m.flatten.length := fun h => by
    rw [List.length_flatten, List.length_flatten, h]
  obtain ⟨a, b, c, d, e⟩ := f
  obtain ⟨a', b', c', d', e'⟩ := g
  simp only [Filters.shape, Prod.mk.injEq] at hs
  obtain ⟨h1, h2, h3, h4, h5⟩ := hs
  simp only [Filters.flat] at hf
  obtain ⟨rfl, hf1⟩ := List.append_inj hf h1
  obtain ⟨h6, hf2⟩ := List.append_inj hf1 (hfl h2)
  obtain ⟨h7, hf3⟩ := List.append_inj hf2 (hfl h3)
  obtain ⟨rfl, h8⟩ := List.append_inj hf3 h4
  rw [key h2 h6, key h3 h7, key h5 h8]

theorem registerFilters_spec (conv : N → T) (f : Filters N) (d : Buf T) :
    (registerFilters conv f d).1.shape = f.shape ∧
      (registerFilters conv f d).1.flat = f.flat.map conv ∧
      Holds (registerFilters conv f d).2 0 (f.flat.map conv) := by
  obtain ⟨a1, a2, a3, -⟩ := regLevels_spec conv f.phi 0 d
  set A := regLevels conv f.phi 0 d with hA
  obtain ⟨b1, b2, b3, b4⟩ := regBank_spec conv f.psi1 A.2.2 A.2.1
  set B := regBank conv f.psi1 A.2.2 A.2.1 with hB
  obtain ⟨c1, c2, c3, c4⟩ := regBank_spec conv f.psi2 B.2.2 B.2.1
  set C := regBank conv f.psi2 B.2.2 B.2.1 with hC
  obtain ⟨e1, e2, e3, e4⟩ := regLevels_spec conv f.fr0 C.2.2 C.2.1
  set E := regLevels conv f.fr0 C.2.2 C.2.1 with hE
  obtain ⟨g1, g2, g3, g4⟩ := regBank_spec conv f.fr1 E.2.2 E.2.1
  have hreg : registerFilters conv f d = (⟨A.1, B.1, C.1, E.1, (regBank conv f.fr1 E.2.2 E.2.1).1⟩,
    (regBank conv f.fr1 E.2.2 E.2.1).2.1) := rfl
  rw [hreg]
  refine ⟨?_, ?_, ?_⟩
  · have hm : ∀ l : List (List N), (l.map (List.map conv)).map List.length = l.map List.length := fun l => by
      rw [List.map_map]; exact List.map_congr_left fun x _ => List.length_map _
    simp only [Filters.shape, a1, b1, c1, e1, g1, List.length_map, hm]
  · simp only [Filters.flat, a1, b1, c1, e1, g1, List.map_append, List.map_flatten]
  · simp only [Filters.flat, List.map_append]
    refine Holds.append (a3.congr fun k _ hk => ?_) ?_
    · have hk' : k < A.2.2 := by rw [a2]; simpa only [List.length_map] using hk
      rw [g4 k (by omega), e4 k (by omega), c4 k (by omega), b4 k hk']
    rw [show (0 : Nat) + (f.phi.map conv).length = A.2.2 by rw [a2, List.length_map]]
    refine Holds.append (b3.congr fun k _ hk => ?_) ?_
    · have hk' : k < B.2.2 := by rw [b2]; simpa only [List.length_map] using hk
      rw [g4 k (by omega), e4 k (by omega), c4 k hk']
    rw [show A.2.2 + (f.psi1.flatten.map conv).length = B.2.2 by rw [b2, List.length_map]]
    refine Holds.append (c3.congr fun k _ hk => ?_) ?_
    · have hk' : k < C.2.2 := by rw [c2]; simpa only [List.length_map] using hk
      rw [g4 k (by omega), e4 k hk']
    rw [show B.2.2 + (f.psi2.flatten.map conv).length = C.2.2 by rw [c2, List.length_map]]
    refine Holds.append (e3.congr fun k _ hk => ?_) ?_
    · have hk' : k < E.2.2 := by rw [e2]; simpa only [List.length_map] using hk
      rw [g4 k hk']
    rw [show C.2.2 + (f.fr0.map conv).length = E.2.2 by rw [e2, List.length_map]]
    exact g3

/-- If the buffers are the tensors of `g`, in order, loading gives `g`. -/
theorem loadFilters_spec {d : Buf T} {g : Filters T} (h : Holds d 0 g.flat) (f : Filters T)
    (hs : f.shape = g.shape) : loadFilters d f = .ok g := by
  simp only [Filters.shape, Prod.mk.injEq] at hs
  obtain ⟨h1, h2, h3, h4, h5⟩ := hs
  have k1 := h.right
  have k2 := k1.right
  have k3 := k2.right
  have k4 := k3.right
  simp only [loadFilters, bind, Except.bind, loadLevels_spec h.left f.phi h1,
    loadBank_spec k1.left f.psi1 h2, loadBank_spec k2.left f.psi2 h3, loadLevels_spec k3.left f.fr0 h4,
    loadBank_spec k4 f.fr1 h5]

/-- Filters of a given shape with given tensors. -/
theorem exists_filters (f : Filters N) (ts : List T) (h : ts.length = f.flat.length) :
    ∃ g : Filters T, g.shape = f.shape ∧ g.flat = ts := by
  have key : ∀ (l : List (List N)) (ts : List T), ts.length = l.flatten.length →
      ∃ m : List (List T), m.map List.length = l.map List.length ∧ m.flatten = ts := by
    intro l
    induction l with
    | nil => intro ts h; exact ⟨[], rfl, by simpa using (List.length_eq_zero_iff.1 h).symm⟩
    | cons a l ih =>
      intro ts h
      rw [List.flatten_cons, List.length_append] at h
      obtain ⟨m, h1, h2⟩ := ih (ts.drop a.length) (by rw [List.length_drop]; omega)
      refine ⟨ts.take a.length :: m, ?_, ?_⟩
      · rw [List.map_cons, List.map_cons, h1, List.length_take, min_eq_left (by omega)]
      · rw [List.flatten_cons, h2, List.take_append_drop]
  simp only [Filters.flat, List.length_append] at h
  obtain ⟨b, hb1, hb2⟩ := key f.psi1 ((ts.drop f.phi.length).take f.psi1.flatten.length)
    (by rw [List.length_take, List.length_drop, min_eq_left (by omega)])
  obtain ⟨c, hc1, hc2⟩ := key f.psi2 (((ts.drop f.phi.length).drop f.psi1.flatten.length).take f.psi2.flatten.length)
    (by rw [List.length_take, List.length_drop, List.length_drop, min_eq_left (by omega)])
  obtain ⟨e, he1, he2⟩ := key f.fr1 ((((ts.drop f.phi.length).drop f.psi1.flatten.length).drop
    f.psi2.flatten.length).drop f.fr0.length) (by simp only [List.length_drop]; omega)
  refine ⟨⟨ts.take f.phi.length, b, c, (((ts.drop f.phi.length).drop f.psi1.flatten.length).drop
    f.psi2.flatten.length).take f.fr0.length, e⟩, ?_, ?_⟩
  · simp only [Filters.shape, hb1, hc1, he1, List.length_take, List.length_drop]
    rw [min_eq_left (by omega), min_eq_left (by omega)]
  · simp only [Filters.flat, hb2, hc2, he2, List.take_append_drop]

/-- The state invariant: some filters of the right shape are exactly the buffers. -/
theorem steps_spec (f : Filters N) (l : List (Step T)) :
    ∀ (s : Filters T × Buf T) (ts : List T), s.1.shape = f.shape → ts.length = f.flat.length →
      Holds s.2 0 ts →
      ∃ s', steps s l = .ok s' ∧ s'.1.shape = f.shape ∧
        Holds s'.2 0 (ts.mapIdx fun k t => history (name k) l t) := by
  induction l with
  | nil =>
    intro s ts hs hl hh
    refine ⟨s, rfl, hs, ?_⟩
    intro i t hi
    simp only [List.getElem?_mapIdx, Option.map_eq_some_iff, history] at hi
    obtain ⟨t', ht', rfl⟩ := hi
    exact hh i t' ht'
  | cons a l ih =>
    intro s ts hs hl hh
    cases a with
    | replace g =>
      obtain ⟨s', h1, h2, h3⟩ := ih (s.1, fun k => (s.2 k).map (g k)) (ts.mapIdx fun k t => g (name k) t) hs
        (by simpa using hl) (by
          intro i t hi
          simp only [List.getElem?_mapIdx, Option.map_eq_some_iff] at hi
          obtain ⟨t', ht', rfl⟩ := hi
          have := hh i t' ht'
          simp only [zero_add] at this ⊢
          rw [this]; rfl)
      refine ⟨s', by simpa [steps, step, bind, Except.bind] using h1, h2, ?_⟩
      intro i t hi
      refine h3 i t ?_
      rw [← hi]
      simp only [List.getElem?_mapIdx, Option.map_map]
      rfl
    | call =>
      obtain ⟨g, hg1, hg2⟩ := exists_filters f ts hl
      have hload : loadFilters s.2 s.1 = .ok g :=
        loadFilters_spec (by rw [hg2]; exact hh) s.1 (hs.trans hg1.symm)
      obtain ⟨s', h1, h2, h3⟩ := ih (g, s.2) ts hg1 hl hh
      exact ⟨s', by simpa [steps, step, bind, Except.bind, hload] using h1, h2, h3⟩

/-- **Filters in step with the buffers** (1-D and joint time-frequency).  Register the filters of any bank,
then apply any sequence of position-wise replacements of the buffers and calls: nothing is raised, and
the filters the next call uses have the same arrangement as the bank, the filter at each place being
what its own buffer has become (all replacements so far, in order, under the name it was registered
with). -/
theorem C50_filters_1d (conv : N → T) (f : Filters N) (d : Buf T) (l : List (Step T)) :
    ∃ s g, steps (registerFilters conv f d) l = .ok s ∧ loadFilters s.2 s.1 = .ok g ∧
      g.shape = f.shape ∧
      g.flat = f.flat.mapIdx fun k x => history (name k) l (conv x) := by
  obtain ⟨h1, h2, h3⟩ := registerFilters_spec conv f d
  obtain ⟨s, hs, hs1, hs2⟩ := steps_spec f l (registerFilters conv f d) (f.flat.map conv) h1
    (by rw [List.length_map]) h3
  obtain ⟨g, hg1, hg2⟩ := exists_filters f ((f.flat.map conv).mapIdx fun k t => history (name k) l t)
    (by rw [List.length_mapIdx, List.length_map])
  refine ⟨s, g, hs, loadFilters_spec (by rw [hg2]; exact hs2) s.1 (hs1.trans hg1.symm), hg1, ?_⟩
  rw [hg2]
  apply List.ext_getElem?
  intro i
  simp only [List.getElem?_mapIdx, List.getElem?_map, Option.map_map]
  rfl

/-- Without any replacement the filters are those of the bank, converted. -/
theorem C50_unchanged (conv : N → T) (f : Filters N) (d : Buf T) (n : Nat) :
    ∃ s g, steps (registerFilters conv f d) (List.replicate n Step.call) = .ok s ∧
      loadFilters s.2 s.1 = .ok g ∧ g.shape = f.shape ∧ g.flat = f.flat.map conv := by
  obtain ⟨s, g, h1, h2, h3, h4⟩ := C50_filters_1d conv f d (List.replicate n Step.call)
  refine ⟨s, g, h1, h2, h3, ?_⟩
  have hh : ∀ (n : Nat) (k : Str) (t : T), history k (List.replicate n Step.call) t = t := by
    intro n k t
    induction n with
    | zero => rfl
    | succ n ih => rw [List.replicate_succ]; exact ih
  rw [h4]
  apply List.ext_getElem?
  intro i
  simp only [List.getElem?_mapIdx, List.getElem?_map, hh]

/-- Doubling every buffer, calling, then loading a state: the filters used afterwards are that state. -/
example : ∃ s g, steps (registerFilters (fun x : Nat => x) ⟨[1, 2], [[3]], [[4, 5], [6]], [], []⟩ fun _ => none)
      [.replace fun _ t => 2 * t, .call, .replace fun k _ => k.length] = .ok s ∧
    loadFilters s.2 s.1 = .ok g ∧ g = ⟨[7, 7], [[7]], [[7, 7], [7]], [], []⟩ := by
  obtain ⟨s, g, h1, h2, h3, h4⟩ := C50_filters_1d (fun x : Nat => x)
    ⟨[1, 2], [[3]], [[4, 5], [6]], [], []⟩ (fun _ => none)
      [.replace fun _ t => 2 * t, .call, .replace fun k _ => k.length]
  refine ⟨s, g, h1, h2, shape_inj (by rw [h3]; rfl) (by rw [h4]; rfl)⟩

/-! ### 2-D -/

theorem loadLevels2_spec {d : Buf T} {n : Nat} {ts : List T} (h : Holds d n ts) (l : List N)
    (hl : l.length = ts.length) : loadLevels2 d l n = .ok (ts, n + ts.length) := by
  induction l generalizing n ts with
  | nil =>
    cases ts with
    | nil => rfl
    | cons t ts => cases hl
  | cons x l ih =>
    cases ts with
    | nil => cases hl
    | cons t ts =>
      have h0 := h 0 t rfl
      have h1 : Holds d (n + 1) ts := Holds.right (a := [t]) h
      have hn : n + (t :: ts).length = n + 1 + ts.length := by simp only [List.length_cons]; omega
      rw [hn]
      rw [add_zero] at h0
      simp only [loadLevels2, get, h0, bind, Except.bind, ih h1 (by simpa using hl)]

theorem loadBank2_spec {d : Buf T} {n : Nat} {ts : List (List T)} (h : Holds d n ts.flatten)
    (l : List (List N)) (hl : l.map List.length = ts.map List.length) :
    loadBank2 d l n = .ok (ts, n + ts.flatten.length) := by
  induction l generalizing n ts with
  | nil =>
    cases ts with
    | nil => rfl
    | cons t ts => cases hl
  | cons x l ih =>
    cases ts with
    | nil => cases hl
    | cons t ts =>
      rw [List.flatten_cons] at h
      simp only [List.map_cons, List.cons.injEq] at hl
      simp only [loadBank2, bind, Except.bind, loadLevels2_spec h.left x hl.1, ih h.right hl.2,
        List.flatten_cons, List.length_append, add_assoc]

/-- The buffers after a sequence of replacements. -/
def replaced (l : List (Str → T → T)) (d : Buf T) : Buf T :=
  fun k => (d k).map fun t => l.foldl (fun t g => g k t) t

theorem Holds.replaced {d : Buf T} {n : Nat} {ts : List T} (h : Holds d n ts) (l : List (Str → T → T)) :
    Holds (replaced l d) n (ts.mapIdx fun k t => l.foldl (fun t g => g (name (n + k)) t) t) := by
  intro i t hi
  simp only [List.getElem?_mapIdx, Option.map_eq_some_iff] at hi
  obtain ⟨t', ht', rfl⟩ := hi
  simp only [Buffers.replaced, h i t' ht', Option.map_some]

/-- **2-D.**  After any sequence of replacements the filters used by a call are, place by place, what the
buffers registered for them have become.  (Calls leave the module unchanged: `load_filters` returns new
dictionaries.) -/
theorem C50_filters_2d (conv : N → T) (phi : List N) (psi : List (List N)) (d : Buf T)
    (l : List (Str → T → T)) :
    ∃ phi' psi', loadFilters2 (replaced l (registerFilters2 conv phi psi d)) phi psi = .ok (phi', psi') ∧
      phi'.length = phi.length ∧ psi'.map List.length = psi.map List.length ∧
      phi' ++ psi'.flatten =
        (phi ++ psi.flatten).mapIdx fun k x => l.foldl (fun t g => g (name k) t) (conv x) := by
  obtain ⟨a1, a2, a3, -⟩ := regLevels_spec conv phi 0 d
  obtain ⟨b1, b2, b3, b4⟩ := regBank_spec conv psi (regLevels conv phi 0 d).2.2 (regLevels conv phi 0 d).2.1
  have hh : Holds (registerFilters2 conv phi psi d) 0 ((phi ++ psi.flatten).map conv) := by
    rw [List.map_append]
    refine Holds.append (a3.congr fun k _ hk => b4 k (by rw [a2]; simpa only [List.length_map] using hk)) ?_
    rw [show (0 : Nat) + (phi.map conv).length = (regLevels conv phi 0 d).2.2 by rw [a2, List.length_map]]
    exact b3
  have hr := hh.replaced l
  obtain ⟨g, hg1, hg2⟩ := exists_filters (⟨phi, psi, [], [], []⟩ : Filters N)
    (((phi ++ psi.flatten).map conv).mapIdx fun k t => l.foldl (fun t g => g (name (0 + k)) t) t)
    (by simp only [Filters.flat, List.flatten_nil, List.append_nil, List.length_mapIdx, List.length_map])
  obtain ⟨p, q, r, u, v⟩ := g
  simp only [Filters.shape, Prod.mk.injEq, List.map_nil, List.length_nil, List.map_eq_nil_iff,
    List.length_eq_zero_iff] at hg1
  obtain ⟨hp, hq, rfl, rfl, rfl⟩ := hg1
  simp only [Filters.flat, List.flatten_nil, List.append_nil] at hg2
  rw [← hg2] at hr
  refine ⟨p, q, ?_, hp, hq, ?_⟩
  · have k1 := loadLevels2_spec (N := N) hr.left phi hp.symm
    have k2 := loadBank2_spec (N := N) hr.right psi hq.symm
    simp only [loadFilters2, bind, Except.bind, k1, k2]
  · rw [hg2]
    apply List.ext_getElem?
    intro i
    simp only [List.getElem?_mapIdx, List.getElem?_map, Option.map_map, zero_add]
    rfl

example : loadFilters2 (replaced [fun _ t => t + 1] (registerFilters2 (fun x : Nat => 10 * x) [1, 2] [[3], [4, 5]]
    fun _ => none)) [1, 2] [[3], [4, 5]] = .ok ([11, 21], [[31], [41, 51]]) := by decide

/-! ### 3-D -/

/-- **3-D.**  The filters used by a call are, for each `l`, what the buffer registered for that `l` has become;
the buffer of the Gaussian, which has its own name, is not among them. -/
theorem C50_filters_3d (conv convG : N → T) (fs : List N) (ga : N) (d : Buf T) (l : List (Str → T → T)) :
    loadFilters3 (replaced l (registerFilters3 conv convG fs ga d).2) (registerFilters3 conv convG fs ga d).1 =
      .ok (fs.mapIdx fun k x => l.foldl (fun t g => g (name k) t) (conv x)) ∧
    replaced l (registerFilters3 conv convG fs ga d).2 "tensor_gaussian_filter".toList =
      some (l.foldl (fun t g => g "tensor_gaussian_filter".toList t) (convG ga)) := by
  obtain ⟨a1, a2, a3, -⟩ := regLevels_spec conv fs 0 d
  have hh : Holds (registerFilters3 conv convG fs ga d).2 0 (fs.map conv) :=
    a3.congr fun k _ _ => by
      simp only [registerFilters3, register]
      rw [if_neg (C50_names_gaussian k)]
  have hr := hh.replaced l
  constructor
  · have h1 := loadLevels_spec hr (registerFilters3 conv convG fs ga d).1 (by
      simp [registerFilters3, a1])
    simp only [loadFilters3, bind, Except.bind, h1]
    congr 1
    apply List.ext_getElem?
    intro i
    simp only [List.getElem?_mapIdx, List.getElem?_map, Option.map_map, zero_add]
    rfl
  · simp only [replaced, registerFilters3, register, if_true, Option.map_some]

end Buffers

end Verif
