import Verif.Model.Classes
import Verif.Lemmas.Py
import Mathlib.Logic.Relation
import Mathlib.Data.List.Nodup

/-!
# C95: what a linearisation is
-/

namespace Verif

open Classes

namespace Spec

/-- `b` is a direct base of `c`. -/
def Base {C : Type} (prog : List (C × List C)) (c b : C) : Prop := ∃ bs, (c, bs) ∈ prog ∧ b ∈ bs

/-- `x` is `c` or one of its ancestors. -/
def Ancestor {C : Type} (prog : List (C × List C)) : C → C → Prop := Relation.ReflTransGen (Base prog)

/-- A linearisation of `c`: `c` first, each ancestor once and nothing else, every class before its bases, and the bases of
every class in their declared order. -/
structure Linearisation {C : Type} (prog : List (C × List C)) (c : C) (m : List C) : Prop where
  first : m.head? = some c
  nodup : m.Nodup
  mem : ∀ x, x ∈ m ↔ Ancestor prog c x
  order : ∀ y bs, (y, bs) ∈ prog → y ∈ m → (y :: bs).Sublist m

end Spec

namespace Classes

variable {C : Type} [DecidableEq C]

theorem candidate_spec {ls : List (List C)} {c : C} (h : candidate ls = some c) :
    (∃ l ∈ ls, l.head? = some c) ∧ ∀ l ∈ ls, c ∉ l.tail := by
  refine ⟨?_, ?_⟩
  · have := List.mem_of_find?_eq_some h
    simpa [List.mem_filterMap] using this
  · have := List.find?_some h
    intro l hl
    have h2 := List.all_eq_true.mp this l hl
    simpa using h2

theorem dropHead_length_le (c : C) (l : List C) : (dropHead c l).length ≤ l.length := by
  unfold dropHead
  split <;> simp

theorem dropHead_length_lt {c : C} {l : List C} (h : l.head? = some c) : (dropHead c l).length < l.length := by
  unfold dropHead
  rw [if_pos h]
  cases l with
  | nil => simp at h
  | cons a t => simp

theorem sum_dropHead_le (c : C) (ls : List (List C)) :
    ((ls.map (dropHead c)).map List.length).sum ≤ (ls.map List.length).sum := by
  induction ls with
  | nil => simp
  | cons l t ih => simpa using Nat.add_le_add (dropHead_length_le c l) (by simpa using ih)

theorem sum_dropHead_lt {c : C} {ls : List (List C)} (h : ∃ l ∈ ls, l.head? = some c) :
    ((ls.map (dropHead c)).map List.length).sum < (ls.map List.length).sum := by
  induction ls with
  | nil => simp at h
  | cons l t ih =>
    obtain ⟨l', hl', hc⟩ := h
    rcases List.mem_cons.mp hl' with rfl | hl'
    · have := sum_dropHead_le c t
      have h2 := dropHead_length_lt hc
      simp only [List.map_cons, List.sum_cons]
      omega
    · have := ih ⟨l', hl', hc⟩
      have h2 := dropHead_length_le c l
      simp only [List.map_cons, List.sum_cons]
      omega

omit [DecidableEq C] in
theorem length_le_sum {ls : List (List C)} {l : List C} (h : l ∈ ls) : l.length ≤ (ls.map List.length).sum := by
  induction ls with
  | nil => simp at h
  | cons a t ih =>
    simp only [List.map_cons, List.sum_cons]
    rcases List.mem_cons.mp h with rfl | h
    · omega
    · have := ih h
      omega

/-- Enough steps are allowed: every list is a sublist of the result. -/
theorem mergeAux_sublist : ∀ (n : Nat) (ls : List (List C)) (r : List C), (ls.map List.length).sum ≤ n →
    mergeAux n ls = .ok r → ∀ l ∈ ls, l.Sublist r
  | 0, ls, r, hn, _, l, hl => by
    have h1 := length_le_sum hl
    have h2 : l = [] := List.length_eq_zero_iff.mp (by omega)
    rw [h2]
    exact List.nil_sublist r
  | n + 1, ls, r, hn, h, l, hl => by
    unfold mergeAux at h
    split at h
    · rename_i he
      have h2 := List.all_eq_true.mp he l hl
      rw [List.isEmpty_iff.mp h2]
      exact List.nil_sublist r
    · split at h
      · cases h
      · rename_i c hc
        obtain ⟨r', hr', h⟩ := bind_eq_ok.mp h
        cases h
        obtain ⟨hex, -⟩ := candidate_spec hc
        have hlt := sum_dropHead_lt hex
        have ih := mergeAux_sublist n _ r' (by omega) hr' (dropHead c l) (List.mem_map.mpr ⟨l, hl, rfl⟩)
        unfold dropHead at ih
        split at ih
        · rename_i hh
          cases l with
          | nil => simp at hh
          | cons a t =>
            simp only [List.head?_cons, Option.some.injEq] at hh
            subst hh
            exact ih.cons_cons a
        · exact ih.cons c

/-- Everything in the result comes from one of the lists. -/
theorem mergeAux_mem : ∀ (n : Nat) (ls : List (List C)) (r : List C),
    mergeAux n ls = .ok r → ∀ x ∈ r, ∃ l ∈ ls, x ∈ l
  | 0, ls, r, h, x, hx => by
    cases h
    simp at hx
  | n + 1, ls, r, h, x, hx => by
    unfold mergeAux at h
    split at h
    · cases h
      simp at hx
    · split at h
      · cases h
      · rename_i c hc
        obtain ⟨r', hr', h⟩ := bind_eq_ok.mp h
        cases h
        obtain ⟨⟨l, hl, hlc⟩, -⟩ := candidate_spec hc
        rcases List.mem_cons.mp hx with rfl | hx
        · exact ⟨l, hl, List.mem_of_head? hlc⟩
        · obtain ⟨l', hl', hx'⟩ := mergeAux_mem n _ r' hr' x hx
          obtain ⟨l2, hl2, rfl⟩ := List.mem_map.mp hl'
          refine ⟨l2, hl2, ?_⟩
          unfold dropHead at hx'
          split at hx'
          · exact List.mem_of_mem_tail hx'
          · exact hx'

/-- Nothing is taken twice. -/
theorem mergeAux_nodup : ∀ (n : Nat) (ls : List (List C)) (r : List C), mergeAux n ls = .ok r → r.Nodup
  | 0, ls, r, h => by
    cases h
    exact List.nodup_nil
  | n + 1, ls, r, h => by
    unfold mergeAux at h
    split at h
    · cases h
      exact List.nodup_nil
    · split at h
      · cases h
      · rename_i c hc
        obtain ⟨r', hr', h⟩ := bind_eq_ok.mp h
        cases h
        refine List.nodup_cons.mpr ⟨?_, mergeAux_nodup n _ r' hr'⟩
        intro hcr
        obtain ⟨l', hl', hx'⟩ := mergeAux_mem n _ r' hr' c hcr
        obtain ⟨l, hl, rfl⟩ := List.mem_map.mp hl'
        have ht := (candidate_spec hc).2 l hl
        unfold dropHead at hx'
        split at hx'
        · exact ht hx'
        · rename_i hh
          cases l with
          | nil => simp at hx'
          | cons a t =>
            rcases List.mem_cons.mp hx' with rfl | h2
            · simp at hh
            · exact ht h2

theorem mro_cons (e : C × List C) (t : Table C) (c : C) :
    Table.mro (e :: t) c = if e.1 = c then .ok e.2 else t.mro c := by
  unfold Table.mro
  rw [List.find?_cons]
  by_cases h : e.1 = c <;> simp [h]

theorem mro_mem {t : Table C} {c : C} {m : List C} (h : t.mro c = .ok m) : c ∈ t.map Prod.fst := by
  unfold Table.mro at h
  split at h
  · rename_i e he
    have h1 := List.mem_of_find?_eq_some he
    have h2 := List.find?_some he
    exact List.mem_map.mpr ⟨e, h1, by simpa using h2⟩
  · cases h

/-- What holds of the table after the statements `P`. -/
structure Good (P : List (C × List C)) (t : Table C) : Prop where
  names : ∀ c, c ∈ t.map Prod.fst → c ∈ P.map Prod.fst
  entry : ∀ c bs, (c, bs) ∈ P → ∃ m, t.mro c = .ok (c :: m) ∧ bs.Sublist m ∧ (c :: m).Nodup ∧
    (∀ b ∈ bs, ∃ mb, t.mro b = .ok mb ∧ mb.Sublist m) ∧ ∀ x ∈ c :: m, Spec.Ancestor P c x ∧ x ∈ P.map Prod.fst

omit [DecidableEq C] in
theorem ancestor_mono {P Q : List (C × List C)} (h : ∀ e ∈ P, e ∈ Q) {c x : C} (ha : Spec.Ancestor P c x) :
    Spec.Ancestor Q c x := by
  induction ha with
  | refl => exact Relation.ReflTransGen.refl
  | tail _ hb ih =>
    obtain ⟨bs, hm, hb⟩ := hb
    exact ih.tail ⟨bs, h _ hm, hb⟩

theorem good_define {P : List (C × List C)} {t t' : Table C} {s : C × List C} (hg : Good P t)
    (hs : s.1 ∉ P.map Prod.fst) (h : define t s = .ok t') : Good (P ++ [s]) t' := by
  obtain ⟨ms, hms, h⟩ := bind_eq_ok.mp h
  obtain ⟨m, hm, h⟩ := bind_eq_ok.mp h
  cases h
  have hF := mapM_eq_ok.mp hms
  have hsub := mergeAux_sublist _ _ m (Nat.le_refl _) hm
  have hmem := mergeAux_mem _ _ m hm
  have hnd := mergeAux_nodup _ _ m hm
  -- the bases are defined
  have hbase : ∀ b ∈ s.2, ∃ mb, mb ∈ ms ∧ t.mro b = .ok mb := fun b hb => by
    obtain ⟨mb, h1, h2⟩ := forall₂_mem_left hF hb
    exact ⟨mb, h1, h2⟩
  have hbdef : ∀ b ∈ s.2, b ∈ P.map Prod.fst := fun b hb => by
    obtain ⟨mb, -, h2⟩ := hbase b hb
    exact hg.names b (mro_mem h2)
  have hne : ∀ b ∈ P.map Prod.fst, s.1 ≠ b := fun b hb he => hs (he ▸ hb)
  -- the linearisations of the bases
  have hanc : ∀ b mb, t.mro b = .ok mb → ∀ x ∈ mb, Spec.Ancestor P b x ∧ x ∈ P.map Prod.fst := by
    intro b mb hb x hx
    obtain ⟨⟨c', bs⟩, hin, rfl⟩ := List.mem_map.mp (hg.names b (mro_mem hb))
    obtain ⟨m', h1, -, -, -, h5⟩ := hg.entry _ _ hin
    rw [h1] at hb
    cases hb
    exact h5 x hx
  have hx : ∀ x ∈ m, (∃ b ∈ s.2, Spec.Ancestor P b x) ∧ x ∈ P.map Prod.fst := by
    intro x hx
    obtain ⟨l, hl, hxl⟩ := hmem x hx
    rcases List.mem_append.mp hl with hl | hl
    · obtain ⟨b, hb, hbl⟩ := forall₂_mem_right hF hl
      obtain ⟨h1, h2⟩ := hanc b l hbl x hxl
      exact ⟨⟨b, hb, h1⟩, h2⟩
    · rw [List.mem_singleton] at hl
      subst hl
      exact ⟨⟨x, hxl, Relation.ReflTransGen.refl⟩, hbdef x hxl⟩
  have hP : ∀ e ∈ P, e ∈ P ++ [s] := fun e he => List.mem_append_left _ he
  have hold : ∀ b ∈ P.map Prod.fst, Table.mro ((s.1, s.1 :: m) :: t) b = t.mro b := fun b hb => by
    rw [mro_cons, if_neg (hne b hb)]
  refine ⟨?_, ?_⟩
  · intro c hc
    rw [List.map_cons, List.mem_cons] at hc
    rw [List.map_append, List.mem_append]
    rcases hc with rfl | hc
    · right; simp
    · left; exact hg.names c hc
  · intro c bs hin
    rcases List.mem_append.mp hin with hin | hin
    · obtain ⟨m', h1, h2, h3, h4, h5⟩ := hg.entry c bs hin
      have hc : c ∈ P.map Prod.fst := List.mem_map.mpr ⟨_, hin, rfl⟩
      refine ⟨m', by rw [hold c hc, h1], h2, h3, ?_, ?_⟩
      · intro b hb
        obtain ⟨mb, h6, h7⟩ := h4 b hb
        exact ⟨mb, by rw [hold b (hg.names b (mro_mem h6)), h6], h7⟩
      · intro x hx
        obtain ⟨h6, h7⟩ := h5 x hx
        exact ⟨ancestor_mono hP h6, by rw [List.map_append, List.mem_append]; exact Or.inl h7⟩
    · rw [List.mem_singleton] at hin
      subst hin
      refine ⟨m, by rw [mro_cons, if_pos rfl], hsub _ (by simp), ?_, ?_, ?_⟩
      · exact List.nodup_cons.mpr ⟨fun hc => hs (hx c hc).2, hnd⟩
      · intro b hb
        obtain ⟨mb, h1, h2⟩ := hbase b hb
        exact ⟨mb, by rw [hold b (hbdef b hb), h2], hsub _ (List.mem_append_left _ h1)⟩
      · intro x hxm
        rcases List.mem_cons.mp hxm with rfl | hxm
        · exact ⟨Relation.ReflTransGen.refl, by simp⟩
        · obtain ⟨⟨b, hb, h1⟩, h2⟩ := hx x hxm
          refine ⟨Relation.ReflTransGen.head ⟨bs, by simp, hb⟩ (ancestor_mono hP h1), ?_⟩
          rw [List.map_append, List.mem_append]
          exact Or.inl h2

theorem good_run {prog P : List (C × List C)} {t t' : Table C} (hg : Good P t)
    (hnd : ((P ++ prog).map Prod.fst).Nodup) (h : run prog t = .ok t') : Good (P ++ prog) t' := by
  induction prog generalizing P t with
  | nil =>
    have : t = t' := by
      have h' : (Except.ok t : Py (Table C)) = .ok t' := h
      exact Except.ok.inj h'
    subst this
    simpa using hg
  | cons s prog ih =>
    have h' : (do let t1 ← define t s; run prog t1 : Py (Table C)) = .ok t' := h
    obtain ⟨t1, h1, h2⟩ := bind_eq_ok.mp h'
    have hs : s.1 ∉ P.map Prod.fst := by
      intro hin
      rw [List.map_append, List.map_cons, List.nodup_append] at hnd
      exact hnd.2.2 _ hin _ List.mem_cons_self rfl
    have := ih (P := P ++ [s]) (good_define hg hs h1) (by simpa using hnd) h2
    simpa using this

end Classes

/-- Whatever classes a program defines (each name once), the linearisation Python gives to each of them is a linearisation:
the class first, each of its ancestors once and nothing else, every class before its bases, and the bases of every
class in the order in which they were declared. -/
theorem C95_linearisation {C : Type} [DecidableEq C] {prog : List (C × List C)} {t : Table C}
    (hnd : (prog.map Prod.fst).Nodup) (h : run prog [] = .ok t) {c : C} (hc : c ∈ prog.map Prod.fst) :
    ∃ m, t.mro c = .ok m ∧ Spec.Linearisation prog c m := by
  have hg : Good prog t := by
    have h0 : Good ([] : List (C × List C)) [] := ⟨by simp, by simp⟩
    simpa using good_run h0 (by simpa using hnd) h
  -- linearisations of ancestors are sublists
  have hsub : ∀ c x, Spec.Ancestor prog c x → ∀ m mx, t.mro c = .ok m → t.mro x = .ok mx → mx.Sublist m := by
    intro c x ha
    induction ha using Relation.ReflTransGen.head_induction_on with
    | refl =>
      intro m mx h1 h2
      rw [h1] at h2
      cases h2
      exact List.Sublist.refl _
    | head hb _ ih =>
      intro m mx h1 h2
      obtain ⟨bs, hin, hbb⟩ := hb
      obtain ⟨m', h3, -, -, h4, -⟩ := hg.entry _ _ hin
      obtain ⟨mb, h5, h6⟩ := h4 _ hbb
      rw [h1] at h3
      cases h3
      exact (ih mb mx h5 h2).trans (h6.cons _)
  have hdef : ∀ x ∈ prog.map Prod.fst, ∃ mx bs, (x, bs) ∈ prog ∧ t.mro x = .ok (x :: mx) ∧ bs.Sublist mx := by
    intro x hx
    obtain ⟨⟨c', bs⟩, hin, rfl⟩ := List.mem_map.mp hx
    obtain ⟨m', h1, h2, -, -, -⟩ := hg.entry _ _ hin
    exact ⟨m', bs, hin, h1, h2⟩
  have hbdef : ∀ c x, Spec.Ancestor prog c x → c ∈ prog.map Prod.fst → x ∈ prog.map Prod.fst := by
    intro c x ha
    induction ha with
    | refl => exact id
    | tail _ hb ih =>
      intro hc
      obtain ⟨bs, hin, hbb⟩ := hb
      obtain ⟨m', -, -, -, h4, -⟩ := hg.entry _ _ hin
      obtain ⟨mb, h5, -⟩ := h4 _ hbb
      exact hg.names _ (mro_mem h5)
  obtain ⟨⟨c', bs⟩, hin, rfl⟩ := List.mem_map.mp hc
  obtain ⟨m, h1, h2, h3, h4, h5⟩ := hg.entry _ _ hin
  refine ⟨c' :: m, h1, rfl, h3, ?_, ?_⟩
  · intro x
    refine ⟨fun hx => (h5 x hx).1, fun hx => ?_⟩
    obtain ⟨mx, -, -, h6, -⟩ := hdef x (hbdef _ _ hx hc)
    exact (hsub _ _ hx _ _ h1 h6).subset List.mem_cons_self
  · intro y ys hy hym
    have hya := (h5 y hym).1
    obtain ⟨my, h6, h7, -, -, -⟩ := hg.entry _ _ hy
    exact (h7.cons_cons y).trans (hsub _ _ hya _ _ h1 h6)

/-- A diamond: `D(B, C)`, `B(A)`, `C(A)`. -/
example : ∃ t, run [(0, []), (1, [0]), (2, [0]), (3, [1, 2])] ([] : Table Nat) = .ok t ∧
    t.mro 3 = .ok [3, 1, 2, 0] := ⟨_, rfl, rfl⟩

/-- No linearisation: `D(A, B)` with `B(A)` raises `TypeError`. -/
example : run [(0, []), (1, [0]), (2, [0, 1])] ([] : Table Nat) = .error .type := rfl

end Verif
