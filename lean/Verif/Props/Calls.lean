import Verif.Model.Calls
import Verif.Lemmas.Py
import Mathlib.Data.List.Nodup
import Mathlib.Data.List.Forall2

/-!
# C96: arguments of the constructors
-/

namespace Verif

open Calls

namespace Spec

/-- The value that a call gives to the parameter `p`: the positional argument in its place, else the keyword argument, else
the default value. -/
def Reaches (ps : Params) (args : List Val) (kw : Env) (p : Par) (v : Val) : Prop :=
  ∃ i d, ps[i]? = some (p, d) ∧
    (args[i]? = some v ∨ args.length ≤ i ∧ ((p, v) ∈ kw ∨ p ∉ kw.map Prod.fst ∧ d = some v))

/-- A call that Python accepts: not too many positional arguments, keywords distinct and naming parameters without a
positional argument, and a value for each parameter without default. -/
def Callable (ps : Params) (args : List Val) (kw : Env) : Prop :=
  args.length ≤ ps.length ∧ (kw.map Prod.fst).Nodup ∧
  (∀ k ∈ kw, ∃ i d, ps[i]? = some (k.1, d) ∧ args.length ≤ i) ∧
  ∀ (i : Nat) p, ps[i]? = some (p, none) → i < args.length ∨ p ∈ kw.map Prod.fst

/-- How many arguments have the same place in the constructors of all frontends. -/
def positional : Family → Nat
  | .oneD => 9
  | .jtfs => 10
  | .twoD => 6
  | .threeD => 10

/-- The arguments that must be given, in order. -/
def required : Family → List Par
  | .oneD => [.J, .shape]
  | .jtfs => [.J, .JFr, .Q, .shape]
  | .twoD => [.J, .shape]
  | .threeD => [.J, .shape]

/-- The default values, from the docstrings (scattering1d/frontend/base_frontend.py L418-441 and L850-880,
scattering2d/frontend/base_frontend.py L134-147, scattering3d/frontend/base_frontend.py L66-93) where they name one. -/
def defaults (f : Front) : Family → List (Par × Val)
  | .oneD => [(.Q, .int 1), (.T, .none), (.stride, .none), (.maxOrder, .int 2), (.oversampling, .int 0),
      (.outType, .str "array"), (.backend, .str f.str)]
  | .jtfs => [(.T, .none), (.stride, .none), (.QFr, .int 1), (.F, .none), (.strideFr, .none), (.outType, .str "array"),
      (.format, .str "time"), (.backend, .str f.str)]
  | .twoD => [(.L, .int 8), (.maxOrder, .int 2), (.prePad, .bool false), (.backend, .str f.str), (.outType, .str "array")]
  | .threeD => [(.L, .int 3), (.sigma0, .int 1), (.maxOrder, .int 2), (.rotationCovariant, .bool true),
      (.method, .str "integral"), (.points, .none), (.integralPowers, .powers), (.backend, .str f.str)]

end Spec

namespace Calls

theorem lookup_of_mem {kw : Env} (hn : (kw.map Prod.fst).Nodup) {p : Par} {v : Val} (h : (p, v) ∈ kw) :
    kw.lookup p = some v := by
  induction kw with
  | nil => simp at h
  | cons a t ih =>
    rw [List.map_cons, List.nodup_cons] at hn
    rcases List.mem_cons.mp h with rfl | h
    · simp [List.lookup]
    · have : p ≠ a.1 := fun he => hn.1 (he ▸ List.mem_map.mpr ⟨_, h, rfl⟩)
      rw [List.lookup_cons]
      simp only [beq_eq_false_iff_ne.mpr this]
      exact ih hn.2 h

theorem mem_of_lookup {kw : Env} {p : Par} {v : Val} (h : kw.lookup p = some v) : (p, v) ∈ kw := by
  induction kw with
  | nil => simp at h
  | cons a t ih =>
    rw [List.lookup_cons] at h
    by_cases he : p = a.1
    · subst he
      simp only [BEq.rfl, Option.some.injEq] at h
      subst h
      exact List.mem_cons_self
    · simp only [beq_eq_false_iff_ne.mpr he] at h
      exact List.mem_cons_of_mem _ (ih h)

theorem lookup_none {kw : Env} {p : Par} : kw.lookup p = none ↔ p ∉ kw.map Prod.fst := by
  induction kw with
  | nil => simp
  | cons a t ih =>
    rw [List.lookup_cons, List.map_cons, List.mem_cons, not_or]
    by_cases he : p = a.1
    · subst he
      simp
    · simp only [beq_eq_false_iff_ne.mpr he, ih]
      simp [he]

theorem names_index {ps : Params} (hn : (ps.map Prod.fst).Nodup) {i j : Nat} {p : Par} {d d' : Option Val}
    (hi : ps[i]? = some (p, d)) (hj : ps[j]? = some (p, d')) : i = j := by
  have h1 : (ps.map Prod.fst)[i]? = some p := by simp [hi]
  have h2 : (ps.map Prod.fst)[j]? = some p := by simp [hj]
  obtain ⟨hl, -⟩ := List.getElem?_eq_some_iff.mp h1
  exact (List.getElem?_inj hl hn).mp (h1.trans h2.symm)

theorem reaches_unique {ps : Params} (hn : (ps.map Prod.fst).Nodup) {args : List Val} {kw : Env}
    (hk : (kw.map Prod.fst).Nodup) {p : Par} {v w : Val} (hv : Spec.Reaches ps args kw p v)
    (hw : Spec.Reaches ps args kw p w) : v = w := by
  obtain ⟨i, d, hi, hv⟩ := hv
  obtain ⟨j, d', hj, hw⟩ := hw
  obtain rfl := names_index hn hi hj
  rw [hi] at hj
  cases hj
  have hlen : ∀ {x}, args[i]? = some x → i < args.length := fun h => (List.getElem?_eq_some_iff.mp h).1
  rcases hv with hv | ⟨hle, hv⟩
  · rcases hw with hw | ⟨hle, -⟩
    · rw [hv] at hw
      exact Option.some.inj hw
    · have := hlen hv
      omega
  · rcases hw with hw | ⟨-, hw⟩
    · have := hlen hw
      omega
    · rcases hv with hv | ⟨hv, rfl⟩ <;> rcases hw with hw | ⟨hw, h⟩
      · have h1 := lookup_of_mem hk hv
        rw [lookup_of_mem hk hw] at h1
        exact (Option.some.inj h1).symm
      · exact absurd (List.mem_map.mpr ⟨_, hv, rfl⟩) hw
      · exact absurd (List.mem_map.mpr ⟨_, hw, rfl⟩) hv
      · exact Option.some.inj h

/-- The keyword part of a call. -/
theorem keyword_ok {kw : Env} {p : Par × Option Val} {e : Par × Val} (h : keywordOrDefault kw p = .ok e) :
    e.1 = p.1 ∧ ((p.1, e.2) ∈ kw ∨ p.1 ∉ kw.map Prod.fst ∧ p.2 = some e.2) := by
  unfold keywordOrDefault at h
  split at h
  · rename_i v hv
    cases h
    exact ⟨rfl, Or.inl (mem_of_lookup hv)⟩
  · rename_i hv
    split at h
    · rename_i d hd
      cases h
      exact ⟨rfl, Or.inr ⟨lookup_none.mp hv, hd⟩⟩
    · cases h

theorem bind_values {ps : Params} (hn : (ps.map Prod.fst).Nodup) {args : List Val} {kw : Env} {e : Env}
    (h : bind ps args kw = .ok e) :
    Spec.Callable ps args kw ∧
    ∃ v : Par → Val, e = ps.map (fun p => (p.1, v p.1)) ∧ ∀ p ∈ ps, Spec.Reaches ps args kw p.1 (v p.1) := by
  unfold bind at h
  split at h
  · cases h
  rename_i hlen
  split at h
  · cases h
  rename_i hk
  split at h
  · cases h
  rename_i hunk
  split at h
  · cases h
  rename_i hdup
  obtain ⟨rest, hrest, h⟩ := bind_eq_ok.mp h
  cases h
  have hF := mapM_eq_ok.mp hrest
  have hlen' : args.length ≤ ps.length := by omega
  have hk' : (kw.map Prod.fst).Nodup := by simpa using hk
  -- the i-th entry
  have hrl : rest.length = ps.length - args.length := by
    rw [← hF.length_eq, List.length_drop]
  have hzl : ((ps.map Prod.fst).zip args).length = args.length := by
    rw [List.length_zip, List.length_map]
    omega
  have hent : ∀ (i : Nat) p d, ps[i]? = some (p, d) → ∃ v,
      ((ps.map Prod.fst).zip args ++ rest)[i]? = some (p, v) ∧
      (args[i]? = some v ∨ args.length ≤ i ∧ ((p, v) ∈ kw ∨ p ∉ kw.map Prod.fst ∧ d = some v)) := by
    intro i p d hi
    by_cases hlt : i < args.length
    · refine ⟨args[i], ?_, Or.inl (List.getElem?_eq_getElem hlt)⟩
      rw [List.getElem?_append_left (by omega)]
      rw [List.getElem?_zip_eq_some]
      exact ⟨by simp [hi], List.getElem?_eq_getElem hlt⟩
    · have hd : (ps.drop args.length)[i - args.length]? = some (p, d) := by
        rw [List.getElem?_drop]
        rw [show args.length + (i - args.length) = i by omega]
        exact hi
      obtain ⟨b, hb, hR⟩ := forall₂_get' hF hd
      obtain ⟨h1, h2⟩ := keyword_ok hR
      refine ⟨b.2, ?_, Or.inr ⟨by omega, h2⟩⟩
      have hb2 : b = (p, b.2) := by rw [← show b.1 = p from h1]
      rw [List.getElem?_append_right (by omega), hzl, hb, ← hb2]
  have helen : ((ps.map Prod.fst).zip args ++ rest).length = ps.length := by
    rw [List.length_append, hzl, hrl]
    omega
  have hfst : ((ps.map Prod.fst).zip args ++ rest).map Prod.fst = ps.map Prod.fst := by
    apply List.ext_getElem?
    intro i
    rw [List.getElem?_map, List.getElem?_map]
    cases hi : ps[i]? with
    | none =>
      have : ps.length ≤ i := List.getElem?_eq_none_iff.mp hi
      rw [List.getElem?_eq_none (by omega)]
      rfl
    | some q =>
      obtain ⟨v, hv, -⟩ := hent i q.1 q.2 hi
      rw [hv]
      rfl
  refine ⟨⟨hlen', hk', ?_, ?_⟩, fun p => (((ps.map Prod.fst).zip args ++ rest).lookup p).getD .none, ?_, ?_⟩
  · intro k hkm
    have h1 : k.1 ∈ ps.map Prod.fst := by
      by_contra hc
      exact hunk ⟨k, hkm, hc⟩
    obtain ⟨q, hq, hqk⟩ := List.mem_map.mp h1
    obtain ⟨i, hi⟩ := List.getElem?_of_mem hq
    refine ⟨i, q.2, by rw [hi, ← hqk], ?_⟩
    by_contra hc
    refine hdup ⟨k, hkm, List.mem_map.mpr ⟨q, ?_, hqk⟩⟩
    exact List.mem_of_getElem? (i := i) (by rw [List.getElem?_take, if_pos (by omega)]; exact hi)
  · intro i p hi
    obtain ⟨v, -, h1 | ⟨-, h1 | ⟨-, h1⟩⟩⟩ := hent i p none hi
    · exact Or.inl (List.getElem?_eq_some_iff.mp h1).1
    · exact Or.inr (List.mem_map.mpr ⟨_, h1, rfl⟩)
    · cases h1
  · apply List.ext_getElem?
    intro i
    rw [List.getElem?_map]
    cases hi : ps[i]? with
    | none =>
      have : ps.length ≤ i := List.getElem?_eq_none_iff.mp hi
      rw [List.getElem?_eq_none (by omega)]
      rfl
    | some q =>
      obtain ⟨v, hv, -⟩ := hent i q.1 q.2 hi
      have h1 := lookup_of_mem (hfst.symm ▸ hn) (List.mem_of_getElem? hv)
      rw [hv]
      simp [h1]
  · intro q hq
    obtain ⟨i, hi⟩ := List.getElem?_of_mem hq
    obtain ⟨v, hv, h2⟩ := hent i q.1 q.2 hi
    have h1 := lookup_of_mem (hfst.symm ▸ hn) (List.mem_of_getElem? hv)
    refine ⟨i, q.2, hi, ?_⟩
    simp only [h1, Option.getD_some]
    exact h2

theorem bind_ok_of {ps : Params} (hn : (ps.map Prod.fst).Nodup) {args : List Val} {kw : Env}
    (h : Spec.Callable ps args kw) : ∃ e, bind ps args kw = .ok e := by
  obtain ⟨hlen, hk, hkw, hreq⟩ := h
  unfold bind
  rw [if_neg (by omega), if_neg (by simpa using hk), if_neg, if_neg]
  · obtain ⟨r, hr⟩ : ∃ r, (ps.drop args.length).mapM (keywordOrDefault kw) = .ok r := by
      apply mapM_ok_of_forall
      intro p hp
      obtain ⟨j, hj⟩ := List.getElem?_of_mem hp
      rw [List.getElem?_drop] at hj
      unfold keywordOrDefault
      cases hl : kw.lookup p.1 with
      | some v => exact ⟨_, rfl⟩
      | none =>
        cases hd : p.2 with
        | some d => exact ⟨_, rfl⟩
        | none =>
          exfalso
          have hp2 : p = (p.1, none) := by rw [← hd]
          rcases hreq _ p.1 (by rw [hj]; exact congrArg some hp2) with h1 | h1
          · omega
          · exact lookup_none.mp hl h1
    exact ⟨_, bind_eq_ok.mpr ⟨r, hr, rfl⟩⟩
  · rintro ⟨k, hkm, hin⟩
    obtain ⟨i, d, hi, hle⟩ := hkw k hkm
    obtain ⟨q, hq, hqk⟩ := List.mem_map.mp hin
    obtain ⟨j, hj⟩ := List.getElem?_of_mem hq
    rw [List.getElem?_take] at hj
    split at hj
    · have hq2 : q = (k.1, q.2) := by rw [← hqk]
      rw [hq2] at hj
      have := names_index hn hi hj
      omega
    · cases hj
  · rintro ⟨k, hkm, hin⟩
    obtain ⟨i, d, hi, -⟩ := hkw k hkm
    exact hin (List.mem_map.mpr ⟨_, List.mem_of_getElem? hi, rfl⟩)

theorem params_nodup (f : Front) (fam : Family) : ((params f fam).map Prod.fst).Nodup := by
  cases f <;> cases fam <;> decide

/-- What the constructors store, in the order of the statements of the initialisers. -/
def stored (v : Par → Val) : Family → Env
  | .oneD => [(.J, v .J), (.shape, v .shape), (.Q, v .Q), (.T, v .T), (.stride, v .stride), (.maxOrder, v .maxOrder),
      (.outType, v .outType), (.backend, v .backend), (.oversampling, v .oversampling)]
  | .jtfs => [(.J, v .J), (.shape, v .shape), (.Q, v .Q), (.T, v .T), (.stride, v .stride), (.maxOrder, .int 2),
      (.outType, v .outType), (.backend, v .backend), (.oversampling, .none), (.JFr, v .JFr), (.QFr, v .QFr),
      (.F, v .F), (.strideFr, v .strideFr), (.format, v .format), (.oversamplingFr, .int 0)]
  | .twoD => [(.prePad, v .prePad), (.L, v .L), (.backend, v .backend), (.J, v .J), (.shape, v .shape),
      (.maxOrder, v .maxOrder), (.outType, v .outType)]
  | .threeD => [(.J, v .J), (.shape, v .shape), (.L, v .L), (.sigma0, v .sigma0), (.maxOrder, v .maxOrder),
      (.rotationCovariant, v .rotationCovariant), (.method, v .method), (.points, v .points),
      (.integralPowers, v .integralPowers), (.backend, v .backend)]

theorem construct_of_bind {f : Front} {fam : Family} {args : List Val} {kw : Env} {v : Par → Val}
    (h : bind (params f fam) args kw = .ok ((params f fam).map fun p => (p.1, v p.1))) :
    construct f fam args kw = .ok ((.frontendName, .str f.str) :: stored v fam) := by
  unfold construct
  rw [h]
  cases f <;> cases fam <;> rfl

/-- Two lists of parameters with the same first `k` names and, apart from `name` and the default of `backend`, the same
parameters and defaults. -/
structure Agree (k : Nat) (ps qs : Params) : Prop where
  front : (ps.take k).map Prod.fst = (qs.take k).map Prod.fst
  same : ∀ e ∈ ps, e.1 ≠ .name → e.1 ≠ .backend → e ∈ qs
  backend : ∀ e ∈ ps, e.1 = .backend → .backend ∈ qs.map Prod.fst
  defaults : ∀ e ∈ qs, e.1 = .name ∨ e.1 = .backend → e.2 ≠ none

instance (k : Nat) (ps qs : Params) : Decidable (Agree k ps qs) :=
  decidable_of_iff ((ps.take k).map Prod.fst = (qs.take k).map Prod.fst ∧
      (∀ e ∈ ps, e.1 ≠ .name → e.1 ≠ .backend → e ∈ qs) ∧ (∀ e ∈ ps, e.1 = .backend → .backend ∈ qs.map Prod.fst) ∧
      ∀ e ∈ qs, e.1 = .name ∨ e.1 = .backend → e.2 ≠ none)
    ⟨fun ⟨a, b, c, d⟩ => ⟨a, b, c, d⟩, fun ⟨a, b, c, d⟩ => ⟨a, b, c, d⟩⟩

theorem params_agree (f g : Front) (fam : Family) : Agree (Spec.positional fam) (params f fam) (params g fam) := by
  cases f <;> cases g <;> cases fam <;> decide

theorem positional_le (f : Front) (fam : Family) : Spec.positional fam ≤ (params f fam).length := by
  cases f <;> cases fam <;> decide

theorem Agree.index {k : Nat} {ps qs : Params} (h : Agree k ps qs) (hn : (qs.map Prod.fst).Nodup) {i j : Nat} {p : Par}
    {d d' : Option Val} (hi : ps[i]? = some (p, d)) (hj : qs[j]? = some (p, d')) (hik : i < k) : j = i := by
  have h1 : ((ps.take k).map Prod.fst)[i]? = some p := by
    rw [List.getElem?_map, List.getElem?_take, if_pos hik, hi]
    rfl
  rw [h.front, List.getElem?_map, List.getElem?_take, if_pos hik] at h1
  cases hq : qs[i]? with
  | none => rw [hq] at h1; cases h1
  | some q =>
    rw [hq] at h1
    have h2 : q.1 = p := by simpa using h1
    have h3 : q = (p, q.2) := by rw [← h2]
    rw [h3] at hq
    exact names_index hn hj hq

theorem Agree.mem {k : Nat} {ps qs : Params} (h : Agree k ps qs) {i : Nat} {p : Par} {d : Option Val}
    (hi : ps[i]? = some (p, d)) (hp : p ≠ .name) : ∃ (j : Nat) (d' : Option Val), qs[j]? = some (p, d') ∧
      (p ≠ .backend → d' = d) := by
  have hm := List.mem_of_getElem? hi
  by_cases hb : p = .backend
  · obtain ⟨q, hq, hqb⟩ := List.mem_map.mp (h.backend _ hm hb)
    obtain ⟨j, hj⟩ := List.getElem?_of_mem hq
    exact ⟨j, q.2, by rw [hj, hb, ← hqb], fun hc => absurd hb hc⟩
  · obtain ⟨j, hj⟩ := List.getElem?_of_mem (h.same _ hm hp hb)
    exact ⟨j, d, hj, fun _ => rfl⟩

theorem Agree.callable {k : Nat} {ps qs : Params} (h : Agree k ps qs) (h' : Agree k qs ps)
    (hp : (ps.map Prod.fst).Nodup) (hq : (qs.map Prod.fst).Nodup) {args : List Val} {kw : Env} (hk : args.length ≤ k)
    (hl : k ≤ qs.length) (hname : .name ∉ kw.map Prod.fst) (hc : Spec.Callable ps args kw) :
    Spec.Callable qs args kw := by
  obtain ⟨h1, h2, h3, h4⟩ := hc
  refine ⟨by omega, h2, ?_, ?_⟩
  · intro e he
    obtain ⟨i, d, hi, hle⟩ := h3 e he
    obtain ⟨j, d', hj, -⟩ := h.mem hi fun hn => hname (hn ▸ List.mem_map.mpr ⟨e, he, rfl⟩)
    refine ⟨j, d', hj, ?_⟩
    by_contra hlt
    have := h'.index hp hj hi (by omega)
    omega
  · intro i p hi
    have hm := List.mem_of_getElem? hi
    have hpn : p ≠ .name := fun hn => h.defaults _ hm (Or.inl hn) rfl
    have hpb : p ≠ .backend := fun hn => h.defaults _ hm (Or.inr hn) rfl
    obtain ⟨j, d', hj, hd⟩ := h'.mem hi hpn
    obtain rfl := hd hpb
    rcases h4 j p hj with h5 | h5
    · have := h.index hq hj hi (by omega)
      exact Or.inl (by omega)
    · exact Or.inr h5

theorem Agree.reaches {k : Nat} {ps qs : Params} (h : Agree k ps qs) (h' : Agree k qs ps)
    (hp : (ps.map Prod.fst).Nodup) (hq : (qs.map Prod.fst).Nodup) {args : List Val} {kw : Env} (hk : args.length ≤ k)
    {p : Par} (hname : p ≠ .name)
    (hback : p = .backend → .backend ∈ kw.map Prod.fst ∨
      ∃ i < args.length, ps[i]?.map Prod.fst = some Par.backend) {v : Val}
    (hr : Spec.Reaches ps args kw p v) : Spec.Reaches qs args kw p v := by
  obtain ⟨i, d, hi, hr⟩ := hr
  obtain ⟨j, d', hj, hd⟩ := h.mem hi hname
  refine ⟨j, d', hj, ?_⟩
  by_cases hlt : i < args.length
  · obtain rfl := h.index hq hi hj (by omega)
    rcases hr with hr | ⟨hle, -⟩
    · exact Or.inl hr
    · omega
  · have hjle : args.length ≤ j := by
      by_contra hc
      have := h'.index hp hj hi (by omega)
      omega
    rcases hr with hr | ⟨-, hr | ⟨hnot, hr⟩⟩
    · exact absurd (List.getElem?_eq_some_iff.mp hr).1 hlt
    · exact Or.inr ⟨hjle, Or.inl hr⟩
    · refine Or.inr ⟨hjle, Or.inr ⟨hnot, ?_⟩⟩
      by_cases hb : p = .backend
      · exfalso
        rcases hback hb with h1 | ⟨i', hi', h1⟩
        · exact hnot (hb ▸ h1)
        · cases hx : ps[i']? with
          | none => rw [hx] at h1; cases h1
          | some x =>
            rw [hx] at h1
            have h2 : x.1 = Par.backend := by simpa using h1
            have h3 : x = (p, x.2) := by rw [hb, ← h2]
            rw [h3] at hx
            have := names_index hp hi hx
            omega
      · rw [hd hb]
        exact hr

end Calls

/-- Binding: a call is accepted exactly when it is well formed, and then every parameter has the value that the call gives
it, and there is exactly one such value. -/
theorem C96_bind {ps : Params} (hn : (ps.map Prod.fst).Nodup) (args : List Val) (kw : Env) :
    ((∃ e, bind ps args kw = .ok e) ↔ Spec.Callable ps args kw) ∧
    ∀ e, bind ps args kw = .ok e → ∀ p v, (p, v) ∈ e ↔ Spec.Reaches ps args kw p v := by
  refine ⟨⟨fun ⟨e, h⟩ => (bind_values hn h).1, bind_ok_of hn⟩, ?_⟩
  intro e h p v
  obtain ⟨hc, w, rfl, hw⟩ := bind_values hn h
  constructor
  · intro hm
    obtain ⟨q, hq, he⟩ := List.mem_map.mp hm
    cases he
    exact hw q hq
  · intro hr
    obtain ⟨i, d, hi, -⟩ := id hr
    have hq := List.mem_of_getElem? hi
    have := reaches_unique hn hc.2.1 hr (hw _ hq)
    subst this
    exact List.mem_map.mpr ⟨_, hq, rfl⟩

/-- The constructors of all frontends and families: a call is accepted exactly when Python's rules accept it, and each
argument is stored in the attribute of its name; nothing is swapped or lost on the way through the two initialisers. -/
theorem C96_constructor (f : Front) (fam : Family) (args : List Val) (kw : Env) :
    ((∃ s, construct f fam args kw = .ok s) ↔ Spec.Callable (params f fam) args kw) ∧
    ∀ s, construct f fam args kw = .ok s →
      s.lookup .frontendName = some (.str f.str) ∧
      (∀ p v, p ≠ .name → Spec.Reaches (params f fam) args kw p v → s.lookup p = some v) ∧
      (fam = .jtfs → s.lookup .maxOrder = some (.int 2) ∧ s.lookup .oversampling = some .none ∧
        s.lookup .oversamplingFr = some (.int 0)) := by
  have hn := params_nodup f fam
  constructor
  · constructor
    · rintro ⟨s, h⟩
      obtain ⟨e, he, -⟩ := bind_eq_ok.mp h
      exact (bind_values hn he).1
    · intro h
      obtain ⟨e, he⟩ := bind_ok_of hn h
      obtain ⟨-, v, rfl, -⟩ := bind_values hn he
      exact ⟨_, construct_of_bind he⟩
  · intro s h
    obtain ⟨e, he, -⟩ := bind_eq_ok.mp h
    obtain ⟨hc, v, rfl, hv⟩ := bind_values hn he
    rw [construct_of_bind he] at h
    cases h
    refine ⟨rfl, ?_, ?_⟩
    · intro p w hp hr
      obtain ⟨i, d, hi, -⟩ := id hr
      have hq := List.mem_of_getElem? hi
      have hw : w = v p := reaches_unique hn hc.2.1 hr (hv _ hq)
      subst hw
      have hpn : p ∈ (params f fam).map Prod.fst := List.mem_map.mpr ⟨_, hq, rfl⟩
      clear * - hpn hp
      cases f <;> cases fam <;>
        simp only [params, Front.str, reduceCtorEq, if_true, if_false, List.append_nil, List.cons_append, List.nil_append,
          List.map_cons, List.map_nil, List.mem_cons, List.not_mem_nil, or_false] at hpn <;>
        (repeat' (obtain rfl | hpn := hpn)) <;> first | rfl | exact absurd rfl hp
    · rintro rfl
      exact ⟨rfl, rfl, rfl⟩

/-- Arguments that are not given have their documented default values, in all frontends. -/
theorem C96_defaults (f : Front) (fam : Family) (args : List Val) (kw : Env) (s : Env)
    (h : construct f fam args kw = .ok s) {p : Par} {d : Val} (hp : (p, d) ∈ Spec.defaults f fam)
    (ha : args.length ≤ (Spec.required fam).length) (hk : p ∉ kw.map Prod.fst) : s.lookup p = some d := by
  have hpos : ∃ i, (params f fam)[i]? = some (p, some d) ∧ (Spec.required fam).length ≤ i := by
    have key : ∀ q ∈ Spec.defaults f fam, ∃ i < 14, (params f fam)[i]? = some (q.1, some q.2) ∧
        (Spec.required fam).length ≤ i := by
      cases f <;> cases fam <;> decide
    obtain ⟨i, -, hi⟩ := key _ hp
    exact ⟨i, hi⟩
  obtain ⟨i, hi, hr⟩ := hpos
  refine ((C96_constructor f fam args kw).2 s h).2.1 p d ?_ ⟨i, some d, hi, Or.inr ⟨Nat.le_trans ha hr, Or.inr ⟨hk, rfl⟩⟩⟩
  rintro rfl
  cases f <;> cases fam <;> simp [Spec.defaults] at hp

/-- The other arguments must be given: a call without one of them is a `TypeError`. -/
theorem C96_required (f : Front) (fam : Family) (args : List Val) (kw : Env) {i : Nat} {p : Par}
    (hi : (Spec.required fam)[i]? = some p) (ha : args.length ≤ i) (hk : p ∉ kw.map Prod.fst) :
    ∀ s, construct f fam args kw ≠ .ok s := by
  intro s h
  obtain ⟨-, -, -, hc⟩ := ((C96_constructor f fam args kw).1).1 ⟨s, h⟩
  have hpar : (params f fam)[i]? = some (p, none) := by
    have key : ∀ i < 4, ∀ p, (Spec.required fam)[i]? = some p → (params f fam)[i]? = some (p, none) := by
      cases f <;> cases fam <;> decide
    refine key i ?_ p hi
    have := (List.getElem?_eq_some_iff.1 hi).1
    have : (Spec.required fam).length ≤ 4 := by cases fam <;> decide
    omega
  rcases hc i p hpar with hlt | hm
  · omega
  · exact hk hm

/-- The frontends can be exchanged: a call without the keyword `name` and with no more positional arguments than
`Spec.positional` is accepted by one frontend exactly when it is accepted by another, and then both store the same values,
except `frontend_name` and a `backend` that was not given.  (For longer argument lists this is false,
`C96_exchange_fails`.) -/
theorem C96_exchange_partial (f g : Front) (fam : Family) (args : List Val) (kw : Env)
    (hpos : args.length ≤ Spec.positional fam) (hname : .name ∉ kw.map Prod.fst) :
    ((∃ s, construct f fam args kw = .ok s) ↔ ∃ s, construct g fam args kw = .ok s) ∧
    ∀ s s', construct f fam args kw = .ok s → construct g fam args kw = .ok s' →
      ∀ p, p ≠ .frontendName → (p = .backend → .backend ∈ kw.map Prod.fst ∨
        ∃ i < args.length, (params f fam)[i]?.map Prod.fst = some Par.backend) → s.lookup p = s'.lookup p := by
  have hf := params_nodup f fam
  have hg := params_nodup g fam
  have hfg := params_agree f g fam
  have hgf := params_agree g f fam
  constructor
  · rw [(C96_constructor f fam args kw).1, (C96_constructor g fam args kw).1]
    exact ⟨hfg.callable hgf hf hg hpos (positional_le g fam) hname,
      hgf.callable hfg hg hf hpos (positional_le f fam) hname⟩
  · intro s s' h h' p hpn hpb
    obtain ⟨e, he, -⟩ := bind_eq_ok.mp h
    obtain ⟨hc, v, rfl, hv⟩ := bind_values hf he
    obtain ⟨e', he', -⟩ := bind_eq_ok.mp h'
    obtain ⟨hc', v', rfl, hv'⟩ := bind_values hg he'
    rw [construct_of_bind he] at h
    rw [construct_of_bind he'] at h'
    cases h
    cases h'
    have hval : ∀ q, q ∈ (params f fam).map Prod.fst → q ≠ .name → (q = .backend → p = .backend) → v q = v' q := by
      intro q hq hqn hqb
      obtain ⟨x, hx, rfl⟩ := List.mem_map.mp hq
      have hr := hfg.reaches hgf hf hg hpos hqn (fun hb => hpb (hqb hb)) (hv x hx)
      obtain ⟨j, d, hj, -⟩ := id hr
      exact reaches_unique hg hc'.2.1 hr (hv' (x.1, d) (List.mem_of_getElem? hj))
    have hval' := hval p
    cases fam <;> cases p <;>
      first
      | exact absurd rfl hpn
      | rfl
      | exact congrArg some (hval' (by cases f <;> decide) (by decide) id)

/-- `n` distinct objects. -/
abbrev exObjects (n : Nat) : List Val := (List.range n).map .obj

/-- Beyond `Spec.positional` the frontends cannot be exchanged: the eleventh argument of joint time-frequency scattering is
`format` in numpy, JAX and torch and `backend` in TensorFlow, and the seventh argument of 2-D scattering is `out_type` and
`name`, respectively. -/
theorem C96_exchange_fails :
    (∃ s s', construct .numpy .jtfs (exObjects 11) [] = .ok s ∧ construct .tensorflow .jtfs (exObjects 11) [] = .ok s' ∧
      s.lookup .format = some (.obj 10) ∧ s'.lookup .format = some (.str "time") ∧
      s'.lookup .backend = some (.obj 10)) ∧
    (∃ s s', construct .numpy .twoD (exObjects 7) [] = .ok s ∧ construct .tensorflow .twoD (exObjects 7) [] = .ok s' ∧
      s.lookup .outType = some (.obj 6) ∧ s'.lookup .outType = some (.str "array")) :=
  ⟨⟨_, _, rfl, rfl, rfl, rfl, rfl⟩, ⟨_, _, rfl, rfl, rfl, rfl⟩⟩

/-- Only the TensorFlow constructors have a parameter `name`. -/
theorem C96_name (f : Front) (fam : Family) (args : List Val) (kw : Env) (hf : f ≠ .tensorflow)
    (h : .name ∈ kw.map Prod.fst) : ∀ s, construct f fam args kw ≠ .ok s := by
  intro s hs
  obtain ⟨-, -, h3, -⟩ := ((C96_constructor f fam args kw).1).mp ⟨s, hs⟩
  obtain ⟨k, hk, hkn⟩ := List.mem_map.mp h
  obtain ⟨i, d, hi, -⟩ := h3 k hk
  have hm : k.1 ∈ (params f fam).map Prod.fst := List.mem_map.mpr ⟨_, List.mem_of_getElem? hi, rfl⟩
  rw [hkn] at hm
  revert hm hf
  cases f <;> cases fam <;> decide

/-- Through the entry classes (`kymatio.Scattering1D(…, frontend=…)`), wherever `frontend` stands among the keywords, the
object stores what the constructor of the frontend stores; `name` and `class_name` are refused, so the `name` of the
TensorFlow constructors cannot be given this way. -/
theorem C96_entry (f : Front) (fam : Family) (args : List Val) (kw kw' : Env) (v : Val)
    (hn : ((kw ++ kw').map Prod.fst).Nodup) (hfr : .frontend ∉ (kw ++ kw').map Prod.fst) :
    (.name ∉ (kw ++ kw').map Prod.fst → .className ∉ (kw ++ kw').map Prod.fst →
      entryConstruct f fam args (kw ++ (.frontend, v) :: kw') = construct f fam args (kw ++ kw')) ∧
    (.name ∈ (kw ++ kw').map Prod.fst ∨ .className ∈ (kw ++ kw').map Prod.fst →
      entryConstruct f fam args (kw ++ (.frontend, v) :: kw') = .error .type) := by
  have hnd : ((kw ++ (Par.frontend, v) :: kw').map Prod.fst).Nodup := by
    rw [List.map_append, List.map_cons]
    rw [List.map_append] at hn hfr
    exact List.nodup_middle.mpr (List.nodup_cons.mpr ⟨hfr, hn⟩)
  have hmem : ∀ p, p ≠ Par.frontend →
      ((∃ k ∈ kw ++ (Par.frontend, v) :: kw', k.1 = p) ↔ p ∈ (kw ++ kw').map Prod.fst) := by
    intro p hp
    constructor
    · rintro ⟨k, hk, rfl⟩
      refine List.mem_map.mpr ⟨k, ?_, rfl⟩
      rw [List.mem_append, List.mem_cons] at hk
      rw [List.mem_append]
      rcases hk with hk | rfl | hk
      · exact Or.inl hk
      · exact absurd rfl hp
      · exact Or.inr hk
    · intro h
      obtain ⟨k, hk, rfl⟩ := List.mem_map.mp h
      refine ⟨k, ?_, rfl⟩
      rw [List.mem_append] at hk
      rw [List.mem_append, List.mem_cons]
      exact hk.imp id Or.inr
  have hfilter : (kw ++ (Par.frontend, v) :: kw').filter (fun k => k.1 ≠ .frontend) = kw ++ kw' := by
    rw [List.filter_append, List.filter_cons]
    simp only [ne_eq, not_true_eq_false, decide_false, Bool.false_eq_true, if_false]
    rw [← List.filter_append]
    refine List.filter_eq_self.mpr fun k hk => ?_
    have : k.1 ≠ Par.frontend := fun he => hfr (List.mem_map.mpr ⟨k, hk, he⟩)
    simpa using this
  constructor
  · intro h1 h2
    unfold entryConstruct
    rw [if_neg (by simpa using hnd), if_neg, hfilter]
    rintro ⟨k, hk, hkn | hkn⟩
    · exact h1 ((hmem _ (by decide)).mp ⟨k, hk, hkn⟩)
    · exact h2 ((hmem _ (by decide)).mp ⟨k, hk, hkn⟩)
  · intro h
    unfold entryConstruct
    rw [if_neg (by simpa using hnd), if_pos]
    rcases h with h | h
    · obtain ⟨k, hk, hkn⟩ := (hmem _ (by decide)).mpr h
      exact ⟨k, hk, Or.inl hkn⟩
    · obtain ⟨k, hk, hkn⟩ := (hmem _ (by decide)).mpr h
      exact ⟨k, hk, Or.inr hkn⟩

/-- `ScatteringKeras2D` hands the string `'array'` to the parameter `backend` of the base class (meant for `out_type`): the
attribute `backend` of every such layer is `'array'`. -/
theorem C96_keras_backend (args : List Val) (kw : Env) (s : Env) (h : constructKeras2D args kw = .ok s) :
    s.lookup .backend = some (.str "array") ∧ s.lookup .outType = some (.str "array") ∧
    s.lookup .shape = some .none := by
  obtain ⟨e, he, h⟩ := bind_eq_ok.mp h
  obtain ⟨-, v, rfl, -⟩ := bind_values (by decide) he
  have h2 : Except.ok [(Par.frontendName, Val.str "keras"), (.prePad, v .prePad), (.L, v .L), (.backend, .str "array"),
    (.J, v .J), (.shape, .none), (.maxOrder, v .maxOrder), (.outType, .str "array")] = (.ok s : Py Env) := h
  cases h2
  exact ⟨rfl, rfl, rfl⟩

/-! ## Concrete cases -/

/-- `Scattering1D(6, 1024, Q=8, backend=b)` with torch. -/
example : construct .torch .oneD [.int 6, .int 1024] [(.Q, .int 8), (.backend, .obj 0)] =
    .ok [(.frontendName, .str "torch"), (.J, .int 6), (.shape, .int 1024), (.Q, .int 8), (.T, .none), (.stride, .none),
      (.maxOrder, .int 2), (.outType, .str "array"), (.backend, .obj 0), (.oversampling, .int 0)] := rfl

example : Spec.Callable (params .torch .oneD) [.int 6, .int 1024] [(.Q, .int 8), (.backend, .obj 0)] :=
  ((C96_constructor _ _ _ _).1).mp ⟨_, rfl⟩

/-- An argument given twice, an unknown keyword, a missing argument: `TypeError`. -/
example : construct .jax .twoD [.int 2, .obj 0, .int 8] [(.L, .int 6)] = .error .type ∧
    construct .numpy .threeD [.int 2, .obj 0] [(.prePad, .bool true)] = .error .type ∧
    construct .numpy .jtfs [.int 8, .int 3] [(.Q, .int 8)] = .error .type := ⟨rfl, rfl, rfl⟩

/-- The same call with numpy and with TensorFlow. -/
example : ∃ s s', construct .numpy .jtfs [.int 8, .int 3, .int 8, .int 1024] [(.format, .str "joint")] = .ok s ∧
    construct .tensorflow .jtfs [.int 8, .int 3, .int 8, .int 1024] [(.format, .str "joint")] = .ok s' ∧
    s.lookup .format = s'.lookup .format := by
  refine ⟨_, _, rfl, rfl, ?_⟩
  exact (C96_exchange_partial .numpy .tensorflow .jtfs [.int 8, .int 3, .int 8, .int 1024] [(.format, .str "joint")]
    (by decide) (by decide)).2 _ _ rfl rfl .format (by decide) (by decide)

example : entryConstruct .tensorflow .oneD [.int 6, .int 1024] [(.Q, .int 8), (.frontend, .str "tensorflow")] =
    construct .tensorflow .oneD [.int 6, .int 1024] [(.Q, .int 8)] :=
  (C96_entry .tensorflow .oneD [.int 6, .int 1024] [(.Q, .int 8)] [] (.str "tensorflow") (by decide) (by decide)).1
    (by decide) (by decide)

example : ∃ s, constructKeras2D [.int 2] [] = .ok s := ⟨_, rfl⟩

/-- `HarmonicScattering3D(2, shape, L=4)` with JAX is rotation covariant. -/
example : ∃ s, construct .jax .threeD [.int 2, .obj 0] [(.L, .int 4)] = .ok s ∧
    s.lookup .rotationCovariant = some (.bool true) := by
  refine ⟨_, rfl, ?_⟩
  exact C96_defaults .jax .threeD [.int 2, .obj 0] [(.L, .int 4)] _ rfl (by decide) (by decide) (by decide)

/-- `C96_bind` for the parameters of `ScatteringBase1D.__init__`: distinct names, and a call with a positional and a keyword
argument. -/
example : ∃ e, bind sigBase1D [.int 6, .int 1024] [(.Q, .int 8)] = .ok e ∧ (.Q, .int 8) ∈ e ∧ (.T, .none) ∈ e := by
  obtain ⟨h1, h2⟩ := C96_bind (ps := sigBase1D) (by decide) [.int 6, .int 1024] [(.Q, .int 8)]
  refine ⟨_, rfl, (h2 _ rfl _ _).2 ⟨2, some (.int 1), rfl, Or.inr ⟨by decide, Or.inl (by decide)⟩⟩,
    (h2 _ rfl _ _).2 ⟨3, some .none, rfl, Or.inr ⟨by decide, Or.inr ⟨by decide, rfl⟩⟩⟩⟩

/-- `Scattering1D(J=6)` without `shape`. -/
example : ∀ s, construct .torch .oneD [] [(.J, .int 6)] ≠ .ok s :=
  C96_required .torch .oneD [] [(.J, .int 6)] (i := 1) (p := .shape) rfl (by decide) (by decide)

/-- `Scattering1D(6, 1024, name='S')` with numpy; TensorFlow accepts it. -/
example : (∀ s, construct .numpy .oneD [.int 6, .int 1024] [(.name, .str "S")] ≠ .ok s) ∧
    ∃ s, construct .tensorflow .oneD [.int 6, .int 1024] [(.name, .str "S")] = .ok s :=
  ⟨C96_name _ _ _ _ (by decide) (by decide), _, rfl⟩

end Verif
