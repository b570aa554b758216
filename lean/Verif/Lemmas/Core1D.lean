import Verif.Lemmas.Py
import Verif.Model.Core1D

/-!
# What the 1-D core yields

A characterisation of the list of paths produced by a run that does not raise.
-/

namespace Verif

namespace Core1D

variable (B : Backend1D)

theorem forEnum_eq_ok {α β : Type} {f : α → Nat → Py (List β)} {l : List α} {n : Nat}
    {out : List β} :
    forEnum f l n = .ok out ↔
      ∃ xs, List.Forall₂ (fun p x => f p.1 p.2 = .ok x) (l.zipIdx n) xs ∧ out = xs.flatten := by
  induction l generalizing n out with
  | nil =>
    simp only [forEnum, List.zipIdx_nil]
    constructor
    · intro h
      injection h with h
      exact ⟨[], List.Forall₂.nil, by simp [h]⟩
    · rintro ⟨xs, h, rfl⟩
      cases h
      rfl
  | cons a l ih =>
    rw [forEnum, bind_eq_ok, List.zipIdx_cons]
    constructor
    · rintro ⟨x, hx, h⟩
      obtain ⟨y, hy, h⟩ := bind_eq_ok.1 h
      injection h with h
      obtain ⟨xs, hxs, rfl⟩ := ih.1 hy
      exact ⟨x :: xs, List.Forall₂.cons hx hxs, by simp [← h]⟩
    · rintro ⟨xs, h, rfl⟩
      cases h with
      | cons hx hxs =>
        exact ⟨_, hx, bind_eq_ok.2 ⟨_, ih.2 ⟨_, hxs, rfl⟩, by simp⟩⟩

theorem forEnum_mem {α β : Type} {f : α → Nat → Py (List β)} {l : List α}
    {out : List β} (h : forEnum f l 0 = .ok out) (p : β) :
    p ∈ out ↔ ∃ i a x, l[i]? = some a ∧ f a i = .ok x ∧ p ∈ x := by
  obtain ⟨xs, hxs, rfl⟩ := forEnum_eq_ok.1 h
  constructor
  · intro hp
    obtain ⟨x, hx, hpx⟩ := List.mem_flatten.1 hp
    obtain ⟨a, ha, hax⟩ := forall₂_mem_right hxs hx
    have := List.mem_zipIdx_iff_getElem?.1 ha
    exact ⟨a.2, a.1, x, this, hax, hpx⟩
  · rintro ⟨i, a, x, hl, hfx, hp⟩
    have : (a, i) ∈ l.zipIdx 0 := List.mem_zipIdx_iff_getElem?.2 hl
    obtain ⟨x', hx', hfx'⟩ := forall₂_mem_left hxs this
    simp only at hfx'
    rw [hfx] at hfx'
    cases hfx'
    exact List.mem_flatten.2 ⟨x, hx', hp⟩

theorem forEnum_ok {α β : Type} {f : α → Nat → Py (List β)} {l : List α} {n : Nat}
    (h : ∀ i a, l[i]? = some a → ∃ x, f a (n + i) = .ok x) : ∃ out, forEnum f l n = .ok out := by
  induction l generalizing n with
  | nil => exact ⟨[], rfl⟩
  | cons a l ih =>
    obtain ⟨x, hx⟩ := h 0 a (by simp)
    obtain ⟨y, hy⟩ := ih (n := n + 1) fun i b hb => by
      obtain ⟨z, hz⟩ := h (i + 1) b (by simpa using hb)
      exact ⟨z, by rw [← hz]; congr 1; omega⟩
    exact ⟨x ++ y, bind_eq_ok.2 ⟨x, hx, bind_eq_ok.2 ⟨y, hy, rfl⟩⟩⟩

theorem forEnum_all_ok {α β : Type} {f : α → Nat → Py (List β)} {l : List α}
    {out : List β} (h : forEnum f l 0 = .ok out) {i : Nat} {a : α} (ha : l[i]? = some a) :
    ∃ x, f a i = .ok x := by
  obtain ⟨xs, hxs, rfl⟩ := forEnum_eq_ok.1 h
  have : (a, i) ∈ l.zipIdx 0 := List.mem_zipIdx_iff_getElem?.2 ha
  obtain ⟨x', -, hfx'⟩ := forall₂_mem_left hxs this
  exact ⟨x', hfx'⟩

/-- `secondOrder` on a pair that is skipped. -/
theorem secondOrder_skip {phi : Filt B.F} {ls : Nat} {avg : Bool} {j1 n1 k1 : Nat} {U1hat : B.C}
    {psi : Filt B.F} {n2 : Nat} (h : ¬ psi.j > j1) :
    secondOrder B phi ls avg j1 n1 k1 U1hat psi n2 = .ok [] := by
  unfold secondOrder
  simp [h]

/-- The modulus `U2` and coefficient of a second-order path. -/
def IsSecond (phi : Filt B.F) (ls : Nat) (avg : Bool) (k1 : Nat) (U1hat : B.C) (psi : Filt B.F)
    (c : B.R) : Prop :=
  ∃ U2m, bandpass B psi U1hat k1 ((if avg then min psi.j ls else psi.j) - k1) = .ok U2m ∧
    (avg = true → ∃ U2hat, B.rfft U2m = .ok U2hat ∧
      lowpass B phi U2hat (k1 + (min psi.j ls - k1)) (ls - min psi.j ls) = .ok c) ∧
    (avg = false → c = U2m)

theorem secondOrder_eq_ok {phi : Filt B.F} {ls : Nat} {avg : Bool} {j1 n1 k1 : Nat} {U1hat : B.C}
    {psi : Filt B.F} {n2 : Nat} (h : psi.j > j1) {out : List (Path B.R)} :
    secondOrder B phi ls avg j1 n1 k1 U1hat psi n2 = .ok out ↔
      ∃ c, out = [⟨c, [j1, psi.j], [n1, n2]⟩] ∧ IsSecond B phi ls avg k1 U1hat psi c := by
  unfold secondOrder IsSecond
  simp only [h, if_true]
  rw [bind_eq_ok]
  cases avg with
  | true =>
    simp only [if_true, Bool.true_eq_false, false_imp_iff, and_true, true_imp_iff]
    constructor
    · rintro ⟨u, hu, h⟩
      obtain ⟨uh, huh, h⟩ := bind_eq_ok.1 h
      obtain ⟨s, hs, h⟩ := bind_eq_ok.1 h
      injection h with h
      exact ⟨s, h.symm, u, hu, uh, huh, hs⟩
    · rintro ⟨c, rfl, u, hu, uh, huh, hs⟩
      exact ⟨u, hu, bind_eq_ok.2 ⟨uh, huh, bind_eq_ok.2 ⟨c, hs, rfl⟩⟩⟩
  | false =>
    simp only [Bool.false_eq_true, if_false, false_imp_iff, true_and, true_imp_iff]
    constructor
    · rintro ⟨u, hu, h⟩
      injection h with h
      exact ⟨u, h.symm, u, hu, rfl⟩
    · rintro ⟨c, rfl, u, hu, rfl⟩
      exact ⟨c, hu, rfl⟩

/-- The first-order path. -/
def IsFirst (phi : Filt B.F) (ls : Nat) (avg : Bool) (k1 : Nat) (U1m c : B.R) : Prop :=
  (avg = true → ∃ U1hat, B.rfft U1m = .ok U1hat ∧ lowpass B phi U1hat k1 (ls - k1) = .ok c) ∧
  (avg = false → c = U1m)

/-- Outcome of one iteration of the outer loop. -/
theorem firstOrder_eq_ok {phi : Filt B.F} {psis : List (List (Filt B.F))} {ls : Nat} {avg : Bool}
    {U0hat : B.C} {psi : Filt B.F} {n1 : Nat} {out : List (Path B.R)}
    (h : firstOrder B phi psis ls avg U0hat psi n1 = .ok out) :
    ∃ U1m c rest, bandpass B psi U0hat 0 (if avg then min psi.j ls else psi.j) = .ok U1m ∧
      IsFirst B phi ls avg (if avg then min psi.j ls else psi.j) U1m c ∧
      out = ⟨c, [psi.j], [n1]⟩ :: rest ∧
      (psis[1]? = none → rest = []) ∧
      (∀ psi2, psis[1]? = some psi2 → ∃ U1hat, B.rfft U1m = .ok U1hat ∧
        forEnum (secondOrder B phi ls avg psi.j n1 (if avg then min psi.j ls else psi.j) U1hat)
          psi2 0 = .ok rest) := by
  unfold firstOrder at h
  obtain ⟨u, hu, h⟩ := bind_eq_ok.1 h
  have fp : ∀ uh p, B.rfft u = .ok uh →
      firstPath B phi ls avg psi.j n1 (if avg then min psi.j ls else psi.j) u uh = .ok p →
      ∃ c, IsFirst B phi ls avg (if avg then min psi.j ls else psi.j) u c ∧
        p = ⟨c, [psi.j], [n1]⟩ := by
    intro uh p huh hp
    unfold firstPath at hp
    unfold IsFirst
    cases avg with
    | true =>
      simp only [if_true] at hp ⊢
      obtain ⟨s, hs, hp⟩ := bind_eq_ok.1 hp
      injection hp with hp
      exact ⟨s, ⟨fun _ => ⟨uh, huh, hs⟩, fun h => by cases h⟩, hp.symm⟩
    | false =>
      simp only [Bool.false_eq_true, if_false] at hp ⊢
      injection hp with hp
      exact ⟨u, ⟨fun h => h.elim, fun _ => rfl⟩, hp.symm⟩
  cases hpsi2 : psis[1]? with
  | none =>
    rw [hpsi2] at h
    cases avg with
    | true =>
      obtain ⟨uh, huh, h⟩ := bind_eq_ok.1 h
      obtain ⟨p, hp, h⟩ := bind_eq_ok.1 h
      obtain ⟨c, hc, rfl⟩ := fp uh p huh hp
      injection h with h
      exact ⟨u, c, [], hu, hc, h.symm, fun _ => rfl, fun _ h => by cases h⟩
    | false =>
      injection h with h
      exact ⟨u, u, [], hu, ⟨(fun h => by cases h), fun _ => rfl⟩, h.symm, fun _ => rfl,
        fun _ h => by cases h⟩
  | some psi2 =>
    rw [hpsi2] at h
    have h' : ∃ uh, B.rfft u = .ok uh ∧ ∃ p, firstPath B phi ls avg psi.j n1
        (if avg then min psi.j ls else psi.j) u uh = .ok p ∧ ∃ rest,
        forEnum (secondOrder B phi ls avg psi.j n1 (if avg then min psi.j ls else psi.j) uh)
          psi2 0 = .ok rest ∧ out = p :: rest := by
      cases avg <;>
      · obtain ⟨uh, huh, h⟩ := bind_eq_ok.1 h
        obtain ⟨p, hp, h⟩ := bind_eq_ok.1 h
        obtain ⟨r, hr, h⟩ := bind_eq_ok.1 h
        injection h with h
        exact ⟨uh, huh, p, hp, r, hr, h.symm⟩
    obtain ⟨uh, huh, p, hp, r, hr, rfl⟩ := h'
    obtain ⟨c, hc, rfl⟩ := fp uh p huh hp
    exact ⟨u, c, r, hu, hc, rfl, (fun h => by cases h), fun q hq => by cases hq; exact ⟨uh, huh, hr⟩⟩

/-- What it means for a path to be a correct output of the core. -/
inductive IsPath (U0 : B.R) (phi : Filt B.F) (psis : List (List (Filt B.F))) (ls : Nat)
    (avg : Bool) : Path B.R → Prop
  | zero (U0hat : B.C) (c : B.R) (h0 : B.rfft U0 = .ok U0hat)
      (hc : zeroth B phi ls avg U0 U0hat = .ok c) : IsPath U0 phi psis ls avg ⟨c, [], []⟩
  | one (U0hat : B.C) (U1m c : B.R) (psi1 : List (Filt B.F)) (n1 : Nat) (psi : Filt B.F)
      (h0 : B.rfft U0 = .ok U0hat) (hp1 : psis[0]? = some psi1) (hn1 : psi1[n1]? = some psi)
      (hU : bandpass B psi U0hat 0 (if avg then min psi.j ls else psi.j) = .ok U1m)
      (hc : IsFirst B phi ls avg (if avg then min psi.j ls else psi.j) U1m c) :
      IsPath U0 phi psis ls avg ⟨c, [psi.j], [n1]⟩
  | two (U0hat : B.C) (U1m : B.R) (U1hat : B.C) (c : B.R) (psi1 psi2 : List (Filt B.F))
      (n1 n2 : Nat) (psi psi' : Filt B.F)
      (h0 : B.rfft U0 = .ok U0hat) (hp1 : psis[0]? = some psi1) (hn1 : psi1[n1]? = some psi)
      (hp2 : psis[1]? = some psi2) (hn2 : psi2[n2]? = some psi') (hj : psi.j < psi'.j)
      (hU : bandpass B psi U0hat 0 (if avg then min psi.j ls else psi.j) = .ok U1m)
      (hUh : B.rfft U1m = .ok U1hat)
      (hc : IsSecond B phi ls avg (if avg then min psi.j ls else psi.j) U1hat psi' c) :
      IsPath U0 phi psis ls avg ⟨c, [psi.j, psi'.j], [n1, n2]⟩

/-- Decomposition of a run that returns. -/
theorem scattering1d_eq_ok {U0 : B.R} {phi : Filt B.F} {psis : List (List (Filt B.F))} {ls : Nat}
    {avg : Bool} {out : List (Path B.R)} (h : scattering1d B U0 phi psis ls avg = .ok out) :
    ∃ U0hat c psi1 rest, B.rfft U0 = .ok U0hat ∧ zeroth B phi ls avg U0 U0hat = .ok c ∧
      psis[0]? = some psi1 ∧ forEnum (firstOrder B phi psis ls avg U0hat) psi1 0 = .ok rest ∧
      out = ⟨c, [], []⟩ :: rest := by
  unfold scattering1d at h
  obtain ⟨uh, huh, h⟩ := bind_eq_ok.1 h
  obtain ⟨c, hc, h⟩ := bind_eq_ok.1 h
  obtain ⟨p1, hp1, h⟩ := bind_eq_ok.1 h
  obtain ⟨r, hr, h⟩ := bind_eq_ok.1 h
  injection h with h
  exact ⟨uh, c, p1, r, huh, hc, listGet_eq_ok.1 hp1, hr, h.symm⟩

theorem mem_scattering1d {U0 : B.R} {phi : Filt B.F} {psis : List (List (Filt B.F))} {ls : Nat}
    {avg : Bool} {out : List (Path B.R)} (h : scattering1d B U0 phi psis ls avg = .ok out)
    {p : Path B.R} (hp : p ∈ out) : IsPath B U0 phi psis ls avg p := by
  obtain ⟨uh, c, p1, r, huh, hc, hp1, hr, rfl⟩ := scattering1d_eq_ok B h
  rcases List.mem_cons.1 hp with rfl | hp
  · exact .zero uh c huh hc
  · obtain ⟨n1, psi, x, hn1, hx, hpx⟩ := (forEnum_mem hr p).1 hp
    obtain ⟨u, c1, rest, hu, hc1, rfl, hnone, hsome⟩ := firstOrder_eq_ok B hx
    rcases List.mem_cons.1 hpx with rfl | hpr
    · exact .one uh u c1 p1 n1 psi huh hp1 hn1 hu hc1
    · cases hp2 : psis[1]? with
      | none => rw [hnone hp2] at hpr; cases hpr
      | some p2 =>
        obtain ⟨u1h, hu1h, hrest⟩ := hsome p2 hp2
        obtain ⟨n2, psi', y, hn2, hy, hpy⟩ := (forEnum_mem hrest p).1 hpr
        by_cases hj : psi'.j > psi.j
        · obtain ⟨c2, rfl, hc2⟩ := (secondOrder_eq_ok B hj).1 hy
          rw [List.mem_singleton] at hpy
          subst hpy
          exact .two uh u u1h c2 p1 p2 n1 n2 psi psi' huh hp1 hn1 hp2 hn2 hj hu hu1h hc2
        · rw [secondOrder_skip B hj] at hy
          cases hy
          cases hpy

end Core1D

end Verif
