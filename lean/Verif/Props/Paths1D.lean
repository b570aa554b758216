import Verif.Lemmas.Labels1D

/-!
# C14: the paths of 1-D scattering
-/

namespace Verif

open Core1D

/-- The paths yielded are: the empty one, one per first-order filter, one per pair of filters
with `j1 < j2`; with the scales of those filters; and no path occurs twice.  For every backend,
every filter bank, with or without averaging. -/
theorem C14_paths (B : Backend1D) (U0 : B.R) (phi : Filt B.F) (psi1 psi2 : List (Filt B.F))
    (ls : Nat) (avg : Bool) (out : List (Path B.R))
    (h : scattering1d B U0 phi [psi1, psi2] ls avg = .ok out) :
    (∀ n j : List Nat, (∃ p ∈ out, p.n = n ∧ p.j = j) ↔
      (n = [] ∧ j = []) ∨
      (∃ n1, ∃ h1 : n1 < psi1.length, n = [n1] ∧ j = [psi1[n1].j]) ∨
      (∃ n1 n2, ∃ h1 : n1 < psi1.length, ∃ h2 : n2 < psi2.length,
        psi1[n1].j < psi2[n2].j ∧ n = [n1, n2] ∧ j = [psi1[n1].j, psi2[n2].j])) ∧
    (out.map (fun p => p.n)).Nodup := by
  have hl := labels_eq B h
  constructor
  · intro n j
    have h1 : (∃ p ∈ out, p.n = n ∧ p.j = j) ↔ (j, n) ∈ labels B [psi1, psi2] := by
      rw [← hl, List.mem_map]
      constructor
      · rintro ⟨p, hp, rfl, rfl⟩; exact ⟨p, hp, rfl⟩
      · rintro ⟨p, hp, he⟩
        injection he with h1 h2
        exact ⟨p, hp, h2, h1⟩
    rw [h1, mem_labels]
    simp only [List.getElem?_cons_zero, Option.getD_some, List.getElem?_cons_succ,
      Prod.mk.injEq]
    constructor
    · rintro (⟨rfl, rfl⟩ | ⟨n1, f, hf, rfl, rfl⟩ | ⟨n1, n2, f, g, hf, hg, hj, rfl, rfl⟩)
      · left; exact ⟨rfl, rfl⟩
      · right; left
        obtain ⟨hlt, rfl⟩ := List.getElem?_eq_some_iff.1 hf
        exact ⟨n1, hlt, rfl, rfl⟩
      · right; right
        obtain ⟨hlt, rfl⟩ := List.getElem?_eq_some_iff.1 hf
        obtain ⟨hlt', rfl⟩ := List.getElem?_eq_some_iff.1 hg
        exact ⟨n1, n2, hlt, hlt', hj, rfl, rfl⟩
    · rintro (⟨rfl, rfl⟩ | ⟨n1, hlt, rfl, rfl⟩ | ⟨n1, n2, hlt, hlt', hj, rfl, rfl⟩)
      · left; exact ⟨rfl, rfl⟩
      · right; left
        exact ⟨n1, psi1[n1], List.getElem?_eq_getElem hlt, rfl, rfl⟩
      · right; right
        exact ⟨n1, n2, psi1[n1], psi2[n2], List.getElem?_eq_getElem hlt,
          List.getElem?_eq_getElem hlt', hj, rfl, rfl⟩
  · have := labels_nodup B [psi1, psi2]
    rw [← hl, List.map_map] at this
    exact this

theorem forEnum_filter {α β : Type} {f g : α → Nat → Py (List β)} {P : β → Bool}
    (hfg : ∀ a i x, f a i = .ok x → g a i = .ok (x.filter P)) {l : List α} {n : Nat}
    {out : List β} (h : forEnum f l n = .ok out) : forEnum g l n = .ok (out.filter P) := by
  induction l generalizing n out with
  | nil =>
    simp only [forEnum] at h ⊢
    injection h with h
    simp [← h]
  | cons a l ih =>
    rw [forEnum] at h ⊢
    obtain ⟨x, hx, h⟩ := bind_eq_ok.1 h
    obtain ⟨y, hy, h⟩ := bind_eq_ok.1 h
    injection h with h
    rw [hfg a n x hx]
    refine bind_eq_ok.2 ⟨_, rfl, bind_eq_ok.2 ⟨_, ih hy, ?_⟩⟩
    rw [← h, List.filter_append]

/-- With `max_order = 1` (only the first wavelet layer is passed on) the output is what the
`max_order = 2` output becomes after dropping the second-order paths. -/
theorem C14_max_order_one (B : Backend1D) (U0 : B.R) (phi : Filt B.F) (psi1 psi2 : List (Filt B.F))
    (ls : Nat) (avg : Bool) (out : List (Path B.R))
    (h : scattering1d B U0 phi [psi1, psi2] ls avg = .ok out) :
    scattering1d B U0 phi [psi1] ls avg = .ok (out.filter fun p => decide (p.n.length ≤ 1)) := by
  obtain ⟨uh, c, p1, r, huh, hc, hp1, hr, rfl⟩ := scattering1d_eq_ok B h
  simp only [List.getElem?_cons_zero, Option.some.injEq] at hp1
  subst hp1
  have hf : forEnum (firstOrder B phi [psi1] ls avg uh) psi1 0 =
      .ok (r.filter fun p => decide (p.n.length ≤ 1)) := by
    refine forEnum_filter ?_ hr
    intro psi n1 x hx
    obtain ⟨u, c1, rest, hu, hc1, rfl, -, hsome⟩ := firstOrder_eq_ok B hx
    obtain ⟨u1h, hu1h, hrest⟩ := hsome psi2 rfl
    have hrest2 : rest.filter (fun p => decide (p.n.length ≤ 1)) = [] := by
      rw [List.filter_eq_nil_iff]
      intro p hp
      obtain ⟨n2, psi', y, hn2, hy, hpy⟩ := (forEnum_mem hrest p).1 hp
      by_cases hj : psi'.j > psi.j
      · obtain ⟨c2, rfl, hc2⟩ := (secondOrder_eq_ok B hj).1 hy
        rw [List.mem_singleton] at hpy
        simp [hpy]
      · rw [secondOrder_skip B hj] at hy
        cases hy; cases hpy
    rw [List.filter_cons_of_pos (by simp), hrest2]
    unfold firstOrder
    refine bind_eq_ok.2 ⟨u, hu, ?_⟩
    cases avg with
    | false =>
      simp only [List.getElem?_cons_succ, List.getElem?_nil]
      rw [hc1.2 rfl]
    | true =>
      simp only [List.getElem?_cons_succ, List.getElem?_nil]
      obtain ⟨u1h', hu1', hs⟩ := hc1.1 rfl
      refine bind_eq_ok.2 ⟨u1h', hu1', bind_eq_ok.2 ⟨_, ?_, rfl⟩⟩
      unfold firstPath
      simp only [if_true] at hs ⊢
      rw [hs]; rfl
  rw [List.filter_cons_of_pos (by simp)]
  unfold scattering1d
  exact bind_eq_ok.2 ⟨uh, huh, bind_eq_ok.2 ⟨c, hc, bind_eq_ok.2 ⟨psi1, rfl,
    bind_eq_ok.2 ⟨_, hf, rfl⟩⟩⟩⟩

/-- A backend on which everything succeeds, to exhibit a run. -/
def unitBackend : Backend1D :=
  ⟨Unit, Unit, Unit, fun _ => .ok (), fun _ => .ok (), fun _ => .ok (), fun _ => .ok (),
    fun _ _ => .ok (), fun _ _ => .ok ()⟩

-- two first-order and two second-order filters, of which two pairs have `j1 < j2`
example : ∃ out, scattering1d unitBackend () ⟨[(), ()], 1⟩
    [[⟨[()], 0⟩, ⟨[()], 1⟩], [⟨[(), ()], 1⟩, ⟨[(), ()], 2⟩]] 1 true = .ok out ∧
    out.map (fun p => p.n) = [[], [0], [0, 0], [0, 1], [1], [1, 1]] := ⟨_, rfl, rfl⟩

end Verif
