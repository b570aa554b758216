import Verif.Props.Filters1D
import Verif.Props.Paths1D
import Verif.Props.OrderArg
import Verif.Props.Frontend1D

/-!
# C14 for constructed objects

`C14_paths` speaks about any filter banks given to the core.  Here the banks are those of the constructor, described by
`Spec.IsBank` (C87), and the paths are those of the list that `scattering` returns.
-/

namespace Verif

namespace Spec

/-- The scale of a wavelet of centre `w.1` and bandwidth `w.2`: the largest `j` such that the band ending at
`|w.1| + 5 w.2` stays below `2^-(j+1)`, that is, below the Nyquist frequency after subsampling by `2^j`; 0 if there is
none. -/
noncomputable def scale (w : ℝ × ℝ) : ℕ := sSup {j : ℕ | |w.1| + 5 * w.2 ≤ 1 / 2 ^ (j + 1)}

end Spec

theorem scale_eq {w : ℝ × ℝ} (hb : 0 < |w.1| + 5 * w.2) :
    (getMaxDyadicSubsampling w.1 w.2 5).toNat = Spec.scale w := by
  obtain ⟨h0, h1, h2, h3⟩ := C26_max_dyadic_subsampling w.1 w.2 5 hb
  have e : ∀ j : ℕ, (2 : ℝ) ^ (-((j : ℤ) + 1)) = 1 / 2 ^ (j + 1) := by
    intro j
    rw [zpow_neg, one_div]
    norm_cast
  unfold Spec.scale
  rcases le_or_gt (|w.1| + 5 * w.2) (1 / 2) with h | h
  · symm
    apply IsGreatest.csSup_eq
    constructor
    · have := h1 h
      rw [← Int.toNat_of_nonneg h0, e] at this
      exact this
    · intro j hj
      by_contra hc
      have := h2 j (by omega)
      rw [e] at this
      exact absurd hj (not_le.2 this)
  · rw [h3 h]
    have : {j : ℕ | |w.1| + 5 * w.2 ≤ 1 / 2 ^ (j + 1)} = ∅ := by
      ext j
      simp only [Set.mem_ofPred_eq, Set.mem_empty_iff_false, iff_false, not_le]
      refine lt_of_le_of_lt ?_ h
      rw [one_div_le_one_div (by positivity) (by norm_num)]
      calc (2 : ℝ) = 2 ^ 1 := by norm_num
        _ ≤ 2 ^ (j + 1) := pow_le_pow_right₀ (by norm_num) (by omega)
    rw [this]
    simp

open Front1D in
/-- The paths of a constructed object before they are sorted, by label. -/
theorem run_labels {a : Args1D} {s : Sc1D} (hmake : a.make = .ok s) {x : List ℝ} {l : List (Path (List ℝ))}
    (hl : a.run x = .ok (.list l)) :
    (l.map fun p => (p.j, p.n)).Perm (Core1D.labels npBackend (psis (a.obj s))) ∧
      ∃ f rest, psis (a.obj s) = f :: rest := by
  obtain ⟨s', hs', hrun⟩ := bind_eq_ok.1 hl
  rw [hmake] at hs'
  cases hs'
  obtain ⟨-, m, hm, ha⟩ := scattering_eq_ok.1 hrun
  obtain ⟨U, ls, out, -, -, hcore, hpost⟩ := paths_eq_ok.1 hm
  have e : m.map (fun p => (p.j, p.n)) = out.map fun p => (p.j, p.n) := by
    clear hcore hm ha
    induction hpost with
    | nil => rfl
    | cons h _ ih =>
      obtain ⟨e1, e2⟩ := post_labels h
      rw [List.map_cons, List.map_cons, ih, e1, e2]
  have hperm : l.Perm m := by
    unfold assemble at ha
    split at ha
    · cases ha
    · have := (Out1D.list.inj (Except.ok.inj ha)).symm
      rw [this]
      exact List.mergeSort_perm _ _
    · obtain ⟨_, _, h⟩ := bind_eq_ok.1 ha
      cases h
  constructor
  · rw [← Core1D.labels_eq npBackend hcore, ← e]
    exact hperm.map _
  · obtain ⟨_, _, psi1, _, -, -, hp, -, -⟩ := Core1D.scattering1d_eq_ok _ hcore
    cases hps : psis (a.obj s) with
    | nil => rw [hps] at hp; cases hp
    | cons f rest => exact ⟨f, rest, rfl⟩

/-- The filters of a bank and their scales, by index. -/
theorem scales_of {N : ℕ} {pj lT : ℤ} {W : List (ℝ × ℝ)} {psi : List FiltX}
    (h : List.Forall₂ (fun p f => makePsi false N 5 pj lT p = .ok f) W psi) (hp : ∀ w ∈ W, 0 < w.1 ∧ 0 < w.2) :
    (psi.map FiltX.toFilt).map Filt.j = W.map Spec.scale := by
  induction h with
  | nil => rfl
  | @cons w f W psi hf _ ih =>
    rw [List.map_cons, List.map_cons, List.map_cons, ih fun w' hw' => hp w' (List.mem_cons_of_mem _ hw')]
    congr 1
    obtain ⟨h1, h2⟩ := hp w List.mem_cons_self
    rw [← scale_eq (by positivity), ← (makePsi_fields hf).2.2.1]
    rfl

theorem get_scale {F : Type} {l : List (Filt F)} {W : List (ℝ × ℝ)} (h : l.map Filt.j = W.map Spec.scale) {n j : ℕ} :
    (∃ f, l[n]? = some f ∧ f.j = j) ↔ ∃ w, W[n]? = some w ∧ Spec.scale w = j := by
  have h1 : (l.map Filt.j)[n]? = (W.map Spec.scale)[n]? := by rw [h]
  rw [List.getElem?_map, List.getElem?_map] at h1
  cases hl : l[n]? <;> cases hW : W[n]? <;> rw [hl, hW] at h1 <;> simp_all

/-- **C14 (constructed objects).** `W1` and `W2` are the parameters of the wavelets for `Q1` and `Q2`.  The paths of the
output are the empty one, one per wavelet of `W1`, and (if `max_order ≥ 2`) one per pair of increasing scale; each occurs
once, in order of length and then lexicographically. -/
theorem C14_object (a : Args1D) (s : Sc1D) (hmake : a.make = .ok s) (Q1 Q2 : ℕ) (hQ : parseQ a.Q = .ok (Q1, Q2))
    (W1 W2 : List (ℝ × ℝ)) (hW1 : Spec.IsBank a.J Q1 W1) (hW2 : Spec.IsBank a.J Q2 W2) (x : List ℝ)
    (l : List (Path (List ℝ))) (hl : a.run x = .ok (.list l)) :
    (∀ n j : List Nat, (∃ p ∈ l, p.n = n ∧ p.j = j) ↔
      (n = [] ∧ j = []) ∨
      (∃ n1 w1, W1[n1]? = some w1 ∧ n = [n1] ∧ j = [Spec.scale w1]) ∨
      (2 ≤ a.maxOrder ∧ ∃ n1 n2 w1 w2, W1[n1]? = some w1 ∧ W2[n2]? = some w2 ∧ Spec.scale w1 < Spec.scale w2 ∧
        n = [n1, n2] ∧ j = [Spec.scale w1, Spec.scale w2])) ∧
    ((l.map fun p => p.n).Pairwise fun a b => a.length < b.length ∨ (a.length = b.length ∧ a < b)) := by
  obtain ⟨t, Q1', Q2', lT, M1, M2, h1, h2, -, -, hQ', -, f1, f2, -⟩ := make_filters hmake
  rw [hQ] at hQ'
  have hq := Prod.mk.inj (Except.ok.inj hQ')
  have e1 : Q1' = Q1 := by exact_mod_cast hq.1.symm
  have e2 : Q2' = Q2 := by exact_mod_cast hq.2.symm
  subst e1 e2
  rw [← C87_bank_unique a.J _ h1 _ _ hW1 (C87_bank a.J _ h1)] at f1
  rw [← C87_bank_unique a.J _ h2 _ _ hW2 (C87_bank a.J _ h2)] at f2
  have b1 : ∀ w ∈ W1, 0 < w.1 ∧ 0 < w.2 := by
    intro w hw
    rw [C87_bank_unique a.J _ h1 _ _ hW1 (C87_bank a.J _ h1)] at hw
    obtain ⟨h, -, h'⟩ := anden_pos h1 hw
    exact ⟨h, lt_of_lt_of_le (by positivity) h'⟩
  have b2 : ∀ w ∈ W2, 0 < w.1 ∧ 0 < w.2 := by
    intro w hw
    rw [C87_bank_unique a.J _ h2 _ _ hW2 (C87_bank a.J _ h2)] at hw
    obtain ⟨h, -, h'⟩ := anden_pos h2 hw
    exact ⟨h, lt_of_lt_of_le (by positivity) h'⟩
  have g1 : ((a.obj s).psi1).map Filt.j = W1.map Spec.scale := scales_of f1 b1
  have g2 : ((a.obj s).psi2).map Filt.j = W2.map Spec.scale := scales_of f2 b2
  constructor
  · intro n j
    obtain ⟨hperm, f, rest, hne⟩ := run_labels hmake hl
    have hmem : (∃ p ∈ l, p.n = n ∧ p.j = j) ↔ (j, n) ∈ Core1D.labels npBackend (Front1D.psis (a.obj s)) := by
      rw [← hperm.mem_iff, List.mem_map]
      constructor
      · rintro ⟨p, hp, rfl, rfl⟩; exact ⟨p, hp, rfl⟩
      · rintro ⟨p, hp, he⟩
        exact ⟨p, hp, (Prod.mk.inj he).2, (Prod.mk.inj he).1⟩
    have p0 : (Front1D.psis (a.obj s))[0]?.getD [] = (a.obj s).psi1 := by
      rw [Front1D.psis_eq] at hne ⊢
      cases hk : Front1D.nBanks (a.obj s).maxOrder with
      | zero => rw [hk] at hne; cases hne
      | succ k => rfl
    have p1 : (Front1D.psis (a.obj s))[1]?.getD [] = if 2 ≤ a.maxOrder then (a.obj s).psi2 else [] := by
      by_cases h2 : 2 ≤ a.maxOrder
      · rw [if_pos h2, psis_two _ h2]; rfl
      · rw [if_neg h2, Front1D.psis_eq]
        have : Front1D.nBanks (a.obj s).maxOrder ≤ 1 := by
          show Front1D.nBanks a.maxOrder ≤ 1
          unfold Front1D.nBanks
          split
          · omega
          · split <;> omega
        rw [List.getElem?_eq_none (by rw [List.length_take]; omega)]
        rfl
    rw [hmem, Core1D.mem_labels, p0, p1]
    constructor
    · rintro (h | ⟨n1, f, hf, h⟩ | ⟨n1, n2, f, g, hf, hg, hj, h⟩)
      · exact Or.inl ⟨(Prod.mk.inj h).2, (Prod.mk.inj h).1⟩
      · obtain ⟨w, hw, e⟩ := (get_scale g1).1 ⟨f, hf, rfl⟩
        refine Or.inr (Or.inl ⟨n1, w, hw, (Prod.mk.inj h).2, ?_⟩)
        rw [e]; exact (Prod.mk.inj h).1
      · by_cases h2 : 2 ≤ a.maxOrder
        · rw [if_pos h2] at hg
          obtain ⟨w, hw, e⟩ := (get_scale g1).1 ⟨f, hf, rfl⟩
          obtain ⟨w', hw', e'⟩ := (get_scale g2).1 ⟨g, hg, rfl⟩
          refine Or.inr (Or.inr ⟨h2, n1, n2, w, w', hw, hw', ?_, (Prod.mk.inj h).2, ?_⟩)
          · rw [e, e']; exact hj
          · rw [e, e']; exact (Prod.mk.inj h).1
        · rw [if_neg h2] at hg
          cases hg
    · rintro (⟨rfl, rfl⟩ | ⟨n1, w, hw, rfl, rfl⟩ | ⟨h2, n1, n2, w, w', hw, hw', hj, rfl, rfl⟩)
      · exact Or.inl rfl
      · obtain ⟨f, hf, e⟩ := (get_scale g1).2 ⟨w, hw, rfl⟩
        exact Or.inr (Or.inl ⟨n1, f, hf, by rw [e]⟩)
      · obtain ⟨f, hf, e⟩ := (get_scale g1).2 ⟨w, hw, rfl⟩
        obtain ⟨g, hg, e'⟩ := (get_scale g2).2 ⟨w', hw', rfl⟩
        rw [if_pos h2]
        exact Or.inr (Or.inr ⟨n1, n2, f, g, hf, hg, by omega, by rw [e, e']⟩)
  · obtain ⟨s', hs', hrun⟩ := bind_eq_ok.1 hl
    exact C16_list_sorted _ _ _ _ _ hrun

/-- A band ending at 1/8 can be subsampled by 4. -/
example : Spec.scale (1 / 16, 1 / 80) = 2 := by
  unfold Spec.scale
  apply IsGreatest.csSup_eq
  constructor
  · show |(1 / 16 : ℝ)| + 5 * (1 / 80) ≤ 1 / 2 ^ (2 + 1)
    rw [abs_of_pos (by norm_num)]
    norm_num
  · intro j (hj : |(1 / 16 : ℝ)| + 5 * (1 / 80) ≤ 1 / 2 ^ (j + 1))
    by_contra hc
    have h3 : (2 : ℝ) ^ 4 ≤ 2 ^ (j + 1) := pow_le_pow_right₀ (by norm_num) (by omega)
    have : (1 : ℝ) / 2 ^ (j + 1) ≤ 1 / 2 ^ 4 := one_div_le_one_div_of_le (by positivity) h3
    rw [abs_of_pos (by norm_num)] at hj
    norm_num at this hj
    linarith

/-- `Scattering1D(J=3, shape=1000, Q=(8, 1))` has the path of the first wavelet. -/
theorem exArgs_first {s : Sc1D} (hs : (exArgs .none .list).make = .ok s) {x : List ℝ} {l : List (Path (List ℝ))}
    (h : (exArgs .none .list).run x = .ok (.list l)) : ∃ p ∈ l, p.n = [0] := by
  obtain ⟨w, hw⟩ := anden_nonempty (J := 3) (Q := 8) (by norm_num)
  obtain ⟨p, hp, hn, -⟩ := ((C14_object _ s hs 8 1 rfl _ _ (C87_bank 3 8 (by norm_num)) (C87_bank 3 1 (by norm_num)) x l
    h).1 [0] [Spec.scale w]).2 (Or.inr (Or.inl ⟨0, w, hw, rfl, rfl⟩))
  exact ⟨p, hp, hn⟩

end Verif
