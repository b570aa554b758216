import Verif.Props.Laws2D
import Verif.Props.Morlet2D

/-!
# The two-dimensional theorems on concrete objects

The theorems with hypotheses applied to `Scattering2D(J=2, shape=(9, 14), L=3)` (`exArgs2`, and `exArgs2p` with
`pre_pad=True`); nothing new is claimed.
-/

namespace Verif

/-- `C40_J_zero`. -/
example : (⟨0, 9, 14, 3, 2, false, .list⟩ : Args2D).run (Img.tab 9 14 fun i j => (i * j : ℝ)) = .error .index :=
  C40_J_zero ⟨0, 9, 14, 3, 2, false, .list⟩ rfl (by decide) (by decide) (by decide) rfl _ rfl rfl

/-- `C39_array`: the object returning an array and the object returning a list. -/
example (x : Img ℝ) (hh : x.h = 9) (hw : x.w = 14) : ∃ rows l,
    ({ exArgs2 with outType := .array } : Args2D).run x = .ok (.array rows) ∧ exArgs2.run x = .ok (.list l) ∧
    rows = l.map fun p => p.coef := by
  obtain ⟨l, h⟩ := exArgs2_run x hh hw
  obtain ⟨out, h'⟩ := C40_no_error { exArgs2 with outType := .array } (by decide) (by decide) (by decide) (by decide) x
    ⟨hh, hw⟩
  obtain ⟨_, m, -, -, -, ha, -⟩ := run_eq_ok h'
  rw [ha rfl] at h'
  exact ⟨_, l, h', h, C39_array exArgs2 x _ l h' h⟩

/-- `C44_translation`: an image of 16 by 20 pixels already padded, rolled by 4 rows and 8 columns. -/
example (f : ℕ → ℕ → ℝ) : ∃ l l', exArgs2p.run (Img.tab 16 20 f) = .ok (.list l) ∧
    exArgs2p.run (Img.tab 16 20 fun i j => f ((i + 12) % 16) ((j + 12) % 20)) = .ok (.list l') ∧
    List.Forall₂ (fun p q => p.n = q.n ∧ p.theta = q.theta ∧
      ∀ i j, i + 1 < p.coef.h → j + 2 < p.coef.w → q.coef.px (i + 1) (j + 2) = p.coef.px i j) l l' := by
  obtain ⟨out, h⟩ := C40_no_error exArgs2p (by decide) (by decide) (by decide) (by decide) (Img.tab 16 20 f)
    ⟨rfl, rfl⟩
  obtain ⟨l, hl, -⟩ := C39_channels exArgs2p rfl _ out h
  rw [hl] at h
  obtain ⟨l', h', hr⟩ := C44_translation exArgs2p rfl rfl (Img.tab 16 20 f)
    (Img.tab 16 20 fun i j => f ((i + 12) % 16) ((j + 12) % 20)) rfl rfl 1 2 (by
      intro m n (hm : m < 16) (hn : n < 20)
      have e1 : (((m : ℤ) - 2 ^ 2 * 1) % (16 : ℕ)).toNat = (m + 12) % 16 := by omega
      have e2 : (((n : ℤ) - 2 ^ 2 * 2) % (20 : ℕ)).toNat = (n + 12) % 20 := by omega
      show (Img.tab 16 20 _).px m n = (Img.tab 16 20 f).px (((m : ℤ) - 2 ^ 2 * 1) % (16 : ℕ)).toNat
        (((n : ℤ) - 2 ^ 2 * 2) % (20 : ℕ)).toNat
      rw [Img.px_tab hm hn, e1, e2, Img.px_tab (Nat.mod_lt _ (by norm_num)) (Nat.mod_lt _ (by norm_num))]) l h
  refine ⟨l, l', h, h', hr.imp ?_⟩
  rintro p q ⟨-, hn, ht, -, -, hpx⟩
  exact ⟨hn, ht, fun i j hi hj => hpx (i + 1) (j + 2) i j hi hj (by omega) (by omega) (by push_cast; ring)
    (by push_cast; ring)⟩

/-- `C44_constant`. -/
example (c : ℝ) : ∃ l, exArgs2.run (Img.tab 9 14 fun _ _ => c) = .ok (.list l) ∧
    ∀ p ∈ l, p.n ≠ [] → ∀ i j, i < p.coef.h → j < p.coef.w → p.coef.px i j = 0 := by
  obtain ⟨l, h⟩ := exArgs2_run (Img.tab 9 14 fun _ _ => c) rfl rfl
  exact ⟨l, h, C44_constant exArgs2 rfl _ c (fun i j hi hj => Img.px_tab hi hj) l h⟩

/-- `C44_batch`: the second image of a batch of two. -/
example (x y : Img ℝ) (hx : x.h = 9 ∧ x.w = 14) (hy : y.h = 9 ∧ y.w = 14) : ∃ m l,
    exArgs2.runBatch 9 14 [x, y] = .ok (.list m) ∧ exArgs2.run y = .ok (.list l) ∧
    List.Forall₂ (fun p q => p.j = q.j ∧ p.n = q.n ∧ p.theta = q.theta ∧ p.coef[1]? = some q.coef) m l := by
  obtain ⟨l, h⟩ := exArgs2_run x hx.1 hx.2
  have hs : ∀ u ∈ [x, y], u.h = 9 ∧ u.w = 14 := by
    intro u hu
    simp only [List.mem_cons, List.not_mem_nil, or_false] at hu
    rcases hu with rfl | rfl
    · exact hx
    · exact hy
  obtain ⟨m, hm, -⟩ := C44_batch_succeeds exArgs2 rfl x l h [x, y] (fun u hu => by
    rw [hx.1, hx.2]; exact hs u hu)
  rw [hx.1, hx.2] at hm
  obtain ⟨l', hl', hr⟩ := C44_batch exArgs2 rfl 9 14 [x, y] hs m hm 1 y rfl
  exact ⟨m, l', hm, hl', hr⟩

/-- `C86_lowpass`: the low-pass of a bank with `J = 3` on a 32 by 32 grid. -/
example : ∃ table, (filterBank2 32 32 3 8).1[0]? = some table ∧
    ∀ k l, k < 32 → l < 32 → table.px k l = 1 / (2 * 3.1415) *
      Spec.reDft2 32 32 (Spec.periodise2 32 32 (Spec.gaborAtom (0.8 * 2 ^ (3 - 1)) 0 1 0)) k l := by
  obtain ⟨table, h, -, -, h'⟩ := C86_lowpass 32 32 3 8 (by norm_num)
  exact ⟨table, h, h'⟩

end Verif
