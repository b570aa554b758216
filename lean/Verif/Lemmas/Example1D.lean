import Verif.Lemmas.ShapeFront

/-!
# A small concrete object used to show that hypotheses can be met

Signals of length 4, padded to 8 samples; a low-pass with three resolutions, two first-order and
two second-order filters, stride 2.
-/

namespace Verif

/-- Example filter of length `8 / 2^l` at resolution `l < n`. -/
noncomputable def exFilt (n j : Nat) : Filt (List ℝ) :=
  ⟨(List.range n).map fun l => tab (8 / 2 ^ l) fun k => ((k + l : Nat) : ℝ), j⟩

/-- Example object. -/
noncomputable def exObj (avg : Average) : Obj1D (List ℝ) :=
  ⟨2, 2, borderDict 2 2, borderDict 2 6, exFilt 3 2, [exFilt 1 0, exFilt 1 1],
    [exFilt 2 1, exFilt 2 2], 2, .ok 1, avg, some 0, .list⟩

theorem exObj_shape (avg : Average) : (exObj avg).shape =
    ⟨2, 2, borderDict 2 2, borderDict 2 6, ⟨[8, 4, 2], 2⟩,
      [⟨[8], 0⟩, ⟨[8], 1⟩], [⟨[8, 4], 1⟩, ⟨[8, 4], 2⟩], 2, .ok 1, avg, some 0, .list⟩ := by
  simp [exObj, Obj1D.shape, Filt.shape, exFilt, tab, List.range_succ]

theorem exObj_run (avg : Average) (x : List ℝ) (hx : x.length = 4) :
    ∃ l, Front1D.scattering npBackend npFront (exObj avg) x = .ok (.list l) := by
  have h : ∃ l, Front1D.scattering shapeBackend shapeFront (exObj avg).shape x.length =
      .ok (.list l) := by
    rw [exObj_shape, hx]
    cases avg <;> exact ⟨_, rfl⟩
  obtain ⟨l, hl⟩ := h
  obtain ⟨m, hm, -⟩ := np_run_of_shape rfl hl
  exact ⟨m, hm⟩

end Verif
