import Verif.Model.NegativeJ
import Verif.Lemmas.Py
import Verif.Lemmas.Sim

/-!
# C127: negative `J` in two and three dimensions
-/

namespace Verif

/-! ## Two dimensions -/

/-- The same arguments, `J` read as an integer. -/
def Args2D.toZ (a : Args2D) : ArgsZ2D := ⟨a.J, a.M, a.N, a.L, a.maxOrder, a.prePad, a.outType⟩

/-- C127: for a natural number `J` construction is that of `Model/Object2D`. -/
theorem C127_natural_2d (a : Args2D) : a.toZ.make = a.make := by
  have h : ∀ M : ℕ, (2 : ℚ) ^ (a.J : ℤ) > M ↔ 2 ^ a.J > M := by
    intro M
    rw [zpow_natCast]
    exact_mod_cast Iff.rfl
  unfold ArgsZ2D.make Args2D.make
  by_cases hc : 2 ^ a.J > a.M ∨ 2 ^ a.J > a.N
  · rw [if_pos hc, if_pos (by
      rcases hc with hc | hc
      · exact Or.inl ((h _).2 hc)
      · exact Or.inr ((h _).2 hc))]
  · rw [if_neg hc, if_neg (by
      rintro (h' | h')
      · exact hc (Or.inl ((h _).1 h'))
      · exact hc (Or.inr ((h _).1 h')))]
    rfl

/-- C127: a negative `J` is rejected by the constructor of the 2-D transform, for every shape: by the check of `build`
(`RuntimeError`) when a side is zero, otherwise by `numpy` (`TypeError`). -/
theorem C127_rejected_2d_partial (a : ArgsZ2D) (hJ : a.J < 0) :
    a.make = .error (if a.M = 0 ∨ a.N = 0 then .runtime else .type) := by
  have h0 : (0 : ℚ) < (2 : ℚ) ^ a.J := by positivity
  have h1 : (2 : ℚ) ^ a.J < 1 := zpow_lt_one_of_neg₀ (by norm_num) hJ
  have h : ∀ M : ℕ, (2 : ℚ) ^ a.J > M ↔ M = 0 := by
    intro M
    constructor
    · intro hM
      by_contra hne
      have : (1 : ℚ) ≤ M := by exact_mod_cast Nat.one_le_iff_ne_zero.2 hne
      linarith
    · rintro rfl
      simpa using h0
  unfold ArgsZ2D.make
  simp only [h]
  by_cases hc : a.M = 0 ∨ a.N = 0
  · rw [if_pos hc, if_pos hc]
  · rw [if_neg hc, if_neg hc]
    unfold padded2Z
    rw [if_neg (by omega)]
    rfl

/-- `Scattering2D(J=-1, shape=(32, 32))`. -/
example : (⟨-1, 32, 32, 8, 2, false, .array⟩ : ArgsZ2D).make = .error .type := C127_rejected_2d_partial _ (by decide)

/-- `Scattering2D(J=2, shape=(32, 32))`. -/
example : (⟨2, 32, 32, 8, 2, false, .array⟩ : Args2D).toZ.make = (⟨2, 32, 32, 8, 2, false, .array⟩ : Args2D).make :=
  C127_natural_2d _

/-! ## Three dimensions -/

/-- The same arguments, `J` read as an integer. -/
def Args3D.toZ (a : Args3D) : ArgsZ3D := ⟨a.J, a.shape, a.L, a.sigma0, a.maxOrder, a.rot, a.powers⟩

theorem mapM_error_of_first {α β : Type} {f : α → Py β} {e : PyErr} {x : α} {l : List α} (h : f x = .error e) :
    (x :: l).mapM f = .error e := by
  rw [List.mapM_cons, h]
  rfl

/-- C127: for a natural number `J` calls are those of `Model/Object3D`. -/
theorem C127_natural_3d (a : Args3D) (Y : ℤ → ℕ → ℝ → ℝ → ℂ) (x : Vol ℝ) :
    a.toZ.make Y = .ok (a.filters Y) ∧ a.toZ.run Y x = a.run Y x := by
  have hm : a.toZ.make Y = .ok (a.filters Y) := by
    unfold ArgsZ3D.make
    have h1 : ¬ (a.toZ.J + 1 < 0) := by show ¬ ((a.J : ℤ) + 1 < 0); omega
    have h2 : ¬ (a.toZ.J + 2 < 0) := by show ¬ ((a.J : ℤ) + 2 < 0); omega
    have h3 : (a.toZ.J + 1).toNat = a.J + 1 := by show ((a.J : ℤ) + 1).toNat = _; omega
    refine bind_eq_ok.2 ⟨a.filters Y, ?_, by rw [if_neg h2]⟩
    rw [mapM_eq_ok]
    unfold Args3D.filters solidHarmonicBank
    rw [List.forall₂_map_right_iff, show a.toZ.L = a.L from rfl, List.forall₂_same]
    intro l _
    rw [if_neg h1, h3]
    rfl
  refine ⟨hm, ?_⟩
  have hp : ∀ F U, perLZ (np3Backend a.powers) a.rot a.J a.maxOrder F U =
      Core3D.perL (np3Backend a.powers) a.rot a.J a.maxOrder F U := by
    intro F U
    funext l
    unfold perLZ Core3D.perL
    rw [show ((a.J : ℤ) + 1).toNat = a.J + 1 by omega]
    rfl
  unfold ArgsZ3D.run Args3D.run Core3D.scattering3d
  rw [hm]
  show (if x.shape ≠ a.shape then _ else _) = _
  by_cases hx : x.shape ≠ a.shape
  · rw [if_pos hx, if_pos hx]
  · rw [if_neg hx, if_neg hx]
    show ((np3Backend a.powers).rfft x >>= fun U => (List.range (a.L + 1)).mapM
      (perLZ (np3Backend a.powers) a.rot a.J a.maxOrder (a.filters Y) U) >>= _) = _
    simp only [hp]
    rfl

/-- C127: below -1 the constructor of the 3-D transform raises `ValueError`. -/
theorem C127_rejected_3d_partial (a : ArgsZ3D) (hJ : a.J < -1) (Y : ℤ → ℕ → ℝ → ℝ → ℂ) : a.make Y = .error .value := by
  unfold ArgsZ3D.make
  have h : (List.range (a.L + 1)).mapM (fun l => if a.J + 1 < 0 then (.error .value : Py (List (List (Vol ℂ))))
      else .ok ((List.range (a.J + 1).toNat).map fun j => solidHarmonic3d Y a.shape (a.sigma0 * 2 ^ j) l true)) =
      .error .value := by
    rw [List.range_succ_eq_map]
    exact mapM_error_of_first (by rw [if_pos (by omega)])
  rw [h]
  rfl

/-- C127: `J = -1` is accepted by the constructor of the 3-D transform, which then has no wavelet, and every call
raises: `ValueError` on a volume of the right shape, `RuntimeError` otherwise. -/
theorem C127_minus_one_3d (a : ArgsZ3D) (hJ : a.J = -1) (Y : ℤ → ℕ → ℝ → ℝ → ℂ) (x : Vol ℝ) :
    a.make Y = .ok (List.replicate (a.L + 1) []) ∧
      a.run Y x = .error (if x.shape = a.shape then .value else .runtime) := by
  have hm : a.make Y = .ok (List.replicate (a.L + 1) []) := by
    unfold ArgsZ3D.make
    refine bind_eq_ok.2 ⟨List.replicate (a.L + 1) [], ?_, by rw [if_neg (by omega)]⟩
    rw [mapM_eq_ok, show List.replicate (a.L + 1) ([] : List (List (Vol ℂ))) =
      (List.range (a.L + 1)).map fun _ => [] by simp [List.map_const'], List.forall₂_map_right_iff, List.forall₂_same]
    intro l _
    rw [if_neg (by omega), hJ]
    rfl
  refine ⟨hm, ?_⟩
  unfold ArgsZ3D.run
  rw [hm]
  show (if x.shape ≠ a.shape then _ else _) = _
  by_cases hx : x.shape = a.shape
  · rw [if_neg (by simpa using hx), if_pos hx]
    have hs : ∀ U, (List.range (a.L + 1)).mapM (perLZ (np3Backend a.powers) a.rot a.J a.maxOrder
        (List.replicate (a.L + 1) []) U) = .ok ((List.range (a.L + 1)).map fun _ => ([], [])) := by
      intro U
      rw [mapM_eq_ok, List.forall₂_map_right_iff, List.forall₂_same]
      intro l hl
      refine bind_eq_ok.2 ⟨[], ?_, ?_⟩
      · rw [listGet_eq_ok, List.getElem?_replicate, if_pos (List.mem_range.1 hl)]
      · rw [hJ]
        rfl
    show ((List.range (a.L + 1)).mapM (perLZ (np3Backend a.powers) a.rot a.J a.maxOrder
        (List.replicate (a.L + 1) []) _) >>= _) = _
    rw [hs]
    show Core3D.stackRows (zipStar _).flatten a.L = _
    have hz : ∀ n : ℕ, zipStar (List.replicate (n + 1) ([] : List (List ℝ))) = [] := by
      intro n
      unfold zipStar
      have : ((List.replicate (n + 1) ([] : List (List ℝ))).map List.length).min?.getD 0 = 0 := by
        rw [List.map_replicate, List.length_nil, List.min?_replicate]
        simp
      rw [this]
      rfl
    have he : ∀ P : List (List (List ℝ) × List (List ℝ)), P = (List.range (a.L + 1)).map (fun _ => ([], [])) →
        (zipStar (if a.maxOrder = 2 then List.zipWith (fun x y => x ++ y) (P.map Prod.fst) (P.map Prod.snd)
          else P.map Prod.fst)).flatten = [] := by
      rintro P rfl
      simp only [List.map_replicate, List.map_const', List.length_range, List.zipWith_replicate,
        List.append_nil, min_self, ite_self, hz, List.flatten_nil]
    unfold Core3D.stackRows
    rw [if_pos]
    left
    rw [List.length_eq_zero_iff]
    exact he _ rfl
  · rw [if_pos hx, if_neg hx]

/-- `HarmonicScattering3D(J=-1, shape=(4, 4, 4))` on a volume of zeros. -/
example (Y : ℤ → ℕ → ℝ → ℝ → ℂ) (x : Vol ℝ) (hx : x.shape = (4, 4, 4)) :
    (⟨-1, (4, 4, 4), 3, 1, 2, true, [1, 2]⟩ : ArgsZ3D).run Y x = .error .value := by
  rw [(C127_minus_one_3d _ rfl Y x).2, if_pos hx]

/-- `J = -2`. -/
example (Y : ℤ → ℕ → ℝ → ℝ → ℂ) : (⟨-2, (4, 4, 4), 3, 1, 2, true, [1, 2]⟩ : ArgsZ3D).make Y = .error .value :=
  C127_rejected_3d_partial _ (by decide) Y

/-- `J = 2`. -/
example (Y : ℤ → ℕ → ℝ → ℝ → ℂ) (x : Vol ℝ) :
    (⟨2, (4, 4, 4), 3, 1, 2, true, true, [1, 2]⟩ : Args3D).toZ.run Y x =
      (⟨2, (4, 4, 4), 3, 1, 2, true, true, [1, 2]⟩ : Args3D).run Y x := (C127_natural_3d _ Y x).2

end Verif
