import Verif.Lemmas.SimJTFS
import Verif.Lemmas.ScaleJTFS
import Verif.Lemmas.NpJTFS
import Verif.Lemmas.NoErrorJTFS
import Verif.Props.Laws1D

/-!
# Translation of the signal in joint time-frequency scattering

The padded signal has `N0` samples and is translated by `s0`.  On a grid of `L` samples the translation is the
integer `s` with `s * N0 = s0 * L`, when there is one.
-/

namespace Verif

open Finset

/-- Every row is rolled. -/
def RollRows {α : Type} [Zero α] (s0 : ℤ) (N0 : Nat) (x y : Img α) : Prop :=
  y.h = x.h ∧ y.w = x.w ∧ ∀ s : ℤ, s * N0 = s0 * x.w → ∀ i, i < x.h → Spec.IsRoll s (x.row i) (y.row i)

/-- Every row is multiplied by the phase of a delay. -/
def HatRows (s0 : ℤ) (N0 : Nat) (x y : Img ℂ) : Prop :=
  y.h = x.h ∧ y.w = x.w ∧ ∀ s : ℤ, s * N0 = s0 * x.w → ∀ i, i < x.h → y.row i = shiftF (x.row i) s

/-- The rows are permuted circularly. -/
def PermRows {α : Type} (s0 : ℤ) (N0 : Nat) (x y : Img α) : Prop :=
  y.h = x.h ∧ y.w = x.w ∧ ∀ s : ℤ, s * N0 = s0 * x.h → ∀ i t, i < x.h → t < x.w →
    y.px i t = x.px (((i : ℤ) - s) % x.h).toNat t

theorem isRoll_row_iff {α : Type} [Zero α] {x y : Img α} (hw : y.w = x.w) {s : ℤ} {i : Nat} :
    Spec.IsRoll s (x.row i) (y.row i) ↔ ∀ t, t < x.w → y.px i t = x.px i (((t : ℤ) - s) % x.w).toNat := by
  unfold Spec.IsRoll
  simp only [Img.length_row]
  constructor
  · rintro ⟨-, h⟩ t ht
    have := h t ht
    rwa [Img.getD_row (by omega), Img.getD_row (emod_toNat_lt _ (by omega))] at this
  · intro h
    refine ⟨hw, fun t ht => ?_⟩
    rw [Img.getD_row (by omega), Img.getD_row (emod_toNat_lt _ (by omega))]
    exact h t ht

theorem RollRows.swap {α : Type} [Zero α] {s0 : ℤ} {N0 : Nat} {x y : Img α} (h : RollRows s0 N0 x y) :
    PermRows s0 N0 x.swap y.swap := by
  obtain ⟨h1, h2, h3⟩ := h
  refine ⟨h2, h1, fun s hs i t hi ht => ?_⟩
  have hi : i < x.w := hi
  have ht : t < x.h := ht
  have h4 := (isRoll_row_iff h2).1 (h3 s hs t ht) i hi
  exact (Img.px_tab' (by omega) (by omega)).trans
    (h4.trans (Img.px_tab' (f := fun i j => x.px j i) (emod_toNat_lt _ (by omega)) ht).symm)

theorem PermRows.swap {α : Type} [Zero α] {s0 : ℤ} {N0 : Nat} {x y : Img α} (h : PermRows s0 N0 x y) :
    RollRows s0 N0 x.swap y.swap := by
  obtain ⟨h1, h2, h3⟩ := h
  refine ⟨h2, h1, fun s hs i hi => (isRoll_row_iff (x := x.swap) (y := y.swap) h1).2 fun t ht => ?_⟩
  have hi : i < x.w := hi
  have ht : t < x.h := ht
  exact (Img.px_tab' (by omega) (by omega)).trans
    ((h3 s hs t i ht hi).trans (Img.px_tab' (f := fun i j => x.px j i) hi (emod_toNat_lt _ (by omega))).symm)

/-- An operation on rows commutes with their permutation. -/
theorem PermRows.op {α β : Type} [Zero β] {s0 : ℤ} {N0 : Nat} {x y : Img α} (h : PermRows s0 N0 x y) (w : Nat)
    (G : (Nat → α) → Nat → β) (hG : ∀ f g : Nat → α, (∀ t, t < x.w → f t = g t) → ∀ j, j < w → G f j = G g j) :
    PermRows s0 N0 (Img.tab x.h w fun i j => G (x.px i) j) (Img.tab y.h w fun i j => G (y.px i) j) := by
  obtain ⟨h1, h2, h3⟩ := h
  refine ⟨h1, rfl, fun s hs i t hi ht => ?_⟩
  have hi : i < x.h := hi
  have ht : t < w := ht
  refine (Img.px_tab' (by omega) ht).trans ?_
  refine Eq.trans ?_ (Img.px_tab' (f := fun i j => G (x.px i) j) (emod_toNat_lt _ (by omega)) ht).symm
  exact hG _ _ (fun t ht => h3 s hs i t hi ht) t ht

theorem PermRows.map {α β : Type} [Zero β] {s0 : ℤ} {N0 : Nat} {x y : Img α} (h : PermRows s0 N0 x y) (f : α → β) :
    PermRows s0 N0 (x.map f) (y.map f) := by
  have := h.op (β := β) x.w (fun g j => f (g j)) (fun g g' hg j hj => by rw [hg j hj])
  have e : y.map f = Img.tab y.h x.w fun i j => f (y.px i j) := by rw [← h.2.1]; rfl
  rw [e]
  exact this

theorem PermRows.dft {s0 : ℤ} {N0 : Nat} {x y : Img ℂ} (h : PermRows s0 N0 x y) :
    PermRows s0 N0 (rowDft x) (rowDft y) := by
  have := h.op (β := ℂ) x.w (fun g k => ∑ n ∈ range x.w, g n * tw x.w (-((k : Int) * n)))
    (fun g g' hg j _ => Finset.sum_congr rfl fun n hn => by rw [hg n (Finset.mem_range.1 hn)])
  have e : rowDft y = Img.tab y.h x.w fun i k => ∑ n ∈ range x.w, y.px i n * tw x.w (-((k : Int) * n)) := by
    rw [← h.2.1]; rfl
  rw [e]
  exact this

theorem PermRows.idft {s0 : ℤ} {N0 : Nat} {x y : Img ℂ} (h : PermRows s0 N0 x y) :
    PermRows s0 N0 (rowIdft x) (rowIdft y) := by
  have := h.op (β := ℂ) x.w (fun g n => (∑ k ∈ range x.w, g k * tw x.w ((k : Int) * n)) / x.w)
    (fun g g' hg j _ => by
      rw [Finset.sum_congr rfl fun n hn => by rw [hg n (Finset.mem_range.1 hn)]])
  have e : rowIdft y = Img.tab y.h x.w fun i n => (∑ k ∈ range x.w, y.px i k * tw x.w ((k : Int) * n)) / x.w := by
    rw [← h.2.1]; rfl
  rw [e]
  exact this

theorem PermRows.average {s0 : ℤ} {N0 : Nat} {x y : Img ℝ} (h : PermRows s0 N0 x y) :
    PermRows s0 N0 (rowAverage x) (rowAverage y) := by
  have := h.op (β := ℝ) 1 (fun g _ => ∑ j ∈ range x.w, g j)
    (fun g g' hg j _ => Finset.sum_congr rfl fun n hn => hg n (Finset.mem_range.1 hn))
  have e : rowAverage y = Img.tab y.h 1 fun i _ => ∑ j ∈ range x.w, y.px i j := by
    rw [← h.2.1]; rfl
  rw [e]
  exact this

theorem PermRows.pad {α : Type} [Zero α] {s0 : ℤ} {N0 : Nat} {x y : Img α} (h : PermRows s0 N0 x y) (p : Int) :
    Sim (PermRows s0 N0) (padFrequencyImg x p) (padFrequencyImg y p) := by
  unfold padFrequencyImg
  split
  · exact Sim.error
  · have := h.op (β := α) (x.w + p.toNat) (fun g j => if j < x.w then g j else 0) (fun g g' hg j _ => by
      split
      · rename_i hj; exact hg j hj
      · rfl)
    rw [h.2.1]
    exact Sim.ok this

theorem PermRows.cdgmm {s0 : ℤ} {N0 : Nat} {x y : Img ℂ} (h : PermRows s0 N0 x y) (f : List ℝ) :
    Sim (PermRows s0 N0) (rowCdgmm x f) (rowCdgmm y f) := by
  unfold rowCdgmm
  rw [h.2.1]
  split
  · exact Sim.error
  · exact Sim.ok (h.op (β := ℂ) x.w (fun g j => g j * ((f.getD j 0 : ℝ) : ℂ)) (fun g g' hg j hj => by
      rw [hg j hj]))

theorem PermRows.subsample {s0 : ℤ} {N0 : Nat} {x y : Img ℂ} (h : PermRows s0 N0 x y) (e : Int) :
    Sim (PermRows s0 N0) (rowSubsample x e) (rowSubsample y e) := by
  unfold rowSubsample
  rw [h.2.1]
  split
  · exact Sim.error
  split
  · exact Sim.error
  rename_i hd
  rw [not_not] at hd
  refine Sim.ok (h.op (β := ℂ) (x.w / 2 ^ e.toNat) (fun g m =>
    (∑ r ∈ range (2 ^ e.toNat), g (r * (x.w / 2 ^ e.toNat) + m)) / (2 ^ e.toNat : Nat)) (fun g g' hg m hm => ?_))
  congr 1
  refine Finset.sum_congr rfl fun r hr => hg _ ?_
  have h1 : r < 2 ^ e.toNat := Finset.mem_range.1 hr
  calc r * (x.w / 2 ^ e.toNat) + m < r * (x.w / 2 ^ e.toNat) + x.w / 2 ^ e.toNat := by omega
    _ = (r + 1) * (x.w / 2 ^ e.toNat) := by ring
    _ ≤ 2 ^ e.toNat * (x.w / 2 ^ e.toNat) := Nat.mul_le_mul_right _ h1
    _ = x.w := hd

theorem row_map {α β : Type} [Zero β] {x : Img α} (f : α → β) {i : Nat} (hi : i < x.h) :
    (x.map f).row i = (x.row i).map f := by
  refine (Img.row_tab hi).trans ?_
  unfold Img.row
  rw [map_tab]

theorem RollRows.map {α β : Type} [Zero α] [Zero β] {s0 : ℤ} {N0 : Nat} {x y : Img α} (h : RollRows s0 N0 x y)
    (f : α → β) (hf : f 0 = 0) : RollRows s0 N0 (x.map f) (y.map f) := by
  obtain ⟨h1, h2, h3⟩ := h
  refine ⟨h1, h2, fun s hs i hi => ?_⟩
  have hi : i < x.h := hi
  rw [row_map f hi, row_map f (by omega)]
  exact roll_map f hf (h3 s hs i hi)

theorem RollRows.dft {s0 : ℤ} {N0 : Nat} {x y : Img ℂ} (h : RollRows s0 N0 x y) :
    HatRows s0 N0 (rowDft x) (rowDft y) := by
  obtain ⟨h1, h2, h3⟩ := h
  refine ⟨h1, h2, fun s hs i hi => ?_⟩
  have hi : i < x.h := hi
  rw [row_dft hi, row_dft (by omega)]
  exact dft_roll (h3 s hs i hi)

theorem HatRows.idft {s0 : ℤ} {N0 : Nat} {x y : Img ℂ} (h : HatRows s0 N0 x y) :
    RollRows s0 N0 (rowIdft x) (rowIdft y) := by
  obtain ⟨h1, h2, h3⟩ := h
  refine ⟨h1, h2, fun s hs i hi => ?_⟩
  have hi : i < x.h := hi
  rw [row_idft hi, row_idft (by omega), h3 s hs i hi]
  exact idft_shiftF

theorem cdgmm_shiftF {x y : List ℂ} {s : ℤ} {f : List ℝ} {a b : List ℂ} (h : y = shiftF x s)
    (ha : npCdgmm x f = .ok a) (hb : npCdgmm y f = .ok b) : b = shiftF a s := by
  subst h
  apply list_ext_getD 0
  · rw [length_shiftF, length_of_cdgmm hb, length_of_cdgmm ha, length_shiftF]
  · intro k hk
    rw [length_of_cdgmm hb, length_shiftF] at hk
    rw [getD_cdgmm hb]
    unfold shiftF
    rw [getD_tab_lt hk, getD_tab_lt (by rw [length_of_cdgmm ha]; exact hk), getD_cdgmm ha, length_of_cdgmm ha]
    ring

theorem subsample_shiftF {x y : List ℂ} {s : ℤ} {k : Nat} {a b : List ℂ} (h : y = shiftF x (s * k))
    (ha : npSubsampleFourier x k = .ok a) (hb : npSubsampleFourier y k = .ok b) : b = shiftF a s := by
  subst h
  have hk := ((npSubsampleFourier_eq _ _ _).1 ha).1
  have hla := length_of_subsample ha
  have hlb := length_of_subsample hb
  rw [length_shiftF] at hlb
  rw [eq_shiftF_iff]
  refine ⟨Nat.eq_of_mul_eq_mul_right (Nat.pos_of_ne_zero hk) (by rw [hla, hlb]), fun n => ?_⟩
  rw [imp_subsample _ _ _ hb, imp_subsample x a _ ha, imp_shiftF]
  congr 1
  ring

theorem rowCdgmm_ok {A : Img ℂ} {f : List ℝ} (h : A.w = f.length) : ∃ c, rowCdgmm A f = .ok c :=
  ⟨_, if_neg (not_not.2 h)⟩

theorem HatRows.cdgmm {s0 : ℤ} {N0 : Nat} {x y : Img ℂ} (h : HatRows s0 N0 x y) (f : List ℝ) :
    Sim (HatRows s0 N0) (rowCdgmm x f) (rowCdgmm y f) := by
  intro a ha
  obtain ⟨h1, h2, h3⟩ := h
  obtain ⟨a1, a2, a3, a4⟩ := row_cdgmm ha
  obtain ⟨b, hb⟩ := rowCdgmm_ok (A := y) (f := f) (by omega)
  obtain ⟨b1, b2, b3, b4⟩ := row_cdgmm hb
  refine ⟨b, hb, by omega, by omega, fun s hs i hi => ?_⟩
  rw [a3] at hs
  exact cdgmm_shiftF (h3 s hs i (by omega)) (a4 i (by omega)) (b4 i (by omega))

theorem HatRows.subsample {s0 : ℤ} {N0 : Nat} {x y : Img ℂ} (h : HatRows s0 N0 x y) (e : Int) :
    Sim (HatRows s0 N0) (rowSubsample x e) (rowSubsample y e) := by
  intro a ha
  obtain ⟨h1, h2, h3⟩ := h
  obtain ⟨a1, a2, a3, a4⟩ := row_subsample ha
  obtain ⟨k, rfl⟩ := Int.eq_ofNat_of_zero_le a1
  rw [Int.toNat_natCast] at a3 a4
  obtain ⟨b, hb⟩ : ∃ b, rowSubsample y (k : Int) = .ok b := by
    obtain ⟨b, hb, -⟩ := rowSubsample_ok (x := y) (e := k) (by rw [h2, ← a3]; exact dvd_mul_left _ _)
    exact ⟨b, hb⟩
  obtain ⟨b1, b2, b3, b4⟩ := row_subsample hb
  rw [Int.toNat_natCast] at b3 b4
  have hw : b.w = a.w := Nat.eq_of_mul_eq_mul_right (pow_pos two_pos k) (by rw [a3, b3, h2])
  refine ⟨b, hb, by omega, hw, fun s hs i hi => ?_⟩
  refine subsample_shiftF (h3 (s * (2 ^ k : ℕ)) ?_ i (by omega)) (a4 i (by omega)) (b4 i (by omega))
  rw [← a3]
  push_cast
  linear_combination (2 : ℤ) ^ k * hs

theorem RollRows.average {s0 : ℤ} {N0 : Nat} {x y : Img ℝ} {s : ℤ} (h : RollRows s0 N0 x y)
    (hs : s * N0 = s0 * x.w) {i : Nat} (hi : i < x.h) : ∑ t ∈ range y.w, y.px i t = ∑ t ∈ range x.w, x.px i t := by
  have := roll_sum (h.2.2 s hs i hi)
  rw [getD_eq_fn, getD_eq_fn, Img.length_row, Img.length_row] at this
  rw [Finset.sum_congr rfl fun t ht => (Img.getD_row (d := (0 : ℝ)) (Finset.mem_range.1 ht)).symm, this]
  exact Finset.sum_congr rfl fun t ht => Img.getD_row (Finset.mem_range.1 ht)

theorem RollRows.stack {α : Type} [Zero α] {s0 : ℤ} {N0 : Nat} {l m : List (List α)}
    (h : List.Forall₂ (fun x y : List α => y.length = x.length ∧
      ∀ s : ℤ, s * N0 = s0 * x.length → Spec.IsRoll s x y) l m) :
    Sim (RollRows s0 N0) (stackImg l) (stackImg m) := by
  intro X hX
  obtain ⟨hne, hl, H1, -, H3⟩ := Is.stack hX
  have hlen := h.length_eq
  have hm : ∀ b ∈ m, b.length = X.w := fun b hb => by
    obtain ⟨a, ha, hab⟩ := forall₂_mem_right h hb
    rw [hab.1, hl a ha]
  obtain ⟨Y, hY, hYw⟩ : ∃ Y, stackImg m = .ok Y ∧ Y.w = X.w := by
    obtain ⟨Y, hY, -, hw⟩ := stack_ok (w := X.w) (l := m) (by rintro rfl; exact hne (List.length_eq_zero_iff.1 hlen)) hm
    exact ⟨Y, hY, hw⟩
  obtain ⟨-, -, G1, -, G3⟩ := Is.stack hY
  refine ⟨Y, hY, by omega, hYw, fun s hs i hi => (isRoll_row_iff hYw).2 fun t ht => ?_⟩
  have hil : i < l.length := by omega
  have him : i < m.length := by omega
  rw [G3 i t him (by omega), H3 i _ hil (emod_toNat_lt _ (by omega))]
  rcases Core1D.forall₂_getElem? h i with ⟨h1, -⟩ | ⟨a, b, h1, h2, hab⟩
  · rw [List.getElem?_eq_none_iff] at h1; omega
  have ha := hl a (List.mem_of_getElem? h1)
  have hroll := (hab.2 s (by rw [ha]; exact hs)).2 t (by rw [ha]; exact ht)
  show (m.getD i []).getD t 0 = (l.getD i []).getD _ 0
  rw [List.getD_eq_getElem?_getD (l := m), List.getD_eq_getElem?_getD (l := l), h1, h2, ← ha]
  exact hroll

/-- Translation of the padded signal. -/
noncomputable def rollRelJ (s0 : ℤ) (N0 : Nat) : JRel npJ npJ where
  rR _ x y := List.length y = List.length x ∧ ∀ s : ℤ, s * N0 = s0 * List.length x → Spec.IsRoll (α := ℝ) s x y
  rC _ x y := List.length y = List.length x ∧ ∀ s : ℤ, s * N0 = s0 * List.length x → y = shiftF x s
  rT _ x y := List.length y = List.length x ∧ ∀ s : ℤ, s * N0 = s0 * List.length x → Spec.IsRoll (α := ℂ) s x y
  rRS _ d x y := if d then PermRows (α := ℝ) s0 N0 x y else RollRows (α := ℝ) s0 N0 x y
  rCS _ d hat x y := if d then PermRows (α := ℂ) s0 N0 x y else
    if hat then HatRows s0 N0 x y else RollRows (α := ℂ) s0 N0 x y
  rF f g := g = f
  padOk _ := True
  rfft i x y h := Sim.ok ⟨by simp [h.1], fun s hs => dft_roll (toC_roll (h.2 s (by simpa using hs)))⟩
  ifft i x y h := Sim.ok ⟨by simp [h.1], fun s hs => by
    rw [h.2 s (by simpa using hs)]; exact idft_shiftF⟩
  irfft i x y h := Sim.ok ⟨by simp [h.1], fun s hs => by
    rw [h.2 s (by simpa using hs)]; exact roll_map _ rfl idft_shiftF⟩
  modulus i x y h := Sim.ok ⟨by simp [h.1], fun s hs => roll_map _ norm_zero (h.2 s (by simpa using hs))⟩
  cdgmm i x y f g h hfg := by
    have hfg : g = f := hfg
    rw [hfg]
    intro a ha
    have ha : npCdgmm x f = .ok a := ha
    have hl := ((npCdgmm_eq _ _ _).1 ha).1
    have hb : npCdgmm y f = .ok _ := (npCdgmm_eq _ _ _).2 ⟨by rw [h.1, hl], rfl⟩
    refine ⟨_, hb, by rw [length_of_cdgmm hb, length_of_cdgmm ha, h.1], fun s hs => ?_⟩
    rw [length_of_cdgmm ha] at hs
    exact cdgmm_shiftF (h.2 s hs) ha hb
  subsample i x y e h := by
    dsimp only
    split
    · exact Sim.error
    intro a ha
    have ha : npSubsampleFourier x (2 ^ e.toNat) = .ok a := ha
    obtain ⟨hk, hd, -⟩ := (npSubsampleFourier_eq _ _ _).1 ha
    have hb : npSubsampleFourier y (2 ^ e.toNat) = .ok _ :=
      (npSubsampleFourier_eq _ _ _).2 ⟨hk, by rw [h.1]; exact hd, rfl⟩
    have hla := length_of_subsample ha
    have hlb := length_of_subsample hb
    refine ⟨_, hb, Nat.eq_of_mul_eq_mul_right (Nat.pos_of_ne_zero hk) (by rw [hlb, hla, h.1]), fun s hs => ?_⟩
    refine subsample_shiftF (h.2 (s * (2 ^ e.toNat : ℕ)) ?_) ha hb
    have hla' : ((List.length x : ℕ) : ℤ) = List.length a * 2 ^ e.toNat := by exact_mod_cast hla.symm
    rw [hla']
    push_cast
    linear_combination (2 : ℤ) ^ e.toNat * hs
  averageGlobal i x y h := Sim.ok ⟨rfl, fun s hs => by
    have hs : s * N0 = s0 * ((1 : ℕ) : ℤ) := hs
    have e : npAverageGlobal y = npAverageGlobal x := by
      unfold npAverageGlobal
      rw [roll_sum (h.2 (s * List.length x) (by push_cast at hs; linear_combination (List.length x : ℤ) * hs))]
    rw [e]
    refine ⟨rfl, fun n hn => ?_⟩
    have hn : n < 1 := hn
    have : n = 0 := by omega
    subst this
    have : (((0 : ℕ) : ℤ) - s) % ((npAverageGlobal x).length : ℕ) = 0 := by
      rw [show (npAverageGlobal x).length = 1 from rfl]
      simp
    rw [this]
    rfl⟩
  stackR l m h := RollRows.stack h
  stackC l m h := RollRows.stack h
  swapR i d x y h := by
    cases d with
    | false => exact Sim.ok (RollRows.swap h)
    | true => exact Sim.ok (PermRows.swap h)
  swapC i d x y h := by
    cases d with
    | false => exact Sim.ok (RollRows.swap h)
    | true => exact Sim.ok (PermRows.swap h)
  padFrequencyR i x y p _ h := PermRows.pad h p
  padFrequencyC i x y p _ h := PermRows.pad h p
  rfftS i d x y h := by
    cases d with
    | false => exact Sim.ok (RollRows.map h _ Complex.ofReal_zero).dft
    | true => exact Sim.ok (PermRows.map h _).dft
  cfftS i d x y h := by
    cases d with
    | false => exact Sim.ok (RollRows.dft h)
    | true => exact Sim.ok (PermRows.dft h)
  ifftS i d x y h := by
    cases d with
    | false => exact Sim.ok (HatRows.idft h)
    | true => exact Sim.ok (PermRows.idft h)
  irfftS i d x y h := by
    cases d with
    | false => exact Sim.ok ((HatRows.idft h).map _ rfl)
    | true => exact Sim.ok ((PermRows.idft h).map _)
  modulusS i x y h := Sim.ok (RollRows.map h _ norm_zero)
  cdgmmS i d x y f g h hfg := by
    subst hfg
    cases d with
    | false => exact HatRows.cdgmm h _
    | true => exact PermRows.cdgmm h _
  subsampleS i d x y e h := by
    cases d with
    | false => exact HatRows.subsample h _
    | true => exact PermRows.subsample h _
  averageGlobalS i d x y h := by
    cases d with
    | true => exact Sim.ok (PermRows.average h)
    | false =>
      have h : RollRows (α := ℝ) s0 N0 x y := h
      refine Sim.ok ⟨h.1, rfl, fun s hs i hi => (isRoll_row_iff (x := rowAverage x) (y := rowAverage y) rfl).2
        fun t ht => ?_⟩
      have hs : s * N0 = s0 * ((1 : ℕ) : ℤ) := hs
      have hi : i < Img.h x := hi
      have ht : t < 1 := ht
      have e := h.average (s := s * Img.w x) (by push_cast at hs; linear_combination (Img.w x : ℤ) * hs) hi
      refine (Img.px_tab' (by rw [h.1]; exact hi) ht).trans (e.trans ?_)
      exact (Img.px_tab' (f := fun i _ => ∑ j ∈ range (Img.w x), Img.px x i j) hi
        (emod_toNat_lt _ (show 0 < (rowAverage x).w from Nat.one_pos))).symm
  unpadFrequency i x y n s h := by
    have h : RollRows (α := ℝ) s0 N0 x y := h
    show Sim (RollRows (α := ℝ) s0 N0) (unpadFrequencyImg x n s) (unpadFrequencyImg y n s)
    unfold unpadFrequencyImg
    split
    · exact Sim.error
    obtain ⟨h1, h2, h3⟩ := h
    refine Sim.ok ⟨by rw [h1]; rfl, h2, fun s' hs i hi => ?_⟩
    have hi : i < min (Img.h x) (1 + n / s) := hi
    rw [Img.row_tab hi, Img.row_tab (by rw [h1]; exact hi)]
    exact h3 s' hs i (by omega)
  split x y n s h := Sim.ok (by
    have h : RollRows (α := ℝ) s0 N0 x y := h
    obtain ⟨h1, h2, h3⟩ := h
    show List.Forall₂ _ (tab (Img.h x) fun i => Img.row x i) (tab (Img.h y) fun i => Img.row y i)
    rw [h1]
    unfold tab
    rw [List.forall₂_map_left_iff, List.forall₂_map_right_iff, List.forall₂_same]
    intro i hi
    refine ⟨by rw [Img.length_row, Img.length_row, h2], fun s hs => ?_⟩
    rw [Img.length_row] at hs
    exact h3 s hs i (List.mem_range.1 hi))

end Verif
