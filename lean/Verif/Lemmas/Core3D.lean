import Verif.Model.Object3D
import Verif.Spec.Volume

/-! # Evaluation of the 3-D core -/

namespace Verif

theorem mapM_eq_map {α β : Type} {f : α → Py β} {g : α → β} (l : List α) (h : ∀ a ∈ l, f a = .ok (g a)) :
    l.mapM f = .ok (l.map g) := by
  induction l with
  | nil => rfl
  | cons a l ih =>
    rw [List.mapM_cons, h a (by simp), ih fun b hb => h b (by simp [hb])]
    rfl

theorem listGet_ok {α : Type} {l : List α} {i : Nat} {a : α} (h : l[i]? = some a) : listGet l i = .ok a := by
  simp [listGet, h]

theorem listGet_map_range {α : Type} (f : ℕ → α) {n i : ℕ} (h : i < n) :
    listGet ((List.range n).map f) i = .ok (f i) := listGet_ok (by simp [h])

theorem ok_bind {α β : Type} (a : α) (f : α → Py β) : ((Except.ok a : Py α) >>= f) = f a := rfl

theorem zipStar_table {α β γ : Type} (ls : List β) (ps : List γ) (f : β → γ → α) (h : ls ≠ []) :
    zipStar (ls.map fun l => ps.map (f l)) = ps.map fun p => ls.map fun l => f l p := by
  have hm : ((ls.map fun l => ps.map (f l)).map List.length).min? = some ps.length := by
    rw [List.map_map]
    have he : (List.length ∘ fun l => ps.map (f l)) = fun _ => ps.length := by funext l; simp
    rw [he]
    obtain ⟨a, t, rfl⟩ := List.exists_cons_of_ne_nil h
    simp [List.min?_replicate]
    split <;> simp
  unfold zipStar
  rw [hm, Option.getD_some]
  apply List.ext_getElem
  · simp
  intro i h1 h2
  have hi : i < ps.length := by simpa using h1
  simp only [List.getElem_map, List.getElem_range]
  rw [List.filterMap_map]
  have he : (fun l : List α => l[i]?) ∘ (fun l => ps.map (f l)) = fun l => some (f l ps[i]) := by
    funext l; simp [hi]
  rw [he]
  simp

theorem chunks_flatten {α : Type} {k : Nat} (rows : List (List α)) (h : ∀ r ∈ rows, r.length = k) :
    (List.range rows.length).map (fun i => (rows.flatten.drop (i * k)).take k) = rows := by
  induction rows with
  | nil => rfl
  | cons r rs ih =>
    have hr : r.length = k := h r (by simp)
    rw [List.length_cons, List.range_succ_eq_map, List.map_cons, List.map_map]
    congr 1
    · simp [← hr]
    · conv_rhs => rw [← ih fun r hr => h r (by simp [hr])]
      apply List.map_congr_left
      intro i _
      simp only [Function.comp, List.flatten_cons]
      rw [show i.succ * k = r.length + i * k by rw [hr, Nat.succ_mul]; omega, List.drop_append,
        List.drop_eq_nil_of_le (by omega)]
      simp

theorem length_flatten_eq {α : Type} {k : Nat} (rows : List (List α)) (h : ∀ r ∈ rows, r.length = k) :
    rows.flatten.length = rows.length * k := by
  induction rows with
  | nil => simp
  | cons r rs ih =>
    rw [List.flatten_cons, List.length_append, ih fun r hr => h r (by simp [hr]), h r (by simp),
      List.length_cons, Nat.succ_mul]
    omega

theorem Core3D.stackRows_eq {α : Type} (rows : List (List α)) (L : Nat) (h : ∀ r ∈ rows, r.length = L + 1)
    (h0 : rows ≠ []) : Core3D.stackRows rows.flatten L = .ok rows := by
  have hl := length_flatten_eq rows h
  have hd : rows.flatten.length / (L + 1) = rows.length := by rw [hl]; simp
  unfold Core3D.stackRows
  rw [if_neg, hd]
  · rw [chunks_flatten rows h]
  · rw [hd, hl]
    have : rows.length ≠ 0 := by simpa using h0
    simp [this]

namespace Core3D

variable (B : Backend3D)

/-- The backend computes the function `W` for wavelet moduli and `Av` for averages. -/
structure Runs (rot : Bool) (P : B.R → Prop) (G : List B.F → Prop) (Fh : B.R → B.C)
    (W : List B.F → B.R → B.R) (Av : B.R → B.A) : Prop where
  rfft : ∀ x, P x → B.rfft x = .ok (Fh x)
  wave : ∀ x fs, P x → G fs → Core3D.wave B rot (Fh x) fs = .ok (W fs x)
  closed : ∀ x fs, P x → G fs → P (W fs x)
  avg : ∀ x, P x → B.averaging x = .ok (Av x)

/-- The volume at the end of a path. -/
def along {R F : Type} (W : List F → R → R) (fam : ℕ → List F) : List ℕ → R → R
  | [], x => x
  | j :: p, x => along W fam p (W (fam j) x)

variable {B} {rot : Bool} {P : B.R → Prop} {G : List B.F → Prop} {Fh : B.R → B.C}
  {W : List B.F → B.R → B.R} {Av : B.R → B.A}

theorem order2_eq (H : Runs B rot P G Fh W Av) {J : ℕ} {mo : ℤ} {fam : ℕ → List B.F} (hG : ∀ j ≤ J, G (fam j))
    {x : B.R} (hx : P x) (j1 : ℕ) :
    order2 B rot J mo ((List.range (J + 1)).map fam) x j1 =
      .ok (if 1 < mo then (List.range (J - j1)).map fun d => Av (W (fam (j1 + 1 + d)) x) else []) := by
  unfold order2
  by_cases h : 1 < mo
  · rw [if_pos h, if_pos h, H.rfft x hx]
    show List.mapM _ _ = _
    rw [mapM_eq_map (g := fun j => Av (W (fam j) x))]
    · rw [List.range'_eq_map_range, List.map_map]
      rfl
    · intro j hj
      have hj' := List.mem_range'_1.1 hj
      have hjJ : j ≤ J := by omega
      unfold coef2
      rw [listGet_map_range _ (by omega), ok_bind, H.wave x _ hx (hG j hjJ), ok_bind]
      exact H.avg _ (H.closed x _ hx (hG j hjJ))
  · rw [if_neg h, if_neg h]

theorem perL_eq (H : Runs B rot P G Fh W Av) {L J : ℕ} {mo : ℤ} {fam : ℕ → ℕ → List B.F}
    (hG : ∀ l ≤ L, ∀ j ≤ J, G (fam l j)) {x : B.R} (hx : P x) {l : ℕ} (hl : l ≤ L) :
    perL B rot J mo ((List.range (L + 1)).map fun l => (List.range (J + 1)).map (fam l)) (Fh x) l =
      .ok ((List.range (J + 1)).map fun j => Av (W (fam l j) x),
        ((List.range (J + 1)).map fun j1 => if 1 < mo then
          (List.range (J - j1)).map fun d => Av (W (fam l (j1 + 1 + d)) (W (fam l j1) x)) else []).flatten) := by
  unfold perL
  rw [listGet_map_range _ (by omega), ok_bind]
  rw [mapM_eq_map (g := fun j1 => (Av (W (fam l j1) x), if 1 < mo then
    (List.range (J - j1)).map fun d => Av (W (fam l (j1 + 1 + d)) (W (fam l j1) x)) else []))]
  · show Except.ok _ = _
    rw [List.map_map, List.map_map]
    rfl
  · intro j hj
    have hjJ : j ≤ J := by have := List.mem_range.1 hj; omega
    unfold order1
    rw [listGet_map_range _ (by omega), ok_bind, H.wave x _ hx (hG l hl j hjJ), ok_bind,
      H.avg _ (H.closed x _ hx (hG l hl j hjJ)), ok_bind,
      order2_eq H (hG l hl) (H.closed x _ hx (hG l hl j hjJ))]
    rfl

/-- The whole core: rows follow `Spec.paths3`, columns the angular order. -/
theorem scattering3d_eq (H : Runs B rot P G Fh W Av) {L J : ℕ} {mo : ℤ} {fam : ℕ → ℕ → List B.F}
    (hG : ∀ l ≤ L, ∀ j ≤ J, G (fam l j)) {x : B.R} (hx : P x) :
    scattering3d B x ((List.range (L + 1)).map fun l => (List.range (J + 1)).map (fam l)) rot L J mo =
      .ok ((Spec.paths3 J (mo = 2)).map fun p => (List.range (L + 1)).map fun l =>
        Av (along W (fam l) p x)) := by
  unfold scattering3d
  rw [H.rfft x hx, ok_bind]
  rw [mapM_eq_map _ fun l hl => perL_eq H hG hx (by have := List.mem_range.1 hl; omega)]
  show stackRows _ _ = _
  rw [List.map_map, List.map_map]
  have hS : (if mo = 2 then
      List.zipWith (fun x y => x ++ y)
        ((List.range (L + 1)).map fun l => (List.range (J + 1)).map fun j => Av (W (fam l j) x))
        ((List.range (L + 1)).map fun l => ((List.range (J + 1)).map fun j1 => if 1 < mo then
          (List.range (J - j1)).map fun d => Av (W (fam l (j1 + 1 + d)) (W (fam l j1) x)) else []).flatten)
      else ((List.range (L + 1)).map fun l => (List.range (J + 1)).map fun j => Av (W (fam l j) x)))
      = (List.range (L + 1)).map fun l => (Spec.paths3 J (mo = 2)).map fun p => Av (along W (fam l) p x) := by
    by_cases h2 : mo = 2
    · subst h2
      rw [if_pos rfl, List.zipWith_map, List.zipWith_self]
      apply List.map_congr_left
      intro l _
      simp only [Spec.paths3, decide_true, if_true, List.map_append, List.map_map, List.flatMap_def,
        List.map_flatten, Nat.one_lt_ofNat, if_true, Function.comp_def, along]
    · rw [if_neg h2]
      apply List.map_congr_left
      intro l _
      simp [Spec.paths3, h2, along]
  show stackRows (zipStar (if mo = 2 then
      List.zipWith (fun x y => x ++ y)
        ((List.range (L + 1)).map fun l => (List.range (J + 1)).map fun j => Av (W (fam l j) x))
        ((List.range (L + 1)).map fun l => ((List.range (J + 1)).map fun j1 => if 1 < mo then
          (List.range (J - j1)).map fun d => Av (W (fam l (j1 + 1 + d)) (W (fam l j1) x)) else []).flatten)
      else ((List.range (L + 1)).map fun l => (List.range (J + 1)).map fun j => Av (W (fam l j) x)))).flatten L = _
  rw [hS, zipStar_table _ _ _ (by simp), stackRows_eq]
  · intro r hr
    obtain ⟨p, _, rfl⟩ := List.mem_map.1 hr
    simp
  · simp [Spec.paths3]

end Core3D

end Verif
