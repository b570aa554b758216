import Verif.Model.NdArray3D
import Verif.Props.NdArray2D
import Verif.Props.Scattering3D

/-!
# C22 and C52 for the 3-D transform on arrays of any shape
-/

namespace Verif

open Nd NdFront
open Spec (position entry)

namespace Spec

/-- The volume `x[b]`, where the last axes of `x` have lengths `s`. -/
noncomputable def volume (x : Nd ℝ) (s : Idx3) (b : List ℕ) : Vol ℝ :=
  Vol.tab s fun u => (entry x (b ++ [u.1, u.2.1, u.2.2])).getD 0

/-- The volume of shape `s` with the given entries in row-major order. -/
noncomputable def unflatten3 (s : Idx3) (l : List ℝ) : Vol ℝ :=
  Vol.tab s fun u => l.getD ((u.1 * s.2.1 + u.2.1) * s.2.2 + u.2.2) 0

end Spec

theorem mem_box3 {s u : Idx3} : u ∈ box s ↔ u.1 < s.1 ∧ u.2.1 < s.2.1 ∧ u.2.2 < s.2.2 := by
  simp [box, Finset.mem_product]

theorem volume_eq {X : Nd ℝ} {bs : List ℕ} {s : Idx3} (hs : X.shape = bs ++ [s.1, s.2.1, s.2.2]) {b : List ℕ} {i : ℕ}
    (hb : position bs b = some i) : (volumes bs.prod s X.data)[i]? = some (Spec.volume X s b) := by
  have hi := position_lt hb
  unfold volumes Spec.volume
  rw [List.getElem?_map, List.getElem?_range hi]
  simp only [Option.map_some, Option.some.injEq]
  apply Vol.tab_congr
  intro u hu
  obtain ⟨h1, h2, h3⟩ := mem_box3.1 hu
  unfold entry
  rw [hs, position_append hb, position_three, if_pos ⟨h1, h2, h3⟩]
  simp only [Option.map_some, Option.bind_some, List.getD_eq_getElem?_getD, List.prod_cons, List.prod_nil, mul_one]
  congr 2
  ring

theorem shape_last3 (bs : List Nat) (m n o : Nat) : ¬ (bs ++ [m, n, o]).length < 3 ∧
    (bs ++ [m, n, o]).getD ((bs ++ [m, n, o]).length - 3) 0 = m ∧
    (bs ++ [m, n, o]).getD ((bs ++ [m, n, o]).length - 2) 0 = n ∧
    (bs ++ [m, n, o]).getD ((bs ++ [m, n, o]).length - 1) 0 = o ∧
    (bs ++ [m, n, o]).take ((bs ++ [m, n, o]).length - 3) = bs := by
  have hl : (bs ++ [m, n, o]).length = bs.length + 3 := by simp
  rw [hl]
  refine ⟨by omega, ?_, ?_, ?_, ?_⟩
  · rw [List.getD_eq_getElem?_getD, List.getElem?_append_right (by omega)]; simp
  · rw [List.getD_eq_getElem?_getD, List.getElem?_append_right (by omega)]; simp
  · rw [List.getD_eq_getElem?_getD, List.getElem?_append_right (by omega)]; simp
  · simp

/-- Once the shape is accepted. -/
theorem runNd3_eq (a : Args3D) (Y : ℤ → ℕ → ℝ → ℝ → ℂ) {X : Nd ℝ} {bs : List ℕ}
    (hs : X.shape = bs ++ [a.shape.1, a.shape.2.1, a.shape.2.2]) (hv : 0 < vol3 a.shape) :
    a.runNd Y X = (a.runBatch Y a.shape (volumes bs.prod a.shape X.data) >>= fun S =>
      (stack3 bs.prod a.L a.powers.length S).reshape ((bs ++ [S.length, a.L + 1, a.powers.length]).map some)) := by
  obtain ⟨e1, e2, e3, e4, e5⟩ := shape_last3 bs a.shape.1 a.shape.2.1 a.shape.2.2
  unfold Args3D.runNd
  rw [hs, if_neg e1, e2, e3, e4, e5]
  simp only
  rw [if_neg (by simp)]
  have hre : X.reshape [none, some a.shape.1, some a.shape.2.1, some a.shape.2.2] =
      .ok ⟨bs.prod :: [a.shape.1, a.shape.2.1, a.shape.2.2], X.data⟩ :=
    reshape_lead (shape := [a.shape.1, a.shape.2.1, a.shape.2.2]) (by rw [Nd.size, hs, List.prod_append]) (by
      have : [a.shape.1, a.shape.2.1, a.shape.2.2].prod = vol3 a.shape := by simp [vol3, mul_assoc]
      rw [this]; exact hv)
  rw [hre]
  rfl

/-- The rows of one volume, as stacked. -/
theorem stack3_data (p L P : ℕ) (S : List (List (List (List ℝ)))) (one : ℕ → List (List (List ℝ)))
    (h : ∀ i < p, S.map (fun row => row.map fun e => e[i]?) = (one i).map fun row => row.map some) :
    (stack3 p L P S).data = (List.range p).flatMap fun i => (one i).flatten.flatten := by
  unfold stack3
  simp only
  rw [List.flatMap_def, List.flatMap_def]
  congr 1
  apply List.map_congr_left
  intro i hi
  have h := h i (List.mem_range.1 hi)
  have e1 : (S.flatMap fun row => row.flatMap fun e => e.getD i []) =
      ((S.map fun row => row.map fun e => e[i]?).map fun row => (row.map fun o => o.getD []).flatten).flatten := by
    rw [List.flatMap_def, List.map_map]
    congr 1
    apply List.map_congr_left
    intro row _
    simp only [Function.comp, List.map_map, List.flatMap_def]
    congr 1
  rw [e1, h, List.map_map]
  have : ((fun row : List (Option (List ℝ)) => (row.map fun o => o.getD []).flatten) ∘ fun row : List (List ℝ) => row.map some) =
      List.flatten := by
    funext row
    simp [Function.comp_def]
  rw [this, List.flatten_flatten]

theorem flatten3_length {R L P : ℕ} {one : List (List (List ℝ))} (hR : one.length = R)
    (h : ∀ row ∈ one, row.length = L ∧ ∀ e ∈ row, e.length = P) : one.flatten.flatten.length = R * (L * P) := by
  rw [List.flatten_flatten, ← List.flatMap_def, Nd.length_flatMap_unif (m := L * P), hR]
  intro row hrow
  rw [← List.flatMap_id, Nd.length_flatMap_unif (f := id) (m := P) (fun e he => (h row hrow).2 e he), (h row hrow).1]

theorem flatten3_get {L P : ℕ} {one : List (List (List ℝ))}
    (h : ∀ row ∈ one, row.length = L ∧ ∀ e ∈ row, e.length = P) {r l k : ℕ} (hl : l < L) (hk : k < P) :
    one.flatten.flatten[r * (L * P) + (l * P + k)]? = one[r]?.bind fun row => row[l]?.bind fun e => e[k]? := by
  rw [List.flatten_flatten, getElem?_flatten_unif (n := L * P) ?_ (row_lt hl hk), List.getElem?_map]
  · cases ho : one[r]? with
    | none => rfl
    | some row =>
      simp only [Option.map_some, Option.bind_some]
      exact getElem?_flatten_unif (fun e he => (h row (List.mem_of_getElem? ho)).2 e he) hk
  · intro x hx
    obtain ⟨row, hrow, rfl⟩ := List.mem_map.1 hx
    rw [← List.flatMap_id, Nd.length_flatMap_unif (f := id) (m := P) (fun e he => (h row hrow).2 e he), (h row hrow).1]

/-- Number of rows: first-order scales, and pairs of scales when `max_order = 2`. -/
def rows3 (a : Args3D) : ℕ := (a.J + 1) + if a.maxOrder = 2 then a.J * (a.J + 1) / 2 else 0

/-- The result on a non-empty array of volumes: shape, and the data volume by volume. -/
theorem runNd3_ok (a : Args3D) (Y : ℤ → ℕ → ℝ → ℝ → ℂ) (hq : a.powers ≠ []) (hv : 0 < vol3 a.shape) {bs : List ℕ}
    (hbs : 0 < bs.prod) {X : Nd ℝ} (hs : X.shape = bs ++ [a.shape.1, a.shape.2.1, a.shape.2.2]) :
    ∃ S, a.runNd Y X = .ok S ∧ S.shape = bs ++ [rows3 a, a.L + 1, a.powers.length] ∧
      ∀ b i, position bs b = some i → ∃ one, a.run Y (Spec.volume X a.shape b) = .ok one ∧
        one.length = rows3 a ∧ (∀ row ∈ one, row.length = a.L + 1 ∧ ∀ e ∈ row, e.length = a.powers.length) ∧
        block (rows3 a * ((a.L + 1) * a.powers.length)) i S.data = one.flatten.flatten := by
  have hlen : (volumes bs.prod a.shape X.data).length = bs.prod := by simp [volumes]
  have h0 : volumes bs.prod a.shape X.data ≠ [] := by
    intro h; rw [h] at hlen; simp at hlen; omega
  have hx : ∀ x ∈ volumes bs.prod a.shape X.data, x.shape = a.shape := by
    intro x hx
    obtain ⟨i, -, rfl⟩ := List.mem_map.1 hx
    rfl
  obtain ⟨out, hout, hone⟩ := C66_batch a Y hq _ h0 hx
  have hL := C45_layout_partial a Y hq
  have hrun : ∀ i < bs.prod, ∃ one, a.run Y ((volumes bs.prod a.shape X.data).getD i ⟨a.shape, fun _ => 0⟩) = .ok one ∧
      out.map (fun row => row.map fun e => e[i]?) = one.map fun row => row.map some := by
    intro i hi
    refine hone i _ ?_
    rw [List.getD_eq_getElem?_getD, List.getElem?_eq_getElem (by rw [hlen]; exact hi)]
    rfl
  let one : ℕ → List (List (List ℝ)) := fun i => if hi : i < bs.prod then (hrun i hi).choose else []
  have hone1 : ∀ i < bs.prod, a.run Y ((volumes bs.prod a.shape X.data).getD i ⟨a.shape, fun _ => 0⟩) = .ok (one i) ∧
      out.map (fun row => row.map fun e => e[i]?) = (one i).map fun row => row.map some := by
    intro i hi
    simp only [one, dif_pos hi]
    exact (hrun i hi).choose_spec
  have hlay : ∀ i < bs.prod, (one i).length = rows3 a ∧
      ∀ row ∈ one i, row.length = a.L + 1 ∧ ∀ e ∈ row, e.length = a.powers.length := by
    intro i hi
    obtain ⟨o, ho, h1, h2⟩ := C45_layout_partial a Y hq ((volumes bs.prod a.shape X.data).getD i ⟨a.shape, fun _ => 0⟩) (by
      rw [List.getD_eq_getElem?_getD, List.getElem?_eq_getElem (by rw [hlen]; exact hi)]
      exact hx _ (List.getElem_mem _))
    rw [(hone1 i hi).1] at ho
    obtain rfl := Except.ok.inj ho
    exact ⟨h1, h2⟩
  have hol : out.length = rows3 a := by
    have := congrArg List.length (hone1 0 hbs).2
    rw [List.length_map, List.length_map, (hlay 0 hbs).1] at this
    exact this
  have hdata := stack3_data bs.prod a.L a.powers.length out one fun i hi => (hone1 i hi).2
  refine ⟨⟨bs ++ [out.length, a.L + 1, a.powers.length], (stack3 bs.prod a.L a.powers.length out).data⟩, ?_, by rw [hol], ?_⟩
  · rw [runNd3_eq a Y hs hv, hout]
    show Nd.reshape _ _ = _
    rw [Nd.reshape_some]
    rw [Nd.size]
    simp [stack3]
  · intro b i hb
    have hi := position_lt hb
    have hvol := volume_eq hs hb
    obtain ⟨o1, o2⟩ := hlay i hi
    refine ⟨one i, ?_, o1, o2, ?_⟩
    · rw [← (hone1 i hi).1, List.getD_eq_getElem?_getD, hvol]
      rfl
    · simp only
      rw [hdata]
      exact Nd.block_flatMap (fun k hk => flatten3_length (hlay k (List.mem_range.1 hk)).1 (hlay k (List.mem_range.1 hk)).2)
        (by rw [List.getElem?_range hi])

/-- **3-D batch independence for arrays of any shape.**  Every array `X` of shape `bs + shape` holding at least one volume is
transformed; the result has shape `bs + (rows, L + 1, powers)`, and its entry at `b + (r, l, k)` is entry `(r, l, k)`
of the scattering of the volume `X[b]` alone. -/
theorem C22_3d_array (a : Args3D) (Y : ℤ → ℕ → ℝ → ℝ → ℂ) (hq : a.powers ≠ []) (hv : 0 < vol3 a.shape) (bs : List ℕ)
    (hbs : 0 < bs.prod) (X : Nd ℝ) (hs : X.shape = bs ++ [a.shape.1, a.shape.2.1, a.shape.2.2]) :
    ∃ S, a.runNd Y X = .ok S ∧
      S.shape = bs ++ [(a.J + 1) + (if a.maxOrder = 2 then a.J * (a.J + 1) / 2 else 0), a.L + 1, a.powers.length] ∧
      ∀ b i, position bs b = some i → ∃ one, a.run Y (Spec.volume X a.shape b) = .ok one ∧
        ∀ r l k, entry S (b ++ [r, l, k]) = one[r]?.bind fun row => row[l]?.bind fun e => e[k]? := by
  obtain ⟨S, hS, hsh, h⟩ := runNd3_ok a Y hq hv hbs hs
  refine ⟨S, hS, hsh, fun b i hb => ?_⟩
  obtain ⟨one, hone, h1, h2, hblk⟩ := h b i hb
  refine ⟨one, hone, fun r l k => ?_⟩
  unfold entry
  rw [hsh, position_append hb, position_three]
  by_cases hc : r < rows3 a ∧ l < a.L + 1 ∧ k < a.powers.length
  · obtain ⟨c1, c2, c3⟩ := hc
    rw [if_pos ⟨c1, c2, c3⟩, ← flatten3_get h2 c2 c3, ← hblk, Nd.getElem?_block, if_pos (row_lt c1 (row_lt c2 c3))]
    simp
  · rw [if_neg hc]
    simp only [Option.map_none, Option.bind_none]
    cases hr : one[r]? with
    | none => rfl
    | some row =>
      have hrl : r < rows3 a := by rw [← h1]; exact (List.getElem?_eq_some_iff.1 hr).1
      obtain ⟨g1, g2⟩ := h2 row (List.mem_of_getElem? hr)
      simp only [Option.bind_some]
      cases hl : row[l]? with
      | none => rfl
      | some e =>
        have hll : l < a.L + 1 := by rw [← g1]; exact (List.getElem?_eq_some_iff.1 hl).1
        have := g2 e (List.mem_of_getElem? hl)
        simp only [Option.bind_some]
        rw [List.getElem?_eq_none]
        rw [this]
        by_contra hk
        exact hc ⟨hrl, hll, by omega⟩

/-- An array without volumes, or whose last three sides differ from `shape`, is refused. -/
theorem C22_3d_rejects (a : Args3D) (Y : ℤ → ℕ → ℝ → ℝ → ℂ) (hv : 0 < vol3 a.shape) (X : Nd ℝ) :
    (∀ bs, X.shape = bs ++ [a.shape.1, a.shape.2.1, a.shape.2.2] → bs.prod = 0 → a.runNd Y X = .error .value) ∧
    ((¬ ∃ bs, X.shape = bs ++ [a.shape.1, a.shape.2.1, a.shape.2.2]) → a.runNd Y X = .error .runtime) := by
  constructor
  · intro bs hs h0
    rw [runNd3_eq a Y hs hv, h0]
    have : volumes 0 a.shape X.data = [] := rfl
    rw [this, C66_empty]
    rfl
  · intro h
    unfold Args3D.runNd
    split
    · rfl
    · rename_i hl
      simp only
      split
      · rfl
      · rename_i hc
        push Not at hc
        refine absurd ⟨X.shape.take (X.shape.length - 3), ?_⟩ h
        rw [← hc.1, ← hc.2.1, ← hc.2.2]
        conv_lhs => rw [← List.take_append_drop (X.shape.length - 3) X.shape]
        congr 1
        apply List.ext_getElem?
        intro n
        rw [List.getElem?_drop]
        simp only [List.getD_eq_getElem?_getD]
        match n with
        | 0 => rw [Nat.add_zero, List.getElem?_eq_getElem (by omega)]; simp
        | 1 =>
          rw [show X.shape.length - 3 + 1 = X.shape.length - 2 by omega, List.getElem?_eq_getElem (by omega)]; simp
        | 2 =>
          rw [show X.shape.length - 3 + 2 = X.shape.length - 1 by omega, List.getElem?_eq_getElem (by omega)]; simp
        | n + 3 => rw [List.getElem?_eq_none (by omega)]; simp

/-- **The 3-D scikit-learn transformer, non-empty batch**: it returns, and the entry at `b + (k,)` is entry `k` of the
flattened scattering of the volume whose entries are the flattened sample `X[b]`. -/
theorem C52_3d_predict_partial (a : Args3D) (Y : ℤ → ℕ → ℝ → ℝ → ℂ) (hq : a.powers ≠ []) (hv : 0 < vol3 a.shape)
    (bs : List ℕ) (hbs : 0 < bs.prod) (X : Nd ℝ) (hs : X.shape = bs ++ [vol3 a.shape]) :
    ∃ P, a.predict Y X = .ok P ∧
      P.shape = bs ++ [((a.J + 1) + (if a.maxOrder = 2 then a.J * (a.J + 1) / 2 else 0)) * ((a.L + 1) * a.powers.length)] ∧
      ∀ b i, position bs b = some i → ∃ one,
        a.run Y (Spec.unflatten3 a.shape (Spec.signal X (vol3 a.shape) b)) = .ok one ∧
        ∀ k, entry P (b ++ [k]) = one.flatten.flatten[k]? := by
  have hprod : [a.shape.1, a.shape.2.1, a.shape.2.2].prod = vol3 a.shape := by simp [vol3, mul_assoc]
  have hre : X.reshape (none :: [a.shape.1, a.shape.2.1, a.shape.2.2].map some) =
      .ok ⟨bs.prod :: [a.shape.1, a.shape.2.1, a.shape.2.2], X.data⟩ :=
    reshape_samples (by rw [hprod]; exact hs) (by rw [hprod]; exact hv)
  obtain ⟨S, hS, hsh, h⟩ := runNd3_ok a Y hq hv (bs := [bs.prod]) (by simpa using hbs)
    (X := ⟨bs.prod :: [a.shape.1, a.shape.2.1, a.shape.2.2], X.data⟩) rfl
  have hfl := reshape_flat (S := S) (osh := [rows3 a, a.L + 1, a.powers.length]) (bs := bs) hsh hbs
  have hprod3 : [rows3 a, a.L + 1, a.powers.length].prod = rows3 a * ((a.L + 1) * a.powers.length) := by simp
  rw [hprod3] at hfl
  refine ⟨⟨bs ++ [rows3 a * ((a.L + 1) * a.powers.length)], S.data⟩, ?_, rfl, ?_⟩
  · unfold Args3D.predict sklearnPredict
    rw [hre]
    simp only [bind, Except.bind]
    rw [hS]
    simp only
    rw [hs, List.dropLast_concat]
    exact hfl
  · intro b i hb
    have hi := position_lt hb
    obtain ⟨one, hone, -, -, hblk⟩ := h [i] i (by rw [position_one, if_pos hi])
    refine ⟨one, ?_, fun k => ?_⟩
    · rw [← hone]
      congr 1
      unfold Spec.unflatten3 Spec.volume
      apply Vol.tab_congr
      intro u hu
      obtain ⟨h1, h2, h3⟩ := mem_box3.1 hu
      have hk : (u.1 * a.shape.2.1 + u.2.1) * a.shape.2.2 + u.2.2 < vol3 a.shape := row_lt (row_lt h1 h2) h3
      rw [List.getD_eq_getElem?_getD, Spec.signal, Nd.getElem?_tab, if_pos hk]
      simp only [Option.getD_some]
      unfold entry
      rw [hs, position_append hb, position_one, if_pos hk]
      rw [show (bs.prod :: [a.shape.1, a.shape.2.1, a.shape.2.2] : List ℕ) = [bs.prod] ++ [a.shape.1, a.shape.2.1, a.shape.2.2]
        from rfl, position_append (ix := [i]) (k := i) (by rw [position_one, if_pos hi]), position_three,
        if_pos ⟨h1, h2, h3⟩]
      simp only [Option.map_some, Option.bind_some, List.prod_cons, List.prod_nil, mul_one, vol3]
      congr 2
      ring
    · rw [entry_row (n := rows3 a * ((a.L + 1) * a.powers.length)) rfl hb, hblk]

/-- **Violated on an empty batch**, as in one and two dimensions. -/
theorem C52_3d_empty_violated (a : Args3D) (Y : ℤ → ℕ → ℝ → ℝ → ℂ) (X P : Nd ℝ) (bs : List ℕ) (k : ℕ)
    (hs : X.shape = bs ++ [k]) (hbs : bs.prod = 0) : a.predict Y X ≠ .ok P := by
  intro h
  unfold Args3D.predict sklearnPredict at h
  obtain ⟨Z, -, h⟩ := bind_eq_ok.1 h
  obtain ⟨W, -, h⟩ := bind_eq_ok.1 h
  rw [hs, List.dropLast_concat, reshape_flat_empty hbs] at h
  cases h

/-! ### Concrete cases -/

/-- A batch of six volumes arranged as `(2, 3)`. -/
example (Y : ℤ → ℕ → ℝ → ℝ → ℂ) (d : List ℝ) : ∃ S, ex3.runNd Y ⟨[2, 3, 4, 2, 6], d⟩ = .ok S ∧
    S.shape = [2, 3, 3, 2, 2] := by
  obtain ⟨S, h1, h2, -⟩ := C22_3d_array ex3 Y (by simp [ex3]) (by decide) [2, 3] (by decide) ⟨[2, 3, 4, 2, 6], d⟩ rfl
  exact ⟨S, h1, h2⟩

example (Y : ℤ → ℕ → ℝ → ℝ → ℂ) : ex3.runNd Y ⟨[2, 0, 4, 2, 6], []⟩ = .error .value :=
  (C22_3d_rejects ex3 Y (by decide) _).1 [2, 0] rfl rfl

/-- Six flattened volumes. -/
example (Y : ℤ → ℕ → ℝ → ℝ → ℂ) (d : List ℝ) : ∃ P, ex3.predict Y ⟨[2, 3, 48], d⟩ = .ok P ∧ P.shape = [2, 3, 12] := by
  obtain ⟨P, h1, h2, -⟩ := C52_3d_predict_partial ex3 Y (by simp [ex3]) (by decide) [2, 3] (by decide) ⟨[2, 3, 48], d⟩ rfl
  exact ⟨P, h1, h2⟩

end Verif
