import Verif.Model.NdArray
import Verif.Lemmas.Front1D
import Verif.Lemmas.Backend1D
import Verif.Lemmas.Py

/-!
# Rows of arrays
-/

namespace Verif

namespace Nd

variable {α β : Type}

theorem getElem?_block (n i t : Nat) (l : List α) :
    (block n i l)[t]? = if t < n then l[i * n + t]? else none := by
  unfold block
  rw [List.getElem?_take]
  split
  · rw [List.getElem?_drop]
  · rfl

theorem length_block {n i B : Nat} {l : List α} (hl : l.length = B * n) (hi : i < B) :
    (block n i l).length = n := by
  unfold block
  rw [List.length_take, List.length_drop, hl]
  have : (i + 1) * n ≤ B * n := Nat.mul_le_mul_right n hi
  have h2 : (i + 1) * n = i * n + n := by ring
  omega

theorem length_flatMap_unif {f : α → List β} {L : List α} {m : Nat} (h : ∀ a ∈ L, (f a).length = m) :
    (L.flatMap f).length = L.length * m := by
  induction L with
  | nil => simp
  | cons a L ih =>
    rw [List.flatMap_cons, List.length_append, ih fun b hb => h b (by simp [hb]), h a (by simp),
      List.length_cons]
    ring

theorem block_flatMap {f : α → List β} {L : List α} {m : Nat} (h : ∀ a ∈ L, (f a).length = m) {i : Nat}
    {a : α} (ha : L[i]? = some a) : block m i (L.flatMap f) = f a := by
  induction L generalizing i with
  | nil => simp at ha
  | cons b L ih =>
    have hb := h b (by simp)
    have hL : ∀ a ∈ L, (f a).length = m := fun c hc => h c (by simp [hc])
    cases i with
    | zero =>
      simp only [List.getElem?_cons_zero, Option.some.injEq] at ha
      subst ha
      unfold block
      rw [Nat.zero_mul, List.drop_zero, List.flatMap_cons, ← hb, List.take_left']
      rfl
    | succ i =>
      simp only [List.getElem?_cons_succ] at ha
      rw [← ih hL ha]
      unfold block
      rw [List.flatMap_cons, show (i + 1) * m = m + i * m by ring, ← List.drop_drop]
      congr 2
      rw [← hb, List.drop_left']
      rfl

theorem getElem?_tab (n : Nat) (f : Nat → α) (i : Nat) :
    (tab n f)[i]? = if i < n then some (f i) else none := by
  unfold tab
  rw [List.getElem?_map]
  split
  · rename_i h
    rw [List.getElem?_range h]; rfl
  · rename_i h
    rw [List.getElem?_eq_none (by simpa using h)]; rfl

/-- `X` is an array of shape `bs + (len(y),)` whose row number `i` (if there is one) is `y`. -/
def Row (X : Nd α) (bs : List Nat) (i : Nat) (y : List α) : Prop :=
  X.shape = bs ++ [y.length] ∧ X.data.length = bs.prod * y.length ∧
    (i < bs.prod → block y.length i X.data = y)

namespace Row

variable {X : Nd α} {bs : List Nat} {i : Nat} {y : List α}

theorem last_eq (h : Row X bs i y) : X.last = y.length := by
  simp [last, h.1]

theorem dropLast_eq (h : Row X bs i y) : X.shape.dropLast = bs := by
  rw [h.1, List.dropLast_concat]

theorem outer_eq (h : Row X bs i y) : X.outer = bs.prod := by
  rw [outer, h.dropLast_eq]

theorem size_eq (h : Row X bs i y) : X.size = bs.prod * y.length := by
  rw [size, h.1, List.prod_append, List.prod_singleton]

theorem length_rows (h : Row X bs i y) : X.rows.length = bs.prod := by
  rw [rows, length_tab, h.outer_eq]

theorem rows_len (h : Row X bs i y) : ∀ a ∈ X.rows, a.length = y.length := by
  intro a ha
  rw [rows, h.outer_eq, h.last_eq] at ha
  obtain ⟨j, hj, rfl⟩ := List.mem_map.1 ha
  exact length_block h.2.1 (List.mem_range.1 hj)

theorem rows_get (h : Row X bs i y) (hi : i < bs.prod) : X.rows[i]? = some y := by
  rw [rows, getElem?_tab, h.outer_eq, if_pos hi, h.last_eq, h.2.2 hi]

/-- Operations along the last axis act row by row. -/
theorem mapLast (h : Row X bs i y) (n : Nat) (f : List α → List β)
    (hf : ∀ z, z.length = y.length → (f z).length = n) : Row (X.mapLast n f) bs i (f y) := by
  have hn : (f y).length = n := hf y rfl
  have hL : ∀ a ∈ X.rows, (f a).length = n := fun a ha => hf a (h.rows_len a ha)
  refine ⟨?_, ?_, ?_⟩
  · simp only [Nd.mapLast, h.dropLast_eq, hn]
  · simp only [Nd.mapLast, hn]
    rw [length_flatMap_unif hL, h.length_rows]
  · intro hi
    simp only [Nd.mapLast, hn]
    exact block_flatMap hL (h.rows_get hi)

theorem map (h : Row X bs i y) (f : α → β) : Row ⟨X.shape, X.data.map f⟩ bs i (y.map f) := by
  refine ⟨?_, ?_, ?_⟩
  · simp only [List.length_map]; exact h.1
  · simp only [List.length_map]; exact h.2.1
  · intro hi
    conv_rhs => rw [← h.2.2 hi]
    simp only [block, List.length_map, List.map_take, List.map_drop]

/-- Changing the leading axes keeps the rows. -/
theorem reshape (h : Row X bs i y) (cs : List Nat) (hp : cs.prod = bs.prod) :
    ∃ Y, X.reshape ((cs ++ [y.length]).map some) = .ok Y ∧ Row Y cs i y := by
  have hc : ((cs ++ [y.length]).map some).count none = 0 := by
    rw [List.count_eq_zero]; simp
  have hf : ((cs ++ [y.length]).map some).filterMap id = cs ++ [y.length] := by
    rw [List.filterMap_map]; simp
  refine ⟨⟨cs ++ [y.length], X.data⟩, ?_, rfl, ?_, ?_⟩
  · unfold Nd.reshape
    rw [hc, hf]
    simp only
    rw [if_pos]
    rw [h.size_eq, List.prod_append, List.prod_singleton, hp]
  · simp only [hp]; exact h.2.1
  · intro hi
    exact h.2.2 (by rw [← hp]; exact hi)

end Row

theorem reshape_some (X : Nd α) (s : List Nat) (h : s.prod = X.size) :
    X.reshape (s.map some) = .ok ⟨s, X.data⟩ := by
  have hc : (s.map some).count none = 0 := by
    rw [List.count_eq_zero]; simp
  have hf : (s.map some).filterMap id = s := by
    rw [List.filterMap_map]; simp
  unfold Nd.reshape
  rw [hc, hf]
  simp only
  rw [if_pos h]

theorem reshape_some_ok {X Y : Nd α} {s : List Nat} (h : X.reshape (s.map some) = .ok Y) :
    s.prod = X.size ∧ Y = ⟨s, X.data⟩ := by
  have hc : (s.map some).count none = 0 := by
    rw [List.count_eq_zero]; simp
  have hf : (s.map some).filterMap id = s := by
    rw [List.filterMap_map]; simp
  unfold Nd.reshape at h
  rw [hc, hf] at h
  simp only at h
  split at h
  · rename_i he
    exact ⟨he, (Except.ok.inj h).symm⟩
  · cases h

/-- Folding the frequency axis (`reshape`, then `mean(axis=-2)`) acts row by row. -/
theorem Row.mean2 {X : Nd ℂ} {bs : List Nat} {i : Nat} {y : List ℂ} (h : Row X bs i y) (k m : Nat)
    (hkm : k * m = y.length) :
    Row (Nd.mean2 ⟨bs ++ [k, m], X.data⟩ bs k m) bs i
      (tab m fun j => (∑ q ∈ Finset.range k, y.getD (q * m + j) 0) / k) := by
  have hL : ∀ o ∈ List.range bs.prod, (tab m fun j =>
      (∑ q ∈ Finset.range k, X.data.getD (o * (k * m) + (q * m + j)) 0) / (k : ℂ)).length = m :=
    fun o _ => length_tab _ _
  refine ⟨?_, ?_, ?_⟩
  · simp only [Nd.mean2, length_tab]
  · simp only [Nd.mean2, length_tab]
    rw [length_flatMap_unif hL, List.length_range]
  · intro hi
    simp only [Nd.mean2, length_tab]
    rw [block_flatMap hL (List.getElem?_range hi)]
    unfold tab
    apply List.map_congr_left
    intro j hj
    have hj := List.mem_range.1 hj
    congr 1
    apply Finset.sum_congr rfl
    intro q hq
    have hq := Finset.mem_range.1 hq
    have hlt : q * m + j < y.length := by
      rw [← hkm]
      have : (q + 1) * m ≤ k * m := Nat.mul_le_mul_right m hq
      have h2 : (q + 1) * m = q * m + m := by ring
      omega
    have := congrArg (fun l => l[q * m + j]?) (h.2.2 hi)
    simp only [getElem?_block, if_pos hlt] at this
    rw [List.getD_eq_getElem?_getD, List.getD_eq_getElem?_getD, hkm, this]

end Nd

open Nd (Row)

/-- The product with a filter acts row by row, whatever the leading axes. -/
theorem nd_cdgmm {X : Nd ℂ} {bs : List Nat} {i : Nat} {y u : List ℂ} (h : Row X bs i y) (f : List ℝ)
    (hu : npCdgmm y f = .ok u) : ∃ Z, ndBackend.cdgmm X f = .ok Z ∧ Row Z bs i u := by
  unfold npCdgmm at hu
  split at hu
  · cases hu
  · rename_i hl
    push Not at hl
    obtain rfl := Except.ok.inj hu
    refine ⟨_, if_neg (by rw [h.last_eq]; exact not_not.2 hl), ?_⟩
    exact h.mapLast _ _ fun z hz => by rw [List.length_zipWith, hz, hl, min_self, h.last_eq, hl]

theorem nd_cdgmm_ok {X : Nd ℂ} {bs : List Nat} {i : Nat} {y : List ℂ} (h : Row X bs i y) (f : List ℝ)
    {Z : Nd ℂ} (hZ : ndBackend.cdgmm X f = .ok Z) : ∃ u, npCdgmm y f = .ok u := by
  unfold npCdgmm
  split
  · rename_i hl
    have : ndBackend.cdgmm X f = .error .runtime := if_pos (by rw [h.last_eq]; exact hl)
    rw [this] at hZ
    cases hZ
  · exact ⟨_, rfl⟩

theorem nd_subsample {X : Nd ℂ} {bs : List Nat} {i : Nat} {y u : List ℂ} (h : Row X bs i y) (e : Nat)
    (hu : npSubsampleFourier y (2 ^ e) = .ok u) : ∃ Z, ndBackend.subsample X e = .ok Z ∧ Row Z bs i u := by
  unfold npSubsampleFourier at hu
  rw [if_neg (by positivity)] at hu
  split at hu
  · cases hu
  · rename_i hk
    push Not at hk
    have hu := (Except.ok.inj hu).symm
    have hr := Nd.reshape_some X (bs ++ [2 ^ e, y.length / 2 ^ e]) (by
      rw [h.size_eq, List.prod_append, List.prod_cons, List.prod_singleton, hk])
    refine ⟨Nd.mean2 ⟨bs ++ [2 ^ e, y.length / 2 ^ e], X.data⟩ bs (2 ^ e) (y.length / 2 ^ e), ?_, ?_⟩
    rotate_left
    · rw [hu]
      exact h.mean2 (2 ^ e) (y.length / 2 ^ e) hk
    · show (X.reshape _ >>= _) = _
      simp only [h.dropLast_eq, h.last_eq]
      rw [show bs.map some ++ [some (2 ^ e), some (y.length / 2 ^ e)] =
        (bs ++ [2 ^ e, y.length / 2 ^ e]).map some by simp, hr]
      rfl

/-- The converse, for a row that exists. -/
theorem nd_subsample_ok {X : Nd ℂ} {bs : List Nat} {i : Nat} {y : List ℂ} (h : Row X bs i y)
    (hi : 0 < bs.prod) (e : Nat) {Z : Nd ℂ} (hZ : ndBackend.subsample X e = .ok Z) :
    ∃ u, npSubsampleFourier y (2 ^ e) = .ok u := by
  obtain ⟨Y, hY, -⟩ := bind_eq_ok.1 hZ
  rw [h.dropLast_eq, h.last_eq, show bs.map some ++ [some (2 ^ e), some (y.length / 2 ^ e)] =
        (bs ++ [2 ^ e, y.length / 2 ^ e]).map some by simp] at hY
  have := (Nd.reshape_some_ok hY).1
  rw [h.size_eq, List.prod_append, List.prod_cons, List.prod_singleton] at this
  unfold npSubsampleFourier
  rw [if_neg (by positivity), if_neg (not_not.2 (Nat.eq_of_mul_eq_mul_left hi this))]
  exact ⟨_, rfl⟩

/-- One signal and a row of an array. -/
noncomputable def ndRel (bs : List Nat) (i : Nat) : BackendRel npBackend ndBackend where
  rR _ _ x X := Row X bs i x
  rC _ _ x X := Row X bs i x
  rZ _ _ x X := Row X bs i x
  rF _ f g := g = f
  rfft _ _ x X h := Sim.ok (h.mapLast _ _ fun z hz => by rw [length_npRfft, hz, h.last_eq])
  ifft _ _ x X h := Sim.ok (h.mapLast _ _ fun z hz => by rw [length_idft, hz, h.last_eq])
  irfft _ _ x X h := Sim.ok (h.mapLast _ _ fun z hz => by rw [length_npIrfft, hz, h.last_eq])
  modulus _ _ x X h := Sim.ok (h.map _)
  cdgmm _ _ x X f g h hfg := by
    subst hfg
    exact fun u hu => nd_cdgmm h g hu
  subsample _ _ x X e h := fun u hu => nd_subsample h e hu

/-- The same, from the array to one of its rows. -/
noncomputable def ndRelRev (bs : List Nat) (i : Nat) (hi : i < bs.prod) : BackendRel ndBackend npBackend where
  rR _ _ X x := Row X bs i x
  rC _ _ X x := Row X bs i x
  rZ _ _ X x := Row X bs i x
  rF _ f g := g = f
  rfft _ _ X x h := Sim.ok (h.mapLast _ _ fun z hz => by rw [length_npRfft, hz, h.last_eq])
  ifft _ _ X x h := Sim.ok (h.mapLast _ _ fun z hz => by rw [length_idft, hz, h.last_eq])
  irfft _ _ X x h := Sim.ok (h.mapLast _ _ fun z hz => by rw [length_npIrfft, hz, h.last_eq])
  modulus _ _ X x h := Sim.ok (h.map _)
  cdgmm _ _ X x f g h hfg := by
    subst hfg
    intro U hU
    obtain ⟨u, hu⟩ := nd_cdgmm_ok h g hU
    obtain ⟨Z, hZ, hr⟩ := nd_cdgmm h g hu
    rw [hU] at hZ
    obtain rfl := Except.ok.inj hZ
    exact ⟨u, hu, hr⟩
  subsample _ _ X x e h := fun U hU => by
    obtain ⟨u, hu⟩ := nd_subsample_ok h (by omega) e hU
    obtain ⟨Z, hZ, hr⟩ := nd_subsample h e hu
    rw [hU] at hZ
    obtain rfl := Except.ok.inj hZ
    exact ⟨u, hu, hr⟩

namespace NdFront

/-- `pad` row by row. -/
theorem pad_row {X : Nd ℝ} {bs : List Nat} {i : Nat} {x : List ℝ} (h : Row X bs i x) (l r : Nat) :
    Sim (fun u U => Row U bs i u) (npPad x l r) (pad X l r) := by
  unfold npPad pad
  rw [h.last_eq]
  split
  · exact Sim.error
  · refine Sim.ok ?_
    exact h.mapLast (l + x.length + r)
      (fun a => tab (l + x.length + r) fun i => a.getD (reflectIndex x.length l i) 0) fun z hz => length_tab _ _

theorem pad_row_rev {X : Nd ℝ} {bs : List Nat} {i : Nat} {x : List ℝ} (h : Row X bs i x) (l r : Nat) :
    Sim (fun U u => Row U bs i u) (pad X l r) (npPad x l r) := by
  unfold npPad pad
  rw [h.last_eq]
  split
  · exact Sim.error
  · refine Sim.ok ?_
    exact h.mapLast (l + x.length + r)
      (fun a => tab (l + x.length + r) fun i => a.getD (reflectIndex x.length l i) 0) fun z hz => length_tab _ _

theorem unpad_row {X : Nd ℝ} {bs : List Nat} {i : Nat} {x : List ℝ} (h : Row X bs i x) (i0 i1 : Nat) :
    Row (unpad X i0 i1) bs i (npUnpad x i0 i1) := by
  unfold unpad
  refine h.mapLast _ _ fun z hz => ?_
  rw [h.last_eq, npUnpad, List.length_drop, List.length_take, hz]

theorem averageGlobal_row {X : Nd ℝ} {bs : List Nat} {i : Nat} {x : List ℝ} (h : Row X bs i x) :
    Row (averageGlobal X) bs i (npAverageGlobal x) :=
  h.mapLast _ _ fun _ _ => rfl

theorem reshapeOutput_row {X : Nd ℝ} {bs cs : List Nat} {i : Nat} {x : List ℝ} (h : Row X bs i x)
    (hp : cs.prod = bs.prod) : ∃ Y, reshapeOutput X cs 1 = .ok Y ∧ Row Y cs i x := by
  unfold reshapeOutput
  have : X.shape.drop (X.shape.length - 1) = [x.length] := by
    rw [h.1, List.length_append, List.length_singleton, Nat.add_sub_cancel, List.drop_left']
    rfl
  rw [this]
  exact h.reshape cs hp

theorem reshapeInput_row {X : Nd ℝ} {bs : List Nat} {i : Nat} {x : List ℝ} (h : Row X bs i x)
    (hx : 0 < x.length) : ∃ Y, reshapeInput X [X.last] = .ok Y ∧ Row Y [bs.prod, 1] i x := by
  refine ⟨⟨[bs.prod, 1, x.length], X.data⟩, ?_, rfl, ?_, ?_⟩
  · unfold reshapeInput Nd.reshape
    rw [h.last_eq]
    have hk : ([none, some 1, some x.length].filterMap id : List Nat).prod = x.length := by simp
    have hc : ([none, some 1, some x.length] : List (Option Nat)).count none = 1 := by
      rw [List.count_cons_self, List.count_eq_zero.2 (by simp)]
    simp only [List.map_cons, List.map_nil]
    rw [hc, hk]
    simp only
    have hs : X.size = bs.prod * x.length := h.size_eq
    rw [if_neg, hs]
    · simp only [Option.getD_none, Option.getD_some]
      rw [Nat.mul_div_cancel _ hx]
    · rw [hs]
      push Not
      exact ⟨by omega, Nat.mul_mod_left _ _⟩
  · simpa using h.2.1
  · intro hi
    exact h.2.2 (by simpa using hi)

/-- Post-processing, row by row. -/
theorem post_row {o : Obj1D (List ℝ)} {ls : Nat} {bs : List Nat} {i : Nat} {p : Path (List ℝ)} {q : Path (Nd ℝ)}
    (hj : p.j = q.j) (hn : p.n = q.n) (h : Row q.coef [bs.prod, 1] i p.coef) :
    Sim (fun (p : Path (List ℝ)) (q : Path (Nd ℝ)) => p.n = q.n ∧ p.j = q.j ∧ Row q.coef bs i p.coef)
      (Front1D.post npFront o ls p) (post o ls bs q) := by
  have hres : Front1D.resolution o ls p = Front1D.resolution o ls q := by
    unfold Front1D.resolution
    rw [hj, hn]
  have hp : bs.prod = [bs.prod, 1].prod := by simp
  unfold Front1D.post post
  rw [hres]
  refine Sim.bind (Front1D.sim_self _) ?_
  rintro res _ rfl
  split
  · obtain ⟨Y, hY, hr⟩ := reshapeOutput_row (averageGlobal_row h) hp
    intro z hz
    obtain rfl := Except.ok.inj hz
    refine ⟨{ q with coef := Y }, ?_, hn, hj, hr⟩
    simp only [bind, Except.bind, hY]
  · intro z hz
    obtain ⟨i0, hi0, hz⟩ := bind_eq_ok.1 hz
    obtain ⟨i1, hi1, hz⟩ := bind_eq_ok.1 hz
    obtain rfl := Except.ok.inj hz
    obtain ⟨Y, hY, hr⟩ := reshapeOutput_row (unpad_row h i0 i1) hp
    refine ⟨{ q with coef := Y }, ?_, hn, hj, hr⟩
    simp only [bind, Except.bind, hi0, hi1, hY]

theorem post_row_rev {o : Obj1D (List ℝ)} {ls : Nat} {bs : List Nat} {i : Nat} {p : Path (List ℝ)}
    {q : Path (Nd ℝ)} (hj : p.j = q.j) (hn : p.n = q.n) (h : Row q.coef [bs.prod, 1] i p.coef) :
    Sim (fun (q : Path (Nd ℝ)) (p : Path (List ℝ)) => p.n = q.n ∧ p.j = q.j ∧ Row q.coef bs i p.coef)
      (post o ls bs q) (Front1D.post npFront o ls p) := by
  intro z hz
  have hres : Front1D.resolution o ls p = Front1D.resolution o ls q := by
    unfold Front1D.resolution
    rw [hj, hn]
  have hok : ∃ w, Front1D.post npFront o ls p = .ok w := by
    unfold post at hz
    obtain ⟨res, h1, hz⟩ := bind_eq_ok.1 hz
    obtain ⟨c, h2, -⟩ := bind_eq_ok.1 hz
    unfold Front1D.post
    rw [hres, h1]
    split at h2
    · rename_i hg
      exact ⟨{ p with coef := npFront.averageGlobal p.coef }, by simp only [bind, Except.bind, if_pos hg]⟩
    · rename_i hg
      obtain ⟨i0, hi0, h2⟩ := bind_eq_ok.1 h2
      obtain ⟨i1, hi1, h2⟩ := bind_eq_ok.1 h2
      exact ⟨{ p with coef := npFront.unpad p.coef i0 i1 }, by
        simp only [bind, Except.bind, if_neg hg, hi0, hi1]⟩
  obtain ⟨w, hw⟩ := hok
  obtain ⟨z', hz', hr⟩ := post_row (o := o) (ls := ls) hj hn h w hw
  rw [hz] at hz'
  obtain rfl := Except.ok.inj hz'
  exact ⟨w, hw, hr⟩

end NdFront

end Verif
