import Verif.Model.NdJTFS
import Verif.Lemmas.RollJTFS
import Verif.Lemmas.TorchJTFS
import Verif.Props.NdArray

/-!
# Blocks of arrays: one signal or stack of a batch, in joint time-frequency scattering
-/

namespace Verif

open Finset

namespace Img

variable {α : Type}

/-- The entries of a stack, row by row. -/
def flat (x : Img α) : List α := (List.range x.h).flatMap x.row

theorem length_flat (x : Img α) : x.flat.length = x.h * x.w := by
  unfold flat
  rw [Nd.length_flatMap_unif (m := x.w) fun r _ => x.length_row r, List.length_range]

theorem block_flat (x : Img α) {r : Nat} (hr : r < x.h) : Nd.block x.w r x.flat = x.row r := by
  unfold flat
  exact Nd.block_flatMap (fun r _ => x.length_row r) (List.getElem?_range hr)

end Img

namespace Nd

variable {α β : Type}

theorem block_block {n m i j : Nat} (hj : j < m) (l : List α) :
    block n (i * m + j) l = block n j (block (m * n) i l) := by
  apply List.ext_getElem?
  intro t
  rw [getElem?_block, getElem?_block, getElem?_block]
  split
  · rename_i ht
    have h2 : j * n + t < m * n := by
      have h3 : (j + 1) * n ≤ m * n := Nat.mul_le_mul_right _ hj
      have h4 : (j + 1) * n = j * n + n := by ring
      omega
    rw [if_pos h2]
    congr 1
    ring
  · rfl

/-- A list is the concatenation of its blocks. -/
theorem flatMap_block {h w : Nat} {l : List α} (hl : l.length = h * w) :
    ((List.range h).flatMap fun r => block w r l) = l := by
  have hb : ∀ r ∈ (List.range h).map fun r => block w r l, r.length = w := by
    intro r hr
    obtain ⟨q, hq, rfl⟩ := List.mem_map.1 hr
    exact length_block hl (List.mem_range.1 hq)
  have hlen : ((List.range h).flatMap fun r => block w r l).length = h * w := by
    rw [length_flatMap_unif (m := w) fun r hr => hb _ (List.mem_map_of_mem hr), List.length_range]
  apply List.ext_getElem?
  intro n
  by_cases hn : n < h * w
  · have hw : 0 < w := Nat.pos_of_ne_zero (by rintro rfl; simp at hn)
    have hq : n / w < h := Nat.div_lt_of_lt_mul (by rw [mul_comm]; exact hn)
    have e : n / w * w + n % w = n := Nat.div_add_mod' n w
    rw [List.flatMap_def, ← e, NdFront.getElem?_flatten_unif hb (Nat.mod_lt n hw), List.getElem?_map,
      List.getElem?_range hq]
    simp only [Option.map_some, Option.bind_some, getElem?_block, if_pos (Nat.mod_lt n hw)]
  · rw [List.getElem?_eq_none (by omega), List.getElem?_eq_none (by omega)]

/-- `X` is an array of shape `bs + ss` whose block number `i` (if there is one) is `y`. -/
def Blk (X : Nd α) (bs ss : List Nat) (i : Nat) (y : List α) : Prop :=
  X.shape = bs ++ ss ∧ X.data.length = bs.prod * ss.prod ∧ (i < bs.prod → block ss.prod i X.data = y)

theorem row_iff_blk {X : Nd α} {bs : List Nat} {i : Nat} {y : List α} :
    Row X bs i y ↔ Blk X bs [y.length] i y := by
  simp [Row, Blk]

/-- `X` is an array of shape `bs + (h, w)` whose stack number `k` is `x`. -/
def Stk (X : Nd α) (bs : List Nat) (k : Nat) (x : Img α) : Prop := Blk X bs [x.h, x.w] k x.flat

/-- The number of row `r` of stack `k` among all rows. -/
def rowIdx (bs : List Nat) (h k r : Nat) : Nat := if r < h then k * h + r else bs.prod * h

namespace Stk

variable {X : Nd α} {bs : List Nat} {k : Nat} {x : Img α}

theorem row (h : Stk X bs k x) (r : Nat) : Row X (bs ++ [x.h]) (rowIdx bs x.h k r) (x.row r) := by
  obtain ⟨h1, h2, h3⟩ := h
  refine ⟨by rw [h1]; simp, by rw [h2]; simp [mul_assoc], fun hi => ?_⟩
  rw [List.prod_append, List.prod_singleton] at hi
  unfold rowIdx at hi ⊢
  split at hi
  · rename_i hr
    rw [if_pos hr]
    have hk : k < bs.prod := by
      by_contra hk
      have : bs.prod * x.h ≤ k * x.h := Nat.mul_le_mul_right _ (by omega)
      omega
    have h3 := h3 hk
    rw [Img.length_row, block_block hr, show x.h * x.w = ([x.h, x.w] : List Nat).prod by simp, h3,
      Img.block_flat x hr]
  · exact absurd hi (lt_irrefl _)

theorem mk' (h : ∀ r, Row X (bs ++ [x.h]) (rowIdx bs x.h k r) (x.row r)) : Stk X bs k x := by
  obtain ⟨h1, h2, -⟩ := h 0
  rw [Img.length_row] at h1 h2
  refine ⟨by rw [h1]; simp, by rw [h2]; simp [mul_assoc], fun hk => ?_⟩
  have e : ([x.h, x.w] : List Nat).prod = x.h * x.w := by simp
  rw [e]
  have hd : X.data.length = bs.prod * (x.h * x.w) := by rw [h2]; simp [mul_assoc]
  rw [← flatMap_block (length_block hd hk)]
  unfold Img.flat
  refine List.flatMap_congr fun r hr => ?_
  have hr := List.mem_range.1 hr
  obtain ⟨-, -, h3⟩ := h r
  rw [rowIdx, if_pos hr, Img.length_row] at h3
  rw [← block_block hr, h3]
  rw [List.prod_append, List.prod_singleton]
  have h4 : (k + 1) * x.h ≤ bs.prod * x.h := Nat.mul_le_mul_right _ hk
  have h5 : (k + 1) * x.h = k * x.h + x.h := by ring
  omega

theorem shape_eq (h : Stk X bs k x) : X.shape = bs ++ [x.h, x.w] := h.1

theorem last_eq (h : Stk X bs k x) : X.last = x.w := by rw [(h.row 0).last_eq, Img.length_row]

theorem pen_eq (h : Stk X bs k x) : X.pen = x.h := by
  unfold pen
  rw [(h.row 0).dropLast_eq]
  simp

theorem lead2_eq (h : Stk X bs k x) : X.lead2 = bs := by
  unfold lead2
  rw [(h.row 0).dropLast_eq]
  simp

end Stk

/-- Rows that do not exist may be anything of the right length. -/
theorem Row.out {X : Nd α} {bs : List Nat} {i : Nat} {y z : List α} (h : Row X bs i y) (hi : bs.prod ≤ i)
    (hl : y.length = z.length) : Row X bs i z :=
  ⟨by rw [← hl]; exact h.1, by rw [← hl]; exact h.2.1, fun h' => absurd h' (by omega)⟩

/-- Operations that act on every row. -/
theorem Stk.of_rows {X : Nd α} {Z : Nd β} {bs : List Nat} {k : Nat} {x : Img α} {c : Img β} (hx : Stk X bs k x)
    (hh : c.h = x.h) (H : ∀ i r, Row X (bs ++ [x.h]) i (x.row r) →
      ∃ u : List β, u.length = c.w ∧ (r < x.h → u = c.row r) ∧ Row Z (bs ++ [x.h]) i u) : Stk Z bs k c := by
  apply Stk.mk'
  intro r
  obtain ⟨u, hu, hr, hZ⟩ := H _ r (hx.row r)
  rw [hh]
  by_cases h : r < x.h
  · rw [← hr h]; exact hZ
  · refine hZ.out ?_ (by rw [hu, Img.length_row])
    rw [rowIdx, if_neg h, List.prod_append, List.prod_singleton]

theorem Stk.mapLast {X : Nd α} {bs : List Nat} {k : Nat} {x : Img α} {c : Img β} (hx : Stk X bs k x)
    (f : List α → List β) (hh : c.h = x.h) (hf : ∀ z, z.length = x.w → (f z).length = c.w)
    (hr : ∀ r, r < x.h → f (x.row r) = c.row r) : Stk (X.mapLast c.w f) bs k c :=
  hx.of_rows hh fun i r h => ⟨f (x.row r), hf _ (Img.length_row _ _), hr r,
    h.mapLast _ _ fun z hz => hf z (by rw [hz, Img.length_row])⟩

theorem Stk.map [Zero β] {X : Nd α} {bs : List Nat} {k : Nat} {x : Img α} (hx : Stk X bs k x) (f : α → β) :
    Stk ⟨X.shape, X.data.map f⟩ bs k (x.map f) :=
  hx.of_rows rfl fun i r h => ⟨(x.row r).map f, by rw [List.length_map, Img.length_row]; rfl,
    fun hr => (row_map f hr).symm, h.map f⟩

theorem Stk.swap [Zero α] {X : Nd α} {bs : List Nat} {k : Nat} {x : Img α} (hx : Stk X bs k x) :
    Stk X.swap2 bs k x.swap := by
  have hd := hx.2.1
  have e : ([x.h, x.w] : List Nat).prod = x.h * x.w := by simp
  rw [e] at hd
  have hL : ∀ o ∈ List.range bs.prod, ((List.range x.w).flatMap fun j => tab x.h fun i =>
      X.data.getD (o * (x.h * x.w) + (i * x.w + j)) 0).length = x.w * x.h := by
    intro o _
    rw [length_flatMap_unif (m := x.h) fun j _ => length_tab _ _, List.length_range]
  unfold swap2
  rw [hx.lead2_eq, hx.last_eq, hx.pen_eq]
  refine ⟨rfl, ?_, fun hk => ?_⟩
  · show (List.flatMap _ _).length = bs.prod * ([x.w, x.h] : List Nat).prod
    rw [length_flatMap_unif hL, List.length_range]
    simp
  · show block ([x.w, x.h] : List Nat).prod k _ = _
    rw [show ([x.w, x.h] : List Nat).prod = x.w * x.h by simp, block_flatMap hL (List.getElem?_range hk)]
    unfold Img.flat
    refine List.flatMap_congr fun j hj => ?_
    have hj := List.mem_range.1 hj
    refine Eq.trans ?_ (Img.row_tab (h := x.w) (w := x.h) hj).symm
    refine tab_congr fun i hi => ?_
    have h3 := hx.2.2 hk
    rw [e] at h3
    have hlt : i * x.w + j < x.h * x.w := by
      have h4 : (i + 1) * x.w ≤ x.h * x.w := Nat.mul_le_mul_right _ hi
      have h5 : (i + 1) * x.w = i * x.w + x.w := by ring
      omega
    have h6 := congrArg (fun l => l[i * x.w + j]?) h3
    simp only [getElem?_block, if_pos hlt] at h6
    have h7 := congrArg (fun l => l[j]?) (Img.block_flat x hi)
    simp only [getElem?_block, if_pos hj] at h7
    rw [List.getD_eq_getElem?_getD, h6, h7, ← List.getD_eq_getElem?_getD, Img.getD_row hj]

/-- The first rows of every stack. -/
theorem Stk.take [Zero α] {X : Nd α} {bs : List Nat} {k : Nat} {x : Img α} (hx : Stk X bs k x) (n : Nat) :
    Stk (X.take2 n) bs k (Img.tab (min x.h n) x.w x.px) := by
  have hd := hx.2.1
  have e : ([x.h, x.w] : List Nat).prod = x.h * x.w := by simp
  rw [e] at hd
  have hmin : min x.h n * x.w ≤ x.h * x.w := Nat.mul_le_mul_right _ (min_le_left _ _)
  have hL : ∀ o ∈ List.range bs.prod, ((block (x.h * x.w) o X.data).take (min x.h n * x.w)).length =
      min x.h n * x.w := by
    intro o ho
    rw [List.length_take, length_block hd (List.mem_range.1 ho)]
    omega
  unfold take2
  rw [hx.lead2_eq, hx.last_eq, hx.pen_eq]
  refine ⟨rfl, ?_, fun hk => ?_⟩
  · show (List.flatMap _ _).length = bs.prod * ([min x.h n, x.w] : List Nat).prod
    rw [length_flatMap_unif hL, List.length_range]
    simp
  · show block ([min x.h n, x.w] : List Nat).prod k _ = _
    rw [show ([min x.h n, x.w] : List Nat).prod = min x.h n * x.w by simp,
      block_flatMap hL (List.getElem?_range hk)]
    have h3 := hx.2.2 hk
    rw [e] at h3
    rw [h3]
    have hlen : (x.flat.take (min x.h n * x.w)).length = min x.h n * x.w := by
      rw [List.length_take, Img.length_flat]; omega
    rw [← flatMap_block hlen]
    unfold Img.flat
    refine List.flatMap_congr fun r hr => ?_
    have hr : r < min x.h n := List.mem_range.1 hr
    refine Eq.trans ?_ (Img.row_tab (h := min x.h n) (w := x.w) hr).symm
    refine Eq.trans ?_ (Img.block_flat x (by omega))
    apply List.ext_getElem?
    intro t
    rw [getElem?_block, getElem?_block]
    split
    · rename_i ht
      rw [List.getElem?_take, if_pos]
      · rfl
      · have h4 : (r + 1) * x.w ≤ min x.h n * x.w := Nat.mul_le_mul_right _ hr
        have h5 : (r + 1) * x.w = r * x.w + x.w := by ring
        omega
    · rfl

/-- The rows of every stack. -/
theorem Stk.split {X : Nd α} {bs : List Nat} {k : Nat} {x : Img α} (hx : Stk X bs k x) :
    List.Forall₂ (fun y Y => Row Y (bs ++ [1]) k y) (splitImg x) X.split2 := by
  unfold splitImg split2
  rw [hx.pen_eq, hx.lead2_eq, hx.last_eq]
  conv in tab x.h _ => unfold tab
  conv in tab x.h _ => unfold tab
  rw [List.forall₂_map_left_iff, List.forall₂_map_right_iff, List.forall₂_same]
  intro r hr
  have hr := List.mem_range.1 hr
  have hd := hx.2.1
  have e : ([x.h, x.w] : List Nat).prod = x.h * x.w := by simp
  rw [e] at hd
  have hL : ∀ o ∈ List.range bs.prod, (block x.w (o * x.h + r) X.data).length = x.w := by
    intro o ho
    rw [block_block hr]
    exact length_block (length_block hd (List.mem_range.1 ho)) hr
  show Row _ (bs ++ [1]) k (x.row r)
  refine ⟨?_, ?_, fun hk => ?_⟩
  · simp
  · rw [Img.length_row, length_flatMap_unif hL, List.length_range]
    simp
  · rw [List.prod_append, List.prod_singleton, mul_one] at hk
    rw [Img.length_row, block_flatMap hL (List.getElem?_range hk), block_block hr]
    have h3 := hx.2.2 hk
    rw [e] at h3
    rw [h3, Img.block_flat x hr]

/-- Stacking arrays along a new axis behind the leading ones stacks the blocks. -/
theorem Blk.stack {bs ss : List Nat} {i : Nat} {l : List (List α)} {m : List (Nd α)} {axis : Int}
    (h : List.Forall₂ (fun y X => Blk X bs ss i y) l m) (hl : l ≠ [])
    (hax : axis = bs.length ∨ axis = -((ss.length : Int) + 1)) :
    ∃ Z, Nd.stack m axis = .ok Z ∧ Blk Z bs (l.length :: ss) i l.flatten := by
  cases h with
  | nil => exact absurd rfl hl
  | @cons a A l m hab hlm =>
    have hcons : List.Forall₂ (fun y X => Blk X bs ss i y) (a :: l) (A :: m) := List.Forall₂.cons hab hlm
    have hall : (A :: m).all (fun b => b.shape == A.shape) = true := by
      rw [List.all_eq_true]
      intro b hb
      obtain ⟨y, -, hyb⟩ := forall₂_mem_right hcons hb
      rw [beq_iff_eq, hyb.1, hab.1]
    have hlen : A.shape.length = bs.length + ss.length := by rw [hab.1, List.length_append]
    have hax' : (if axis < 0 then axis + ((A.shape.length : Int) + 1) else axis) = bs.length := by
      rw [hlen]
      split
      · rcases hax with h | h
        · omega
        · rw [h]; push_cast; ring
      · rcases hax with h | h
        · exact h
        · omega
    have htake : A.shape.take bs.length = bs := by rw [hab.1]; exact List.take_left' rfl
    have hdrop : A.shape.drop bs.length = ss := by rw [hab.1]; exact List.drop_left' rfl
    have hL : ∀ o ∈ List.range bs.prod, ((A :: m).flatMap fun b => block ss.prod o b.data).length =
        (a :: l).length * ss.prod := by
      intro o ho
      rw [length_flatMap_unif (m := ss.prod), hcons.length_eq]
      intro b hb
      obtain ⟨y, -, hyb⟩ := forall₂_mem_right hcons hb
      exact length_block hyb.2.1 (List.mem_range.1 ho)
    refine ⟨⟨bs ++ (A :: m).length :: ss, (List.range bs.prod).flatMap fun o =>
      (A :: m).flatMap fun b => block ss.prod o b.data⟩, ?_, ?_, ?_, ?_⟩
    · simp only [Nd.stack, hall, if_true]
      rw [hax', if_neg (by rw [hlen]; push_cast; omega)]
      rw [Int.toNat_natCast, htake, hdrop]
    · rw [hcons.length_eq]
    · rw [length_flatMap_unif hL, List.length_range, List.prod_cons]
    · intro hi
      rw [List.prod_cons, block_flatMap hL (List.getElem?_range hi)]
      clear hL hall hax' hlen htake hdrop hab hlm
      generalize a :: l = l' at hcons ⊢
      generalize A :: m = m' at hcons ⊢
      induction hcons with
      | nil => rfl
      | @cons y Y l m hyY _ ih =>
        rw [List.flatMap_cons, List.flatten_cons, ih, hyY.2.2 hi]

/-- Stacked arrays have the same shape. -/
theorem stack_ok_shape {l : List (Nd α)} {axis : Int} {Z : Nd α} (h : Nd.stack l axis = .ok Z) :
    l ≠ [] ∧ ∀ a ∈ l, ∀ b ∈ l, a.shape = b.shape := by
  cases l with
  | nil => cases h
  | cons a l =>
    simp only [Nd.stack] at h
    split at h
    · rename_i hall
      refine ⟨List.cons_ne_nil _ _, fun b hb c hc => ?_⟩
      rw [beq_iff_eq.1 (List.all_eq_true.1 hall b hb), beq_iff_eq.1 (List.all_eq_true.1 hall c hc)]
    · cases h

end Nd

open Nd (Row Stk Blk)

/-- Both directions of a simulation. -/
theorem Sim.flip {α β : Type} {R : α → β → Prop} {a : Py α} {b : Py β} (h : Sim R a b)
    (hok : ∀ y, b = .ok y → ∃ x, a = .ok x) : Sim (fun y x => R x y) b a := by
  intro y hy
  obtain ⟨x, hx⟩ := hok y hy
  obtain ⟨y', hy', hr⟩ := h x hx
  rw [hy] at hy'
  obtain rfl := Except.ok.inj hy'
  exact ⟨x, hx, hr⟩

namespace NdJ

variable {α : Type}

/-- Signal `k` of a batch of `b` after `i` moduli.  Only the rows made by `split_frequency_axis` have another shape
than `(b, 1, time)`. -/
def Sig (b k i : Nat) (x : List α) (X : Nd α) : Prop :=
  0 < x.length ∧ ∃ s : List Nat, s.prod = b ∧ (i ≤ 1 → s = [b, 1]) ∧ Row X s k x

/-- Stack `k` of a batch of `b`. -/
def Stack (b k : Nat) (x : Img α) (X : Nd α) : Prop := Stk X [b, 1] k x ∧ 0 < x.h ∧ 0 < x.w

variable {b k i : Nat}

theorem Sig.mapLast {β : Type} {x : List α} {X : Nd α} (h : Sig b k i x X) (n : Nat) (f : List α → List β)
    (hn : 0 < n) (hf : ∀ z, z.length = x.length → (f z).length = n) : Sig b k i (f x) (X.mapLast n f) := by
  obtain ⟨h0, s, h1, h2, h3⟩ := h
  exact ⟨by rw [hf x rfl]; exact hn, s, h1, h2, h3.mapLast n f hf⟩

theorem Sig.last_eq {x : List α} {X : Nd α} (h : Sig b k i x X) : X.last = x.length := by
  obtain ⟨h0, s, h1, h2, h3⟩ := h
  exact h3.last_eq

theorem Sig.rfft {x : List ℝ} {X : Nd ℝ} (h : Sig b k i x X) : Sig b k i (npRfft x) (X.mapLast X.last npRfft) :=
  h.mapLast _ _ (by rw [h.last_eq]; exact h.1) fun z hz => by rw [length_npRfft, hz, h.last_eq]

theorem Sig.ifft {x : List ℂ} {X : Nd ℂ} (h : Sig b k i x X) : Sig b k i (idft x) (X.mapLast X.last idft) :=
  h.mapLast _ _ (by rw [h.last_eq]; exact h.1) fun z hz => by rw [length_idft, hz, h.last_eq]

theorem Sig.irfft {x : List ℂ} {X : Nd ℂ} (h : Sig b k i x X) : Sig b k i (npIrfft x) (X.mapLast X.last npIrfft) :=
  h.mapLast _ _ (by rw [h.last_eq]; exact h.1) fun z hz => by rw [length_npIrfft, hz, h.last_eq]

theorem Sig.average {x : List ℝ} {X : Nd ℝ} (h : Sig b k i x X) :
    Sig b k i (npAverageGlobal x) (NdFront.averageGlobal X) :=
  h.mapLast _ _ Nat.one_pos fun _ _ => rfl

theorem Sig.modulus {x : List ℂ} {X : Nd ℂ} (h : Sig b k i x X) :
    Sig b k (i + 1) (npModulus x) ⟨X.shape, npModulus X.data⟩ := by
  obtain ⟨h0, s, h1, h2, h3⟩ := h
  exact ⟨by simpa [npModulus] using h0, s, h1, fun hi => h2 (by omega), h3.map _⟩

theorem Sig.cdgmm {x : List ℂ} {X : Nd ℂ} (h : Sig b k i x X) (f : List ℝ) :
    Sim (Sig b k i) (npCdgmm x f) (ndBackend.cdgmm X f) := by
  intro u hu
  obtain ⟨h0, s, h1, h2, h3⟩ := h
  obtain ⟨Z, hZ, hr⟩ := nd_cdgmm h3 f hu
  exact ⟨Z, hZ, by rw [length_of_cdgmm hu]; exact h0, s, h1, h2, hr⟩

theorem Sig.cdgmm_ok {x : List ℂ} {X : Nd ℂ} (h : Sig b k i x X) (f : List ℝ) (Z : Nd ℂ)
    (hZ : ndBackend.cdgmm X f = .ok Z) : ∃ u, npCdgmm x f = .ok u := by
  obtain ⟨h0, s, h1, h2, h3⟩ := h
  exact nd_cdgmm_ok h3 f hZ

theorem Sig.subsample {x : List ℂ} {X : Nd ℂ} (h : Sig b k i x X) (e : Int) :
    Sim (Sig b k i) (npJ.subsample x e) (Nd.subsampleI X e) := by
  show Sim _ (if e < 0 then _ else npSubsampleFourier x (2 ^ e.toNat)) _
  unfold Nd.subsampleI
  split
  · exact Sim.error
  · intro u hu
    obtain ⟨h0, s, h1, h2, h3⟩ := h
    obtain ⟨Z, hZ, hr⟩ := nd_subsample h3 e.toNat hu
    refine ⟨Z, hZ, ?_, s, h1, h2, hr⟩
    have := length_of_subsample hu
    by_contra hc
    rw [Nat.eq_zero_of_not_pos hc, Nat.zero_mul] at this
    omega

theorem Sig.subsample_ok {x : List ℂ} {X : Nd ℂ} (h : Sig b k i x X) (hk : k < b) (e : Int) (Z : Nd ℂ)
    (hZ : Nd.subsampleI X e = .ok Z) : ∃ u, npJ.subsample x e = .ok u := by
  show ∃ u, (if e < 0 then _ else npSubsampleFourier x (2 ^ e.toNat)) = Except.ok u
  unfold Nd.subsampleI at hZ
  split at hZ
  · cases hZ
  · rename_i he
    rw [if_neg he]
    obtain ⟨h0, s, h1, h2, h3⟩ := h
    exact nd_subsample_ok h3 (by omega) e.toNat hZ

theorem Sig.blk {x : List α} {X : Nd α} (h : Sig b k 1 x X) : Row X [b, 1] k x := by
  obtain ⟨-, s, -, h2, h3⟩ := h
  rw [h2 (by norm_num)] at h3
  exact h3

theorem flat_eq_flatten [Zero α] {l : List (List α)} {X : Img α} (hX : stackImg l = .ok X) :
    X.flat = l.flatten := by
  obtain ⟨-, hl, H1, -, H3⟩ := Is.stack hX
  have e : (List.range X.h).map X.row = l := by
    apply List.ext_getElem?
    intro n
    rw [List.getElem?_map]
    by_cases hn : n < l.length
    · rw [List.getElem?_range (by omega), List.getElem?_eq_getElem hn]
      simp only [Option.map_some, Option.some.injEq]
      have hln := hl _ (List.getElem_mem hn)
      apply list_ext_getD 0
      · rw [Img.length_row, hln]
      · intro t ht
        rw [Img.length_row] at ht
        rw [Img.getD_row ht, H3 n t hn ht]
        show (l.getD n []).getD t 0 = _
        rw [List.getD_eq_getElem?_getD (l := l), List.getElem?_eq_getElem hn]
        rfl
    · rw [List.getElem?_eq_none (by simpa using by omega), List.getElem?_eq_none (by omega)]
      rfl
  unfold Img.flat
  rw [List.flatMap_def, e]

theorem Sig.stack [Zero α] {l : List (List α)} {m : List (Nd α)} (h : List.Forall₂ (Sig b k 1) l m) :
    Sim (Stack b k) (stackImg l) (Nd.stack m 2) := by
  intro X hX
  obtain ⟨hne, hl, H1, -, -⟩ := Is.stack hX
  have hB : List.Forall₂ (fun y Y => Blk Y [b, 1] [X.w] k y) l m := by
    have : List.Forall₂ (fun y Y => Sig b k 1 y Y ∧ y ∈ l) l m := by
      rw [List.forall₂_iff_get] at h ⊢
      exact ⟨h.1, fun i h1 h2 => ⟨h.2 i h1 h2, List.getElem_mem _⟩⟩
    refine this.imp fun y Y hy => ?_
    have := Nd.row_iff_blk.1 hy.1.blk
    rwa [hl y hy.2] at this
  obtain ⟨Z, hZ, hb⟩ := Blk.stack (axis := 2) hB hne (Or.inl rfl)
  refine ⟨Z, hZ, ?_, by rw [H1]; exact List.length_pos_of_ne_nil hne, ?_⟩
  · unfold Stk
    rw [flat_eq_flatten hX, H1]
    exact hb
  · cases h with
    | nil => exact absurd rfl hne
    | @cons a A l m hab _ =>
      rw [← hl a (by simp)]
      exact hab.1

theorem Sig.stack_ok [Zero α] {l : List (List α)} {m : List (Nd α)} (h : List.Forall₂ (Sig b k 1) l m) (Z : Nd α)
    (hZ : Nd.stack m 2 = .ok Z) : ∃ X, stackImg l = .ok X := by
  obtain ⟨hne, hs⟩ := Nd.stack_ok_shape hZ
  have hl : l ≠ [] := by
    rintro rfl
    cases h
    exact hne rfl
  obtain ⟨a, ha⟩ := List.exists_mem_of_ne_nil l hl
  obtain ⟨X, hX, -⟩ := _root_.Verif.stack_ok (w := a.length) hl fun c hc => by
    obtain ⟨A, hA, haA⟩ := forall₂_mem_left h ha
    obtain ⟨C, hC, hcC⟩ := forall₂_mem_left h hc
    have := hs A hA C hC
    rw [haA.blk.1, hcC.blk.1] at this
    simpa using this.symm
  exact ⟨X, hX⟩

theorem Stack.swap [Zero α] {x : Img α} {X : Nd α} (h : Stack b k x X) : Stack b k x.swap X.swap2 :=
  ⟨h.1.swap, h.2.2, h.2.1⟩

theorem Stack.dft {x : Img ℂ} {X : Nd ℂ} (h : Stack b k x X) : Stack b k (rowDft x) (X.mapLast X.last dft) := by
  refine ⟨?_, h.2⟩
  rw [h.1.last_eq]
  exact h.1.mapLast (c := rowDft x) Verif.dft rfl (fun z hz => by rw [length_dft, hz]; rfl) fun r hr => (row_dft hr).symm

theorem Stack.idft {x : Img ℂ} {X : Nd ℂ} (h : Stack b k x X) : Stack b k (rowIdft x) (X.mapLast X.last idft) := by
  refine ⟨?_, h.2⟩
  rw [h.1.last_eq]
  exact h.1.mapLast (c := rowIdft x) Verif.idft rfl (fun z hz => by rw [length_idft, hz]; rfl)
    fun r hr => (row_idft hr).symm

theorem Stack.rfft {x : Img ℝ} {X : Nd ℝ} (h : Stack b k x X) :
    Stack b k (rowDft (x.map fun r : ℝ => (r : ℂ))) (X.mapLast X.last npRfft) := by
  refine ⟨?_, h.2⟩
  rw [h.1.last_eq]
  refine h.1.mapLast (c := rowDft (x.map fun r : ℝ => (r : ℂ))) npRfft rfl
    (fun z hz => by rw [length_npRfft, hz]; rfl) fun r hr => ?_
  rw [row_dft (x := x.map fun r : ℝ => (r : ℂ)) hr, row_map _ hr]
  rfl

theorem Stack.irfft {x : Img ℂ} {X : Nd ℂ} (h : Stack b k x X) :
    Stack b k ((rowIdft x).map Complex.re) (X.mapLast X.last npIrfft) := by
  refine ⟨?_, h.2⟩
  rw [h.1.last_eq]
  refine h.1.mapLast (c := (rowIdft x).map Complex.re) npIrfft rfl
    (fun z hz => by rw [length_npIrfft, hz]; rfl) fun r hr => ?_
  rw [row_map (x := rowIdft x) _ hr, row_idft hr]
  rfl

theorem Stack.average {x : Img ℝ} {X : Nd ℝ} (h : Stack b k x X) :
    Stack b k (rowAverage x) (NdFront.averageGlobal X) := by
  refine ⟨?_, h.2.1, Nat.one_pos⟩
  refine h.1.mapLast (c := rowAverage x) npAverageGlobal rfl (fun z _ => rfl) fun r hr => ?_
  unfold rowAverage
  rw [Img.row_tab hr]
  unfold npAverageGlobal
  rw [show Verif.tab 1 (fun _ => ∑ j ∈ range x.w, x.px r j) = [∑ j ∈ range x.w, x.px r j] from rfl]
  congr 1

theorem Stack.modulus {x : Img ℂ} {X : Nd ℂ} (h : Stack b k x X) :
    Stack b k (x.map fun z => ‖z‖) ⟨X.shape, npModulus X.data⟩ := ⟨h.1.map _, h.2⟩

theorem Stack.cdgmm {x : Img ℂ} {X : Nd ℂ} (h : Stack b k x X) (f : List ℝ) :
    Sim (Stack b k) (rowCdgmm x f) (ndBackend.cdgmm X f) := by
  intro c hc
  obtain ⟨h1, h2, h3, h4⟩ := row_cdgmm hc
  obtain ⟨Z, hZ, -⟩ := nd_cdgmm (h.1.row 0) f (h4 0 h.2.1)
  refine ⟨Z, hZ, ?_, by rw [h2]; exact h.2.1, by rw [h3]; exact h.2.2⟩
  refine h.1.of_rows h2 fun i r hr => ?_
  have hu : npCdgmm (x.row r) f = .ok _ := (npCdgmm_eq _ _ _).2 ⟨by rw [Img.length_row, h1], rfl⟩
  obtain ⟨Z', hZ', hrow⟩ := nd_cdgmm hr f hu
  rw [hZ] at hZ'
  obtain rfl := Except.ok.inj hZ'
  refine ⟨_, by rw [length_of_cdgmm hu, Img.length_row, h3], fun hr => ?_, hrow⟩
  have := h4 r hr
  rw [hu] at this
  exact Except.ok.inj this

theorem Stack.cdgmm_ok {x : Img ℂ} {X : Nd ℂ} (h : Stack b k x X) (f : List ℝ) (Z : Nd ℂ)
    (hZ : ndBackend.cdgmm X f = .ok Z) : ∃ c, rowCdgmm x f = .ok c := by
  obtain ⟨u, hu⟩ := nd_cdgmm_ok (h.1.row 0) f hZ
  have := ((npCdgmm_eq _ _ _).1 hu).1
  rw [Img.length_row] at this
  exact rowCdgmm_ok this

theorem Stack.subsample {x : Img ℂ} {X : Nd ℂ} (h : Stack b k x X) (e : Int) :
    Sim (Stack b k) (rowSubsample x e) (Nd.subsampleI X e) := by
  intro c hc
  obtain ⟨h1, h2, h3, h4⟩ := row_subsample hc
  obtain ⟨Z, hZ, -⟩ := nd_subsample (h.1.row 0) e.toNat (h4 0 h.2.1)
  refine ⟨Z, by rw [Nd.subsampleI, if_neg (by omega)]; exact hZ, ?_, by rw [h2]; exact h.2.1, ?_⟩
  · refine h.1.of_rows h2 fun i r hr => ?_
    obtain ⟨u, hu⟩ : ∃ u, npSubsampleFourier (x.row r) (2 ^ e.toNat) = .ok u := by
      refine ⟨_, (npSubsampleFourier_eq _ _ _).2 ⟨by positivity, ?_, rfl⟩⟩
      rw [Img.length_row, ← h3]
      exact dvd_mul_left _ _
    obtain ⟨Z', hZ', hrow⟩ := nd_subsample hr e.toNat hu
    rw [hZ] at hZ'
    obtain rfl := Except.ok.inj hZ'
    refine ⟨_, ?_, fun hr => ?_, hrow⟩
    · have := length_of_subsample hu
      rw [Img.length_row, ← h3] at this
      exact Nat.eq_of_mul_eq_mul_right (by positivity) this
    · have := h4 r hr
      rw [hu] at this
      exact Except.ok.inj this
  · by_contra hw
    rw [Nat.eq_zero_of_not_pos hw, Nat.zero_mul] at h3
    have := h.2.2
    omega

theorem Stack.subsample_ok {x : Img ℂ} {X : Nd ℂ} (h : Stack b k x X) (hk : k < b) (e : Int) (Z : Nd ℂ)
    (hZ : Nd.subsampleI X e = .ok Z) : ∃ c, rowSubsample x e = .ok c := by
  unfold Nd.subsampleI at hZ
  split at hZ
  · cases hZ
  · rename_i he
    obtain ⟨u, hu⟩ := nd_subsample_ok (h.1.row 0) (by
      rw [List.prod_append, List.prod_singleton]
      have := h.2.1
      simp only [List.prod_cons, List.prod_nil, mul_one]
      exact Nat.mul_pos (by omega) this) e.toNat hZ
    have := ((npSubsampleFourier_eq _ _ _).1 hu).2.1
    rw [Img.length_row] at this
    unfold rowSubsample
    rw [if_neg he, if_neg (not_not.2 (Nat.mul_div_cancel' this))]
    exact ⟨_, rfl⟩

theorem Stack.pad [Zero α] {x : Img α} {X : Nd α} (h : Stack b k x X) (p : Int) :
    Sim (Stack b k) (padFrequencyImg x p) (Nd.padFrequency X p) := by
  unfold padFrequencyImg Nd.padFrequency
  split
  · exact Sim.error
  · refine Sim.ok ⟨?_, h.2.1, by show 0 < x.w + p.toNat; have := h.2.2; omega⟩
    rw [h.1.last_eq]
    refine h.1.mapLast (c := Img.tab x.h (x.w + p.toNat) fun i j => if j < x.w then x.px i j else 0) _ rfl
      (fun z hz => by rw [List.length_append, hz, List.length_replicate]; rfl) fun r hr => ?_
    rw [Img.row_tab hr]
    apply list_ext_getD 0
    · simp
    · intro t ht
      rw [List.length_append, Img.length_row, List.length_replicate] at ht
      rw [getD_tab_lt ht]
      by_cases htw : t < x.w
      · rw [if_pos htw, List.getD_append _ _ _ _ (by rw [Img.length_row]; exact htw), Img.getD_row htw]
      · rw [if_neg htw, List.getD_append_right _ _ _ _ (by rw [Img.length_row]; omega), List.getD_eq_getElem?_getD,
          List.getElem?_replicate]
        split <;> rfl

theorem Stack.pad_ok [Zero α] {x : Img α} {X : Nd α} (p : Int) (Z : Nd α)
    (hZ : Nd.padFrequency X p = .ok Z) : ∃ c, padFrequencyImg x p = .ok c := by
  unfold Nd.padFrequency at hZ
  unfold padFrequencyImg
  split at hZ
  · cases hZ
  · rename_i hp
    rw [if_neg hp]
    exact ⟨_, rfl⟩

theorem Stack.unpad [Zero α] {x : Img α} {X : Nd α} (h : Stack b k x X) (n s : Nat) :
    Sim (Stack b k) (unpadFrequencyImg x n s) (Nd.unpadFrequency X n s) := by
  unfold unpadFrequencyImg Nd.unpadFrequency
  split
  · exact Sim.error
  · refine Sim.ok ⟨h.1.take _, ?_, h.2.2⟩
    show 0 < min x.h (1 + n / s)
    exact lt_min h.2.1 (Nat.lt_add_right _ Nat.one_pos)

theorem Stack.unpad_ok [Zero α] {x : Img α} {X : Nd α} (n s : Nat) (Z : Nd α)
    (hZ : Nd.unpadFrequency X n s = .ok Z) : ∃ c, unpadFrequencyImg x n s = .ok c := by
  unfold Nd.unpadFrequency at hZ
  unfold unpadFrequencyImg
  split at hZ
  · cases hZ
  · rename_i hp
    rw [if_neg hp]
    exact ⟨_, rfl⟩

theorem Stack.split {x : Img α} {X : Nd α} (h : Stack b k x X) (hi : 2 ≤ i) :
    Sim (List.Forall₂ (Sig b k i)) (.ok (splitImg x)) (Nd.splitFrequency X) := by
  unfold Nd.splitFrequency
  rw [h.1.pen_eq, if_neg (by have := h.2.1; omega)]
  refine Sim.ok ?_
  have : List.Forall₂ (fun y Y => Row Y ([b, 1] ++ [1]) k y ∧ y ∈ splitImg x) (splitImg x) X.split2 := by
    have h := h.1.split
    rw [List.forall₂_iff_get] at h ⊢
    exact ⟨h.1, fun i h1 h2 => ⟨h.2 i h1 h2, List.getElem_mem _⟩⟩
  refine this.imp fun y Y hy => ⟨?_, _, ?_, fun h => absurd h (by omega), hy.1⟩
  · obtain ⟨j, -, rfl⟩ := List.mem_map.1 hy.2
    rw [length_tab]
    exact h.2.2
  · simp

/-- One signal and a batch. -/
noncomputable def rel (b k : Nat) : JRel npJ ndJ where
  rR i x X := Sig b k i x X
  rC i x X := Sig b k i x X
  rT i x X := Sig b k i x X
  rRS _ _ x X := Stack b k x X
  rCS _ _ _ x X := Stack b k x X
  rF f g := g = f
  padOk _ := True
  rfft _ _ _ h := Sim.ok h.rfft
  ifft _ _ _ h := Sim.ok h.ifft
  irfft _ _ _ h := Sim.ok h.irfft
  modulus _ _ _ h := Sim.ok h.modulus
  cdgmm _ _ _ f g h hfg := by
    subst hfg
    exact h.cdgmm g
  subsample _ _ _ e h := h.subsample e
  averageGlobal _ _ _ h := Sim.ok h.average
  stackR _ _ h := Sig.stack h
  stackC _ _ h := Sig.stack h
  swapR _ _ _ _ h := Sim.ok h.swap
  swapC _ _ _ _ h := Sim.ok h.swap
  padFrequencyR _ _ _ p _ h := h.pad p
  padFrequencyC _ _ _ p _ h := h.pad p
  rfftS _ _ _ _ h := Sim.ok h.rfft
  cfftS _ _ _ _ h := Sim.ok h.dft
  ifftS _ _ _ _ h := Sim.ok h.idft
  irfftS _ _ _ _ h := Sim.ok h.irfft
  modulusS _ _ _ h := Sim.ok h.modulus
  cdgmmS _ _ _ _ f g h hfg := by
    subst hfg
    exact h.cdgmm g
  subsampleS _ _ _ _ e h := h.subsample e
  averageGlobalS _ _ _ _ h := Sim.ok h.average
  unpadFrequency _ _ _ n s h := h.unpad n s
  split _ _ _ _ h := h.split le_rfl

/-- A batch and one of its signals. -/
noncomputable def relRev (b k : Nat) (hk : k < b) : JRel ndJ npJ where
  rR i X x := Sig b k i x X
  rC i X x := Sig b k i x X
  rT i X x := Sig b k i x X
  rRS _ _ X x := Stack b k x X
  rCS _ _ _ X x := Stack b k x X
  rF f g := g = f
  padOk _ := True
  rfft _ _ _ h := Sim.ok h.rfft
  ifft _ _ _ h := Sim.ok h.ifft
  irfft _ _ _ h := Sim.ok h.irfft
  modulus _ _ _ h := Sim.ok h.modulus
  cdgmm _ _ _ f g h hfg := by
    subst hfg
    exact (h.cdgmm g).flip (h.cdgmm_ok g)
  subsample _ _ _ e h := (h.subsample e).flip (h.subsample_ok hk e)
  averageGlobal _ _ _ h := Sim.ok h.average
  stackR _ _ h := (Sig.stack h.flip).flip (Sig.stack_ok h.flip)
  stackC _ _ h := (Sig.stack h.flip).flip (Sig.stack_ok h.flip)
  swapR _ _ _ _ h := Sim.ok h.swap
  swapC _ _ _ _ h := Sim.ok h.swap
  padFrequencyR _ _ _ p _ h := (h.pad p).flip (Stack.pad_ok p)
  padFrequencyC _ _ _ p _ h := (h.pad p).flip (Stack.pad_ok p)
  rfftS _ _ _ _ h := Sim.ok h.rfft
  cfftS _ _ _ _ h := Sim.ok h.dft
  ifftS _ _ _ _ h := Sim.ok h.idft
  irfftS _ _ _ _ h := Sim.ok h.irfft
  modulusS _ _ _ h := Sim.ok h.modulus
  cdgmmS _ _ _ _ f g h hfg := by
    subst hfg
    exact (h.cdgmm g).flip (h.cdgmm_ok g)
  subsampleS _ _ _ _ e h := (h.subsample e).flip (h.subsample_ok hk e)
  averageGlobalS _ _ _ _ h := Sim.ok h.average
  unpadFrequency _ _ _ n s h := (h.unpad n s).flip (Stack.unpad_ok n s)
  split _ _ _ _ h := ((h.split le_rfl).flip fun _ _ => ⟨_, rfl⟩).mono fun _ _ h => h.flip

end NdJ

end Verif
