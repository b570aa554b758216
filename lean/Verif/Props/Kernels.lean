import Verif.Model.Kernels
import Mathlib.Analysis.Calculus.Deriv.Prod
import Mathlib.Analysis.SpecialFunctions.Sqrt
import Mathlib.Analysis.Calculus.FDeriv.Add
import Mathlib.Analysis.Calculus.FDeriv.Mul
import Mathlib.Analysis.Calculus.FDeriv.Comp
import Mathlib.Analysis.Calculus.FDeriv.Pi
import Mathlib.Analysis.Complex.Norm
import Mathlib.Tactic.FieldSimp
import Mathlib.Tactic.Ring
import Mathlib.Tactic.Linarith

/-!
# C55, C56
-/

namespace Verif

namespace Cuda

/-! ## Running a launch -/

/-- If every thread that writes a given cell writes the same value and at least one does, the cell has that
value at the end, in whatever order (and however often) the threads run. -/
theorem exec_of_written {α : Type} (kernel : Thread → Option Access) (value : List α → α)
    (input : Nat → α) (ts : List Thread) (mem : Nat → α) (i : Nat) (v : α)
    (hall : ∀ t ∈ ts, ∀ a, kernel t = some a → a.write = i → value (a.reads.map input) = v)
    (hone : (∃ t ∈ ts, ∃ a, kernel t = some a ∧ a.write = i) ∨ mem i = v) :
    exec kernel value input ts mem i = v := by
  induction ts generalizing mem with
  | nil => rcases hone with ⟨t, ht, -⟩ | h <;> [cases ht; exact h]
  | cons t ts ih =>
    rw [exec, List.foldl_cons]
    refine ih _ (fun u hu => hall u (List.mem_cons_of_mem _ hu)) ?_
    by_cases ht : ∃ a, kernel t = some a ∧ a.write = i
    · obtain ⟨a, ha, hi⟩ := ht
      right
      rw [ha]
      simp only [hi, if_true]
      exact hall t (List.mem_cons_self ..) a ha hi
    · rcases hone with ⟨u, hu, a, ha, hi⟩ | h
      · rcases List.mem_cons.1 hu with rfl | hu
        · exact absurd ⟨a, ha, hi⟩ ht
        · exact Or.inl ⟨u, hu, a, ha, hi⟩
      · right
        cases hk : kernel t with
        | none => exact h
        | some a =>
          have : i ≠ a.write := fun e => ht ⟨a, hk, e.symm⟩
          simp only [this, if_false]
          exact h

/-- A cell no thread writes keeps its value. -/
theorem exec_of_not_written {α : Type} (kernel : Thread → Option Access) (value : List α → α)
    (input : Nat → α) (ts : List Thread) (mem : Nat → α) (i : Nat)
    (h : ∀ t ∈ ts, ∀ a, kernel t = some a → a.write ≠ i) :
    exec kernel value input ts mem i = mem i :=
  exec_of_written kernel value input ts mem i _ (fun t ht a ha hi => absurd hi (h t ht a ha)) (Or.inr rfl)

/-! ## Arithmetic of grids -/

theorem getBlocks_cover {n b i : Nat} (hb : 0 < b) (hi : i < n) : i / b < getBlocks n b := by
  have h : i + b ≤ n + b - 1 := by omega
  have h2 : (i + b) / b ≤ (n + b - 1) / b := Nat.div_le_div_right h
  rw [Nat.add_div_right _ hb] at h2
  exact h2

theorem getBlocks_one (n : Nat) : getBlocks n 1 = n := by simp [getBlocks]

theorem lt_mul_getBlocks {n b i : Nat} (h : i < getBlocks n b * b) : i < n + b - 1 :=
  lt_of_lt_of_le h (Nat.div_mul_le_self _ _)

theorem split_unique {b q r q' r' : Nat} (hr : r < b) (hr' : r' < b) (h : q * b + r = q' * b + r') :
    q = q' ∧ r = r' := by
  have hb : 0 < b := by omega
  have h1 : (q * b + r) / b = q := by rw [mul_comm, Nat.mul_add_div hb, Nat.div_eq_of_lt hr, add_zero]
  have h2 : (q' * b + r') / b = q' := by rw [mul_comm, Nat.mul_add_div hb, Nat.div_eq_of_lt hr', add_zero]
  have hq : q = q' := by rw [← h1, ← h2, h]
  subst hq
  exact ⟨rfl, by omega⟩

theorem dvd_mul_div {a T k : Nat} (h : k ∣ T) : a * T / k = a * (T / k) := Nat.mul_div_assoc a h

/-! ## Specification -/

/-- The launch writes every cell below `size` exactly once, from the cells `src` says, writes nothing else
and reads nothing outside the input. -/
structure WritesOnce (grid block : Dim3) (kernel : Thread → Option Access) (size inSize : Nat)
    (src : Nat → List Nat) : Prop where
  covers : ∀ i < size, ∃ t, InGrid grid block t ∧ ∃ a, kernel t = some a ∧ a.write = i
  once : ∀ t u a b, InGrid grid block t → InGrid grid block u → kernel t = some a → kernel u = some b →
    a.write = b.write → t = u
  inside : ∀ t a, InGrid grid block t → kernel t = some a → a.write < size
  reads : ∀ t a, InGrid grid block t → kernel t = some a → a.reads = src a.write ∧ ∀ r ∈ a.reads, r < inSize

/-- Then, in whatever order the threads run, the cells below `size` hold the values computed from their
sources and the others are untouched. -/
theorem WritesOnce.result {α : Type} {grid block : Dim3} {kernel : Thread → Option Access}
    {size inSize : Nat} {src : Nat → List Nat} (h : WritesOnce grid block kernel size inSize src)
    (value : List α → α) (input : Nat → α) (ts : List Thread) (hts : ∀ t, t ∈ ts ↔ InGrid grid block t)
    (mem : Nat → α) :
    (∀ i < size, exec kernel value input ts mem i = value ((src i).map input)) ∧
    (∀ i, size ≤ i → exec kernel value input ts mem i = mem i) := by
  constructor
  · intro i hi
    obtain ⟨t, ht, a, ha, hai⟩ := h.covers i hi
    refine exec_of_written kernel value input ts mem i _ (fun u hu b hb hbi => ?_)
      (Or.inl ⟨t, (hts t).2 ht, a, ha, hai⟩)
    rw [(h.reads u b ((hts u).1 hu) hb).1, hbi]
  · intro i hi
    refine exec_of_not_written kernel value input ts mem i fun t ht a ha hai => ?_
    exact absurd (h.inside t a ((hts t).1 ht) ha) (by omega)

/-! ## C56: modulus -/

/-- **Modulus kernel.**  Every real output cell is written once, from the two parts of its complex number. -/
theorem C56_modulus (n : Nat) :
    WritesOnce (gridAbs n) blockAbs (absKernel blockAbs n) n (2 * n) (fun i => [2 * i, 2 * i + 1]) := by
  have hk : ∀ t a, absKernel blockAbs n t = some a →
      t.block.x * 1024 + t.thread.x < n ∧ a.write = t.block.x * 1024 + t.thread.x ∧
        a.reads = [2 * a.write, 2 * a.write + 1] := by
    intro t a h
    simp only [absKernel, Option.ite_none_left_eq_some] at h
    obtain ⟨hlt, h⟩ := h
    simp only [blockAbs] at hlt h
    injection h with h
    subst h
    exact ⟨by omega, rfl, rfl⟩
  refine ⟨fun i hi => ?_, fun t u a b ht hu ha hb hab => ?_, fun t a ht ha => ?_, fun t a ht ha => ?_⟩
  · refine ⟨⟨⟨i / 1024, 0, 0⟩, ⟨i % 1024, 0, 0⟩⟩,
      ⟨getBlocks_cover (by norm_num [blockAbs]) hi, Nat.one_pos, Nat.one_pos, Nat.mod_lt _ (by norm_num),
        Nat.one_pos, Nat.one_pos⟩, ⟨i, [2 * i, 2 * i + 1]⟩, ?_, rfl⟩
    have e : i / 1024 * 1024 + i % 1024 = i := by omega
    simp only [absKernel, blockAbs, e]
    rw [if_neg (by omega)]
  · obtain ⟨-, h1, -⟩ := hk t a ha
    obtain ⟨-, h2, -⟩ := hk u b hb
    obtain ⟨h3, h4⟩ := split_unique (b := 1024) ht.2.2.2.1 hu.2.2.2.1 (by rw [← h1, ← h2, hab])
    obtain ⟨⟨a1, a2, a3⟩, ⟨a4, a5, a6⟩⟩ := t
    obtain ⟨⟨b1, b2, b3⟩, ⟨b4, b5, b6⟩⟩ := u
    simp only [InGrid, gridAbs, blockAbs, Nat.lt_one_iff] at ht hu h3 h4
    obtain ⟨-, rfl, rfl, -, rfl, rfl⟩ := ht
    obtain ⟨-, rfl, rfl, -, rfl, rfl⟩ := hu
    subst h3 h4
    rfl
  · obtain ⟨h1, h2, -⟩ := hk t a ha
    rw [h2]; exact h1
  · obtain ⟨h1, h2, h3⟩ := hk t a ha
    refine ⟨h3, fun r hr => ?_⟩
    rw [h3] at hr
    simp only [List.mem_cons, List.not_mem_nil, or_false] at hr
    omega

/-! ## C56: subsampling in 1-D -/

/-- The cells averaged into output cell `i` of a batch of signals of length `T`: the `k` aliases. -/
def aliases1 (T k : Nat) (i : Nat) : List Nat :=
  (List.range k).map fun r => i / (T / k) * T + (i % (T / k) + r * (T / k))

theorem row_split {B n : Nat} {b u : Nat} (hb : b < B) (hu : u < n) : b * n + u < B * n := by
  calc b * n + u < b * n + n := by omega
    _ = (b + 1) * n := by ring
    _ ≤ B * n := Nat.mul_le_mul_right _ hb

theorem div_row {b n u : Nat} (hu : u < n) : (b * n + u) / n = b := by
  rw [mul_comm, Nat.mul_add_div (by omega), Nat.div_eq_of_lt hu, add_zero]

theorem mod_row {b n u : Nat} (hu : u < n) : (b * n + u) % n = u := by
  rw [mul_comm, Nat.mul_add_mod, Nat.mod_eq_of_lt hu]

/-- **Subsampling kernel, 1-D.**  For a tensor of shape `(b0, b1, T, 2)` and a factor that divides `T`, every
output cell is written once, from exactly its `k` aliases. -/
theorem C56_subsample_1d (b0 b1 T k : Nat) (hk : 0 < k) (hT : 0 < T) (hd : k ∣ T) :
    ∃ grid kernel, subsample1 [b0, b1, T] k = .ok (grid, kernel) ∧
      outSize1 [b0, b1, T] k = b0 * b1 * (T / k) ∧
      WritesOnce grid block1 kernel (b0 * b1 * (T / k)) (b0 * b1 * T) (aliases1 T k) := by
  have hn : 0 < T / k := Nat.div_pos (Nat.le_of_dvd hT hd) hk
  have hout : outSize1 [b0, b1, T] k = b0 * b1 * (T / k) := by
    simp [outSize1, List.dropLast, List.getLastD]
  have hgrid : grid1 [b0, b1, T] k = .ok ⟨getBlocks (T / k) 1024, b0 * b1, 1⟩ := by
    have : 2 * (b0 * b1 * (T / k)) / (2 * (T / k)) = b0 * b1 := by
      rw [show 2 * (b0 * b1 * (T / k)) = b0 * b1 * (2 * (T / k)) by ring]
      exact Nat.mul_div_cancel _ (by omega)
    simp only [grid1, hout, if_neg hk.ne', List.getLastD_cons, block1]
    simp only [List.getLastD, if_neg hn.ne', this, getBlocks_one]
  refine ⟨⟨getBlocks (T / k) 1024, b0 * b1, 1⟩, periodize1 block1 (b0 * b1) T k,
    by simp [subsample1, hgrid, bind, Except.bind], hout, ?_⟩
  have hkr : ∀ t a, periodize1 block1 (b0 * b1) T k t = some a →
      t.block.x * 1024 + t.thread.x < T / k ∧ t.block.y * 1 + t.thread.y < b0 * b1 ∧
      a.write = (t.block.y * 1 + t.thread.y) * (T / k) + (t.block.x * 1024 + t.thread.x) ∧
      a.reads = aliases1 T k a.write := by
    intro t a h
    simp only [periodize1, Option.ite_none_left_eq_some] at h
    obtain ⟨hlt, h⟩ := h
    simp only [block1] at hlt h
    injection h with h
    have hlt' : t.block.x * 1024 + t.thread.x < T / k := by omega
    subst h
    refine ⟨hlt', by omega, by rw [dvd_mul_div hd], ?_⟩
    simp only [aliases1, dvd_mul_div hd, div_row hlt', mod_row hlt', add_assoc]
  refine ⟨fun i hi => ?_, fun t u a b ht hu ha hb hab => ?_, fun t a ht ha => ?_, fun t a ht ha => ?_⟩
  · have hq : i / (T / k) < b0 * b1 := Nat.div_lt_of_lt_mul (by rw [mul_comm]; exact hi)
    have hr : i % (T / k) < T / k := Nat.mod_lt _ hn
    refine ⟨⟨⟨i % (T / k) / 1024, i / (T / k), 0⟩, ⟨i % (T / k) % 1024, 0, 0⟩⟩,
      ⟨getBlocks_cover (by norm_num) hr, hq, Nat.one_pos, Nat.mod_lt _ (by norm_num [block1]),
        Nat.one_pos, Nat.one_pos⟩, ⟨i / (T / k) * T / k + i % (T / k),
          (List.range k).map fun r => i / (T / k) * T + i % (T / k) + r * T / k⟩, ?_, ?_⟩
    · have e : i % (T / k) / 1024 * 1024 + i % (T / k) % 1024 = i % (T / k) := by
        rw [mul_comm]; exact Nat.div_add_mod _ _
      simp only [periodize1, block1, e, mul_one, add_zero]
      rw [if_neg (by push Not; exact ⟨hr, hq⟩)]
    · show i / (T / k) * T / k + i % (T / k) = i
      rw [dvd_mul_div hd, mul_comm]
      exact Nat.div_add_mod _ _
  · obtain ⟨h1, -, h2, -⟩ := hkr t a ha
    obtain ⟨h3, -, h4, -⟩ := hkr u b hb
    obtain ⟨h5, h6⟩ := split_unique (b := T / k) h1 h3 (by rw [← h2, ← h4, hab])
    obtain ⟨h7, h8⟩ := split_unique (b := 1024) ht.2.2.2.1 hu.2.2.2.1 h6
    obtain ⟨⟨a1, a2, a3⟩, ⟨a4, a5, a6⟩⟩ := t
    obtain ⟨⟨b1, b2, b3⟩, ⟨b4, b5, b6⟩⟩ := u
    simp only [InGrid, block1, Nat.lt_one_iff] at ht hu h5 h7 h8
    obtain ⟨-, -, rfl, -, rfl, rfl⟩ := ht
    obtain ⟨-, -, rfl, -, rfl, rfl⟩ := hu
    simp only [mul_one, add_zero] at h5
    subst h5 h7 h8
    rfl
  · obtain ⟨h1, h2, h3, -⟩ := hkr t a ha
    rw [h3]
    exact row_split h2 h1
  · obtain ⟨h1, h2, h3, h4⟩ := hkr t a ha
    refine ⟨h4, fun r hr => ?_⟩
    rw [h4, aliases1, h3, div_row h1, mod_row h1] at hr
    obtain ⟨s, hs, rfl⟩ := List.mem_map.1 hr
    refine row_split h2 ?_
    have := row_split (List.mem_range.1 hs) h1
    rw [Nat.mul_div_cancel' hd, add_comm] at this
    exact this

/-- A concrete launch: two signals of 4096 samples subsampled by 2 need two blocks each. -/
example : ∃ grid kernel, subsample1 [2, 1, 4096] 2 = .ok (grid, kernel) ∧
    WritesOnce grid block1 kernel (2 * 1 * (4096 / 2)) (2 * 1 * 4096) (aliases1 4096 2) := by
  obtain ⟨g, k, h, -, hw⟩ := C56_subsample_1d 2 1 4096 2 (by norm_num) (by norm_num) (by norm_num)
  exact ⟨g, k, h, hw⟩

/-- On the five-dimensional stacks of joint time-frequency scattering, of shape `(b0, b1, n1, T, 2)`, the
kernel takes the frequency axis for the time axis (`T = x.shape[2]`): no cell from `b0 * b1 * (n1 / k)`
on is ever written, although the output has `b0 * b1 * n1 * (T / k)` cells. -/
theorem C56_stack_violated (b0 b1 n1 T k : Nat) (grid : Dim3) (kernel : Thread → Option Access)
    (hd : k ∣ n1) (h : subsample1 [b0, b1, n1, T] k = .ok (grid, kernel)) :
    outSize1 [b0, b1, n1, T] k = b0 * b1 * n1 * (T / k) ∧
    ∀ t a, kernel t = some a → a.write < b0 * b1 * (n1 / k) := by
  constructor
  · simp [outSize1, List.dropLast, List.getLastD, mul_assoc]
  · intro t a ha
    simp only [subsample1, List.cons_append, List.getElem?_cons_zero, List.getElem?_cons_succ] at h
    cases hg : grid1 [b0, b1, n1, T] k with
    | error e => rw [hg] at h; cases h
    | ok g =>
      rw [hg] at h
      injection h with h
      injection h with h1 h2
      subst h2
      simp only [periodize1, Option.ite_none_left_eq_some] at ha
      obtain ⟨hlt, ha⟩ := ha
      simp only [block1] at hlt ha
      injection ha with ha
      subst ha
      show _ * n1 / k + _ < _
      rw [dvd_mul_div hd]
      exact row_split (by omega) (by omega)

/-- The number of cells left unwritten is positive: three wavelets and 1024 samples, `k = 1`. -/
example : ∃ grid kernel, subsample1 [1, 1, 3, 1024] 1 = .ok (grid, kernel) ∧
    ∀ t a, kernel t = some a → a.write ≠ 3 := by
  have hg : ∃ x, subsample1 [1, 1, 3, 1024] 1 = .ok x := by
    refine ⟨_, rfl⟩
  obtain ⟨⟨g, k⟩, h⟩ := hg
  refine ⟨g, k, h, fun t a ha => ?_⟩
  have := (C56_stack_violated 1 1 3 1024 1 g k (by norm_num) h).2 t a ha
  omega

/-! ## C56: subsampling in 2-D -/

/-- The cells averaged into output cell `i` of a batch of `H × W` images: the `k * k` aliases. -/
def aliases2 (H W k : Nat) (i : Nat) : List Nat :=
  let b := i / (W / k) / (H / k)
  let y := i / (W / k) % (H / k)
  let x := i % (W / k)
  (List.range k).flatMap fun r => (List.range k).map fun s =>
    (b * H + (y + r * (H / k))) * W + (x + s * (W / k))

/-- Enough blocks in both directions. -/
def Enough (H W k : Nat) : Prop := getBlocks (H / k) 32 = getBlocks (W / k) 32

theorem kernel2 {B H W k : Nat} (hdH : k ∣ H) (hdW : k ∣ W) {t : Thread} {a : Access}
    (h : periodize2 block2 B H W k t = some a) :
    t.block.x * 32 + t.thread.x < W / k ∧ t.block.y * 32 + t.thread.y < H / k ∧
      t.block.z * 1 + t.thread.z < B ∧
      a.write = ((t.block.z * 1 + t.thread.z) * (H / k) + (t.block.y * 32 + t.thread.y)) * (W / k) +
        (t.block.x * 32 + t.thread.x) ∧
      a.reads = aliases2 H W k a.write := by
  simp only [periodize2, Option.ite_none_left_eq_some] at h
  obtain ⟨hlt, h⟩ := h
  simp only [block2] at hlt h
  injection h with h
  have hx : t.block.x * 32 + t.thread.x < W / k := by omega
  have hy : t.block.y * 32 + t.thread.y < H / k := by omega
  generalize t.block.x * 32 + t.thread.x = X at *
  generalize t.block.y * 32 + t.thread.y = Y at *
  generalize t.block.z * 1 + t.thread.z = Z at *
  have hw : Z * H / k * W / k + Y * W / k + X = (Z * (H / k) + Y) * (W / k) + X := by
    rw [dvd_mul_div hdH, dvd_mul_div hdW, dvd_mul_div hdW]; ring
  subst h
  refine ⟨hx, hy, by omega, hw, ?_⟩
  show (List.range k).flatMap _ = aliases2 H W k (Z * H / k * W / k + Y * W / k + X)
  rw [hw]
  simp only [aliases2, div_row hx, mod_row hx, div_row hy, mod_row hy, dvd_mul_div hdH,
    dvd_mul_div hdW]
  congr 1
  funext r
  congr 1
  funext s
  ring

/-- **Subsampling kernel, 2-D.**  For a batch of `B` images whose sides are divisible by `k`, and whose
subsampled sides need the same number of blocks of 32 (for instance square images), every output cell is
written once, from exactly its `k * k` aliases.  Partial: see `C56_subsample_2d_violated`. -/
theorem C56_subsample_2d_partial (B H W k : Nat) (hk : 0 < k) (hH : 0 < H) (hW : 0 < W) (hdH : k ∣ H)
    (hdW : k ∣ W) (he : Enough H W k) :
    WritesOnce (grid2 B H W k) block2 (periodize2 block2 B H W k) (B * (H / k) * (W / k)) (B * H * W)
      (aliases2 H W k) := by
  have hn : 0 < H / k := Nat.div_pos (Nat.le_of_dvd hH hdH) hk
  have hm : 0 < W / k := Nat.div_pos (Nat.le_of_dvd hW hdW) hk
  refine ⟨fun i hi => ?_, fun t u a b ht hu ha hb hab => ?_, fun t a ht ha => ?_, fun t a ht ha => ?_⟩
  · have hx : i % (W / k) < W / k := Nat.mod_lt _ hm
    have hy : i / (W / k) % (H / k) < H / k := Nat.mod_lt _ hn
    have hz : i / (W / k) / (H / k) < B := by
      rw [Nat.div_div_eq_div_mul, Nat.div_lt_iff_lt_mul (by positivity)]
      calc i < B * (H / k) * (W / k) := hi
        _ = B * (W / k * (H / k)) := by ring
    have e : ∀ n, n / 32 * 32 + n % 32 = n := fun n => by omega
    refine ⟨⟨⟨i % (W / k) / 32, i / (W / k) % (H / k) / 32, i / (W / k) / (H / k)⟩,
      ⟨i % (W / k) % 32, i / (W / k) % (H / k) % 32, 0⟩⟩, ⟨?_, ?_, ?_, Nat.mod_lt _ (by norm_num [block2]),
        Nat.mod_lt _ (by norm_num [block2]), Nat.one_pos⟩, ?_⟩
    · show _ < getBlocks (H / k) 32
      rw [he]
      exact getBlocks_cover (by norm_num) hx
    · show _ < getBlocks (W / k) 32
      rw [← he]
      exact getBlocks_cover (by norm_num) hy
    · show _ < getBlocks B 1
      rw [getBlocks_one]
      exact hz
    · refine ⟨_, by
        simp only [periodize2, block2, e, mul_one, add_zero]
        rw [if_neg (by push Not; exact ⟨hx, hy, hz⟩)], ?_⟩
      show i / (W / k) / (H / k) * H / k * W / k + i / (W / k) % (H / k) * W / k + i % (W / k) = i
      rw [dvd_mul_div hdH, dvd_mul_div hdW, dvd_mul_div hdW, ← add_mul]
      have h1 : i / (W / k) / (H / k) * (H / k) + i / (W / k) % (H / k) = i / (W / k) := by
        rw [mul_comm]; exact Nat.div_add_mod _ _
      rw [h1, mul_comm]
      exact Nat.div_add_mod _ _
  · obtain ⟨h1, h2, h3, h4, -⟩ := kernel2 hdH hdW ha
    obtain ⟨g1, g2, g3, g4, -⟩ := kernel2 hdH hdW hb
    obtain ⟨e1, e2⟩ := split_unique (b := W / k) h1 g1 (by rw [← h4, ← g4, hab])
    obtain ⟨e3, e4⟩ := split_unique (b := H / k) h2 g2 e1
    obtain ⟨e5, e6⟩ := split_unique (b := 32) ht.2.2.2.1 hu.2.2.2.1 e2
    obtain ⟨e7, e8⟩ := split_unique (b := 32) ht.2.2.2.2.1 hu.2.2.2.2.1 e4
    obtain ⟨⟨a1, a2, a3⟩, ⟨a4, a5, a6⟩⟩ := t
    obtain ⟨⟨b1, b2, b3⟩, ⟨b4, b5, b6⟩⟩ := u
    simp only [InGrid, block2, Nat.lt_one_iff] at ht hu e3 e5 e6 e7 e8
    obtain ⟨-, -, -, -, -, rfl⟩ := ht
    obtain ⟨-, -, -, -, -, rfl⟩ := hu
    simp only [mul_one, add_zero] at e3
    subst e3 e5 e6 e7 e8
    rfl
  · obtain ⟨h1, h2, h3, h4, -⟩ := kernel2 hdH hdW ha
    rw [h4]
    exact row_split (row_split h3 h2) h1
  · obtain ⟨h1, h2, h3, h4, h5⟩ := kernel2 hdH hdW ha
    refine ⟨h5, fun r hr => ?_⟩
    rw [h5] at hr
    simp only [aliases2, h4, div_row h1, mod_row h1, div_row h2, mod_row h2, List.mem_flatMap,
      List.mem_map, List.mem_range] at hr
    obtain ⟨p, hp, q, hq, rfl⟩ := hr
    have hy := row_split hp h2
    have hx := row_split hq h1
    rw [Nat.mul_div_cancel' hdH] at hy
    rw [Nat.mul_div_cancel' hdW] at hx
    exact row_split (row_split h3 (by omega)) (by omega)

/-- Square images need no condition. -/
theorem C56_square (N k : Nat) : Enough N N k := rfl

/-- A launch on 96 × 80 images subsampled by 2: 48 and 40 both need two blocks. -/
example : WritesOnce (grid2 5 96 80 2) block2 (periodize2 block2 5 96 80 2) (5 * (96 / 2) * (80 / 2)) (5 * 96 * 80)
    (aliases2 96 80 2) :=
  C56_subsample_2d_partial 5 96 80 2 (by norm_num) (by norm_num) (by norm_num) (by norm_num) (by norm_num)
    (by norm_num [Enough, getBlocks])

/-- The condition is exact: when the two sides need different numbers of blocks, some output cell is
written by no thread (the grid has the blocks of the height along `x` and those of the width
along `y`, while the kernel runs the width along `x`). -/
theorem C56_subsample_2d_violated (B H W k : Nat) (hB : 0 < B) (hdH : k ∣ H) (hdW : k ∣ W)
    (hH : 0 < H / k) (hW : 0 < W / k) (he : ¬ Enough H W k) :
    ∃ i < B * (H / k) * (W / k), ∀ t a, InGrid (grid2 B H W k) block2 t →
      periodize2 block2 B H W k t = some a → a.write ≠ i := by
  have big : ∀ n : Nat, 0 < n → (n - 1) / 32 + 1 = getBlocks n 32 := fun n hn => by
    rw [getBlocks, ← Nat.add_div_right _ (by norm_num)]
    congr 1
    omega
  rcases Nat.lt_or_gt_of_ne he with h | h
  · -- the last column
    refine ⟨(0 * (H / k) + 0) * (W / k) + (W / k - 1),
      row_split (row_split hB hH) (by omega), fun t a ht ha hw => ?_⟩
    obtain ⟨h1, h2, h3, h4, -⟩ := kernel2 hdH hdW ha
    obtain ⟨e1, e2⟩ := split_unique (b := W / k) h1 (by omega) (h4.symm.trans hw)
    have hbx : t.block.x < getBlocks (H / k) 32 := ht.1
    have htx : t.thread.x < 32 := ht.2.2.2.1
    have := big (W / k) hW
    omega
  · -- the last row
    refine ⟨(0 * (H / k) + (H / k - 1)) * (W / k) + 0,
      row_split (row_split hB (by omega)) hW, fun t a ht ha hw => ?_⟩
    obtain ⟨h1, h2, h3, h4, -⟩ := kernel2 hdH hdW ha
    obtain ⟨e1, e2⟩ := split_unique (b := W / k) h1 hW (h4.symm.trans hw)
    obtain ⟨e3, e4⟩ := split_unique (b := H / k) h2 (by omega) e1
    have hby : t.block.y < getBlocks (W / k) 32 := ht.2.1
    have hty : t.thread.y < 32 := ht.2.2.2.2.1
    have := big (H / k) hH
    omega

/-- A 32 × 64 image subsampled by 1 leaves cells unwritten: the widths beyond 32 are never reached. -/
example : ∃ i < 1 * (32 / 1) * (64 / 1), ∀ t a, InGrid (grid2 1 32 64 1) block2 t →
    periodize2 block2 1 32 64 1 t = some a → a.write ≠ i :=
  C56_subsample_2d_violated 1 32 64 1 (by norm_num) (by norm_num) (by norm_num) (by norm_num) (by norm_num)
    (by norm_num [Enough, getBlocks])

/-! ## C56: values -/

theorem foldl_add_eq_sum {α : Type} (f : α → ℂ) (l : List α) (s : ℂ) :
    (l.map f).foldl (· + ·) s = s + (l.map f).sum := by
  induction l generalizing s with
  | nil => simp
  | cons a l ih => simp only [List.map_cons, List.foldl_cons, List.sum_cons, ih]; ring

theorem sum_map_range (f : Nat → ℂ) (k : Nat) : ((List.range k).map f).sum = ∑ r ∈ Finset.range k, f r := by
  induction k with
  | zero => simp
  | succ k ih => rw [List.range_succ, List.map_append, List.sum_append, ih, Finset.sum_range_succ]; simp

theorem sum_flatMap_range (f : Nat → Nat → ℂ) (k m : Nat) :
    ((List.range k).flatMap fun r => (List.range m).map (f r)).sum =
      ∑ r ∈ Finset.range k, ∑ s ∈ Finset.range m, f r s := by
  induction k with
  | zero => simp
  | succ k ih =>
    rw [List.range_succ, List.flatMap_append, List.sum_append, ih, Finset.sum_range_succ]
    simp [sum_map_range]

/-- **Values, 1-D.**  Whatever the order of the threads and whatever the memory held before, afterwards the
cell of signal `b` and frequency `u` holds the mean of the `k` aliases of that frequency. -/
theorem C56_values_1d (b0 b1 T k : Nat) (hk : 0 < k) (hT : 0 < T) (hd : k ∣ T) (input mem : Nat → ℂ) :
    ∃ grid kernel, subsample1 [b0, b1, T] k = .ok (grid, kernel) ∧
      ∀ ts : List Thread, (∀ t, t ∈ ts ↔ InGrid grid block1 t) →
        ∀ b < b0 * b1, ∀ u < T / k,
          exec kernel (value1 k) input ts mem (b * (T / k) + u) =
            (∑ r ∈ Finset.range k, input (b * T + (u + r * (T / k)))) / k := by
  obtain ⟨g, ke, h, -, hw⟩ := C56_subsample_1d b0 b1 T k hk hT hd
  refine ⟨g, ke, h, fun ts hts b hb u hu => ?_⟩
  rw [(hw.result (value1 k) input ts hts mem).1 _ (row_split hb hu), value1, aliases1, List.map_map,
    foldl_add_eq_sum, zero_add, sum_map_range]
  simp only [Function.comp, div_row hu, mod_row hu]

/-- A batch of 2 times 3 signals of length 1024, subsampled by 4. -/
example (input mem : Nat → ℂ) : ∃ grid kernel, subsample1 [2, 3, 1024] 4 = .ok (grid, kernel) ∧
    ∀ ts : List Thread, (∀ t, t ∈ ts ↔ InGrid grid block1 t) →
      exec kernel (value1 4) input ts mem (1 * (1024 / 4) + 7) =
        (∑ r ∈ Finset.range 4, input (1 * 1024 + (7 + r * (1024 / 4)))) / (4 : ℕ) := by
  obtain ⟨g, k, h, hv⟩ := C56_values_1d 2 3 1024 4 (by norm_num) (by norm_num) (by norm_num) input mem
  exact ⟨g, k, h, fun ts hts => hv ts hts 1 (by norm_num) 7 (by norm_num)⟩

/-- **Values, 2-D.**  The cell `(y, x)` of image `b` holds the mean of its `k * k` aliases.  Partial as
`C56_subsample_2d_partial` is. -/
theorem C56_values_2d_partial (B H W k : Nat) (hk : 0 < k) (hH : 0 < H) (hW : 0 < W) (hdH : k ∣ H)
    (hdW : k ∣ W) (he : Enough H W k) (input mem : Nat → ℂ) (ts : List Thread)
    (hts : ∀ t, t ∈ ts ↔ InGrid (grid2 B H W k) block2 t) (b y x : Nat) (hb : b < B) (hy : y < H / k)
    (hx : x < W / k) :
    exec (periodize2 block2 B H W k) (value2 k) input ts mem ((b * (H / k) + y) * (W / k) + x) =
      (∑ r ∈ Finset.range k, ∑ s ∈ Finset.range k,
        input ((b * H + (y + r * (H / k))) * W + (x + s * (W / k)))) / (k * k) := by
  have hw := C56_subsample_2d_partial B H W k hk hH hW hdH hdW he
  rw [(hw.result (value2 k) input ts hts mem).1 _ (row_split (row_split hb hy) hx), value2, aliases2,
    foldl_add_eq_sum, zero_add, List.map_flatMap]
  simp only [List.map_map, div_row hx, mod_row hx, div_row hy, mod_row hy]
  rw [sum_flatMap_range]
  rfl

example (input mem : Nat → ℂ) (ts : List Thread) (hts : ∀ t, t ∈ ts ↔ InGrid (grid2 5 96 80 2) block2 t) :
    exec (periodize2 block2 5 96 80 2) (value2 2) input ts mem ((4 * (96 / 2) + 47) * (80 / 2) + 39) =
      (∑ r ∈ Finset.range 2, ∑ s ∈ Finset.range 2,
        input ((4 * 96 + (47 + r * (96 / 2))) * 80 + (39 + s * (80 / 2)))) / ((2 : ℕ) * (2 : ℕ)) :=
  C56_values_2d_partial 5 96 80 2 (by norm_num) (by norm_num) (by norm_num) (by norm_num) (by norm_num)
    (by norm_num [Enough, getBlocks]) input mem ts hts 4 47 39 (by norm_num) (by norm_num) (by norm_num)

/-- **Values, modulus.** -/
theorem C56_values_modulus (n : Nat) (input mem : Nat → ℝ) (ts : List Thread)
    (hts : ∀ t, t ∈ ts ↔ InGrid (gridAbs n) blockAbs t) (i : Nat) (hi : i < n) :
    exec (absKernel blockAbs n) valueAbs input ts mem i =
      Real.sqrt (input (2 * i) ^ 2 + input (2 * i + 1) ^ 2) := by
  rw [((C56_modulus n).result valueAbs input ts hts mem).1 i hi]
  simp [valueAbs]

end Cuda

/-! ## C55 -/

namespace ModulusStable

/-- The backward pass never returns an undefined value. -/
theorem C55_defined (x : ℝ × ℝ) (g : ℝ) :
    ∃ u v : ℝ, backward x g = (some u, some v) ∧ (x = 0 → u = 0 ∧ v = 0) := by
  simp only [backward]
  by_cases h : forward x = 0
  · rw [if_pos h]
    exact ⟨0, 0, rfl, fun _ => ⟨rfl, rfl⟩⟩
  · rw [if_neg h]
    refine ⟨x.1 * g / forward x, x.2 * g / forward x, by simp only [divT, if_neg h], fun hx => ?_⟩
    subst hx
    exact absurd (by simp [forward]) h

theorem forward_ne_zero {x : ℝ × ℝ} (h : x ≠ 0) : 0 < x.1 * x.1 + x.2 * x.2 := by
  rcases eq_or_ne x.1 0 with h1 | h1
  · have h2 : x.2 ≠ 0 := fun h2 => h (Prod.ext h1 h2)
    have := mul_self_pos.2 h2
    have := mul_self_nonneg x.1
    linarith
  · have := mul_self_pos.2 h1
    have := mul_self_nonneg x.2
    linarith

/-- The modulus vanishes at zero only. -/
theorem C55_forward (x : ℝ × ℝ) : forward x = ‖(⟨x.1, x.2⟩ : ℂ)‖ ∧ (forward x = 0 ↔ x = 0) := by
  constructor
  · rw [forward, Complex.norm_def, Complex.normSq_mk]
  · constructor
    · intro h
      by_contra hx
      exact (Real.sqrt_pos.2 (forward_ne_zero hx)).ne' h
    · rintro rfl; simp [forward]

/-- Derivative of the modulus at a non-zero point. -/
theorem hasFDerivAt_forward {x : ℝ × ℝ} (h : x ≠ 0) :
    HasFDerivAt forward ((x.1 / forward x) • ContinuousLinearMap.fst ℝ ℝ ℝ +
      (x.2 / forward x) • ContinuousLinearMap.snd ℝ ℝ ℝ) x := by
  have hp := forward_ne_zero h
  have h1 : HasFDerivAt (fun p : ℝ × ℝ => p.1 * p.1 + p.2 * p.2)
      ((x.1 • ContinuousLinearMap.fst ℝ ℝ ℝ + x.1 • ContinuousLinearMap.fst ℝ ℝ ℝ) +
        (x.2 • ContinuousLinearMap.snd ℝ ℝ ℝ + x.2 • ContinuousLinearMap.snd ℝ ℝ ℝ)) x :=
    (hasFDerivAt_fst.mul hasFDerivAt_fst).add (hasFDerivAt_snd.mul hasFDerivAt_snd)
  have h2 := h1.sqrt hp.ne'
  refine h2.congr_fderiv ?_
  have hs : Real.sqrt (x.1 * x.1 + x.2 * x.2) ≠ 0 := (Real.sqrt_pos.2 hp).ne'
  ext
  · simp [forward]; field_simp; ring
  · simp [forward]; field_simp; ring

/-- **True gradient.**  For any number of complex inputs none of which vanishes, and any loss `L` of their
moduli with gradient `g` there, the values returned by the backward pass are the partial derivatives
of the loss with respect to the real and imaginary parts of the inputs. -/
theorem C55_gradient {ι : Type} [Fintype ι] (x : ι → ℝ × ℝ) (hx : ∀ i, x i ≠ 0) (L : (ι → ℝ) → ℝ)
    (g : ι → ℝ)
    (hL : HasFDerivAt L (∑ i, g i • ContinuousLinearMap.proj (R := ℝ) (φ := fun _ : ι => ℝ) i)
      (fun i => forward (x i))) :
    ∃ u v : ι → ℝ, (∀ i, backward (x i) (g i) = (some (u i), some (v i))) ∧
      HasFDerivAt (fun y : ι → ℝ × ℝ => L fun i => forward (y i))
        (∑ i, (u i • (ContinuousLinearMap.fst ℝ ℝ ℝ).comp
            (ContinuousLinearMap.proj (R := ℝ) (φ := fun _ : ι => ℝ × ℝ) i) +
          v i • (ContinuousLinearMap.snd ℝ ℝ ℝ).comp
            (ContinuousLinearMap.proj (R := ℝ) (φ := fun _ : ι => ℝ × ℝ) i))) x := by
  refine ⟨fun i => (x i).1 * g i / forward (x i), fun i => (x i).2 * g i / forward (x i), fun i => ?_, ?_⟩
  · have h : forward (x i) ≠ 0 := fun h => hx i ((C55_forward _).2.1 h)
    simp only [backward, if_neg h, divT]
  · have h1 : HasFDerivAt (fun (y : ι → ℝ × ℝ) i => forward (y i))
        (ContinuousLinearMap.pi fun i => (((x i).1 / forward (x i)) • ContinuousLinearMap.fst ℝ ℝ ℝ +
          ((x i).2 / forward (x i)) • ContinuousLinearMap.snd ℝ ℝ ℝ).comp
            (ContinuousLinearMap.proj (R := ℝ) (φ := fun _ : ι => ℝ × ℝ) i)) x :=
      hasFDerivAt_pi.2 fun i => HasFDerivAt.comp (g := forward) x (hasFDerivAt_forward (hx i))
        (ContinuousLinearMap.proj (R := ℝ) (φ := fun _ : ι => ℝ × ℝ) i).hasFDerivAt
    refine (hL.comp x h1).congr_fderiv ?_
    ext y
    simp only [ContinuousLinearMap.comp_apply, _root_.sum_apply, _root_.smul_apply,
      ContinuousLinearMap.proj_apply, ContinuousLinearMap.pi_apply, _root_.add_apply, smul_eq_mul,
      ContinuousLinearMap.coe_fst', ContinuousLinearMap.coe_snd']
    refine Finset.sum_congr rfl fun i _ => ?_
    ring

/-- At the point `3 + 4i` the gradient of the modulus itself is `(3/5, 4/5)`. -/
example : backward (3, 4) 1 = (some (3 / 5), some (4 / 5)) := by
  have h : forward (3, 4) = 5 := by
    rw [forward, show (3 : ℝ) * 3 + 4 * 4 = 5 ^ 2 by norm_num]
    exact Real.sqrt_sq (by norm_num)
  simp only [backward, h, divT]
  norm_num

/-- At zero the pass returns zero, which is a subgradient of the modulus. -/
theorem C55_zero (g : ℝ) : backward 0 g = (some 0, some 0) ∧
    ∀ y : ℝ × ℝ, forward 0 + (0 * y.1 + 0 * y.2) ≤ forward y := by
  have h : forward 0 = 0 := (C55_forward 0).2.2 rfl
  refine ⟨by simp only [backward, h, if_true], fun y => ?_⟩
  rw [h]
  simp [forward]

end ModulusStable

end Verif
