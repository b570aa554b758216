import Verif.Model.MetaJTFS
import Verif.Props.PathsJTFS
import Verif.Props.StrideJTFS

/-!
# C89: the columns of `meta()` of joint time-frequency scattering
-/

namespace Verif

open JTFS FrontJ

/-! ## Scales of the first-order filters -/

theorem forall₂_pairwise {α β : Type} {R : α → β → Prop} {S : α → α → Prop} {T : β → β → Prop}
    {l : List α} {m : List β} (h : List.Forall₂ R l m) (hl : l.Pairwise S)
    (hst : ∀ a b c d, a ∈ l → c ∈ l → R a b → R c d → S a c → T b d) : m.Pairwise T := by
  induction h with
  | nil => exact .nil
  | cons hab ht ih =>
    rw [List.pairwise_cons] at hl
    refine .cons ?_ (ih hl.2 fun a b c d ha hc => hst a b c d (List.mem_cons_of_mem _ ha)
      (List.mem_cons_of_mem _ hc))
    intro d hd
    obtain ⟨c, hc, hcd⟩ := forall₂_mem_right ht hd
    exact hst _ _ _ _ (by simp) (List.mem_cons_of_mem _ hc) hab hcd (hl.1 c hc)

theorem maxDyadic_anti {x y s t : ℝ} (hx : 0 ≤ x) (hy : 0 < y) (ht : 0 < t) (hxy : y ≤ x) (hst : t ≤ s) :
    getMaxDyadicSubsampling x s 5 ≤ getMaxDyadicSubsampling y t 5 := by
  unfold getMaxDyadicSubsampling
  simp only
  rw [abs_of_nonneg hx, abs_of_pos hy]
  have h0 : 0 < min (y + 5 * t) (1 / 2) := lt_min (by linarith) (by norm_num)
  have h1 : min (y + 5 * t) (1 / 2) ≤ min (x + 5 * s) (1 / 2) := min_le_min (by linarith) le_rfl
  have := Real.logb_le_logb_of_le (b := 2) (by norm_num) h0 h1
  have := Int.floor_le_floor (show -Real.logb 2 (min (x + 5 * s) (1 / 2)) ≤
    -Real.logb 2 (min (y + 5 * t) (1 / 2)) by linarith)
  omega

/-- Within a bank the scales do not decrease. -/
theorem bank_sorted {N J Q : Nat} (hQ : 1 ≤ Q) {pj lT : ℤ} {psi : List FiltX}
    (h : List.Forall₂ (fun p f => makePsi false N 5 pj lT p = .ok f) (anden J Q) psi) :
    psi.Pairwise fun f g => f.j ≤ g.j := by
  obtain ⟨l, hl, -, hd, hs, -⟩ := C24_anden_generator J Q hQ 0.1 (Real.sqrt 0.5) (by norm_num) (by norm_num)
    sqrt_half_pos sqrt_half_lt_one
  have hlE : anden J Q = l := by unfold anden; rw [hl]; rfl
  rw [hlE] at h
  refine forall₂_pairwise (S := fun p q => q.1 < p.1 ∧ q.2 ≤ p.2) h (hd.and hs) ?_
  intro a b c d ha hc hab hcd hac
  rw [← hlE] at ha hc
  rw [(makePsi_fields hab).2.2.1, (makePsi_fields hcd).2.2.1]
  have h1 := anden_pos hQ ha
  have h2 := anden_pos hQ hc
  exact maxDyadic_anti h1.1.le h2.1 (lt_of_lt_of_le (by positivity) h2.2.2) hac.1.le hac.2

theorem maxDyadic_nonneg (x s : ℝ) (h : 0 < |x| + 5 * s) : 0 ≤ getMaxDyadicSubsampling x s 5 := by
  unfold getMaxDyadicSubsampling
  simp only
  have h0 : 0 < min (|x| + 5 * s) (1 / 2) := lt_min h (by norm_num)
  have h1 : min (|x| + 5 * s) (1 / 2) ≤ 1 / 2 := min_le_right _ _
  have h2 := Real.logb_le_logb_of_le (b := 2) (by norm_num) h0 h1
  rw [one_div, Real.logb_inv, Real.logb_self_eq_one (by norm_num)] at h2
  have : (1 : ℤ) ≤ ⌊-Real.logb 2 (min (|x| + 5 * s) (1 / 2))⌋ := by
    rw [Int.le_floor]; push_cast; linarith
  omega

theorem bank_nonneg {N J Q : Nat} (hQ : 1 ≤ Q) {pj lT : ℤ} {psi : List FiltX}
    (h : List.Forall₂ (fun p f => makePsi false N 5 pj lT p = .ok f) (anden J Q) psi) :
    ∀ f ∈ psi, 0 ≤ f.j := by
  intro f hf
  obtain ⟨p, hp, hpf⟩ := forall₂_mem_right h hf
  rw [(makePsi_fields hpf).2.2.1]
  have h1 := anden_pos hQ hp
  have h2 : 0 < p.2 := lt_of_lt_of_le (by positivity) h1.2.2
  exact maxDyadic_nonneg _ _ (by have := abs_nonneg p.1; linarith)

theorem psi_scale_nonneg {a : Args1D} {s : Sc1D} (hmake : a.make = .ok s) :
    (∀ f ∈ s.psi1, 0 ≤ f.j) ∧ ∀ f ∈ s.psi2, 0 ≤ f.j := by
  obtain ⟨t, Q1, Q2, lT, M1, M2, hQ1, hQ2, -, -, -, -, h1, h2, -⟩ := make_filters hmake
  exact ⟨bank_nonneg hQ1 h1, bank_nonneg hQ2 h2⟩

theorem psi1_sorted {a : Args1D} {s : Sc1D} (hmake : a.make = .ok s) :
    s.psi1.Pairwise fun f g => f.j ≤ g.j := by
  obtain ⟨t, Q1, Q2, lT, M1, M2, hQ1, -, -, -, -, -, h1, -⟩ := make_filters hmake
  exact bank_sorted hQ1 h1

theorem filter_lt_prefix {α : Type} (f : α → Nat) (k : Nat) {l : List α}
    (h : l.Pairwise fun a b => f a ≤ f b) :
    (l.filter fun a => decide (f a < k)) = l.take (l.countP fun a => decide (f a < k)) := by
  induction l with
  | nil => rfl
  | cons a l ih =>
    rw [List.pairwise_cons] at h
    by_cases ha : f a < k
    · simp [ha, ih h.2]
    · have : ∀ b ∈ l, ¬ f b < k := fun b hb hbk => ha (lt_of_le_of_lt (h.1 b hb) hbk)
      rw [List.filter_cons_of_neg (by simpa using ha), List.countP_cons_of_neg (by simpa using ha)]
      rw [List.filter_eq_nil_iff.2 (by simpa using this), List.countP_eq_zero.2 (by simpa using this)]
      rfl

/-- **C89.** A stack of second-order coefficients of scale `j2` holds the first-order filters of smaller
scale, and these are an initial segment of the first-order bank: row `n1` of the stack comes from
`psi1[n1]`. -/
theorem C89_stack_index (a : JArgs) (s : ScJ) (hmake : a.make = .ok s) (j2 : Nat) (n1 : Nat) (f : FiltX) :
    (s.base.psi1.filter fun f => decide (f.j.toNat < j2))[n1]? = some f ↔
      s.base.psi1[n1]? = some f ∧ f.j.toNat < j2 := by
  obtain ⟨_, _, _, hb, -⟩ := JArgs.make_eq_ok hmake
  have hs : s.base.psi1.Pairwise fun f g => f.j.toNat ≤ g.j.toNat :=
    (psi1_sorted hb).imp fun h => by omega
  have hp := filter_lt_prefix (fun f : FiltX => f.j.toNat) j2 hs
  constructor
  · intro h
    have hm := List.mem_of_getElem? h
    rw [hp] at h
    rw [List.getElem?_take] at h
    split at h
    · exact ⟨h, by simpa using (List.mem_filter.1 hm).2⟩
    · cases h
  · rintro ⟨h, hj⟩
    rw [hp, List.getElem?_take, if_pos, h]
    by_contra hn
    have h1 : s.base.psi1.drop (s.base.psi1.countP fun a => decide (a.j.toNat < j2)) =
        s.base.psi1.drop (s.base.psi1.filter fun a => decide (a.j.toNat < j2)).length := by
      rw [List.countP_eq_length_filter]
    have hmem : f ∈ s.base.psi1.drop (s.base.psi1.countP fun a => decide (a.j.toNat < j2)) := by
      rw [List.mem_iff_getElem?]
      refine ⟨n1 - s.base.psi1.countP fun a => decide (a.j.toNat < j2), ?_⟩
      rw [List.getElem?_drop]
      rw [show (s.base.psi1.countP fun a => decide (a.j.toNat < j2)) +
        (n1 - s.base.psi1.countP fun a => decide (a.j.toNat < j2)) = n1 by omega]
      exact h
    have hsplit := List.countP_append (p := fun a : FiltX => decide (a.j.toNat < j2))
      (l₁ := s.base.psi1.take (s.base.psi1.countP fun a => decide (a.j.toNat < j2)))
      (l₂ := s.base.psi1.drop (s.base.psi1.countP fun a => decide (a.j.toNat < j2)))
    rw [List.take_append_drop, ← hp, List.countP_filter] at hsplit
    simp only [Bool.and_self] at hsplit
    have : 0 < (s.base.psi1.drop (s.base.psi1.countP fun a => decide (a.j.toNat < j2))).countP
        fun a => decide (a.j.toNat < j2) := List.countP_pos_iff.2 ⟨f, hmem, by simpa using hj⟩
    omega

/-! ## Everything a path carries besides its coefficient -/

/-- `n`, `(j_fr, n_fr, spin)` and `(n1_max, n1_stride)` of a path. -/
def pathData {R RS : Type} (p : JPath R RS) : List Int × Option (Nat × Nat × Int) × Option (Nat × Nat) :=
  (p.n, p.fr, p.n1)

/-- The same from the label before formatting. -/
def fmtData (fmt : Format) (lsFr : Nat) (averageFr : Average) (p : Label) :
    List (List Int × Option (Nat × Nat × Int) × Option (Nat × Nat)) :=
  match fmt with
  | .joint => [(p.n, some (p.jFr, p.nFr, p.spin), some (p.n1Max, strideOf lsFr averageFr p))]
  | .time => (n1Range p.n1Max (strideOf lsFr averageFr p)).map fun n1 : Nat =>
      ((n1 : Int) :: p.n, some (p.jFr, p.nFr, p.spin), none)
  | .other => []

theorem averageBody_data (B : JBackend) {phi : Filt B.F} {ls : Nat} {average : Average} {phiFr : PhiFr B.F}
    {lsFr : Nat} {averageFr : Average} {arrayOut : Bool} {fmt : Format} {p : FPath B.CS}
    {out : List (JPath B.R B.RS)}
    (h : averageBody B phi ls average phiFr lsFr averageFr arrayOut fmt p = .ok out) :
    out.map pathData = fmtData fmt lsFr averageFr (label p) := by
  obtain ⟨_, _, S, S', _, _, _, h2, _, h⟩ := averageBody_eq_ok B h
  unfold formatPath at h
  unfold fmtData
  cases fmt with
  | joint =>
    injection h with h
    rw [← h, ← h2]; rfl
  | other => injection h with h; rw [← h]; rfl
  | time =>
    obtain ⟨l, -, hf⟩ := timeFormatting_eq_ok B h
    simp only [h2] at hf
    rw [forall₂_zipIdx_map hf (f := pathData)
      (g := fun n1 : Nat => ((n1 : Int) :: p.n, some (p.jFr, p.nFr, p.spin), none))]
    · rfl
    · rintro a b ⟨c, -, rfl⟩; rfl

theorem paths_data (B : JBackend) {o : JObj B.F} {ls lsFr : Nat} {U0 : B.R}
    {out : List (JPath B.R B.RS)} (h : paths B o ls lsFr U0 = .ok out) :
    out.map pathData = ([], none, none) :: (JTFS.labels o.psi1 o.psi2 o.psisFr).flatMap
      (fmtData o.fmt lsFr o.averageFr) := by
  unfold paths at h
  obtain ⟨g, hg, h'⟩ := bind_eq_ok.1 h
  obtain ⟨z, l, -, hl, rfl⟩ := averageAndFormat_eq_ok B h'
  rw [← JTFS.joint_labels B hg, List.map_cons]
  congr 1
  replace hl := mapM_eq_ok.1 hl
  clear h h'
  generalize g.2 = a at hl
  induction hl with
  | nil => rfl
  | cons hab _ ih => rw [List.flatten_cons, List.map_append, ih, averageBody_data B hab]; rfl

theorem stages_data {B : JBackend} {ops : JFrontOps B.R B.RS} {o : JObj B.F} {x : B.R}
    {P : List (JPath B.R B.RS)} (h : Stages B ops o x P) {lsFr : Int} (hf : o.log2StrideFr = .ok lsFr) :
    P.map pathData = ([], none, none) :: (JTFS.labels o.psi1 o.psi2 o.psisFr).flatMap
      (fmtData o.fmt lsFr.toNat o.averageFr) := by
  obtain ⟨U0, ls, lf, S, -, -, h3, h4, h5⟩ := h
  rw [hf] at h3
  injection h3 with h3
  subst h3
  rw [← paths_data B h4]
  refine map_forall₂ (mapM_eq_ok.1 h5) ?_
  intro a b hab
  obtain ⟨c, rfl⟩ := post_eq_ok hab
  rfl

theorem metaRow_congr {F R RS R' RS' : Type} (o : JObj F) {p : JPath R RS} {q : JPath R' RS'}
    (h : pathData p = pathData q) : metaRow o p = metaRow o q := by
  unfold pathData at h
  simp only [Prod.mk.injEq] at h
  obtain ⟨h1, h2, h3⟩ := h
  unfold metaRow metaN pathRange
  rw [h1, h2, h3]

/-! ## The rows -/

/-- `l` is the increasing list of the multiples of `s` below `m`. -/
def Spec.IsRange (m s : Nat) (l : List Nat) : Prop :=
  (∀ k, k ∈ l ↔ k < m ∧ s ∣ k) ∧ l.Pairwise (· < ·)

/-- What a row of `meta()` must say of a path `p` of an object `s`: the frequential filter `n_fr`, the
first-order filter `n1` (or, for a stack, the indices of all its rows) and the second-order filter `n2`
that `p` goes through, and its order.  `p` itself records the scale and the spin of its frequential
filter. -/
def Spec.MetaOf (s : ScJ) (fmt : Format) (p : JPath (List ℝ) (Img ℝ)) (r : MetaRow) : Prop :=
  (p.n = [] ∧ p.fr = none ∧ r = ⟨(.nan, .nan), none, 0⟩) ∨
  ∃ (i : Nat) (f : FiltX), s.psisFr[i]? = some f ∧ r.nFr = some i ∧
    p.fr = some (f.j.toNat, i, (SignType.sign f.xi : Int)) ∧
    ((fmt = .time ∧ ∃ n1 : Nat, n1 < s.base.psi1.length ∧ p.n = [(n1 : Int), (i : Int)] ∧
        r.n = (.idx n1, .nan) ∧ r.order = 1) ∨
      (fmt = .time ∧ ∃ (n1 n2 : Nat) (f1 f2 : FiltX), s.base.psi1[n1]? = some f1 ∧
        s.base.psi2[n2]? = some f2 ∧ f1.j < f2.j ∧ p.n = [(n1 : Int), (n2 : Int), (i : Int)] ∧
        r.n = (.idx n1, .idx n2) ∧ r.order = 2) ∨
      (fmt = .joint ∧ ∃ st l, p.n = [(i : Int)] ∧ p.n1 = some (s.base.psi1.length, st) ∧
        Spec.IsRange s.base.psi1.length st l ∧ r.n = (.range l, .nan) ∧ r.order = 1) ∨
      (fmt = .joint ∧ ∃ (n2 : Nat) (f2 : FiltX) (m st : Nat) (l : List Nat), s.base.psi2[n2]? = some f2 ∧
        p.n = [(n2 : Int), (i : Int)] ∧ p.n1 = some (m, st) ∧
        (∀ n1 f1, s.base.psi1[n1]? = some f1 → (n1 < m ↔ f1.j < f2.j)) ∧
        Spec.IsRange m st l ∧ r.n = (.range l, .idx n2) ∧ r.order = 2))

theorem isRange_n1Range {m s : Nat} (hs : 0 < s) : Spec.IsRange m s (n1Range m s) := by
  constructor
  · intro k
    unfold n1Range
    constructor
    · intro h
      obtain ⟨i, hi, rfl⟩ := List.mem_map.1 h
      exact ⟨(lt_ceil_iff hs).1 (List.mem_range.1 hi), Dvd.intro_left _ rfl⟩
    · rintro ⟨h, i, rfl⟩
      exact List.mem_map.2 ⟨i, List.mem_range.2 ((lt_ceil_iff hs).2 (by rw [mul_comm]; exact h)), mul_comm _ _⟩
  · unfold n1Range
    rw [List.pairwise_map]
    exact List.pairwise_lt_range.imp fun h => Nat.mul_lt_mul_of_pos_right h hs

theorem mem_labels_cases {F : Type} {psi1 psi2 : List (Filt F)} {psisFr : List (FiltFr F)} {l : Label}
    (hpre : ∀ (i : Nat) (f : FiltFr F), (psisFr.filter fun p => decide (0 ≤ p.spin))[i]? = some f →
      psisFr[i]? = some f)
    (h : l ∈ labels psi1 psi2 psisFr) :
    ∃ (i : Nat) (f : FiltFr F), psisFr[i]? = some f ∧ l.nFr = i ∧ l.jFr = f.j ∧ l.spin = f.spin ∧
      l.n1Stride = 2 ^ f.j ∧ ((l.n = [(i : Int)] ∧ l.n1Max = psi1.length) ∨
        ∃ (n2 : Nat) (g : Filt F), psi2[n2]? = some g ∧ l.n = [(n2 : Int), (i : Int)] ∧
          l.n1Max = admissible psi1 g.j ∧ 0 < l.n1Max) := by
  unfold labels at h
  rcases List.mem_append.1 h with h | h
  · obtain ⟨q, hq, rfl⟩ := List.mem_map.1 h
    exact ⟨q.2, q.1, hpre _ _ (List.mem_zipIdx_iff_getElem?.1 hq), rfl, rfl, rfl, rfl, .inl ⟨rfl, rfl⟩⟩
  · obtain ⟨t, ht, h⟩ := List.mem_flatMap.1 h
    obtain ⟨q, hq, rfl⟩ := List.mem_map.1 h
    unfold stackLabels at ht
    obtain ⟨u, hu, rfl⟩ := List.mem_map.1 ht
    obtain ⟨hu1, hu2⟩ := List.mem_filter.1 hu
    exact ⟨q.2, q.1, List.mem_zipIdx_iff_getElem?.1 hq, rfl, rfl, rfl, rfl,
      .inr ⟨u.2, u.1, List.mem_zipIdx_iff_getElem?.1 hu1, rfl, rfl, by simpa using hu2⟩⟩

/-- What one path contributes to the rows. -/
def rowsOf (s : ScJ) {F : Type} (o : JObj F) (p : JPath (List ℝ) (Img ℝ)) (l : List MetaRow) : Prop :=
  (p.n = [] ∧ o.fmt = .joint ∧ o.outType = .array ∧ l = []) ∨
    (¬ (p.n = [] ∧ o.fmt = .joint ∧ o.outType = .array) ∧ ∃ r, l = [r] ∧ Spec.MetaOf s o.fmt p r)

theorem bank_prefix {a : JArgs} {s : ScJ} (h : a.make = .ok s) (Q1 : Nat) (i : Nat) (f : FiltFr (List ℝ))
    (hf : ((a.obj s Q1).psisFr.filter fun p => decide (0 ≤ p.spin))[i]? = some f) :
    (a.obj s Q1).psisFr[i]? = some f := by
  obtain ⟨low, pos, neg, hb, h0, h1, h2, -⟩ := C32_bank h Q1
  have : (a.obj s Q1).psisFr.filter (fun p => decide (0 ≤ p.spin)) = low :: pos := by
    rw [hb, List.filter_append, List.filter_eq_self.2, List.filter_eq_nil_iff.2, List.append_nil]
    · intro f hf; rw [h2 f hf]; decide
    · intro f hf
      rcases List.mem_cons.1 hf with rfl | hf
      · rw [h0]; decide
      · rw [h1 f hf]; decide
  rw [this] at hf
  rw [hb, List.getElem?_append_left (List.getElem?_eq_some_iff.1 hf).1]
  exact hf

theorem stride_ne_zero {a : JArgs} {s : ScJ} (h : a.make = .ok s) (Q1 lsFr : Nat) (l : Label)
    (hl : l ∈ labels (a.obj s Q1).psi1 (a.obj s Q1).psi2 (a.obj s Q1).psisFr) :
    0 < l.n1Max ∧ 0 < strideOf lsFr (a.obj s Q1).averageFr l := by
  obtain ⟨_, _, _, hb, -⟩ := JArgs.make_eq_ok h
  obtain ⟨_, R1, _, _, _, _, hR1, -, -, -, -, -, hp, -⟩ := make_filters hb
  have hlen : 0 < s.base.psi1.length := by
    rw [← hp.length_eq]; exact (C25_number_of_filters_partial a.base.J R1 hR1).1
  obtain ⟨i, f, -, -, -, -, hst, hc⟩ := mem_labels_cases (bank_prefix h Q1) hl
  have hm : 0 < l.n1Max := by
    rcases hc with ⟨-, hc⟩ | ⟨_, _, -, -, -, hc⟩
    · rw [hc]; simpa [JArgs.obj] using hlen
    · exact hc
  refine ⟨hm, ?_⟩
  unfold strideOf
  split
  · split
    · exact hm
    · positivity
  · rw [hst]; positivity

theorem metaRow_spec {a : JArgs} {s : ScJ} (h : a.make = .ok s) (Q1 lsFr : Nat)
    {p : JPath (List ℝ) (Img ℝ)}
    (hp : pathData p ∈ ([], none, none) :: (labels (a.obj s Q1).psi1 (a.obj s Q1).psi2
      (a.obj s Q1).psisFr).flatMap (fmtData (a.obj s Q1).fmt lsFr (a.obj s Q1).averageFr)) :
    ∃ l, metaRow (a.obj s Q1) p = .ok l ∧ rowsOf s (a.obj s Q1) p l := by
  rcases List.mem_cons.1 hp with hp | hp
  · unfold pathData at hp
    simp only [Prod.mk.injEq] at hp
    obtain ⟨h1, h2, -⟩ := hp
    unfold metaRow rowsOf
    by_cases hc : (a.obj s Q1).fmt = .joint ∧ (a.obj s Q1).outType = .array
    · refine ⟨[], ?_, .inl ⟨h1, hc.1, hc.2, rfl⟩⟩
      rw [h1]; simp [hc]
    · refine ⟨[⟨(.nan, .nan), none, 0⟩], ?_, .inr ⟨fun hh => hc hh.2, _, rfl, .inl ⟨h1, h2, rfl⟩⟩⟩
      rw [h1]
      simp only [List.length_nil, if_true]
      rw [if_neg hc]
  · obtain ⟨l, hl, hp⟩ := List.mem_flatMap.1 hp
    obtain ⟨hm, hst⟩ := stride_ne_zero h Q1 lsFr l hl
    obtain ⟨i, f, hf, hni, hnj, hns, -, hc⟩ := mem_labels_cases (bank_prefix h Q1) hl
    have hf' : ∃ g, s.psisFr[i]? = some g ∧ f = g.toFiltFr := by
      have : (s.psisFr.map FiltX.toFiltFr)[i]? = some f := hf
      rw [List.getElem?_map] at this
      obtain ⟨g, hg, rfl⟩ := Option.map_eq_some_iff.1 this
      exact ⟨g, hg, rfl⟩
    obtain ⟨g, hg, rfl⟩ := hf'
    obtain ⟨_, _, _, hb, -⟩ := JArgs.make_eq_ok h
    have hadm : ∀ j2, admissible (a.obj s Q1).psi1 j2 =
        (s.base.psi1.filter fun f => decide (f.j.toNat < j2)).length := by
      intro j2
      unfold admissible
      rw [show (a.obj s Q1).psi1 = s.base.psi1.map FiltX.toFilt from rfl, List.filter_map, List.length_map]
      rfl
    have hstack : ∀ (n2 : Nat) (q : Filt (List ℝ)), (a.obj s Q1).psi2[n2]? = some q →
        ∃ f2, s.base.psi2[n2]? = some f2 ∧ q.j = f2.j.toNat ∧
          ∀ (n1 : Nat) (f1 : FiltX), s.base.psi1[n1]? = some f1 →
            (n1 < admissible (a.obj s Q1).psi1 q.j ↔ f1.j < f2.j) := by
      intro n2 q hq
      have : (s.base.psi2.map FiltX.toFilt)[n2]? = some q := hq
      rw [List.getElem?_map] at this
      obtain ⟨f2, hf2, rfl⟩ := Option.map_eq_some_iff.1 this
      refine ⟨f2, hf2, rfl, ?_⟩
      intro n1 f1 hf1
      have hi := C89_stack_index a s h f2.j.toNat n1 f1
      have hz := (psi_scale_nonneg hb).1 f1 (List.mem_of_getElem? hf1)
      have e : f1.j < f2.j ↔ f1.j.toNat < f2.j.toNat := by omega
      rw [hadm, e, show f2.toFilt.j = f2.j.toNat from rfl]
      constructor
      · intro hlt
        obtain ⟨f3, hf3⟩ : ∃ f3, (s.base.psi1.filter fun f => decide (f.j.toNat < f2.j.toNat))[n1]? = some f3 :=
          ⟨_, List.getElem?_eq_getElem hlt⟩
        have := (C89_stack_index a s h f2.j.toNat n1 f3).1 hf3
        rw [hf1] at this
        obtain ⟨h1, h2⟩ := this
        injection h1 with h1
        subst h1
        exact h2
      · intro hlt
        exact (List.getElem?_eq_some_iff.1 (hi.2 ⟨hf1, hlt⟩)).1
    have hne : ∀ r, p.n ≠ [] → Spec.MetaOf s (a.obj s Q1).fmt p r → metaRow (a.obj s Q1) p = .ok [r] →
        ∃ l, metaRow (a.obj s Q1) p = .ok l ∧ rowsOf s (a.obj s Q1) p l := fun r h1 h2 h3 =>
      ⟨_, h3, .inr ⟨fun hh => h1 hh.1, r, rfl, h2⟩⟩
    unfold fmtData at hp
    cases hfmt : (a.obj s Q1).fmt with
    | other => rw [hfmt] at hp; cases hp
    | joint =>
      rw [hfmt] at hp
      simp only [List.mem_singleton] at hp
      unfold pathData at hp
      simp only [Prod.mk.injEq] at hp
      obtain ⟨p1, p2, p3⟩ := hp
      have hr : pathRange p = .ok (n1Range l.n1Max (strideOf lsFr (a.obj s Q1).averageFr l)) := by
        unfold pathRange
        rw [p3]
        simp only
        rw [if_neg hst.ne']
      rcases hc with ⟨hn, hmx⟩ | ⟨n2, q, hq, hn, hmx, -⟩
      · refine hne ⟨(.range (n1Range l.n1Max (strideOf lsFr (a.obj s Q1).averageFr l)), .nan), some i, 1⟩
          (by rw [p1, hn]; simp) ?_ ?_
        · refine .inr ⟨i, g, hg, rfl, ?_, ?_⟩
          · rw [p2, hni, hnj, hns]; rfl
          · refine .inr (.inr (.inl ⟨hfmt, strideOf lsFr (a.obj s Q1).averageFr l, _, by rw [p1, hn], ?_, ?_, rfl, rfl⟩))
            · rw [p3, hmx]; simp [JArgs.obj]
            · have : s.base.psi1.length = l.n1Max := by rw [hmx]; simp [JArgs.obj]
              rw [this]
              exact isRange_n1Range hst
        · unfold metaRow metaN
          rw [p1, hn, p2, hfmt, hr, hni]
          rfl
      · obtain ⟨f2, hf2, hfj, hlt⟩ := hstack n2 q hq
        refine hne ⟨(.range (n1Range l.n1Max (strideOf lsFr (a.obj s Q1).averageFr l)), .idx n2), some i, 2⟩
          (by rw [p1, hn]; simp) ?_ ?_
        · refine .inr ⟨i, g, hg, rfl, ?_, ?_⟩
          · rw [p2, hni, hnj, hns]; rfl
          · exact .inr (.inr (.inr ⟨hfmt, n2, f2, l.n1Max, strideOf lsFr (a.obj s Q1).averageFr l, _, hf2,
              by rw [p1, hn], p3, by rw [hmx]; exact hlt, isRange_n1Range hst, rfl, rfl⟩))
        · unfold metaRow metaN
          rw [p1, hn, p2, hfmt, hr, hni]
          rfl
    | time =>
      rw [hfmt] at hp
      obtain ⟨n1, hn1, hp⟩ := List.mem_map.1 hp
      unfold pathData at hp
      simp only [Prod.mk.injEq] at hp
      obtain ⟨p1, p2, p3⟩ := hp
      have hn1m : n1 < l.n1Max := (((isRange_n1Range hst).1 n1).1 hn1).1
      rcases hc with ⟨hn, hmx⟩ | ⟨n2, q, hq, hn, hmx, -⟩
      · refine hne ⟨(.idx n1, .nan), some i, 1⟩ (by rw [← p1]; simp) ?_ ?_
        · refine .inr ⟨i, g, hg, rfl, ?_, ?_⟩
          · rw [← p2, hni, hnj, hns]; rfl
          · refine .inl ⟨hfmt, n1, ?_, by rw [← p1, hn], rfl, rfl⟩
            rw [hmx] at hn1m
            simpa [JArgs.obj] using hn1m
        · unfold metaRow metaN
          rw [← p1, hn, ← p2, hfmt, hni]
          rfl
      · obtain ⟨f2, hf2, hfj, hlt⟩ := hstack n2 q hq
        have hlen : n1 < s.base.psi1.length := by
          rw [hmx, hadm] at hn1m
          exact lt_of_lt_of_le hn1m (List.length_filter_le _ _)
        refine hne ⟨(.idx n1, .idx n2), some i, 2⟩ (by rw [← p1]; simp) ?_ ?_
        · refine .inr ⟨i, g, hg, rfl, ?_, ?_⟩
          · rw [← p2, hni, hnj, hns]; rfl
          · refine .inr (.inl ⟨hfmt, n1, n2, s.base.psi1[n1], f2, List.getElem?_eq_getElem hlen, hf2, ?_,
              by rw [← p1, hn], rfl, rfl⟩)
            exact (hlt n1 _ (List.getElem?_eq_getElem hlen)).1 (by rw [← hmx]; exact hn1m)
        · unfold metaRow metaN
          rw [← p1, hn, ← p2, hfmt, hni]
          rfl

theorem flatten_rows {s : ScJ} {F : Type} {o : JObj F} {P : List (JPath (List ℝ) (Img ℝ))}
    {L : List (List MetaRow)} (h : List.Forall₂ (rowsOf s o) P L) :
    List.Forall₂ (Spec.MetaOf s o.fmt)
      (P.filter fun p => decide ¬ (p.n = [] ∧ o.fmt = .joint ∧ o.outType = .array)) L.flatten := by
  induction h with
  | nil => exact .nil
  | cons hab _ ih =>
    rcases hab with ⟨h1, h2, h3, rfl⟩ | ⟨h1, r, rfl, h2⟩
    · rw [List.filter_cons_of_neg (by simp [h1, h2, h3]), List.flatten_cons, List.nil_append]
      exact ih
    · rw [List.filter_cons, if_pos (decide_eq_true h1), List.flatten_cons]
      exact .cons h2 ih

theorem forall₂_of_map {α β γ : Type} {f : α → γ} {g : β → γ} {l : List α} {m : List β}
    (h : l.map f = m.map g) : List.Forall₂ (fun a b => f a = g b) l m := by
  induction l generalizing m with
  | nil => cases m with
    | nil => exact .nil
    | cons b m => cases h
  | cons a l ih => cases m with
    | nil => cases h
    | cons b m =>
      simp only [List.map_cons, List.cons.injEq] at h
      exact .cons h.1 (ih h.2)

/-- **C89.** Whenever the coefficients are computed, `meta()` returns, and its rows describe the paths one by
one, in increasing order of their keys (in joint format, the order in which they are returned): which
frequential filter, which first-order filters and which second-order filter each path goes through, and its
order.  The path of order zero has a row of NaN, except in joint arrays, which do not contain it. -/
theorem C89_meta (a : JArgs) (s : ScJ) (hmake : a.make = .ok s) (Q1 : Nat) (x : List ℝ)
    (P : List (JPath (List ℝ) (Img ℝ))) (hst : Stages npJ npFrontJ (a.obj s Q1) x P) :
    ∃ P' rows, P'.Perm P ∧ (P'.map fun p => p.n).Pairwise (fun k l => keyLeI k l = true) ∧
      (a.fmt = .joint → P' = P) ∧ metaKey (a.obj s Q1) = .ok (P'.map fun p => p.n) ∧
      metaRows (a.obj s Q1) = .ok rows ∧
      List.Forall₂ (Spec.MetaOf s a.fmt)
        (P'.filter fun p => decide ¬ (p.n = [] ∧ a.fmt = .joint ∧ a.outType = .array)) rows := by
  have hst' := hst
  obtain ⟨U0, ls, lsFr, S, h1, h2, h3, h4, h5⟩ := hst
  obtain ⟨D, hD⟩ := dry_paths (fun _ l hl => (stride_ne_zero hmake Q1 _ l hl).2.ne') h4
  have hPd := stages_data hst' h3
  have hDd := paths_data (dryJ (List ℝ)) hD
  have hDP : D.map pathData = P.map pathData := hDd.trans hPd.symm
  have hsort : (D.mergeSort fun p q => keyLeI p.n q.n).map pathData =
      (P.mergeSort fun p q => keyLeI p.n q.n).map pathData := by
    have key : ∀ (R RS : Type) (L : List (JPath R RS)), (L.mergeSort fun p q => keyLeI p.n q.n).map pathData =
        (L.map pathData).mergeSort fun p q => keyLeI p.1 q.1 := fun R RS L =>
      List.map_mergeSort fun _ _ _ _ => rfl
    rw [key, key, hDP]
  have hmp : metaPaths (a.obj s Q1) = .ok (D.mergeSort fun p q => keyLeI p.n q.n) := by
    unfold metaPaths
    rw [h2, ok_bind_iff, h3, ok_bind_iff, hD, ok_bind_iff]
  have hrows : ∀ p ∈ P.mergeSort fun p q => keyLeI p.n q.n, ∃ l, metaRow (a.obj s Q1) p = .ok l ∧
      rowsOf s (a.obj s Q1) p l := by
    intro p hp
    refine metaRow_spec hmake Q1 lsFr.toNat ?_
    rw [← hPd]
    exact List.mem_map_of_mem ((List.mergeSort_perm _ _).mem_iff.1 hp)
  obtain ⟨L, hL1, hL2⟩ : ∃ L, (D.mergeSort fun p q => keyLeI p.n q.n).mapM (metaRow (a.obj s Q1)) = .ok L ∧
      List.Forall₂ (rowsOf s (a.obj s Q1)) (P.mergeSort fun p q => keyLeI p.n q.n) L := by
    have hf := forall₂_of_map hsort
    clear hsort hmp
    generalize (D.mergeSort fun p q => keyLeI p.n q.n) = D' at hf
    generalize (P.mergeSort fun p q => keyLeI p.n q.n) = P' at hf hrows
    induction hf with
    | nil => exact ⟨[], rfl, .nil⟩
    | cons hab _ ih =>
      obtain ⟨L, hL1, hL2⟩ := ih fun p hp => hrows p (List.mem_cons_of_mem _ hp)
      obtain ⟨l, hl1, hl2⟩ := hrows _ List.mem_cons_self
      refine ⟨l :: L, ?_, .cons hl2 hL2⟩
      rw [List.mapM_cons, metaRow_congr _ hab, hl1, ok_bind_iff, hL1, ok_bind_iff]
      rfl
  refine ⟨P.mergeSort fun p q => keyLeI p.n q.n, L.flatten, List.mergeSort_perm _ _, ?_, ?_, ?_, ?_,
    flatten_rows hL2⟩
  · rw [List.pairwise_map]
    exact List.pairwise_mergeSort (le := fun p q : JPath (List ℝ) (Img ℝ) => keyLeI p.n q.n)
      (fun _ _ _ => keyLeI_trans) (fun _ _ => keyLeI_total _ _) _
  · intro hf
    refine List.mergeSort_of_pairwise ?_
    rw [← List.pairwise_map (f := fun q : JPath (List ℝ) (Img ℝ) => q.n) (R := fun a b => keyLeI a b = true),
      stages_labels hst' h3]
    exact joint_pathLabels_sorted hf _
  · unfold metaKey
    rw [hmp, ok_bind_iff]
    congr 1
    have := congrArg (List.map fun q : List Int × Option (Nat × Nat × Int) × Option (Nat × Nat) => q.1) hsort
    rw [List.map_map, List.map_map] at this
    exact this
  · unfold metaRows
    rw [hmp, ok_bind_iff, hL1, ok_bind_iff]

/-! ## The columns -/

theorem foldl_pick {V : Type} {c : Nat → Bool} (l : List V) (k : Nat) (acc : Option V)
    (h : ∀ q ∈ l.zipIdx k, c q.2 = false) :
    (l.zipIdx k).foldl (fun acc q => if c q.2 then some q.1 else acc) acc = acc := by
  induction l generalizing k with
  | nil => rfl
  | cons v l ih =>
    rw [List.zipIdx_cons] at h ⊢
    rw [List.foldl_cons, h _ List.mem_cons_self]
    exact ih (k + 1) fun q hq => h q (List.mem_cons_of_mem _ hq)

theorem foldl_pick_at {V : Type} {c : Nat → Bool} {n : Nat} (hc : ∀ m, c m = true ↔ m = n) (l : List V) (k : Nat)
    (acc : Option V) (hk : k ≤ n) (hn : n < k + l.length) :
    (l.zipIdx k).foldl (fun acc q => if c q.2 then some q.1 else acc) acc = l[n - k]? := by
  induction l generalizing k acc with
  | nil => simp at hn; omega
  | cons v l ih =>
    rw [List.zipIdx_cons, List.foldl_cons]
    rcases eq_or_lt_of_le hk with rfl | hlt
    · rw [(hc k).2 rfl, if_pos rfl, foldl_pick, Nat.sub_self]
      · rfl
      · intro q hq
        have := (List.mem_zipIdx hq).1
        cases hq' : c q.2 with
        | false => rfl
        | true => have := (hc _).1 hq'; omega
    · have : c k = false := by
        cases h : c k with
        | false => rfl
        | true => have := (hc _).1 h; omega
      rw [this, ih (k + 1) _ hlt (by rw [List.length_cons] at hn; omega),
        show n - k = (n - (k + 1)) + 1 by omega]
      rfl

theorem metaCell_nan {V : Type} (bank : List V) : metaCell .nan bank = none :=
  foldl_pick (c := fun n => MetaN.isIdx .nan n) bank 0 none fun _ _ => rfl

theorem metaCell_range {V : Type} (r : List Nat) (bank : List V) : metaCell (.range r) bank = none :=
  foldl_pick (c := fun n => MetaN.isIdx (.range r) n) bank 0 none fun _ _ => rfl

theorem metaCell_idx {V : Type} {n : Nat} {bank : List V} (h : n < bank.length) :
    metaCell (.idx n) bank = bank[n]? := by
  refine (foldl_pick_at (c := fun m => MetaN.isIdx (.idx n) m) (n := n) ?_ bank 0 none (Nat.zero_le _)
    (by omega)).trans rfl
  intro m
  show (((n : Int) == (m : Int)) = true) ↔ m = n
  rw [beq_iff_eq]
  omega

theorem metaCellFr_none {V : Type} (bank : List V) : metaCellFr none bank = none := by
  unfold metaCellFr
  simp

theorem metaCellFr_some {V : Type} {n : Nat} {bank : List V} (h : n < bank.length) :
    metaCellFr (some n) bank = bank[n]? := by
  have := foldl_pick_at (c := fun m => decide (some n = some m)) (n := n) (by simp [eq_comm]) bank 0 none
    (Nat.zero_le _) (by omega)
  simpa [metaCellFr] using this

/-- The first-order filter named by a key (none for a stack of several). -/
def Spec.first (fmt : Format) (n : List Int) : Option Nat :=
  match fmt, n with
  | .time, [n1, _] => some n1.toNat
  | .time, [n1, _, _] => some n1.toNat
  | _, _ => none

/-- The second-order filter named by a key. -/
def Spec.second (fmt : Format) (n : List Int) : Option Nat :=
  match fmt, n with
  | .time, [_, n2, _] => some n2.toNat
  | .joint, [n2, _] => some n2.toNat
  | _, _ => none

/-- The value of an attribute for the filter of a given index. -/
def Spec.attr {V : Type} (att : FiltX → V) (bank : List FiltX) (n : Option Nat) : Option V :=
  n.bind fun n => bank[n]?.map att

theorem metaOf_cells {s : ScJ} {fmt : Format} {p : JPath (List ℝ) (Img ℝ)} {r : MetaRow}
    (h : Spec.MetaOf s fmt p r) {V : Type} (att : FiltX → V) :
    metaCell r.n.1 (s.base.psi1.map att) = Spec.attr att s.base.psi1 (Spec.first fmt p.n) ∧
      metaCell r.n.2 (s.base.psi2.map att) = Spec.attr att s.base.psi2 (Spec.second fmt p.n) ∧
      metaCellFr r.nFr (s.psisFr.map att) = Spec.attr att s.psisFr (p.n.getLast?.map Int.toNat) := by
  rcases h with ⟨h1, -, rfl⟩ | ⟨i, f, hf, hr, -, h⟩
  · rw [h1]
    refine ⟨?_, ?_, ?_⟩
    · rw [metaCell_nan]; cases fmt <;> rfl
    · rw [metaCell_nan]; cases fmt <;> rfl
    · rw [metaCellFr_none]; rfl
  · have hfr : ∀ n : List Int, n.getLast? = some (i : Int) →
        metaCellFr r.nFr (s.psisFr.map att) = Spec.attr att s.psisFr (n.getLast?.map Int.toNat) := by
      intro n hn
      rw [hr, hn, metaCellFr_some (by rw [List.length_map]; exact (List.getElem?_eq_some_iff.1 hf).1),
        List.getElem?_map]
      rfl
    rcases h with ⟨rfl, n1, hn1, hn, hrn, -⟩ | ⟨rfl, n1, n2, f1, f2, h1, h2, -, hn, hrn, -⟩ |
      ⟨rfl, st, l, hn, -, -, hrn, -⟩ | ⟨rfl, n2, f2, m, st, l, h2, hn, -, -, -, hrn, -⟩
    · rw [hrn, hn]
      refine ⟨?_, ?_, hfr _ rfl⟩
      · rw [metaCell_idx (by rw [List.length_map]; exact hn1), List.getElem?_map]; rfl
      · rw [metaCell_nan]; rfl
    · rw [hrn, hn]
      refine ⟨?_, ?_, hfr _ rfl⟩
      · rw [metaCell_idx (by rw [List.length_map]; exact (List.getElem?_eq_some_iff.1 h1).1), List.getElem?_map]; rfl
      · rw [metaCell_idx (by rw [List.length_map]; exact (List.getElem?_eq_some_iff.1 h2).1), List.getElem?_map]; rfl
    · rw [hrn, hn]
      refine ⟨?_, ?_, hfr _ rfl⟩
      · rw [metaCell_range]; rfl
      · rw [metaCell_nan]; rfl
    · rw [hrn, hn]
      refine ⟨?_, ?_, hfr _ rfl⟩
      · rw [metaCell_range]; rfl
      · rw [metaCell_idx (by rw [List.length_map]; exact (List.getElem?_eq_some_iff.1 h2).1), List.getElem?_map]; rfl

/-- **C89.** The columns `xi`, `sigma`, `j` (any attribute of the filters) of `meta()` hold the values of the
first- and second-order filters that the key of each path names; `xi_fr`, `sigma_fr`, `j_fr` those of its
frequential filter; and `j_fr` and `spin` agree with what the paths themselves carry. -/
theorem C89_columns (s : ScJ) (fmt : Format) (P : List (JPath (List ℝ) (Img ℝ))) (rows : List MetaRow)
    (h : List.Forall₂ (Spec.MetaOf s fmt) P rows) :
    (∀ (V : Type) (att : FiltX → V),
      s.metaColumn rows att = P.map (fun p => (Spec.attr att s.base.psi1 (Spec.first fmt p.n),
        Spec.attr att s.base.psi2 (Spec.second fmt p.n))) ∧
      s.metaColumnFr rows att = P.map fun p => Spec.attr att s.psisFr (p.n.getLast?.map Int.toNat)) ∧
    s.metaColumnFr rows (fun f => f.j.toNat) = P.map (fun p => p.fr.map fun q => q.1) ∧
    s.metaSpin rows = P.map fun p => p.fr.map fun q => q.2.2 := by
  refine ⟨fun V att => ⟨?_, ?_⟩, ?_, ?_⟩
  · induction h with
    | nil => rfl
    | cons hab _ ih =>
      obtain ⟨h1, h2, -⟩ := metaOf_cells hab att
      show (_ :: s.metaColumn _ att) = _
      rw [ih, List.map_cons, ← h1, ← h2]
  · induction h with
    | nil => rfl
    | cons hab _ ih =>
      obtain ⟨-, -, h3⟩ := metaOf_cells hab att
      show (_ :: s.metaColumnFr _ att) = _
      rw [ih, List.map_cons, ← h3]
  · induction h with
    | nil => rfl
    | cons hab _ ih =>
      show (_ :: s.metaColumnFr _ _) = _
      rw [ih, List.map_cons]
      congr 1
      rcases hab with ⟨-, h2, rfl⟩ | ⟨i, f, hf, hr, hp, -⟩
      · rw [h2]
        beta_reduce
        rw [metaCellFr_none]; rfl
      · beta_reduce
        rw [hr, hp, metaCellFr_some (by rw [List.length_map]; exact (List.getElem?_eq_some_iff.1 hf).1),
          List.getElem?_map, hf]
        rfl
  · induction h with
    | nil => rfl
    | cons hab _ ih =>
      show (_ :: s.metaSpin _) = _
      rw [ih, List.map_cons]
      congr 1
      rcases hab with ⟨-, h2, rfl⟩ | ⟨i, f, hf, hr, hp, -⟩
      · rw [h2]
        beta_reduce
        rw [metaCellFr_none]; rfl
      · beta_reduce
        rw [hr, hp, metaCellFr_some (by rw [List.length_map]; exact (List.getElem?_eq_some_iff.1 hf).1),
          List.getElem?_map, hf]
        rfl

/-! ## The number of rows of a stack -/

theorem isRange_length {m st : Nat} {l : List Nat} (hs : 0 < st) (h : Spec.IsRange m st l) :
    l.length = (m + st - 1) / st := by
  have : l = n1Range m st := by
    refine List.Perm.eq_of_pairwise (le := (· < ·)) ?_ h.2 (isRange_n1Range hs).2 ?_
    · intro a b _ _ h1 h2; omega
    · refine (List.perm_ext_iff_of_nodup ?_ ?_).2 fun k => ((h.1 k).trans ((isRange_n1Range hs).1 k).symm)
      · exact h.2.imp fun h => by omega
      · exact (isRange_n1Range hs).2.imp fun h => by omega
  rw [this]
  unfold n1Range
  rw [List.length_map, List.length_range]

/-- **C89.** In joint format, outside of arrays and with `2^J_fr ≤ 8 F`, a stack with first-order filters
`n1 < m` and stride `st` has `1 + m / st` rows, or a single one when `F='global'`. -/
theorem C89_rows {a : JArgs} {s : ScJ} (hmake : a.make = .ok s) {Q1 Q2 : Int}
    (hQ : parseQ a.Q = .ok (Q1, Q2)) {x : List ℝ} {P : List (JPath (List ℝ) (Img ℝ))}
    (hst : Stages npJ npFrontJ (a.obj s Q1.toNat) x P) {lsFr : Nat}
    (hlsFr : (a.obj s Q1.toNat).log2StrideFr = .ok (lsFr : ℤ)) (hf : a.fmt = .joint) (ho : a.outType ≠ .array)
    {F : Rat} {avF : Average} (hF : parseT a.F a.Jfr ((a.J + 1) * Q1.toNat) = .ok (F, avF))
    (hF8 : (2 : Rat) ^ a.Jfr ≤ 8 * F)
    {p : JPath (List ℝ) (Img ℝ)} (hp : p ∈ P) (hn : p.n ≠ []) :
    ∃ (X : Img ℝ) (m st : Nat), p.coef = .stk X ∧ p.n1 = some (m, st) ∧ 0 < st ∧
      ((s.averageFr = .glob ∧ st = m ∧ X.h = 1) ∨ X.h = 1 + m / st) := by
  obtain ⟨psi, i, n1, X, g1, g2, g3, g4, g5, g6, g7, -, g9⟩ := joint_entry_rows hmake hQ hst hlsFr hf hp hn
  obtain ⟨-, r2, r3⟩ := C74_room_partial hmake hQ hF
  have hroom : s.base.psi1.length < s.nFr := by
    have h1 : (2 : Rat) ^ a.Jfr ≤ 8 * min F (2 ^ a.Jfr) := by
      rcases min_choice F ((2 : Rat) ^ a.Jfr) with h | h
      · rw [h]; exact hF8
      · rw [h]; have : (0 : Rat) < 2 ^ a.Jfr := by positivity
        linarith
    have : (s.base.psi1.length : Rat) < s.nFr := by linarith
    exact_mod_cast this
  have hdat : pathData p ∈ P.map pathData := List.mem_map_of_mem hp
  rw [stages_data hst hlsFr] at hdat
  have hn1 : n1 ≤ s.base.psi1.length ∧ 0 < n1 := by
    rcases List.mem_cons.1 hdat with h | h
    · unfold pathData at h
      simp only [Prod.mk.injEq] at h
      exact absurd h.1 hn
    · obtain ⟨l, hl, h⟩ := List.mem_flatMap.1 h
      have hm := (stride_ne_zero hmake Q1.toNat lsFr l hl).1
      rw [show (a.obj s Q1.toNat).fmt = .joint from hf] at h
      unfold fmtData at h
      simp only [List.mem_singleton] at h
      unfold pathData at h
      simp only [Prod.mk.injEq] at h
      have hnm : n1 = l.n1Max := by
        have := h.2.2
        rw [g4] at this
        injection this with this
        exact (Prod.mk.inj this).1
      rw [hnm]
      refine ⟨?_, hm⟩
      obtain ⟨_, _, -, -, -, -, -, hc⟩ := mem_labels_cases (bank_prefix hmake Q1.toNat) hl
      have hlen : (a.obj s Q1.toNat).psi1.length = s.base.psi1.length := List.length_map _
      rcases hc with ⟨-, hc⟩ | ⟨_, _, -, -, hc, -⟩
      · rw [hc, hlen]
      · rw [hc, ← hlen]
        exact List.length_filter_le _ _
  have hlt : n1 < s.nFr := by omega
  have key : ∀ k k', 2 ^ k' ∣ s.nFr → k ≤ k' → min (s.nFr / 2 ^ k) (1 + n1 / 2 ^ k') = 1 + n1 / 2 ^ k' := by
    intro k k' hd hk
    refine min_eq_right ?_
    have h1 : n1 / 2 ^ k' < s.nFr / 2 ^ k' := by
      rw [Nat.div_lt_iff_lt_mul (by positivity), Nat.div_mul_cancel hd]
      exact hlt
    have h2 : s.nFr / 2 ^ k' ≤ s.nFr / 2 ^ k :=
      Nat.div_le_div_left (Nat.pow_le_pow_right (by norm_num) hk) (by positivity)
    omega
  refine ⟨X, n1, _, g5, g4, ?_, ?_⟩
  · unfold freqStride
    split
    · positivity
    · split
      · exact hn1.2
      · positivity
  · rw [g9 ho]
    unfold freqStride freqRows
    by_cases hc : s.averageFr = .no ∨ psi.spin = 0
    · right
      rw [if_pos hc, if_pos hc]
      by_cases hloc : s.averageFr = .loc
      · rw [if_pos hloc] at g6 ⊢
        have hsp : psi.spin = 0 := by
          rcases hc with hc | hc
          · rw [hloc] at hc; cases hc
          · exact hc
        have hj := spin_zero_j hmake (List.mem_of_getElem? g1) hsp
        exact key _ _ (by rw [hj]; exact r3) (min_le_left _ _)
      · rw [if_neg hloc] at g6 ⊢
        exact key _ _ g6 le_rfl
    · rw [if_neg hc, if_neg hc]
      by_cases hg : s.averageFr = .glob
      · left
        rw [if_pos hg, if_pos hg]
        exact ⟨hg, rfl, min_eq_left (Nat.le_add_right 1 _)⟩
      · right
        rw [if_neg hg, if_neg hg]
        rw [not_or] at hc
        refine key _ _ (g7 ?_ hc.2) le_rfl
        cases h : s.averageFr with
        | loc => rfl
        | no => exact absurd h hc.1
        | glob => exact absurd h hg

/-- **C89**, the part of the claim on ranges that holds: the range in `meta()['n']` has as many entries as the
stack has frequency rows when the stride does not divide the number of first-order filters, and one too few
otherwise.  (Joint format, list and dict, `2^J_fr ≤ 8 F`, `F` not 'global'.) -/
theorem C89_range_partial {a : JArgs} {s : ScJ} (hmake : a.make = .ok s) {Q1 Q2 : Int}
    (hQ : parseQ a.Q = .ok (Q1, Q2)) {x : List ℝ} {P : List (JPath (List ℝ) (Img ℝ))}
    (hst : Stages npJ npFrontJ (a.obj s Q1.toNat) x P) {lsFr : Nat}
    (hlsFr : (a.obj s Q1.toNat).log2StrideFr = .ok (lsFr : ℤ)) (hf : a.fmt = .joint) (ho : a.outType ≠ .array)
    {F : Rat} {avF : Average} (hF : parseT a.F a.Jfr ((a.J + 1) * Q1.toNat) = .ok (F, avF))
    (hF8 : (2 : Rat) ^ a.Jfr ≤ 8 * F) (hav : avF ≠ .glob)
    {p : JPath (List ℝ) (Img ℝ)} (hp : p ∈ P) (hn : p.n ≠ []) {r : MetaRow} (hr : Spec.MetaOf s a.fmt p r) :
    ∃ (X : Img ℝ) (m st : Nat) (l : List Nat) (e : MetaN), p.coef = .stk X ∧ p.n1 = some (m, st) ∧
      r.n = (.range l, e) ∧ X.h = l.length + if st ∣ m then 1 else 0 := by
  obtain ⟨X, m, st, hc, hm, h0, hrow⟩ := C89_rows hmake hQ hst hlsFr hf ho hF hF8 hp hn
  have hrow : X.h = 1 + m / st := by
    rcases hrow with ⟨h', -⟩ | h
    · exfalso
      obtain ⟨_, _, F', -, hQ', -, hF', hav', -⟩ := JArgs.make_eq_ok hmake
      rw [hQ] at hQ'
      obtain rfl := Except.ok.inj hQ'
      rw [hF] at hF'
      obtain rfl := Except.ok.inj hF'
      rw [h'] at hav'
      exact hav hav'.symm
    · exact h
  have key : ∀ l, Spec.IsRange m st l → X.h = l.length + if st ∣ m then 1 else 0 := by
    intro l hl
    rw [hrow, isRange_length h0 hl]
    have h1 := Nat.div_add_mod m st
    have h2 := Nat.mod_lt m h0
    by_cases hd : st ∣ m
    · rw [if_pos hd]
      obtain ⟨k, rfl⟩ := hd
      rw [Nat.mul_div_cancel_left _ h0, show st * k + st - 1 = (st - 1) + st * k by omega,
        Nat.add_mul_div_left _ _ h0, Nat.div_eq_of_lt (by omega)]
      omega
    · rw [if_neg hd]
      have h3 : 0 < m % st := Nat.pos_of_ne_zero fun h => hd (Nat.dvd_of_mod_eq_zero h)
      generalize hq : m / st = q at h1 ⊢
      generalize hr' : m % st = r' at h1 h2 h3
      rw [show m + st - 1 = (r' - 1) + st * (q + 1) by rw [Nat.mul_add]; omega,
        Nat.add_mul_div_left _ _ h0, Nat.div_eq_of_lt (by omega)]
      omega
  rcases hr with ⟨h, -⟩ | ⟨i, f', -, -, -, ⟨h, -⟩ | ⟨h, -⟩ | ⟨-, st', l, -, e2, e3, e4, -⟩ |
    ⟨-, n2, f2, m', st', l, -, -, e2, -, e3, e4, -⟩⟩
  · exact absurd h hn
  · rw [hf] at h; cases h
  · rw [hf] at h; cases h
  · obtain ⟨rfl, rfl⟩ := Prod.mk.inj (Option.some.inj (hm.symm.trans e2))
    exact ⟨X, _, _, l, _, hc, hm, e4, key l e3⟩
  · obtain ⟨rfl, rfl⟩ := Prod.mk.inj (Option.some.inj (hm.symm.trans e2))
    exact ⟨X, _, _, l, _, hc, hm, e4, key l e3⟩

/-- **C89 is violated** in joint format: the range of first-order indices in `meta()['n']` can be shorter than
the stack it describes.  `TimeFrequencyScattering(J=3, J_fr=2, Q=1, shape=N)` with its other arguments at
their defaults and `out_type='list'`: there are four first-order filters, the path `n = (0,)` has two
frequency rows, and its row in `meta()` lists only the index 0. -/
theorem C89_extra_row_violated (N : Nat) (hN : 8 ≤ N) (x : List ℝ) (hx : x.length = N) :
    ∃ s P, (⟨3, 2, .int 1, .int N, .none, none, .int 1, .none, none, .list, .joint⟩ : JArgs).make = .ok s ∧
      (⟨3, 2, .int 1, .int N, .none, none, .int 1, .none, none, .list, .joint⟩ : JArgs).run x = .ok (.list P) ∧
      s.base.psi1.length = 4 ∧ ∃ p ∈ P, ∃ X, p.n = [0] ∧ p.coef = .stk X ∧ X.h = 2 ∧
        ∃ rows r, metaRows ((⟨3, 2, .int 1, .int N, .none, none, .int 1, .none, none, .list, .joint⟩ : JArgs).obj s
          1) = .ok rows ∧ r ∈ rows ∧ Spec.MetaOf s .joint p r ∧ r.n = (.range [0], .nan) := by
  obtain ⟨r, hr⟩ := C76_defaults 3 2 N 1 1 (by norm_num) (by norm_num) (by norm_num; exact hN) .list (by simp)
    .joint (by simp) x hx
  obtain ⟨s, hs, h⟩ := bind_eq_ok.1 hr
  obtain ⟨Q, hQ, h⟩ := bind_eq_ok.1 h
  obtain rfl := Except.ok.inj hQ
  obtain ⟨-, P, hst, hP⟩ := scattering_eq_ok h
  obtain rfl := Except.ok.inj hP
  have hlen : s.base.psi1.length = 4 := by
    obtain ⟨_, _, _, hbase, -⟩ := JArgs.make_eq_ok hs
    obtain ⟨t, R1, R2, lT, M1, M2, hR1, -, -, -, hR, -, h1, -⟩ := make_filters hbase
    have hR := (Prod.mk.inj (Except.ok.inj hR)).1
    have e1 : R1 = 1 := by
      have hR : (1 : Int) = R1 := hR
      omega
    subst e1
    rw [← h1.length_eq]
    exact length_anden_one 3
  have hls : ((⟨3, 2, .int 1, .int N, .none, none, .int 1, .none, none, .list, .joint⟩ : JArgs).obj s
      (1 : Int).toNat).log2StrideFr = .ok ((2 : Nat) : ℤ) := by
    refine (C07_log2_stride_ok _ _ _ _ _).2 (Or.inl ⟨rfl, ?_⟩)
    show (Except.ok (floorLog2 ((2 : Rat) ^ 2)) : Py ℤ) = _
    rw [floorLog2_twoPow]
  obtain ⟨⟨p, hp, hn⟩, -⟩ := joint_first hs hst rfl
  have hp := List.mem_of_mem_tail hp
  obtain ⟨X, m, st, hc, hm, hst0, hrow⟩ := C89_rows hs (Q1 := 1) (Q2 := 1) rfl hst hls rfl (by simp) (F := 2 ^ 2)
    (avF := .loc) rfl (by norm_num) hp (by rw [hn]; simp)
  obtain ⟨P', rows, hperm, -, hjoint, -, hrows, hall⟩ := C89_meta _ s hs _ x P hst
  have := hjoint rfl
  subst this
  have hpf : p ∈ P'.filter fun p => decide ¬ (p.n = [] ∧ Format.joint = Format.joint ∧ OutType.list = OutType.array) :=
    List.mem_filter.2 ⟨hp, by rw [hn]; simp⟩
  obtain ⟨r, hr', hmo⟩ := forall₂_mem_left hall hpf
  have hmo' := hmo
  obtain ⟨psi, i, n1, X', g1, g2, g3, g4, g5, -⟩ := joint_entry_rows hs (Q1 := 1) (Q2 := 1) rfl hst hls rfl hp
    (by rw [hn]; simp)
  obtain ⟨low, f, rest, hb, h0, hj, -⟩ := bank_head hs (1 : Int).toNat
  have hi : i = 0 := by
    rw [hn] at g2
    have g2 : some (0 : Int) = some (i : Int) := g2
    injection g2 with g2
    omega
  subst hi
  rw [hb] at g1
  obtain rfl := Option.some.inj g1
  have hstv : st = 4 := by
    have := hm.symm.trans g4
    have := (Prod.mk.inj (Option.some.inj this)).2
    rw [this]
    unfold freqStride
    rw [if_pos (.inr h0), hj]
    rfl
  subst hstv
  rcases hmo with ⟨h, -⟩ | ⟨i, f', hf', hri, -, ⟨h, -⟩ | ⟨h, -⟩ | ⟨-, st, l, e1, e2, e3, e4, e5⟩ |
    ⟨-, n2, f2, m', st, l, -, e1, -⟩⟩
  · rw [hn] at h; cases h
  · cases h
  · cases h
  · have hms := Option.some.inj (hm.symm.trans e2)
    obtain ⟨rfl, rfl⟩ := Prod.mk.inj hms
    have hX : X.h = 2 := by
      rcases hrow with ⟨h', -⟩ | h
      · exfalso
        obtain ⟨_, _, F, -, -, -, hF, hav, -⟩ := JArgs.make_eq_ok hs
        obtain rfl := Except.ok.inj hF
        rw [hav] at h'
        cases h'
      · rw [h, hlen]
    refine ⟨s, P', hs, hr, hlen, p, hp, X, hn, hc, hX, rows, r, hrows, hr', hmo', ?_⟩
    rw [e4]
    have hl : l = [0] := by
      have h1 := isRange_length (by norm_num) e3
      rw [hlen] at h1 e3
      have h0 : 0 ∈ l := (e3.1 0).2 ⟨by norm_num, by norm_num⟩
      match l, h1, h0 with
      | [k], _, h0 => rw [List.mem_singleton.1 h0]
    rw [hl]
  · rw [hn] at e1; cases e1

/-- `TimeFrequencyScattering(J=3, J_fr=2, Q=8, shape=1000, format='time')`: `meta()` returns, with one row per
path and a row for order zero. -/
example (x : List ℝ) (hx : x.length = 1000) :
    ∃ s P P' rows, (⟨3, 2, .int 8, .int 1000, .none, none, .int 1, .none, none, .list, .time⟩ : JArgs).make = .ok s ∧
      (⟨3, 2, .int 8, .int 1000, .none, none, .int 1, .none, none, .list, .time⟩ : JArgs).run x = .ok (.list P) ∧
      P'.Perm P ∧ metaRows ((⟨3, 2, .int 8, .int 1000, .none, none, .int 1, .none, none, .list, .time⟩ :
        JArgs).obj s 8) = .ok rows ∧ List.Forall₂ (Spec.MetaOf s .time) P' rows ∧
      s.metaSpin rows = P'.map fun p => p.fr.map fun q => q.2.2 := by
  obtain ⟨r, hr⟩ := C76_defaults 3 2 1000 8 1 (by norm_num) (by norm_num) (by norm_num) .list (by simp) .time
    (by simp) x hx
  obtain ⟨s, hs, h⟩ := bind_eq_ok.1 hr
  obtain ⟨Q, hQ, h⟩ := bind_eq_ok.1 h
  obtain rfl := Except.ok.inj hQ
  obtain ⟨-, P, hst, hP⟩ := scattering_eq_ok h
  obtain rfl := Except.ok.inj hP
  obtain ⟨P', rows, hperm, -, -, -, hrows, hall⟩ := C89_meta _ s hs _ x P hst
  rw [List.filter_eq_self.2 (by intro p _; simp)] at hall
  exact ⟨s, P, P', rows, hs, hr, hperm, hrows, hall, (C89_columns s .time P' rows hall).2.2⟩

end Verif
