import Verif.Props.StrideJTFS
import Verif.Props.Stability1D

/-!
# Stability of joint time-frequency scattering in the uniform norm
-/

namespace Verif

open Finset FrontJ JTFS

/-- An impulse response on a circle of `N` points with L1 norm at most one. -/
def Unit1 (N : ℕ) (ψ : ℤ → ℂ) : Prop := ∃ h : List ℝ, ψ = Spec.impulseR h ∧ h.length = N ∧ l1norm h ≤ 1

theorem Unit1.sum_le {N : ℕ} {ψ : ℤ → ℂ} (h : Unit1 N ψ) (k n : ℕ) (hn : n * 2 ^ k ≤ N) (c : ℤ) :
    ∑ u ∈ range n, ‖ψ (c - 2 ^ k * u)‖ ≤ 1 := by
  obtain ⟨g, rfl, rfl, h1⟩ := h
  exact (sum_stride_le g k n hn c).trans h1

theorem weightedC_le (n : ℕ) (a b w : ℕ → ℂ) (E : ℝ) (hE : ∀ u < n, ‖a u - b u‖ ≤ E) :
    ‖∑ u ∈ range n, a u * w u - ∑ u ∈ range n, b u * w u‖ ≤ E * ∑ u ∈ range n, ‖w u‖ := by
  rw [← Finset.sum_sub_distrib, Finset.mul_sum]
  refine (norm_sum_le _ _).trans (Finset.sum_le_sum fun u hu => ?_)
  rw [← sub_mul, norm_mul]
  exact mul_le_mul_of_nonneg_right (hE u (mem_range.1 hu)) (norm_nonneg _)

theorem frConv_le {N n : ℕ} {ψ : ℤ → ℂ} (h : Unit1 N ψ) (hn : n ≤ N) {Y Y' : ℕ → ℕ → ℂ} {E : ℝ} (h0 : 0 ≤ E)
    (hE : ∀ m t, ‖Y m t - Y' m t‖ ≤ E) (k r t : ℕ) :
    ‖Spec.frConv n Y ψ k r t - Spec.frConv n Y' ψ k r t‖ ≤ E := by
  unfold Spec.frConv
  refine (weightedC_le n _ _ _ E fun u _ => hE u t).trans ?_
  have := h.sum_le 0 n (by simpa using hn) (2 ^ k * r)
  simp only [pow_zero, one_mul] at this
  exact mul_le_of_le_one_right h0 this

theorem smooth_le {N n k : ℕ} {φ : ℤ → ℂ} (h : Unit1 N φ) (hn : n * 2 ^ k ≤ N) {U V : ℕ → ℝ} {E : ℝ} (h0 : 0 ≤ E)
    (hE : ∀ m, |U m - V m| ≤ E) (ls t : ℕ) :
    |Spec.smooth n k ls φ U t - Spec.smooth n k ls φ V t| ≤ 2 ^ k * E := by
  unfold Spec.smooth
  rw [← Complex.sub_re]
  refine (Complex.abs_re_le_norm _).trans ((weighted_le n U V _ E fun u _ => hE u).trans ?_)
  have := h.sum_le k n hn (2 ^ ls * t)
  simp only [norm_mul, norm_pow, Complex.norm_ofNat]
  rw [← Finset.mul_sum, mul_left_comm]
  exact mul_le_mul_of_nonneg_left (mul_le_of_le_one_right h0 this) (by positivity)

theorem sum_le_card (n : ℕ) {U V : ℕ → ℝ} {E : ℝ} (hE : ∀ m, |U m - V m| ≤ E) :
    |∑ m ∈ range n, U m - ∑ m ∈ range n, V m| ≤ n * E := by
  rw [← Finset.sum_sub_distrib]
  refine (Finset.abs_sum_le_sum_abs _ _).trans ((Finset.sum_le_sum fun m _ => hE m).trans ?_)
  simp

/-- Gain of the frequential averaging. -/
def freqGain (a : Average) (N lsFr : ℕ) : ℕ :=
  match a with
  | .loc => 2 ^ lsFr
  | .no => 1
  | .glob => N

theorem freqAvg_le {a : Average} {spin : ℤ} {N k lsFr : ℕ} {φ : ℤ → ℂ} (h : Unit1 N φ) (hN : 1 ≤ N)
    (hk : a = .loc → k ≤ lsFr) {U V : ℕ → ℕ → ℝ} {E : ℝ} (h0 : 0 ≤ E) (hE : ∀ r t, |U r t - V r t| ≤ E) (r t : ℕ) :
    |freqAvg a spin (N / 2 ^ k) k lsFr φ U r t - freqAvg a spin (N / 2 ^ k) k lsFr φ V r t| ≤ freqGain a N lsFr * E := by
  have one : (1 : ℝ) ≤ freqGain a N lsFr := by
    unfold freqGain
    cases a
    · exact_mod_cast Nat.one_le_two_pow
    · exact_mod_cast hN
    · norm_num
  unfold freqAvg
  split
  · exact (hE r t).trans (le_mul_of_one_le_left h0 one)
  rename_i hns
  split
  · rename_i hg
    subst hg
    refine (sum_le_card _ fun m => hE m t).trans (mul_le_mul_of_nonneg_right ?_ h0)
    exact_mod_cast Nat.div_le_self _ _
  · rename_i hg
    have ha : a = .loc := by
      cases a
      · rfl
      · exact absurd rfl hg
      · exact absurd (Or.inl rfl) hns
    subst ha
    refine (smooth_le h (Nat.div_mul_le_self _ _) h0 (fun m => hE m t) lsFr r).trans
      (mul_le_mul_of_nonneg_right ?_ h0)
    have : ((2 ^ lsFr : ℕ) : ℝ) = 2 ^ lsFr := by push_cast; rfl
    show (2 : ℝ) ^ k ≤ ((2 ^ lsFr : ℕ) : ℝ)
    rw [this]
    exact pow_le_pow_right₀ one_le_two (hk rfl)

/-- Gain of the temporal operations: `4^log2_stride` with local averaging, `2^(J-1)` without, and this times the length of
the padded signal for a global average. -/
def timeGain (a : Average) (N J ls : ℕ) : ℕ :=
  match a with
  | .loc => 4 ^ ls
  | .no => 2 ^ (J - 1)
  | .glob => 2 ^ (J - 1) * N

section

variable {X Y : List ℝ} {D : ℝ} (hl : Y.length = X.length) (hD : ∀ i < X.length, |X.getD i 0 - Y.getD i 0| ≤ D)
  (h0 : 0 ≤ D) {W1 : List Spec.Wavelet} (hW : ∀ w ∈ W1, Unit1 X.length w.1) {φ : ℤ → ℂ} (hφ : Unit1 X.length φ)
include hl hD h0

theorem rows1_le (hW : ∀ w ∈ W1, Unit1 X.length w.1) (hφ : Unit1 X.length φ) (k1 : ℕ → ℕ) {K : ℕ}
    (hK : ∀ w ∈ W1, k1 w.2 ≤ K) (ls m t : ℕ) :
    |Spec.rows1 X W1 φ k1 ls m t - Spec.rows1 Y W1 φ k1 ls m t| ≤ 2 ^ K * D := by
  unfold Spec.rows1
  cases hm : W1[m]? with
  | none => simp only [sub_zero, abs_zero]; positivity
  | some w =>
    have hw := List.mem_of_getElem? hm
    obtain ⟨h, e, hh, h1⟩ := hW w hw
    obtain ⟨g, rfl, gh, g1⟩ := hφ
    simp only [e]
    refine (S1_le hl hD h0 hh h1 gh g1 (k1 w.2) ls t).trans (mul_le_mul_of_nonneg_right ?_ h0)
    exact pow_le_pow_right₀ one_le_two (hK w hw)

theorem rows2_le (hW : ∀ w ∈ W1, Unit1 X.length w.1) {ψ2 : ℤ → ℂ} (hψ : Unit1 X.length ψ2) {K : ℕ}
    (hK : ∀ w ∈ W1, w.2 ≤ K) (j2 m t : ℕ) :
    ‖Spec.rows2 X W1 ψ2 j2 m t - Spec.rows2 Y W1 ψ2 j2 m t‖ ≤ 2 ^ K * D := by
  unfold Spec.rows2
  cases hm : W1[m]? with
  | none => simp only [sub_zero, norm_zero]; positivity
  | some w =>
    have hw := List.mem_of_getElem? hm
    obtain ⟨h, e, hh, h1⟩ := hW w hw
    obtain ⟨g, rfl, gh, g1⟩ := hψ
    simp only [e]
    unfold Spec.W2
    refine (level_le hl h0 gh g1 w.2 (fun u => Spec.U1 X (Spec.impulseR h) w.2 u)
      (fun u => Spec.U1 Y (Spec.impulseR h) w.2 u) (fun u => U1_le hl hD h0 hh h1 w.2 u) _).trans
      (mul_le_mul_of_nonneg_right ?_ h0)
    exact pow_le_pow_right₀ one_le_two (hK w hw)

variable {o : JObj (List ℝ)} {φFr ψFr : ℤ → ℂ} (hφF : Unit1 o.phiFr.N φFr) (hψF : Unit1 o.phiFr.N ψFr)
  (hN : 1 ≤ o.phiFr.N) {J : ℕ} (hJ : ∀ w ∈ W1, w.2 ≤ J - 1) (hX : 1 ≤ X.length)

omit hl hD h0 in
include hψF in
theorem frNorm_le {n : ℕ} (hn : n ≤ o.phiFr.N) {A B : ℕ → ℕ → ℂ} {E : ℝ} (hE0 : 0 ≤ E) (hE : ∀ m t, ‖A m t - B m t‖ ≤ E)
    (k r t : ℕ) : |‖Spec.frConv n A ψFr k r t‖ - ‖Spec.frConv n B ψFr k r t‖| ≤ E :=
  (abs_norm_sub_norm_le _ _).trans (frConv_le hψF hn hE0 hE k r t)

include hW hφ hφF hψF hN hJ

theorem firstRows_le (hn : W1.length ≤ o.phiFr.N) (ls lsFr : ℕ) (psi : FiltFr (List ℝ)) (r t : ℕ) :
    |firstRows o X W1 φ φFr ψFr ls lsFr psi r t - firstRows o Y W1 φ φFr ψFr ls lsFr psi r t| ≤
      freqGain o.averageFr o.phiFr.N lsFr * (timeGain o.average X.length J ls * D) := by
  unfold firstRows
  refine freqAvg_le hφF hN (fun h => by rw [if_pos h]; exact Nat.min_le_right _ _) (by positivity) (fun r t => ?_) r t
  set k1 : ℕ → ℕ := fun j => if o.average = .loc then min j ls else j with hk1
  set k := if o.averageFr = .loc then min psi.j lsFr else psi.j
  have base : ∀ {K : ℕ}, (∀ w ∈ W1, k1 w.2 ≤ K) → ∀ r t : ℕ,
      |‖Spec.frConv W1.length (fun m t => (Spec.rows1 X W1 φ k1 ls m t : ℂ)) ψFr k r t‖ -
        ‖Spec.frConv W1.length (fun m t => (Spec.rows1 Y W1 φ k1 ls m t : ℂ)) ψFr k r t‖| ≤ 2 ^ K * D := by
    intro K hK r t
    refine frNorm_le hψF hn (by positivity) (fun m t => ?_) k r t
    rw [← Complex.ofReal_sub, Complex.norm_real, Real.norm_eq_abs]
    exact rows1_le hl hD h0 hW hφ k1 hK ls m t
  unfold timeAvg timeGain
  cases ha : o.average with
  | loc =>
    simp only
    refine (base (K := ls) (fun w _ => by simp [hk1, ha]) r t).trans (mul_le_mul_of_nonneg_right ?_ h0)
    push_cast
    exact pow_le_pow_left₀ (by norm_num) (by norm_num) _
  | glob =>
    simp only
    rw [hl]
    refine (sum_le_card _ (base (K := J - 1) (fun w hw => by simpa [hk1, ha] using hJ w hw) r)).trans ?_
    have hd : ((X.length / 2 ^ ls : ℕ) : ℝ) ≤ X.length := by exact_mod_cast Nat.div_le_self _ _
    calc _ ≤ (X.length : ℝ) * (2 ^ (J - 1) * D) := mul_le_mul_of_nonneg_right hd (by positivity)
      _ = _ := by push_cast; ring
  | no =>
    simp only
    refine (base (K := J - 1) (fun w hw => by simpa [hk1, ha] using hJ w hw) r t).trans (le_of_eq ?_)
    push_cast
    rfl

theorem secondRows_le (hn : W1.length ≤ o.phiFr.N) {ψ2 : ℤ → ℂ} (hψ2 : Unit1 X.length ψ2) (ls lsFr j2 : ℕ)
    (hj2 : o.average = .loc → j2 ≤ ls) (psi : FiltFr (List ℝ)) (r t : ℕ) :
    |secondRows o X W1 φ φFr ψ2 ψFr ls lsFr j2 psi r t - secondRows o Y W1 φ φFr ψ2 ψFr ls lsFr j2 psi r t| ≤
      freqGain o.averageFr o.phiFr.N lsFr * (timeGain o.average X.length J ls * D) := by
  unfold secondRows
  refine freqAvg_le hφF hN (fun h => by rw [if_pos h]; exact Nat.min_le_right _ _) (by positivity) (fun r t => ?_) r t
  set k := if o.averageFr = .loc then min psi.j lsFr else psi.j
  have hb : ∀ w ∈ below W1 j2, w ∈ W1 ∧ w.2 < j2 := fun w hw => by
    simpa [below] using List.mem_filter.1 hw
  have hbl : (below W1 j2).length ≤ o.phiFr.N := (List.length_filter_le _ _).trans hn
  have base : ∀ {K : ℕ}, (∀ w ∈ below W1 j2, w.2 ≤ K) → ∀ r t : ℕ,
      |‖Spec.frConv (below W1 j2).length (Spec.rows2 X (below W1 j2) ψ2 j2) ψFr k r t‖ -
        ‖Spec.frConv (below W1 j2).length (Spec.rows2 Y (below W1 j2) ψ2 j2) ψFr k r t‖| ≤ 2 ^ K * D := by
    intro K hK r t
    exact frNorm_le hψF hbl (by positivity)
      (fun m t => rows2_le hl hD h0 (fun w hw => hW w (hb w hw).1) hψ2 hK j2 m t) k r t
  unfold timeAvg timeGain
  cases ha : o.average with
  | loc =>
    simp only
    rw [hl]
    have hle := hj2 ha
    refine (smooth_le (E := 2 ^ ls * D) hφ (Nat.div_mul_le_self _ _) (by positivity)
      (base (K := ls) (fun w hw => ((hb w hw).2.le.trans hle)) r) ls t).trans ?_
    rw [← mul_assoc]
    refine mul_le_mul_of_nonneg_right ?_ h0
    push_cast
    calc (2 : ℝ) ^ j2 * 2 ^ ls ≤ 2 ^ ls * 2 ^ ls :=
          mul_le_mul_of_nonneg_right (pow_le_pow_right₀ one_le_two hle) (by positivity)
      _ = 4 ^ ls := by rw [← mul_pow]; norm_num
  | glob =>
    simp only
    rw [hl]
    refine (sum_le_card _ (base (K := J - 1) (fun w hw => hJ w (hb w hw).1) r)).trans ?_
    have hd : ((X.length / 2 ^ j2 : ℕ) : ℝ) ≤ X.length := by exact_mod_cast Nat.div_le_self _ _
    calc _ ≤ (X.length : ℝ) * (2 ^ (J - 1) * D) := mul_le_mul_of_nonneg_right hd (by positivity)
      _ = _ := by push_cast; ring
  | no =>
    simp only
    refine (base (K := J - 1) (fun w hw => hJ w (hb w hw).1) r t).trans (le_of_eq ?_)
    push_cast
    rfl

end

/-- Two coefficients have the same kind and shape, and values that differ by at most `E`. -/
def CoefNear (E : ℝ) : JCoef (List ℝ) (Img ℝ) → JCoef (List ℝ) (Img ℝ) → Prop
  | .sig u, .sig v => v.length = u.length ∧ ∀ t < u.length, |u.getD t 0 - v.getD t 0| ≤ E
  | .stk U, .stk V => V.h = U.h ∧ V.w = U.w ∧ ∀ i < U.h, ∀ t < U.w, |U.px i t - V.px i t| ≤ E
  | _, _ => False

theorem CoefNear.unpad {E : ℝ} {c d : JCoef (List ℝ) (Img ℝ)} (h : CoefNear E c d) (i0 i1 : ℕ) :
    CoefNear E (unpadCoef npFrontJ i0 i1 c) (unpadCoef npFrontJ i0 i1 d) := by
  cases c with
  | sig u =>
    cases d with
    | sig v =>
      obtain ⟨hl, hv⟩ := h
      show ((v.take i1).drop i0).length = ((u.take i1).drop i0).length ∧
        ∀ t < ((u.take i1).drop i0).length, |((u.take i1).drop i0).getD t 0 - ((v.take i1).drop i0).getD t 0| ≤ E
      simp only [List.length_drop, List.length_take]
      refine ⟨by rw [hl], fun t ht => ?_⟩
      have e : ∀ z : List ℝ, z.length = u.length → ((z.take i1).drop i0).getD t 0 = z.getD (i0 + t) 0 := by
        intro z hz
        rw [List.getD_eq_getElem?_getD, List.getElem?_drop, List.getElem?_take, if_pos (by omega),
          List.getD_eq_getElem?_getD]
      rw [e u rfl, e v hl]
      exact hv _ (by omega)
    | stk V => exact h.elim
  | stk U =>
    cases d with
    | sig v => exact h.elim
    | stk V =>
      obtain ⟨h1, h2, hv⟩ := h
      refine ⟨h1, by simp only [npFrontJ, Img.w_tab, h2], fun i hi t ht => ?_⟩
      have hi' : i < U.h := hi
      have ht' : t < min i1 U.w - i0 := ht
      have e1 : (npFrontJ.unpadS U i0 i1).px i t = U.px i (i0 + t) := Img.px_tab' hi' ht'
      have e2 : (npFrontJ.unpadS V i0 i1).px i t = V.px i (i0 + t) :=
        Img.px_tab' (by rw [h1]; exact hi') (by rw [h2]; exact ht')
      rw [e1, e2]
      exact hv i hi' _ (by omega)

theorem Entry.near {fmt : Format} {ar : Bool} {n : List Int} {n1 st H T : Nat} {B C : ℕ → ℕ → ℝ}
    {p q : JPath (List ℝ) (Img ℝ)} {E : ℝ} (hst : st = 0 → n1 = 0)
    (hE : ∀ r t, |B r t - C r t| ≤ E) (hp : Entry fmt ar n n1 st H T B p)
    (hq : Entry fmt ar n n1 st H T C q) (hpq : p.n = q.n) : CoefNear E p.coef q.coef := by
  unfold Entry at hp hq
  cases fmt with
  | joint =>
    obtain ⟨-, U, hU, u1, u2, u3⟩ := hp
    obtain ⟨-, V, hV, v1, v2, v3⟩ := hq
    rw [hU, hV]
    refine ⟨by rw [u1, v1], by rw [u2, v2], fun i hi t ht => ?_⟩
    rw [u1] at hi
    rw [u2] at ht
    rw [u3 i t hi ht, v3 i t hi ht]
    exact hE i t
  | time =>
    obtain ⟨i, hi, hiH, hn, u, hu, ul, u3⟩ := hp
    obtain ⟨k, hk, hkH, hn', v, hv, vl, v3⟩ := hq
    rw [hn, hn'] at hpq
    have e : i * st = k * st := by exact_mod_cast (List.cons.inj hpq).1
    have hik : i = k ∨ st = 0 := by
      rcases Nat.eq_zero_or_pos st with h | h
      · exact Or.inr h
      · exact Or.inl (Nat.eq_of_mul_eq_mul_right h e)
    rw [hu, hv]
    refine ⟨by rw [ul, vl], fun t ht => ?_⟩
    rw [ul] at ht
    rcases hik with rfl | h0
    · rw [u3 t ht, v3 t ht]
      exact hE i t
    · rw [hst h0] at hi
      omega
  | other => exact hp.elim

/-- Scale and index labels of a formatted path. -/
def fmtNJ (fmt : Format) (lsFr : Nat) (averageFr : Average) (p : Label) : List (List Int × List Int) :=
  match fmt with
  | .joint => [(p.n, p.j)]
  | .time => (n1Range p.n1Max (strideOf lsFr averageFr p)).map fun n1 : Nat => ((n1 : Int) :: p.n, p.j)
  | .other => []

theorem averageBody_nj (B : JBackend) {phi : Filt B.F} {ls : Nat} {average : Average} {phiFr : PhiFr B.F} {lsFr : Nat}
    {averageFr : Average} {arrayOut : Bool} {fmt : Format} {p : FPath B.CS} {out : List (JPath B.R B.RS)}
    (h : averageBody B phi ls average phiFr lsFr averageFr arrayOut fmt p = .ok out) :
    out.map (fun q => (q.n, q.j)) = fmtNJ fmt lsFr averageFr (label p) := by
  obtain ⟨_, _, S, S', _, _, _, h2, _, h⟩ := averageBody_eq_ok B h
  unfold formatPath at h
  unfold fmtNJ
  cases fmt with
  | joint => injection h with h; rw [← h]; rfl
  | other => injection h with h; rw [← h]; rfl
  | time =>
    obtain ⟨l, -, hf⟩ := timeFormatting_eq_ok B h
    simp only [h2] at hf
    rw [forall₂_zipIdx_map hf (f := fun q => (q.n, q.j)) (g := fun n1 : Nat => ((n1 : Int) :: p.n, p.j))]
    · rfl
    · rintro a b ⟨c, -, rfl⟩; rfl

/-- The labels of a run are a function of the object. -/
theorem stages_nj {B : JBackend} {ops : JFrontOps B.R B.RS} {o : JObj B.F} {x : B.R}
    {P : List (JPath B.R B.RS)} (h : Stages B ops o x P) {lsFr : Int} (hf : o.log2StrideFr = .ok lsFr) :
    P.map (fun q => (q.n, q.j)) =
      ([], []) :: (JTFS.labels o.psi1 o.psi2 o.psisFr).flatMap (fmtNJ o.fmt lsFr.toNat o.averageFr) := by
  obtain ⟨U0, ls, lf, S, -, -, h3, h4, h5⟩ := h
  rw [hf] at h3
  injection h3 with h3
  subst h3
  have e : P.map (fun q => (q.n, q.j)) = S.map fun q => (q.n, q.j) := by
    refine map_forall₂ (mapM_eq_ok.1 h5) ?_
    intro a b hab
    obtain ⟨c, rfl⟩ := post_eq_ok hab
    rfl
  rw [e]
  unfold paths at h4
  obtain ⟨g, hg, h6⟩ := bind_eq_ok.1 h4
  rw [← JTFS.joint_labels B hg]
  obtain ⟨z, l, -, hl, rfl⟩ := averageAndFormat_eq_ok B h6
  rw [List.map_cons]
  congr 1
  replace hl := mapM_eq_ok.1 hl
  clear h4 hg e h5 h6
  generalize g.2 = a at hl
  induction hl with
  | nil => rfl
  | cons hab _ ih => rw [List.flatten_cons, List.map_append, ih, averageBody_nj B hab]; rfl

theorem unit1_lowpass {N : ℕ} {T : Rat} (hT : 1 ≤ T) : Unit1 N (lowpassResponse N T) := by
  have h : (0 : ℝ) < 0.1 / T := by
    have : (0 : ℝ) < T := by exact_mod_cast (by linarith : (0 : ℚ) < T)
    positivity
  exact ⟨_, rfl, length_morlet1d h, l1norm_morlet1d_le _ _ _⟩

theorem unit1_time {N J Q : ℕ} (hQ : 1 ≤ Q) {w : Spec.Wavelet} (hw : w ∈ timeWavelets N J Q) :
    Unit1 N w.1 ∧ w.2 ≤ J - 1 := by
  obtain ⟨p, hp, rfl⟩ := List.mem_map.1 hw
  obtain ⟨-, -, h3⟩ := anden_pos hQ hp
  obtain ⟨h0, h1, -⟩ := anden_scale hQ hp
  refine ⟨⟨_, rfl, length_morlet1d (lt_of_lt_of_le (by positivity) h3), l1norm_morlet1d_le _ _ _⟩, ?_⟩
  show (getMaxDyadicSubsampling p.1 p.2 5).toNat ≤ J - 1
  omega

theorem unit1_freq {N J Q : ℕ} (hQ : 1 ≤ Q) {w : Spec.Wavelet} (hw : w ∈ freqWavelets N J Q) : Unit1 N w.1 := by
  rcases List.mem_cons.1 hw with rfl | hw
  · exact unit1_lowpass (one_le_pow₀ (by norm_num))
  · obtain ⟨p, hp, rfl⟩ := List.mem_map.1 hw
    obtain ⟨q, hq, -, hs, -⟩ := mem_spin hp
    obtain ⟨-, -, h3⟩ := anden_pos hQ hq
    exact ⟨_, rfl, length_morlet1d (by rw [hs]; exact lt_of_lt_of_le (by positivity) h3), l1norm_morlet1d_le _ _ _⟩

theorem Entry.index {fmt : Format} {ar ar' : Bool} {n n' : List Int} {n1 st H T n1' st' H' T' : ℕ} {B C : ℕ → ℕ → ℝ}
    {p q : JPath (List ℝ) (Img ℝ)} (hp : Entry fmt ar n n1 st H T B p) (hq : Entry fmt ar' n' n1' st' H' T' C q)
    (hpq : p.n = q.n) : n = n' := by
  unfold Entry at hp hq
  cases fmt with
  | joint => rw [← hp.1, ← hq.1, hpq]
  | time =>
    obtain ⟨i, -, -, hn, -⟩ := hp
    obtain ⟨k, -, -, hn', -⟩ := hq
    rw [hn, hn'] at hpq
    exact (List.cons.inj hpq).2
  | other => exact hp.elim

theorem Entry.ne_nil {fmt : Format} {ar : Bool} {n : List Int} {n1 st H T : ℕ} {B : ℕ → ℕ → ℝ}
    {p : JPath (List ℝ) (Img ℝ)} (hp : Entry fmt ar n n1 st H T B p) (hn : n ≠ []) : p.n ≠ [] := by
  unfold Entry at hp
  cases fmt with
  | joint => rw [hp.1]; exact hn
  | time =>
    obtain ⟨i, -, -, h, -⟩ := hp
    rw [h]
    simp
  | other => exact hp.elim

theorem freqStride_zero {a : Average} {spin : ℤ} {j n1 lsFr : ℕ} (h : freqStride a spin j n1 lsFr = 0) : n1 = 0 := by
  unfold freqStride at h
  split at h
  · exact absurd h (by positivity)
  split at h
  · exact h
  · exact absurd h (by positivity)

theorem ClosedJ.near {o : JObj (List ℝ)} {X Y : List ℝ} {D : ℝ} (hl : Y.length = X.length)
    (hD : ∀ i < X.length, |X.getD i 0 - Y.getD i 0| ≤ D) (h0 : 0 ≤ D) {φ φFr : ℤ → ℂ}
    {W1 W2 WFr : List Spec.Wavelet} {J : ℕ} (hW1 : ∀ w ∈ W1, Unit1 X.length w.1 ∧ w.2 ≤ J - 1)
    (hW2 : ∀ w ∈ W2, Unit1 X.length w.1) (hWF : ∀ w ∈ WFr, Unit1 o.phiFr.N w.1) (hφ : Unit1 X.length φ)
    (hφF : Unit1 o.phiFr.N φFr) (hN : 1 ≤ o.phiFr.N) (hn : W1.length ≤ o.phiFr.N) {ls lsFr : ℕ}
    {p q : JPath (List ℝ) (Img ℝ)} (hp : ClosedJ o X φ φFr W1 W2 WFr ls lsFr p)
    (hq : ClosedJ o Y φ φFr W1 W2 WFr ls lsFr q) (hpq : p.n = q.n) :
    CoefNear (freqGain o.averageFr o.phiFr.N lsFr * (timeGain o.average X.length J ls * D)) p.coef q.coef := by
  have fG : (1 : ℝ) ≤ freqGain o.averageFr o.phiFr.N lsFr := by
    unfold freqGain
    cases o.averageFr
    · exact_mod_cast Nat.one_le_two_pow
    · exact_mod_cast hN
    · norm_num
  have hst : ∀ {spin : ℤ} {j n1 : ℕ}, freqStride o.averageFr spin j n1 lsFr = 0 → n1 = 0 := freqStride_zero
  rcases hp with ⟨hpn, z, hz, hzv⟩ | ⟨i, psi, w, e1, e2, e3, e4, hp⟩ | ⟨n2, i, w2, psi, w, e0, e1, e2, e3, e4, e5, hp⟩
  · have hqz : ∃ z', q.coef = .sig z' ∧
        match o.average with
        | .loc => z'.length * 2 ^ ls = Y.length ∧ ∀ t, t < z'.length → z'.getD t 0 = Spec.S0 Y φ ls t
        | .glob => z' = [Y.sum]
        | .no => z' = Y := by
      rcases hq with ⟨-, hq⟩ | ⟨_, _, _, _, _, _, _, hq⟩ | ⟨_, _, _, _, _, _, _, _, _, _, _, hq⟩
      · exact hq
      · exact absurd (hpq.symm.trans hpn) (hq.ne_nil (by simp))
      · exact absurd (hpq.symm.trans hpn) (hq.ne_nil (by simp))
    obtain ⟨z', hz', hzv'⟩ := hqz
    rw [hz, hz']
    have up : ∀ {v : ℝ}, v ≤ timeGain o.average X.length J ls * D →
        v ≤ freqGain o.averageFr o.phiFr.N lsFr * (timeGain o.average X.length J ls * D) := fun h =>
      h.trans (le_mul_of_one_le_left (by positivity) fG)
    cases ha : o.average with
    | loc =>
      rw [ha] at hzv hzv' up
      obtain ⟨z1, z2⟩ := hzv
      obtain ⟨z3, z4⟩ := hzv'
      have hzl : z'.length = z.length :=
        Nat.eq_of_mul_eq_mul_right (by positivity : 0 < 2 ^ ls) (by rw [z1, z3, hl])
      refine ⟨hzl, fun t ht => up ?_⟩
      rw [z2 t ht, z4 t (hzl ▸ ht)]
      obtain ⟨g, rfl, gh, g1⟩ := hφ
      refine (S0_le hl hD h0 gh g1 ls t).trans (le_mul_of_one_le_left h0 ?_)
      exact_mod_cast Nat.one_le_pow _ _ (by norm_num)
    | glob =>
      rw [ha] at hzv hzv' up
      simp only at hzv hzv'
      subst hzv hzv'
      refine ⟨rfl, fun t ht => up ?_⟩
      obtain rfl : t = 0 := by simpa using ht
      show |X.sum - Y.sum| ≤ _
      rw [getD_eq_fn X, getD_eq_fn Y, hl, ← Finset.sum_sub_distrib]
      refine (Finset.abs_sum_le_sum_abs _ _).trans
        ((Finset.sum_le_sum fun m hm => hD m (mem_range.1 hm)).trans ?_)
      rw [Finset.sum_const, card_range, nsmul_eq_mul]
      refine mul_le_mul_of_nonneg_right ?_ h0
      show (X.length : ℝ) ≤ ((2 ^ (J - 1) * X.length : ℕ) : ℝ)
      exact_mod_cast Nat.le_mul_of_pos_left _ (by positivity)
    | no =>
      rw [ha] at hzv hzv' up
      simp only at hzv hzv'
      subst hzv hzv'
      refine ⟨hl, fun t ht => up ((hD t ht).trans (le_mul_of_one_le_left h0 ?_))⟩
      exact_mod_cast Nat.one_le_two_pow
  · rcases hq with ⟨hqn, -⟩ | ⟨i', psi', w', f1, f2, f3, f4, hq⟩ | ⟨_, _, _, _, _, _, _, _, _, _, _, hq⟩
    · exact absurd (hpq.trans hqn) (hp.ne_nil (by simp))
    · have hi := hp.index hq hpq
      obtain rfl : i = i' := by simpa using hi
      obtain rfl : psi = psi' := by rw [e1] at f1; exact Option.some.inj f1
      obtain rfl : w = w' := by rw [e2] at f2; exact Option.some.inj f2
      rw [hl] at hq
      exact hp.near hst (fun r t => firstRows_le hl hD h0 (fun w hw => (hW1 w hw).1) hφ hφF
        (hWF _ (List.mem_of_getElem? e2)) hN (fun w hw => (hW1 w hw).2) hn ls lsFr psi r t) hq hpq
    · exact absurd (hp.index hq hpq) (by simp)
  · rcases hq with ⟨hqn, -⟩ | ⟨_, _, _, _, _, _, _, hq⟩ |
      ⟨n2', i', w2', psi', w', f0, f1, f2, f3, f4, f5, hq⟩
    · exact absurd (hpq.trans hqn) (hp.ne_nil (by simp))
    · exact absurd (hp.index hq hpq) (by simp)
    · have hi := hp.index hq hpq
      obtain ⟨rfl, rfl⟩ : n2 = n2' ∧ i = i' := by simpa using hi
      obtain rfl : w2 = w2' := by rw [e0] at f0; exact Option.some.inj f0
      obtain rfl : psi = psi' := by rw [e1] at f1; exact Option.some.inj f1
      obtain rfl : w = w' := by rw [e2] at f2; exact Option.some.inj f2
      rw [hl] at hq
      exact hp.near hst (fun r t => secondRows_le hl hD h0 (fun w hw => (hW1 w hw).1) hφ hφF
        (hWF _ (List.mem_of_getElem? e2)) hN (fun w hw => (hW1 w hw).2) hn (hW2 _ (List.mem_of_getElem? e0)) ls lsFr
        w2.2 e5 psi r t) hq hpq

/-- **C98.**  Two signals of the input length that differ by at most `D` at every sample give, for a list output, the
same paths in the same order.  Coefficients of the same path have the same kind and shape, and differ everywhere by at
most `D` times the gain of the temporal operations and the gain of the frequential average. -/
theorem C98_uniform (a : JArgs) (s : ScJ) (hmake : a.make = .ok s) (Q1 Q2 : Int)
    (hQ : parseQ a.Q = .ok (Q1, Q2)) (hQ12 : Q2 ≤ Q1) (ls lsFr : Int)
    (hls : (a.obj s Q1.toNat).log2Stride = .ok ls) (hlsFr : (a.obj s Q1.toNat).log2StrideFr = .ok lsFr)
    (hout : a.outType = .list) (x y : List ℝ) (hx : x.length = s.base.built.Ninput)
    (hy : y.length = s.base.built.Ninput) (D : ℝ) (hD : ∀ i < x.length, |x.getD i 0 - y.getD i 0| ≤ D)
    (P P' : List (JPath (List ℝ) (Img ℝ))) (hP : a.run x = .ok (.list P)) (hP' : a.run y = .ok (.list P')) :
    List.Forall₂ (fun p q => p.n = q.n ∧ p.j = q.j ∧
      CoefNear (freqGain s.averageFr s.nFr lsFr.toNat *
        (timeGain s.base.average s.base.built.Npadded a.J ls.toNat * D)) p.coef q.coef) P P' := by
  have stages : ∀ {z : List ℝ} {R}, a.run z = .ok (.list R) → Stages npJ npFrontJ (a.obj s Q1.toNat) z R := by
    intro z R hR
    obtain ⟨s', hs', h⟩ := bind_eq_ok.1 hR
    rw [hmake] at hs'
    injection hs' with hs'
    subst hs'
    obtain ⟨Q', hQ', h⟩ := bind_eq_ok.1 h
    rw [hQ] at hQ'
    injection hQ' with hQ'
    subst hQ'
    obtain ⟨-, R', h1, h2⟩ := scattering_eq_ok h
    unfold assemble at h2
    rw [show (a.obj s Q1.toNat).outType = .list from hout] at h2
    injection h2 with h2
    injection h2 with h2
    exact h2 ▸ h1
  have hst := stages hP
  have hst' := stages hP'
  have hpos : 1 ≤ s.base.built.Ninput := by
    obtain ⟨_, _, _, hbase, -⟩ := JArgs.make_eq_ok hmake
    obtain ⟨T, -, -, -, -, -, -, -, h, -⟩ := make_sizes hbase
    omega
  have h0 : 0 ≤ D := (abs_nonneg _).trans (hD 0 (by omega))
  obtain ⟨Q', q, F', hbase, hQ', hq, hF, -⟩ := JArgs.make_eq_ok hmake
  rw [hQ] at hQ'
  injection hQ' with hQ'
  subst hQ'
  obtain ⟨hQ1, hQ2⟩ := C09_Q_positive _ _ _ hQ
  obtain ⟨t, lT, hT, -, -, -, -, -, hlen, -⟩ := base_facts hbase hQ hQ12
  have hlen : s.base.psi1.length = (anden a.J Q1.toNat).length := hlen
  have hn : (timeWavelets s.base.built.Npadded a.J Q1.toNat).length ≤ s.nFr := by
    by_contra hc
    refine C74_fails hmake ?_ x _ hP
    rw [hlen]
    simpa [timeWavelets] using hc
  have hN : 1 ≤ s.nFr := by
    refine le_trans ?_ hn
    simpa [timeWavelets] using (C25_number_of_filters_partial a.J Q1.toNat (by omega)).1
  have hnj := (stages_nj hst hlsFr).trans (stages_nj hst' hlsFr).symm
  have near : ∀ p ∈ P, ∀ r ∈ P', p.n = r.n → p.j = r.j →
      CoefNear (freqGain s.averageFr s.nFr lsFr.toNat *
        (timeGain s.base.average s.base.built.Npadded a.J ls.toNat * D)) p.coef r.coef := by
    intro p hp r hr hpn hpj
    obtain ⟨X, p0, hX, c1, a1, a2, a3, a4⟩ := C72_object hmake hQ hQ12 hq hT hF hx hst hls hlsFr hp
    obtain ⟨Y, r0, hY, c2, b1, b2, b3, b4⟩ := C72_object hmake hQ hQ12 hq hT hF hy hst' hls hlsFr hr
    obtain ⟨hl, hXY⟩ := padded_le (by rw [hx, hy]) hX hY h0 hD
    have hXl := hX.1
    have hnear : CoefNear (freqGain s.averageFr s.nFr lsFr.toNat *
        (timeGain s.base.average s.base.built.Npadded a.J ls.toNat * D)) p0.coef r0.coef := by
      have := ClosedJ.near (J := a.J) hl hXY h0
        (fun w hw => by rw [hXl]; exact unit1_time (by omega) hw)
        (fun w hw => by rw [hXl]; exact (unit1_time (by omega) hw).1)
        (fun w hw => unit1_freq (by have := parseQfr_pos hq; omega) hw)
        (by rw [hXl]; exact unit1_lowpass (parseT_ge_one hT)) (unit1_lowpass (parseT_ge_one hF)) hN hn c1 c2
        (by rw [← a1, ← b1, hpn])
      rw [hXl] at this
      exact this
    by_cases hg : s.base.average = .glob
    · rw [a3 hg, b3 hg]
      exact hnear
    · obtain ⟨res, e1, e2⟩ := a4 hg
      obtain ⟨res', f1, f2⟩ := b4 hg
      have : resolution (a.obj s Q1.toNat) ls.toNat p0 = resolution (a.obj s Q1.toNat) ls.toNat r0 := by
        unfold resolution
        rw [← a1, ← b1, ← a2, ← b2, hpn, hpj]
      rw [this, f1] at e1
      injection e1 with e1
      subst e1
      rw [e2, f2]
      exact hnear.unpad _ _
  have hlen : P.length = P'.length := by simpa using congrArg List.length hnj
  refine List.forall₂_iff_get.2 ⟨hlen, fun i hi hi' => ?_⟩
  have e : (P[i].n, P[i].j) = (P'[i].n, P'[i].j) := by
    have h := congrArg (fun l => l[i]?) hnj
    simpa [List.getElem?_map, List.getElem?_eq_getElem hi, List.getElem?_eq_getElem hi'] using h
  injection e with e1 e2
  exact ⟨e1, e2, near _ (List.getElem_mem hi) _ (List.getElem_mem hi') e1 e2⟩

/-- **C98, default averages and strides.**  Both transforms return, and coefficients differ by at most
`2^J_fr * 4^J * D`. -/
theorem C98_defaults (J Jfr N : Nat) (Q q : Int) (hQ : 1 ≤ Q) (hq : 1 ≤ q) (hN : 2 ^ J ≤ N) (f : Format)
    (hf : f ≠ .other) (x y : List ℝ) (hx : x.length = N) (hy : y.length = N) (D : ℝ)
    (hD : ∀ i < N, |x.getD i 0 - y.getD i 0| ≤ D) :
    ∃ P P', (⟨J, Jfr, .int Q, .int N, .none, none, .int q, .none, none, .list, f⟩ : JArgs).run x = .ok (.list P) ∧
      (⟨J, Jfr, .int Q, .int N, .none, none, .int q, .none, none, .list, f⟩ : JArgs).run y = .ok (.list P') ∧
      List.Forall₂ (fun p q => p.n = q.n ∧ p.j = q.j ∧ CoefNear (2 ^ Jfr * (4 ^ J * D)) p.coef q.coef) P P' := by
  have h1 : 1 ≤ N := le_trans Nat.one_le_two_pow hN
  have isList : ∀ {z : List ℝ} {r}, (⟨J, Jfr, .int Q, .int N, .none, none, .int q, .none, none, .list, f⟩ : JArgs).run z
      = .ok r → ∃ P, r = .list P := by
    intro z r hr
    obtain ⟨s, -, h⟩ := bind_eq_ok.1 hr
    obtain ⟨Q, -, h⟩ := bind_eq_ok.1 h
    obtain ⟨-, P, -, hP⟩ := scattering_eq_ok h
    injection hP with hP
    exact ⟨P, hP.symm⟩
  obtain ⟨r, hr⟩ := C76_defaults J Jfr N Q q hQ hq hN .list (by simp) f hf x hx
  obtain ⟨r', hr'⟩ := C76_defaults J Jfr N Q q hQ hq hN .list (by simp) f hf y hy
  obtain ⟨P, rfl⟩ := isList hr
  obtain ⟨P', rfl⟩ := isList hr'
  obtain ⟨s, hs, hNi, hav, havF, hstr⟩ := C76_construction
    ⟨J, Jfr, .int Q, .int N, .none, none, .int q, .none, none, .list, f⟩ N rfl h1
    (2 ^ J) .loc rfl Q 1 (if_neg (by omega : ¬ Q < 1)) hQ (le_jPad_of_pow h1 hN) q (if_neg (by omega : ¬ q < 1))
    (2 ^ Jfr) .loc rfl (by rw [floorLog2_twoPow])
  have hlog : ∀ K M : ℕ, log2Stride none .none K M = .ok (K : ℤ) := fun K M => by
    refine (C07_log2_stride_ok _ _ _ _ _).2 (Or.inl ⟨rfl, ?_⟩)
    show (Except.ok (floorLog2 ((2 : Rat) ^ K)) : Py ℤ) = _
    rw [floorLog2_twoPow]
  refine ⟨P, P', hr, hr', ?_⟩
  have := C98_uniform _ s hs Q 1 (if_neg (by omega : ¬ Q < 1)) hQ J Jfr
    (by
      show log2Stride s.base.built.stride .none J s.base.built.Ninput = _
      rw [hstr]
      exact hlog J _)
    (hlog Jfr _) rfl x y (by rw [hNi, hx]) (by rw [hNi, hy]) D (by rw [hx]; exact hD) P P' hr hr'
  rw [hav, havF] at this
  simpa [freqGain, timeGain] using this

/-- `TimeFrequencyScattering(J=3, J_fr=2, Q=8, shape=1000, out_type='list')` on two signals at distance one: both
runs return and every coefficient moves by at most 256. -/
example (x y : List ℝ) (hx : x.length = 1000) (hy : y.length = 1000) (hd : ∀ i < 1000, |x.getD i 0 - y.getD i 0| ≤ 1) :
    ∃ P P', (⟨3, 2, .int 8, .int 1000, .none, none, .int 1, .none, none, .list, .joint⟩ : JArgs).run x =
      .ok (.list P) ∧ (⟨3, 2, .int 8, .int 1000, .none, none, .int 1, .none, none, .list, .joint⟩ : JArgs).run y =
      .ok (.list P') ∧ List.Forall₂ (fun p q => p.n = q.n ∧ p.j = q.j ∧ CoefNear 256 p.coef q.coef) P P' := by
  have := C98_defaults 3 2 1000 8 1 (by norm_num) (by norm_num) (by norm_num) .joint (by simp) x y hx hy 1 hd
  norm_num at this ⊢
  exact this

end Verif
