import Verif.Props.StabilityJTFS
import Verif.Props.Averages1D
import Verif.Props.InstancesJTFS

/-!
# Signs of the coefficients of joint time-frequency scattering
-/

namespace Verif

open Finset FrontJ JTFS

/-- Every value of a coefficient is at least `m`. -/
def CoefGe (m : ℝ) : JCoef (List ℝ) (Img ℝ) → Prop
  | .sig u => ∀ t < u.length, m ≤ u.getD t 0
  | .stk U => ∀ i < U.h, ∀ t < U.w, m ≤ U.px i t

theorem CoefGe.mono {m m' : ℝ} (hm : m' ≤ m) {c : JCoef (List ℝ) (Img ℝ)} (h : CoefGe m c) : CoefGe m' c := by
  cases c with
  | sig u => exact fun t ht => hm.trans (h t ht)
  | stk U => exact fun i hi t ht => hm.trans (h i hi t ht)

theorem CoefGe.unpad {m : ℝ} {c : JCoef (List ℝ) (Img ℝ)} (h : CoefGe m c) (i0 i1 : ℕ) :
    CoefGe m (unpadCoef npFrontJ i0 i1 c) := by
  cases c with
  | sig u =>
    show ∀ t < ((u.take i1).drop i0).length, m ≤ ((u.take i1).drop i0).getD t 0
    simp only [List.length_drop, List.length_take]
    intro t ht
    rw [List.getD_eq_getElem?_getD, List.getElem?_drop, List.getElem?_take, if_pos (by omega),
      ← List.getD_eq_getElem?_getD]
    exact h _ (by omega)
  | stk U =>
    intro i hi t ht
    have hi' : i < U.h := hi
    have ht' : t < min i1 U.w - i0 := ht
    have e1 : (npFrontJ.unpadS U i0 i1).px i t = U.px i (i0 + t) := Img.px_tab' hi' ht'
    rw [e1]
    exact h i hi' _ (by omega)

theorem Entry.ge {fmt : Format} {ar : Bool} {n : List Int} {n1 st H T : Nat} {B : ℕ → ℕ → ℝ}
    {p : JPath (List ℝ) (Img ℝ)} {m : ℝ} (hm : ∀ r t, m ≤ B r t) (hp : Entry fmt ar n n1 st H T B p) :
    CoefGe m p.coef := by
  unfold Entry at hp
  cases fmt with
  | joint =>
    obtain ⟨-, U, hU, u1, u2, u3⟩ := hp
    rw [hU]
    intro i hi t ht
    rw [u1] at hi
    rw [u2] at ht
    rw [u3 i t hi ht]
    exact hm i t
  | time =>
    obtain ⟨i, -, -, -, u, hu, ul, u3⟩ := hp
    rw [hu]
    intro t ht
    rw [ul] at ht
    rw [u3 t ht]
    exact hm i t
  | other => exact hp.elim

/-- How far below zero, relatively, an average over a circle of `N` points can be. -/
noncomputable def avgTol (a : Average) (N : ℕ) : ℝ := if a = .loc then 1e-21 * N else 0

theorem avgTol_nonneg (a : Average) (N : ℕ) : 0 ≤ avgTol a N := by
  unfold avgTol
  split
  · positivity
  · exact le_rfl

theorem smooth_abs {N n k : ℕ} {φ : ℤ → ℂ} (h : Unit1 N φ) (hn : n * 2 ^ k ≤ N) {U : ℕ → ℝ} {E : ℝ} (h0 : 0 ≤ E)
    (hE : ∀ m, |U m| ≤ E) (ls t : ℕ) : |Spec.smooth n k ls φ U t| ≤ 2 ^ k * E := by
  have := smooth_le (V := fun _ => 0) h hn h0 (fun m => by rw [sub_zero]; exact hE m) ls t
  have e : Spec.smooth n k ls φ (fun _ => 0) t = 0 := by unfold Spec.smooth; simp
  rwa [e, sub_zero] at this

/-- An average of non-negative numbers. -/
theorem smooth_nonneg {N n k : ℕ} (hN : 0 < N) {T : Rat} (hT : 1 ≤ T) (hn : n * 2 ^ k ≤ N) {U : ℕ → ℝ} {E : ℝ}
    (hE : ∀ m, 0 ≤ U m ∧ U m ≤ E) (ls t : ℕ) :
    -(1e-21 * N * E) ≤ Spec.smooth n k ls (lowpassResponse N T) U t := by
  have hT1 : (1 : ℝ) ≤ T := by exact_mod_cast hT
  have h0 : 0 ≤ E := (hE 0).1.trans (hE 0).2
  unfold Spec.smooth lowpassResponse
  have e := re_avg n U N T k (2 ^ ls * t)
  rw [e]
  have h1 : ∀ u ∈ range n, -(1e-21 * 2 ^ k * E) ≤ U u * avgWeight N T k (2 ^ ls * t) u := by
    intro u _
    have h4 := mul_le_mul_of_nonneg_left (avgWeight_ge hN hT1 k (2 ^ ls * t) u) (hE u).1
    have h5 := mul_le_mul_of_nonneg_right (hE u).2 (by positivity : (0 : ℝ) ≤ 1e-21 * 2 ^ k)
    linarith
  refine le_trans ?_ (sum_le_sum h1)
  rw [sum_const, card_range, nsmul_eq_mul]
  have h6 : (n : ℝ) * 2 ^ k ≤ N := by exact_mod_cast hn
  have h7 := mul_le_mul_of_nonneg_right h6 (by positivity : (0 : ℝ) ≤ 1e-21 * E)
  linarith

/-- An average of numbers at least `-α`. -/
theorem smooth_ge {N n k : ℕ} (hN : 0 < N) {T : Rat} (hT : 1 ≤ T) (hn : n * 2 ^ k ≤ N) {U : ℕ → ℝ} {α E : ℝ}
    (hα : 0 ≤ α) (hE : ∀ m, -α ≤ U m ∧ U m ≤ E) (ls t : ℕ) :
    -(1e-21 * N * (α + E) + 2 ^ k * α) ≤ Spec.smooth n k ls (lowpassResponse N T) U t := by
  have h1 := smooth_nonneg hN hT hn (U := fun m => U m + α) (E := α + E)
    (fun m => ⟨by linarith [(hE m).1], by linarith [(hE m).2]⟩) ls t
  have h2 := smooth_le (unit1_lowpass hT) hn (U := fun m => U m + α) (V := U) hα
    (fun m => by rw [add_sub_cancel_left, abs_of_nonneg hα]) ls t
  have h3 := (le_abs_self _).trans h2
  linarith

theorem timeAvg_bounds {a : Average} {second : Bool} {N J ls n k : ℕ} (hN : 0 < N) {T : Rat} (hT : 1 ≤ T)
    (hn : n * 2 ^ k ≤ N) (hk : a = .loc → k ≤ ls) {U : ℕ → ℕ → ℝ} {B : ℝ} (h0 : 0 ≤ B)
    (hU : ∀ r t, 0 ≤ U r t ∧ U r t ≤ 2 ^ (if a = .loc then ls else J - 1) * B) (r t : ℕ) :
    -(avgTol a N * (timeGain a N J ls * B)) ≤ timeAvg a second n k ls (lowpassResponse N T) U r t ∧
      timeAvg a second n k ls (lowpassResponse N T) U r t ≤ timeGain a N J ls * B := by
  have neg : ∀ {v : ℝ}, 0 ≤ v → -(avgTol a N * (timeGain a N J ls * B)) ≤ v := by
    intro v hv
    have : 0 ≤ avgTol a N * (timeGain a N J ls * B) := mul_nonneg (avgTol_nonneg _ _) (by positivity)
    linarith
  have four : (2 : ℝ) ^ ls * (2 ^ ls * B) = 4 ^ ls * B := by rw [← mul_assoc, ← mul_pow]; norm_num
  cases a with
  | loc =>
    rw [if_pos rfl] at hU
    have le4 : (2 : ℝ) ^ ls * B ≤ 4 ^ ls * B :=
      mul_le_mul_of_nonneg_right (pow_le_pow_left₀ (by norm_num) (by norm_num) _) h0
    cases second with
    | false =>
      show _ ≤ U r t ∧ U r t ≤ _
      refine ⟨neg (hU r t).1, (hU r t).2.trans ?_⟩
      show _ ≤ ((4 ^ ls : ℕ) : ℝ) * B
      push_cast
      exact le4
    | true =>
      show _ ≤ Spec.smooth n k ls _ (U r) t ∧ Spec.smooth n k ls _ (U r) t ≤ _
      have e : timeGain .loc N J ls = 4 ^ ls := rfl
      rw [e]
      push_cast
      constructor
      · refine le_trans ?_ (smooth_nonneg hN hT hn (hU r) ls t)
        unfold avgTol
        rw [if_pos rfl]
        have := mul_le_mul_of_nonneg_left le4 (by positivity : (0 : ℝ) ≤ 1e-21 * N)
        linarith
      · refine ((le_abs_self _).trans (smooth_abs (unit1_lowpass hT) hn (E := 2 ^ ls * B) (by positivity)
          (fun m => by rw [abs_of_nonneg (hU r m).1]; exact (hU r m).2) ls t)).trans ?_
        rw [← four]
        exact mul_le_mul_of_nonneg_right (pow_le_pow_right₀ one_le_two (hk rfl)) (by positivity)
  | glob =>
    rw [if_neg (by simp)] at hU
    have e : timeAvg .glob second n k ls (lowpassResponse N T) U r t = ∑ s ∈ range n, U r s := by
      cases second <;> rfl
    rw [e]
    refine ⟨neg (sum_nonneg fun s _ => (hU r s).1), ?_⟩
    refine (sum_le_sum fun s _ => (hU r s).2).trans ?_
    rw [sum_const, card_range, nsmul_eq_mul]
    have hnN : (n : ℝ) ≤ N := by
      exact_mod_cast (Nat.le_mul_of_pos_right n (by positivity)).trans hn
    show _ ≤ ((2 ^ (J - 1) * N : ℕ) : ℝ) * B
    push_cast
    have := mul_le_mul_of_nonneg_right hnN (by positivity : (0 : ℝ) ≤ 2 ^ (J - 1) * B)
    linarith
  | no =>
    rw [if_neg (by simp)] at hU
    have e : timeAvg .no second n k ls (lowpassResponse N T) U r t = U r t := by cases second <;> rfl
    rw [e]
    refine ⟨neg (hU r t).1, (hU r t).2.trans ?_⟩
    show _ ≤ ((2 ^ (J - 1) : ℕ) : ℝ) * B
    push_cast
    exact le_rfl

theorem freqAvg_ge {a : Average} {spin : ℤ} {N k lsFr : ℕ} (hN : 0 < N) {F : Rat} (hF : 1 ≤ F)
    (hk : a = .loc → k ≤ lsFr) {U : ℕ → ℕ → ℝ} {α E : ℝ} (hα : 0 ≤ α) (hE0 : 0 ≤ E)
    (hE : ∀ r t, -α ≤ U r t ∧ U r t ≤ E) (r t : ℕ) :
    -(avgTol a N * (α + E) + freqGain a N lsFr * α) ≤
      freqAvg a spin (N / 2 ^ k) k lsFr (lowpassResponse N F) U r t := by
  have one : (1 : ℝ) ≤ freqGain a N lsFr := by
    unfold freqGain
    cases a
    · exact_mod_cast Nat.one_le_two_pow
    · exact_mod_cast hN
    · norm_num
  have tol : 0 ≤ avgTol a N * (α + E) := mul_nonneg (avgTol_nonneg _ _) (by linarith)
  unfold freqAvg
  split
  · have := le_mul_of_one_le_left hα one
    linarith [(hE r t).1]
  rename_i hns
  split
  · rename_i hg
    subst hg
    refine le_trans ?_ (sum_le_sum fun s _ => (hE s t).1)
    rw [sum_const, card_range, nsmul_eq_mul]
    have h1 : ((N / 2 ^ k : ℕ) : ℝ) ≤ N := by exact_mod_cast Nat.div_le_self _ _
    have h2 := mul_le_mul_of_nonneg_right h1 hα
    have e : freqGain .glob N lsFr = N := rfl
    rw [e]
    linarith
  · rename_i hg
    have ha : a = .loc := by
      cases a
      · rfl
      · exact absurd rfl hg
      · exact absurd (Or.inl rfl) hns
    subst ha
    refine le_trans ?_ (smooth_ge hN hF (Nat.div_mul_le_self _ _) hα (fun m => hE m t) lsFr r)
    unfold avgTol freqGain
    rw [if_pos rfl]
    push_cast
    have := mul_le_mul_of_nonneg_right (pow_le_pow_right₀ one_le_two (hk rfl) : (2 : ℝ) ^ k ≤ 2 ^ lsFr) hα
    linarith

section

variable {X : List ℝ} {B : ℝ} (hB : ∀ i < X.length, |X.getD i 0| ≤ B) (h0 : 0 ≤ B) {W1 : List Spec.Wavelet}
include hB h0

theorem rows1_abs (hW : ∀ w ∈ W1, Unit1 X.length w.1) {φ : ℤ → ℂ} (hφ : Unit1 X.length φ) (k1 : ℕ → ℕ) {K : ℕ}
    (hK : ∀ w ∈ W1, k1 w.2 ≤ K) (ls m t : ℕ) : |Spec.rows1 X W1 φ k1 ls m t| ≤ 2 ^ K * B := by
  have h := rows1_le (Y := List.replicate X.length 0) (List.length_replicate ..)
    (fun i hi => by rw [List.getD_replicate _ hi, sub_zero]; exact hB i hi) h0 hW hφ k1 hK ls m t
  have e : Spec.rows1 (List.replicate X.length 0) W1 φ k1 ls m t = 0 := by
    unfold Spec.rows1
    cases W1[m]? with
    | none => rfl
    | some w => simp [Spec.S1, Spec.U1]
  rwa [e, sub_zero] at h

theorem rows2_abs (hW : ∀ w ∈ W1, Unit1 X.length w.1) {ψ2 : ℤ → ℂ} (hψ : Unit1 X.length ψ2) {K : ℕ}
    (hK : ∀ w ∈ W1, w.2 ≤ K) (j2 m t : ℕ) : ‖Spec.rows2 X W1 ψ2 j2 m t‖ ≤ 2 ^ K * B := by
  have h := rows2_le (Y := List.replicate X.length 0) (List.length_replicate ..)
    (fun i hi => by rw [List.getD_replicate _ hi, sub_zero]; exact hB i hi) h0 hW hψ hK j2 m t
  have e : Spec.rows2 (List.replicate X.length 0) W1 ψ2 j2 m t = 0 := by
    unfold Spec.rows2
    cases W1[m]? with
    | none => rfl
    | some w => simp [Spec.W2, Spec.U1]
  rwa [e, sub_zero] at h

omit hB h0 in
theorem frConv_abs {N n : ℕ} {ψ : ℤ → ℂ} (h : Unit1 N ψ) (hn : n ≤ N) {Y : ℕ → ℕ → ℂ} {E : ℝ} (h0 : 0 ≤ E)
    (hE : ∀ m t, ‖Y m t‖ ≤ E) (k r t : ℕ) : ‖Spec.frConv n Y ψ k r t‖ ≤ E := by
  have := frConv_le (Y' := fun _ _ => 0) h hn h0 (fun m t => by rw [sub_zero]; exact hE m t) k r t
  have e : Spec.frConv n (fun _ _ => 0) ψ k r t = 0 := by unfold Spec.frConv; simp
  rwa [e, sub_zero] at this

end

/-- The relative tolerance of the signs of a joint transform: `1e-21` times the size of the circles on which averages are
computed, and zero without local averaging. -/
noncomputable def signTol (a aFr : Average) (N NFr lsFr : ℕ) : ℝ :=
  avgTol aFr NFr * (avgTol a N + 1) + freqGain aFr NFr lsFr * avgTol a N

theorem ClosedJ.ge {o : JObj (List ℝ)} {X : List ℝ} {B : ℝ} (hB : ∀ i < X.length, |X.getD i 0| ≤ B) (h0 : 0 ≤ B)
    {T F : Rat} (hT : 1 ≤ T) (hF : 1 ≤ F)
    {W1 W2 WFr : List Spec.Wavelet} {J : ℕ} (hW1 : ∀ w ∈ W1, Unit1 X.length w.1 ∧ w.2 ≤ J - 1)
    (hW2 : ∀ w ∈ W2, Unit1 X.length w.1) (hWF : ∀ w ∈ WFr, Unit1 o.phiFr.N w.1) (hX : 0 < X.length)
    (hN : 0 < o.phiFr.N) (hn : W1.length ≤ o.phiFr.N) {ls lsFr : ℕ}
    {p : JPath (List ℝ) (Img ℝ)}
    (hp : ClosedJ o X (lowpassResponse X.length T) (lowpassResponse o.phiFr.N F) W1 W2 WFr ls lsFr p)
    (hsign : p.n ≠ [] ∨ ∀ i < X.length, 0 ≤ X.getD i 0) :
    CoefGe (-(signTol o.average o.averageFr X.length o.phiFr.N lsFr * (timeGain o.average X.length J ls * B))) p.coef := by
  have fG : (1 : ℝ) ≤ freqGain o.averageFr o.phiFr.N lsFr := by
    unfold freqGain
    cases o.averageFr
    · exact_mod_cast Nat.one_le_two_pow
    · exact_mod_cast hN
    · norm_num
  set G : ℝ := timeGain o.average X.length J ls * B with hG
  have hG0 : 0 ≤ G := by positivity
  set τ := avgTol o.average X.length with hτ
  have hτ0 : 0 ≤ τ := avgTol_nonneg _ _
  have hσ0 : 0 ≤ avgTol o.averageFr o.phiFr.N := avgTol_nonneg _ _
  have e : signTol o.average o.averageFr X.length o.phiFr.N lsFr * G =
      avgTol o.averageFr o.phiFr.N * (τ * G + G) + freqGain o.averageFr o.phiFr.N lsFr * (τ * G) := by
    unfold signTol
    ring
  rw [e]
  have tail : ∀ {k : ℕ} {spin : ℤ} {V : ℕ → ℕ → ℝ}, (o.averageFr = .loc → k ≤ lsFr) →
      (∀ r t, -(τ * G) ≤ V r t ∧ V r t ≤ G) → ∀ r t,
      -(avgTol o.averageFr o.phiFr.N * (τ * G + G) + freqGain o.averageFr o.phiFr.N lsFr * (τ * G)) ≤
        freqAvg o.averageFr spin (o.phiFr.N / 2 ^ k) k lsFr (lowpassResponse o.phiFr.N F) V r t := by
    intro k spin V hk hV r t
    exact freqAvg_ge hN hF hk (mul_nonneg hτ0 hG0) hG0 hV r t
  rcases hp with ⟨hpn, z, hz, hzv⟩ | ⟨i, psi, w, e1, e2, e3, e4, hp⟩ | ⟨n2, i, w2, psi, w, e0, e1, e2, e3, e4, e5, hp⟩
  · have hpos : ∀ i < X.length, 0 ≤ X.getD i 0 := hsign.resolve_left fun h => h hpn
    have low : ∀ {v : ℝ}, -(τ * G) ≤ v →
        -(avgTol o.averageFr o.phiFr.N * (τ * G + G) + freqGain o.averageFr o.phiFr.N lsFr * (τ * G)) ≤ v := by
      intro v hv
      have h1 := le_mul_of_one_le_left (mul_nonneg hτ0 hG0) fG
      have h2 : 0 ≤ avgTol o.averageFr o.phiFr.N * (τ * G + G) :=
        mul_nonneg hσ0 (add_nonneg (mul_nonneg hτ0 hG0) hG0)
      linarith
    have low0 : ∀ {v : ℝ}, 0 ≤ v →
        -(avgTol o.averageFr o.phiFr.N * (τ * G + G) + freqGain o.averageFr o.phiFr.N lsFr * (τ * G)) ≤ v :=
      fun hv => low (by linarith [mul_nonneg hτ0 hG0])
    rw [hz]
    cases ha : o.average with
    | loc =>
      rw [ha] at hzv
      obtain ⟨z1, z2⟩ := hzv
      intro t ht
      refine low ?_
      rw [z2 t ht]
      have key := smooth_nonneg (k := 0) (n := X.length) hX hT (by simp)
        (U := fun m => if m < X.length then X.getD m 0 else 0) (E := B)
        (fun m => by
          split
          · rename_i hm
            exact ⟨hpos m hm, (le_abs_self _).trans (hB m hm)⟩
          · exact ⟨le_rfl, h0⟩) ls t
      have es : Spec.smooth X.length 0 ls (lowpassResponse X.length T)
          (fun m => if m < X.length then X.getD m 0 else 0) t = Spec.S0 X (lowpassResponse X.length T) ls t := by
        unfold Spec.smooth Spec.S0
        congr 1
        refine sum_congr rfl fun m hm => ?_
        simp only [if_pos (mem_range.1 hm), pow_zero, one_mul]
      rw [es] at key
      refine le_trans (neg_le_neg ?_) key
      rw [hτ, hG, ha]
      unfold avgTol timeGain
      rw [if_pos rfl]
      refine mul_le_mul_of_nonneg_left (le_mul_of_one_le_left h0 ?_) (by positivity)
      exact_mod_cast Nat.one_le_pow _ _ (by norm_num)
    | glob =>
      rw [ha] at hzv
      simp only at hzv
      subst hzv
      intro t ht
      obtain rfl : t = 0 := by simpa using ht
      refine low0 ?_
      show 0 ≤ X.sum
      refine List.sum_nonneg fun v hv => ?_
      obtain ⟨i, hi, rfl⟩ := List.mem_iff_getElem.1 hv
      have := hpos i hi
      rwa [List.getD_eq_getElem _ _ hi] at this
    | no =>
      rw [ha] at hzv
      simp only at hzv
      subst hzv
      exact fun t ht => low0 (hpos t ht)
  · refine hp.ge fun r t => ?_
    unfold firstRows
    refine tail (fun h => by rw [if_pos h]; exact Nat.min_le_right _ _) (fun r t => ?_) r t
    refine timeAvg_bounds hX hT (by simpa using Nat.div_le_self _ _) (fun _ => Nat.zero_le _) h0 (fun r t => ?_) r t
    refine ⟨norm_nonneg _, frConv_abs (hWF _ (List.mem_of_getElem? e2)) hn (by positivity) (fun m t => ?_) _ _ _⟩
    rw [Complex.norm_real, Real.norm_eq_abs]
    refine rows1_abs hB h0 (fun w hw => (hW1 w hw).1) (unit1_lowpass hT) _ (fun w hw => ?_) ls m t
    by_cases ha : o.average = .loc
    · simp only [if_pos ha]; exact Nat.min_le_right _ _
    · simp only [if_neg ha]; exact (hW1 w hw).2
  · refine hp.ge fun r t => ?_
    unfold secondRows
    refine tail (fun h => by rw [if_pos h]; exact Nat.min_le_right _ _) (fun r t => ?_) r t
    have hb : ∀ w ∈ below W1 w2.2, w ∈ W1 ∧ w.2 < w2.2 := fun w hw => by
      simpa [below] using List.mem_filter.1 hw
    have hbl : (below W1 w2.2).length ≤ o.phiFr.N := (List.length_filter_le _ _).trans hn
    refine timeAvg_bounds hX hT (Nat.div_mul_le_self _ _) e5 h0 (fun r t => ?_) r t
    refine ⟨norm_nonneg _, frConv_abs (hWF _ (List.mem_of_getElem? e2)) hbl (by positivity) (fun m t => ?_) _ _ _⟩
    refine rows2_abs hB h0 (fun w hw => (hW1 w (hb w hw).1).1) (hW2 _ (List.mem_of_getElem? e0)) (fun w hw => ?_) _ m t
    by_cases ha : o.average = .loc
    · rw [if_pos ha]; exact (hb w hw).2.le.trans (e5 ha)
    · rw [if_neg ha]; exact (hW1 w (hb w hw).1).2

/-- **C121.**  Of a signal bounded by `B`, every coefficient of a joint transform with a list output is non-negative up to
a tolerance, for every path except order zero; order zero too when the signal is non-negative. -/
theorem C121_nonneg (a : JArgs) (s : ScJ) (hmake : a.make = .ok s) (Q1 Q2 : Int)
    (hQ : parseQ a.Q = .ok (Q1, Q2)) (hQ12 : Q2 ≤ Q1) (ls lsFr : Int)
    (hls : (a.obj s Q1.toNat).log2Stride = .ok ls) (hlsFr : (a.obj s Q1.toNat).log2StrideFr = .ok lsFr)
    (hout : a.outType = .list) (x : List ℝ) (hx : x.length = s.base.built.Ninput)
    (B : ℝ) (hB : ∀ v ∈ x, |v| ≤ B) (P : List (JPath (List ℝ) (Img ℝ))) (hP : a.run x = .ok (.list P))
    (p : JPath (List ℝ) (Img ℝ)) (hp : p ∈ P) (hsign : p.n ≠ [] ∨ ∀ v ∈ x, 0 ≤ v) :
    CoefGe (-(signTol s.base.average s.averageFr s.base.built.Npadded s.nFr lsFr.toNat *
      (timeGain s.base.average s.base.built.Npadded a.J ls.toNat * B))) p.coef := by
  have hst : Stages npJ npFrontJ (a.obj s Q1.toNat) x P := by
    obtain ⟨s', hs', h⟩ := bind_eq_ok.1 hP
    rw [hmake] at hs'
    injection hs' with hs'
    subst hs'
    obtain ⟨Q', hQ', h⟩ := bind_eq_ok.1 h
    rw [hQ] at hQ'
    injection hQ' with hQ'
    subst hQ'
    obtain ⟨-, R', h1, h2⟩ := Verif.scattering_eq_ok h
    unfold assemble at h2
    rw [show (a.obj s Q1.toNat).outType = .list from hout] at h2
    injection h2 with h2
    injection h2 with h2
    exact h2 ▸ h1
  have hpos : 1 ≤ s.base.built.Ninput := by
    obtain ⟨_, _, _, hbase, -⟩ := JArgs.make_eq_ok hmake
    obtain ⟨T, -, -, -, -, -, -, -, h, -⟩ := make_sizes hbase
    omega
  have hx0 : 0 < x.length := by omega
  have h0 : 0 ≤ B := (abs_nonneg _).trans (hB _ (List.getElem_mem hx0))
  obtain ⟨Q', q, F', hbase, hQ', hq, hF, -⟩ := JArgs.make_eq_ok hmake
  rw [hQ] at hQ'
  injection hQ' with hQ'
  subst hQ'
  obtain ⟨hQ1, hQ2⟩ := C09_Q_positive _ _ _ hQ
  obtain ⟨t, lT, hT, -, -, -, -, -, hlen, -⟩ := base_facts hbase hQ hQ12
  have hlen : s.base.psi1.length = (anden a.J Q1.toNat).length := hlen
  have hn : (timeWavelets s.base.built.Npadded a.J Q1.toNat).length ≤ s.nFr := by
    by_contra hc
    refine C74_fails hmake ?_ x _ hP
    rw [hlen]
    simpa [timeWavelets] using hc
  have hN : 1 ≤ s.nFr := by
    refine le_trans ?_ hn
    simpa [timeWavelets] using (C25_number_of_filters_partial a.J Q1.toNat (by omega)).1
  obtain ⟨X, p0, hX, c1, a1, a2, a3, a4⟩ := C72_object hmake hQ hQ12 hq hT hF hx hst hls hlsFr hp
  have hXl := hX.1
  have hXpos : 0 < X.length := by
    have := make_sizes hbase
    obtain ⟨_, -, -, -, -, hsum, -⟩ := this
    omega
  have key : CoefGe (-(signTol s.base.average s.averageFr s.base.built.Npadded s.nFr lsFr.toNat *
      (timeGain s.base.average s.base.built.Npadded a.J ls.toNat * B))) p0.coef := by
    rw [← hXl] at c1
    have := ClosedJ.ge (J := a.J) (o := a.obj s Q1.toNat) (padded_mem hx0 hX (fun v => |v| ≤ B) hB) h0
      (parseT_ge_one hT) (parseT_ge_one hF)
      (fun w hw => by rw [hXl] at hw ⊢; exact unit1_time (by omega) hw)
      (fun w hw => by rw [hXl] at hw ⊢; exact (unit1_time (by omega) hw).1)
      (fun w hw => unit1_freq (by have := parseQfr_pos hq; omega) hw) hXpos hN (by rw [hXl]; exact hn) c1
      (hsign.imp (fun h => by rw [← a1]; exact h) fun h => padded_mem hx0 hX (fun v => 0 ≤ v) h)
    rw [hXl] at this
    exact this
  by_cases hg : s.base.average = .glob
  · rw [a3 hg]
    exact key
  · obtain ⟨res, -, e2⟩ := a4 hg
    rw [e2]
    exact key.unpad _ _

/-- **C121, without local averaging.**  The coefficients are non-negative exactly. -/
theorem C121_exact (a : JArgs) (s : ScJ) (hmake : a.make = .ok s) (Q1 Q2 : Int)
    (hQ : parseQ a.Q = .ok (Q1, Q2)) (hQ12 : Q2 ≤ Q1) (ls lsFr : Int)
    (hls : (a.obj s Q1.toNat).log2Stride = .ok ls) (hlsFr : (a.obj s Q1.toNat).log2StrideFr = .ok lsFr)
    (hout : a.outType = .list) (hav : s.base.average ≠ .loc) (havF : s.averageFr ≠ .loc)
    (x : List ℝ) (hx : x.length = s.base.built.Ninput) (P : List (JPath (List ℝ) (Img ℝ)))
    (hP : a.run x = .ok (.list P)) (p : JPath (List ℝ) (Img ℝ)) (hp : p ∈ P)
    (hsign : p.n ≠ [] ∨ ∀ v ∈ x, 0 ≤ v) : CoefGe 0 p.coef := by
  obtain ⟨B, hB⟩ : ∃ B : ℝ, ∀ v ∈ x, |v| ≤ B :=
    ⟨(x.map fun v => |v|).sum, fun v hv => List.single_le_sum (by simp) _ (List.mem_map_of_mem hv)⟩
  have := C121_nonneg a s hmake Q1 Q2 hQ hQ12 ls lsFr hls hlsFr hout x hx B hB P hP p hp hsign
  unfold signTol avgTol at this
  rw [if_neg hav, if_neg havF] at this
  simpa using this

/-- `TimeFrequencyScattering(J=3, J_fr=2, Q=8, shape=1000, out_type='list')` on a signal with values in `[-1, 1]`: no
coefficient beyond order zero is below `-1e-15`. -/
example (x : List ℝ) (hx : x.length = 1000) (h1 : ∀ v ∈ x, |v| ≤ 1) :
    ∃ P, (exJ .list .joint).run x = .ok (.list P) ∧ (∃ p ∈ P, p.n ≠ []) ∧
      ∀ p ∈ P, p.n ≠ [] → CoefGe (-1e-15) p.coef := by
  obtain ⟨s, r, P, hs, hNi, hav, havF, hls, hlsF, hr, -, hP, ha⟩ := exJ_run .list (by simp) .joint (by simp) x hx
  obtain rfl := Except.ok.inj ha
  refine ⟨P, hr, ?_, fun p hp hn => ?_⟩
  · obtain ⟨⟨p, hp, hn⟩, -⟩ := joint_first hs hP rfl
    exact ⟨p, List.mem_of_mem_tail hp, by rw [hn]; simp⟩
  have h := C121_nonneg _ s hs 8 1 rfl (by norm_num) 3 2 hls hlsF rfl x (by rw [hx, hNi]) 1 h1 P hr p hp (Or.inl hn)
  obtain ⟨Q', q, F', hbase, hQ', hq, hF, -, hnF, -⟩ := JArgs.make_eq_ok hs
  obtain rfl : (8, 1) = Q' := Except.ok.inj hQ'
  obtain rfl : ((2 : Rat) ^ 2, Average.loc) = F' := Except.ok.inj hF
  have e : s.nFr = 64 := by
    rw [hnF]
    show (⌊((32 : ℕ) : Rat) + 8 * min (2 ^ 2) (2 ^ 2)⌋ / 2 ^ 2).toNat * 2 ^ 2 = 64
    norm_num
    rfl
  have hN : (s.base.built.Npadded : ℝ) ≤ 3000 := by
    obtain ⟨-, -, -, -, -, h3, h4, -, h5, -⟩ := make_sizes hbase
    exact_mod_cast (by omega : s.base.built.Npadded ≤ 3000)
  rw [hav, havF, e] at h
  refine CoefGe.mono ?_ h
  unfold signTol avgTol freqGain timeGain
  rw [show Int.toNat 2 = 2 from rfl, show Int.toNat 3 = 3 from rfl]
  simp only [if_true]
  norm_num
  linarith

/-- The same without averaging, `T=0` and `F=0`: the coefficients are non-negative. -/
example (x : List ℝ) (hx : x.length = 1000) :
    ∃ P, (⟨3, 2, .int 8, .int 1000, .num 0, none, .int 1, .num 0, none, .list, .time⟩ : JArgs).run x = .ok (.list P) ∧
      ∀ p ∈ P, p.n ≠ [] → CoefGe 0 p.coef := by
  obtain ⟨s, hs, hNi, hav, havF, hrun⟩ := C76_no_error
    ⟨3, 2, .int 8, .int 1000, .num 0, none, .int 1, .num 0, none, .list, .time⟩ 1000 rfl (by norm_num)
    (2 ^ 3) .no rfl 8 1 rfl (by norm_num) (le_jPad_of_pow (by norm_num) (show 2 ^ 3 ≤ 1000 by norm_num)) 3
    (by
      show (Except.ok (floorLog2 ((2 : Rat) ^ 3)) : Py ℤ) = _
      rw [floorLog2_twoPow]) (by norm_num) (by simp) 1 rfl (2 ^ 2) .no rfl (by norm_num) (by norm_num) rfl (Or.inl rfl) (Or.inl rfl)
  obtain ⟨r, hr⟩ := hrun x hx
  obtain ⟨P, rfl⟩ : ∃ P, r = .list P := by
    obtain ⟨s, -, h⟩ := bind_eq_ok.1 hr
    obtain ⟨Q, -, h⟩ := bind_eq_ok.1 h
    obtain ⟨-, P, -, hP⟩ := Verif.scattering_eq_ok h
    injection hP with hP
    exact ⟨P, hP.symm⟩
  refine ⟨P, hr, fun p hp hn => ?_⟩
  have hst : s.base.built.stride = none := by
    obtain ⟨s', hs', -, -, -, h⟩ := C76_construction
      ⟨3, 2, .int 8, .int 1000, .num 0, none, .int 1, .num 0, none, .list, .time⟩ 1000 rfl (by norm_num)
      (2 ^ 3) .no rfl 8 1 rfl (by norm_num) (le_jPad_of_pow (by norm_num) (show 2 ^ 3 ≤ 1000 by norm_num)) 1 rfl
      (2 ^ 2) .no rfl (by rw [floorLog2_twoPow])
    rw [hs] at hs'
    rw [Except.ok.inj hs', h]
  exact C121_exact _ s hs 8 1 rfl (by norm_num) 3 2
    (by
      show log2Stride s.base.built.stride (.num 0) 3 s.base.built.Ninput = _
      rw [hst, hNi]
      show (Except.ok (floorLog2 ((2 : Rat) ^ 3)) : Py ℤ) = _
      rw [floorLog2_twoPow]; rfl)
    (by
      show (Except.ok (floorLog2 ((2 : Rat) ^ 2)) : Py ℤ) = _
      rw [floorLog2_twoPow]; rfl)
    rfl (by rw [hav]; simp) (by rw [havF]; simp) x (by rw [hx, hNi]) P hr p hp (Or.inl hn)

end Verif
