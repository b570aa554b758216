import Verif.Lemmas.Labels1D
import Verif.Model.ObjectJTFS

/-!
# What the joint time-frequency core yields

A characterisation of the paths of a run that does not raise, for every backend.
-/

namespace Verif

namespace JTFS

variable (B : JBackend)

theorem first_eq_ok {phi : Filt B.F} {ls : Nat} {avg : Bool} {U0hat : B.C} {psi : Filt B.F} {r : B.C × B.R}
    (h : first B phi ls avg U0hat psi = .ok r) :
    ∃ f c y z m g c' h', listGet psi.levels 0 = .ok f ∧ B.cdgmm U0hat f = .ok c ∧
      B.subsample c (sub1 ls avg psi.j) = .ok y ∧ B.ifft y = .ok z ∧ B.modulus z = .ok m ∧
      B.rfft m = .ok r.1 ∧ listGet phi.levels (sub1 ls avg psi.j) = .ok g ∧ B.cdgmm r.1 g = .ok c' ∧
      B.subsample c' ((ls : Int) - sub1 ls avg psi.j) = .ok h' ∧ B.irfft h' = .ok r.2 := by
  unfold first at h
  obtain ⟨f, hf, h⟩ := bind_eq_ok.1 h
  obtain ⟨c, hc, h⟩ := bind_eq_ok.1 h
  obtain ⟨y, hy, h⟩ := bind_eq_ok.1 h
  obtain ⟨z, hz, h⟩ := bind_eq_ok.1 h
  obtain ⟨m, hm, h⟩ := bind_eq_ok.1 h
  obtain ⟨u, hu, h⟩ := bind_eq_ok.1 h
  obtain ⟨g, hg, h⟩ := bind_eq_ok.1 h
  obtain ⟨c', hc', h⟩ := bind_eq_ok.1 h
  obtain ⟨h', hh', h⟩ := bind_eq_ok.1 h
  obtain ⟨s, hs, h⟩ := bind_eq_ok.1 h
  injection h with h
  subst h
  exact ⟨f, c, y, z, m, g, c', h', hf, hc, hy, hz, hm, hu, hg, hc', hh', hs⟩

theorem widthFirst_eq_ok {U0 : B.R} {phi : Filt B.F} {psi1 psi2 : List (Filt B.F)} {ls : Nat} {avg : Bool}
    {t : B.R × TPath B.RS × List (TPath B.CS)} (h : widthFirst B U0 phi psi1 psi2 ls avg = .ok t) :
    ∃ U0hat l S1, B.rfft U0 = .ok U0hat ∧ zeroth B phi ls avg U0 U0hat = .ok t.1 ∧
      psi1.mapM (first B phi ls avg U0hat) = .ok l ∧ B.stackR (l.map Prod.snd) = .ok S1 ∧
      t.2.1 = ⟨S1, [-1], [-1], l.length⟩ ∧
      Core1D.forEnum (stack2 B ls avg (List.zip (psi1.map fun p => p.j) (l.map Prod.fst))) psi2 0
        = .ok t.2.2 := by
  unfold widthFirst at h
  obtain ⟨u, hu, h⟩ := bind_eq_ok.1 h
  obtain ⟨z, hz, h⟩ := bind_eq_ok.1 h
  obtain ⟨l, hl, h⟩ := bind_eq_ok.1 h
  obtain ⟨S, hS, h⟩ := bind_eq_ok.1 h
  obtain ⟨Y, hY, h⟩ := bind_eq_ok.1 h
  injection h with h
  subst h
  exact ⟨u, l, S, hu, hz, hl, hS, rfl, hY⟩

theorem mapM_length {α β : Type} {f : α → Py β} {l : List α} {r : List β} (h : l.mapM f = .ok r) :
    r.length = l.length := (mapM_eq_ok.1 h).length_eq.symm

theorem stack2_eq_ok {ls : Nat} {avg : Bool} {us : List (Nat × B.C)} {psi2 : Filt B.F} {n2 : Nat}
    {out : List (TPath B.CS)} (h : stack2 B ls avg us psi2 n2 = .ok out) :
    ∃ ys, (us.filter fun u => decide (psi2.j > u.1)).mapM (second B ls avg psi2) = .ok ys ∧
      ((ys = [] ∧ out = []) ∨ ys ≠ [] ∧ ∃ Y, B.stackC ys = .ok Y ∧
        out = [⟨Y, [-1, (psi2.j : Int)], [-1, (n2 : Int)], ys.length⟩]) := by
  unfold stack2 at h
  obtain ⟨ys, hys, h⟩ := bind_eq_ok.1 h
  refine ⟨ys, hys, ?_⟩
  cases ys with
  | nil =>
    simp only [List.length_nil, gt_iff_lt, lt_self_iff_false, if_false] at h
    injection h with h
    exact .inl ⟨rfl, h.symm⟩
  | cons y ys =>
    rw [if_pos (by simp)] at h
    obtain ⟨Y, hY, h⟩ := bind_eq_ok.1 h
    injection h with h
    exact .inr ⟨by simp, Y, hY, h.symm⟩

theorem frBody_eq_ok {lsFr : Nat} {avgFr : Bool} {j n : List Int} {n1Max : Nat} {Xhat : B.CS}
    {psi : FiltFr B.F} {nFr : Nat} {out : List (FPath B.CS)}
    (h : frBody B lsFr avgFr j n n1Max Xhat psi nFr = .ok out) :
    ∃ f c y z Y, listGet psi.levels 0 = .ok f ∧ B.cdgmmS Xhat f = .ok c ∧
      B.subsampleS c (subFr lsFr avgFr psi.j) = .ok y ∧ B.ifftS y = .ok z ∧ B.swapC z = .ok Y ∧
      out = [⟨Y, j, n.tail ++ [(nFr : Int)], n1Max, psi.j, nFr, 2 ^ psi.j, psi.spin⟩] := by
  unfold frBody at h
  obtain ⟨f, hf, h⟩ := bind_eq_ok.1 h
  obtain ⟨c, hc, h⟩ := bind_eq_ok.1 h
  obtain ⟨y, hy, h⟩ := bind_eq_ok.1 h
  obtain ⟨z, hz, h⟩ := bind_eq_ok.1 h
  obtain ⟨Y, hY, h⟩ := bind_eq_ok.1 h
  injection h with h
  exact ⟨f, c, y, z, Y, hf, hc, hy, hz, hY, h.symm⟩

/-- What is known of a path without looking at its coefficient. -/
structure Label where
  j : List Int
  n : List Int
  n1Max : Nat
  jFr : Nat
  nFr : Nat
  n1Stride : Nat
  spin : Int

/-- The label of a path. -/
def label {α : Type} (p : FPath α) : Label := ⟨p.j, p.n, p.n1Max, p.jFr, p.nFr, p.n1Stride, p.spin⟩

/-- Labels of the paths below one stack. -/
def frLabels {F : Type} (j n : List Int) (n1Max : Nat) (psis : List (FiltFr F)) : List Label :=
  (psis.zipIdx 0).map fun q => ⟨j, n.tail ++ [(q.2 : Int)], n1Max, q.1.j, q.2, 2 ^ q.1.j, q.1.spin⟩

theorem flatMap_singleton' {α β : Type} (l : List α) (f : α → β) : (l.flatMap fun a => [f a]) = l.map f := by
  induction l with
  | nil => rfl
  | cons a l ih => rw [List.flatMap_cons, ih]; rfl

theorem frBody_labels {lsFr : Nat} {avgFr : Bool} {j n : List Int} {n1Max : Nat} {Xhat : B.CS}
    {psis : List (FiltFr B.F)} {out : List (FPath B.CS)}
    (h : Core1D.forEnum (frBody B lsFr avgFr j n n1Max Xhat) psis 0 = .ok out) :
    out.map label = frLabels j n n1Max psis := by
  rw [Core1D.forEnum_map (g := label)
    (h := fun psi i => [⟨j, n.tail ++ [(i : Int)], n1Max, psi.j, i, 2 ^ psi.j, psi.spin⟩]) ?_ h]
  · rw [flatMap_singleton']; rfl
  · intro a i x _ hx
    obtain ⟨f, c, y, z, Y, -, -, -, -, -, rfl⟩ := frBody_eq_ok B hx
    rfl

theorem frequencyReal_eq_ok {phi : PhiFr B.F} {psis : List (FiltFr B.F)} {lsFr : Nat} {avgFr : Bool}
    {X : TPath B.RS} {out : List (FPath B.CS)} (h : frequencyReal B phi psis lsFr avgFr X = .ok out) :
    ∃ XT Xp Xhat, B.swapR X.coef = .ok XT ∧ B.padFrequencyR XT ((phi.N : Int) - X.n1Max) = .ok Xp ∧
      B.rfftS Xp = .ok Xhat ∧ Core1D.forEnum (frBody B lsFr avgFr X.j X.n X.n1Max Xhat)
        (psis.filter fun p => decide (0 ≤ p.spin)) 0 = .ok out := by
  unfold frequencyReal at h
  obtain ⟨a, ha, h⟩ := bind_eq_ok.1 h
  obtain ⟨b, hb, h⟩ := bind_eq_ok.1 h
  obtain ⟨c, hc, h⟩ := bind_eq_ok.1 h
  exact ⟨a, b, c, ha, hb, hc, h⟩

theorem frequencyComplex_eq_ok {phi : PhiFr B.F} {psis : List (FiltFr B.F)} {lsFr : Nat} {avgFr : Bool}
    {X : TPath B.CS} {out : List (FPath B.CS)} (h : frequencyComplex B phi psis lsFr avgFr X = .ok out) :
    ∃ XT Xp Xhat, B.swapC X.coef = .ok XT ∧ B.padFrequencyC XT ((phi.N : Int) - X.n1Max) = .ok Xp ∧
      B.cfftS Xp = .ok Xhat ∧ Core1D.forEnum (frBody B lsFr avgFr X.j X.n X.n1Max Xhat) psis 0 = .ok out := by
  unfold frequencyComplex at h
  obtain ⟨a, ha, h⟩ := bind_eq_ok.1 h
  obtain ⟨b, hb, h⟩ := bind_eq_ok.1 h
  obtain ⟨c, hc, h⟩ := bind_eq_ok.1 h
  exact ⟨a, b, c, ha, hb, hc, h⟩

theorem joint_eq_ok {U0 : B.R} {phi : Filt B.F} {psi1 psi2 : List (Filt B.F)} {ls : Nat} {avg : Bool}
    {phiFr : PhiFr B.F} {psisFr : List (FiltFr B.F)} {lsFr : Nat} {avgFr : Bool}
    {g : B.R × List (FPath B.CS)}
    (h : joint B U0 phi psi1 psi2 ls avg phiFr psisFr lsFr avgFr = .ok g) :
    ∃ t y1 y2, widthFirst B U0 phi psi1 psi2 ls avg = .ok t ∧
      frequencyReal B phiFr psisFr lsFr avgFr t.2.1 = .ok y1 ∧
      t.2.2.mapM (frequencyComplex B phiFr psisFr lsFr avgFr) = .ok y2 ∧ g = (t.1, y1 ++ y2.flatten) := by
  unfold joint at h
  obtain ⟨a, ha, h⟩ := bind_eq_ok.1 h
  obtain ⟨b, hb, h⟩ := bind_eq_ok.1 h
  obtain ⟨c, hc, h⟩ := bind_eq_ok.1 h
  injection h with h
  exact ⟨a, b, c, ha, hb, hc, h.symm⟩

/-- Number of first-order filters admissible below `j2`. -/
def admissible {F : Type} (psi1 : List (Filt F)) (j2 : Nat) : Nat :=
  (psi1.filter fun p => decide (p.j < j2)).length

/-- The stacks of second order, without coefficients: `(j2, n2, n1_max)`. -/
def stackLabels {F : Type} (psi1 psi2 : List (Filt F)) : List (Nat × Nat × Nat) :=
  ((psi2.zipIdx 0).filter fun q => decide (0 < admissible psi1 q.1.j)).map
    fun q => (q.1.j, q.2, admissible psi1 q.1.j)

theorem filter_zip_length {F C : Type} (psi1 : List (Filt F)) (cs : List C) (hl : cs.length = psi1.length)
    (j2 : Nat) :
    ((List.zip (psi1.map fun p => p.j) cs).filter fun u => decide (j2 > u.1)).length
      = admissible psi1 j2 := by
  unfold admissible
  induction psi1 generalizing cs with
  | nil => simp
  | cons p psi1 ih =>
    cases cs with
    | nil => simp at hl
    | cons c cs =>
      have := ih cs (by simpa using hl)
      by_cases hj : p.j < j2 <;> simp [hj, this]

theorem widthFirst_labels {U0 : B.R} {phi : Filt B.F} {psi1 psi2 : List (Filt B.F)} {ls : Nat} {avg : Bool}
    {t : B.R × TPath B.RS × List (TPath B.CS)} (h : widthFirst B U0 phi psi1 psi2 ls avg = .ok t) :
    (t.2.1.j = [-1] ∧ t.2.1.n = [-1] ∧ t.2.1.n1Max = psi1.length) ∧
      t.2.2.map (fun X => (X.j, X.n, X.n1Max)) =
        (stackLabels psi1 psi2).map fun q => ([-1, (q.1 : Int)], [-1, (q.2.1 : Int)], q.2.2) := by
  obtain ⟨u, l, S1, -, -, hl, -, h1, h2⟩ := widthFirst_eq_ok B h
  have hlen := mapM_length hl
  refine ⟨by rw [h1]; exact ⟨rfl, rfl, hlen⟩, ?_⟩
  rw [Core1D.forEnum_map (g := fun X : TPath B.CS => (X.j, X.n, X.n1Max))
    (h := fun psi i => if 0 < admissible psi1 psi.j then
      [([-1, (psi.j : Int)], [-1, (i : Int)], admissible psi1 psi.j)] else []) ?_ h2]
  · unfold stackLabels
    induction psi2.zipIdx 0 with
    | nil => rfl
    | cons a m ih =>
      rw [List.flatMap_cons, ih, List.filter_cons]
      by_cases ha : 0 < admissible psi1 a.1.j <;> simp [ha]
  · intro psi i x _ hx
    obtain ⟨ys, hys, hx⟩ := stack2_eq_ok B hx
    have hc : ys.length = admissible psi1 psi.j := by
      rw [mapM_length hys, filter_zip_length _ _ (by simpa using hlen)]
    rcases hx with ⟨rfl, rfl⟩ | ⟨hne, Y, -, rfl⟩
    · rw [← hc]; simp
    · rw [← hc, if_pos (List.length_pos_iff.2 hne)]; simp

/-- The labels of all paths after the zeroth order, in the order they are yielded. -/
def labels {F : Type} (psi1 psi2 : List (Filt F)) (psisFr : List (FiltFr F)) : List Label :=
  frLabels [-1] [-1] psi1.length (psisFr.filter fun p => decide (0 ≤ p.spin)) ++
    (stackLabels psi1 psi2).flatMap fun q => frLabels [-1, (q.1 : Int)] [-1, (q.2.1 : Int)] q.2.2 psisFr

theorem joint_labels {U0 : B.R} {phi : Filt B.F} {psi1 psi2 : List (Filt B.F)} {ls : Nat} {avg : Bool}
    {phiFr : PhiFr B.F} {psisFr : List (FiltFr B.F)} {lsFr : Nat} {avgFr : Bool}
    {g : B.R × List (FPath B.CS)}
    (h : joint B U0 phi psi1 psi2 ls avg phiFr psisFr lsFr avgFr = .ok g) :
    g.2.map label = labels psi1 psi2 psisFr := by
  obtain ⟨t, y1, y2, ht, hy1, hy2, rfl⟩ := joint_eq_ok B h
  obtain ⟨⟨h1, h2, h3⟩, h4⟩ := widthFirst_labels B ht
  unfold labels
  rw [List.map_append]
  congr 1
  · obtain ⟨_, _, _, _, _, _, hy⟩ := frequencyReal_eq_ok B hy1
    rw [frBody_labels B hy, h1, h2, h3]
  · have key : ∀ (l : List (TPath B.CS)) (y : List (List (FPath B.CS))),
        List.Forall₂ (fun a b => frequencyComplex B phiFr psisFr lsFr avgFr a = .ok b) l y →
        y.flatten.map label = (l.map fun X => (X.j, X.n, X.n1Max)).flatMap
          fun X => frLabels X.1 X.2.1 X.2.2 psisFr := by
      intro l y hy
      induction hy with
      | nil => rfl
      | cons hab _ ih =>
        obtain ⟨_, _, _, _, _, _, hy⟩ := frequencyComplex_eq_ok B hab
        rw [List.flatten_cons, List.map_append, frBody_labels B hy, ih]
        rfl
    rw [key _ _ (mapM_eq_ok.1 hy2), h4, List.flatMap_map]

/-! ### Formatting -/

/-- Stride of the frequency axis reported after averaging. -/
def strideOf (lsFr : Nat) (averageFr : Average) (p : Label) : Nat :=
  if averageFr ≠ .no ∧ p.spin ≠ 0 then (if averageFr = .glob then p.n1Max else 2 ^ lsFr) else p.n1Stride

/-- The formatted labels of a path. -/
def fmtLabels (fmt : Format) (lsFr : Nat) (averageFr : Average) (p : Label) : List (List Int) :=
  match fmt with
  | .joint => [p.n]
  | .time => (n1Range p.n1Max (strideOf lsFr averageFr p)).map fun n1 : Nat => (n1 : Int) :: p.n
  | .other => []

theorem averageFreq_stride {phiFr : PhiFr B.F} {lsFr : Nat} {averageFr : Average} {p : FPath B.CS}
    {U : B.RS} {r : B.RS × Nat} (h : averageFreq B phiFr lsFr averageFr p U = .ok r) :
    r.2 = strideOf lsFr averageFr (label p) := by
  unfold averageFreq at h
  unfold strideOf
  by_cases hc : averageFr ≠ .no ∧ p.spin ≠ 0
  · rw [if_pos hc] at h
    rw [if_pos (show averageFr ≠ .no ∧ (label p).spin ≠ 0 from hc)]
    unfold frequencyAveraging at h
    obtain ⟨T, hT, h⟩ := bind_eq_ok.1 h
    by_cases hg : averageFr = .glob
    · simp only [hg, decide_true, if_true] at h
      obtain ⟨a, _, h⟩ := bind_eq_ok.1 h
      obtain ⟨b, _, h⟩ := bind_eq_ok.1 h
      injection h with h
      rw [if_pos hg, ← h]; rfl
    · simp only [hg, decide_false, Bool.false_eq_true, if_false] at h
      obtain ⟨a, _, h⟩ := bind_eq_ok.1 h
      obtain ⟨b, _, h⟩ := bind_eq_ok.1 h
      obtain ⟨c, _, h⟩ := bind_eq_ok.1 h
      obtain ⟨d, _, h⟩ := bind_eq_ok.1 h
      obtain ⟨e, _, h⟩ := bind_eq_ok.1 h
      obtain ⟨f, _, h⟩ := bind_eq_ok.1 h
      injection h with h
      rw [if_neg hg, ← h]
  · rw [if_neg hc] at h
    rw [if_neg (show ¬ (averageFr ≠ .no ∧ (label p).spin ≠ 0) from hc)]
    injection h with h
    rw [← h]; rfl

theorem timeFormatting_eq_ok {p : FPath B.RS} {out : List (JPath B.R B.RS)}
    (h : timeFormatting B p = .ok out) :
    ∃ l, B.split p.coef p.n1Max p.n1Stride = .ok l ∧
      List.Forall₂ (fun (q : Nat × Nat) (r : JPath B.R B.RS) => ∃ c, l[q.2]? = some c ∧
        r = ⟨.sig c, p.j, (q.1 : Int) :: p.n, p.n.length - 1, some (p.jFr, p.nFr, p.spin), none⟩)
        ((n1Range p.n1Max p.n1Stride).zipIdx 0) out := by
  unfold timeFormatting at h
  obtain ⟨l, hl, h2⟩ := bind_eq_ok.1 h
  refine ⟨l, hl, ?_⟩
  obtain ⟨xs, hxs, rfl⟩ := Core1D.forEnum_eq_ok.1 h2
  clear h h2
  generalize (n1Range p.n1Max p.n1Stride).zipIdx 0 = z at hxs ⊢
  induction hxs with
  | nil => exact .nil
  | cons hab _ ih =>
    obtain ⟨c, hc, hab⟩ := bind_eq_ok.1 hab
    injection hab with hab
    rw [← hab]
    exact .cons ⟨c, listGet_eq_ok.1 hc, rfl⟩ ih

theorem averageBody_eq_ok {phi : Filt B.F} {ls : Nat} {average : Average} {phiFr : PhiFr B.F} {lsFr : Nat}
    {averageFr : Average} {arrayOut : Bool} {fmt : Format} {p : FPath B.CS} {out : List (JPath B.R B.RS)}
    (h : averageBody B phi ls average phiFr lsFr averageFr arrayOut fmt p = .ok out) :
    ∃ U U' S S', B.modulusS p.coef = .ok U ∧ averageTime B phi ls average p U = .ok U' ∧
      averageFreq B phiFr lsFr averageFr p U' = .ok S ∧ S.2 = strideOf lsFr averageFr (label p) ∧
      unpadFr B arrayOut fmt p.n1Max S.2 S.1 = .ok S' ∧
      formatPath B fmt ⟨S', p.j, p.n, p.n1Max, p.jFr, p.nFr, S.2, p.spin⟩ = .ok out := by
  unfold averageBody at h
  obtain ⟨U, hU, h⟩ := bind_eq_ok.1 h
  obtain ⟨U', hU', h⟩ := bind_eq_ok.1 h
  obtain ⟨S, hS, h⟩ := bind_eq_ok.1 h
  obtain ⟨S', hS', h⟩ := bind_eq_ok.1 h
  exact ⟨U, U', S, S', hU, hU', hS, averageFreq_stride B hS, hS', h⟩

theorem forall₂_zipIdx_map {α β γ : Type} {R : α × Nat → β → Prop} {l : List α} {n : Nat} {m : List β}
    {f : β → γ} {g : α → γ} (h : List.Forall₂ R (l.zipIdx n) m) (hf : ∀ a b, R a b → f b = g a.1) :
    m.map f = l.map g := by
  induction l generalizing n m with
  | nil => cases h; rfl
  | cons a l ih =>
    rw [List.zipIdx_cons] at h
    cases h with
    | cons hab ht => rw [List.map_cons, List.map_cons, ih ht, hf _ _ hab]

theorem averageBody_labels {phi : Filt B.F} {ls : Nat} {average : Average} {phiFr : PhiFr B.F} {lsFr : Nat}
    {averageFr : Average} {arrayOut : Bool} {fmt : Format} {p : FPath B.CS} {out : List (JPath B.R B.RS)}
    (h : averageBody B phi ls average phiFr lsFr averageFr arrayOut fmt p = .ok out) :
    out.map (fun q => q.n) = fmtLabels fmt lsFr averageFr (label p) := by
  obtain ⟨_, _, S, S', _, _, _, h2, _, h⟩ := averageBody_eq_ok B h
  unfold formatPath at h
  unfold fmtLabels
  cases fmt with
  | joint => injection h with h; rw [← h]; rfl
  | other => injection h with h; rw [← h]; rfl
  | time =>
    obtain ⟨l, -, hf⟩ := timeFormatting_eq_ok B h
    simp only [h2] at hf
    rw [forall₂_zipIdx_map hf (f := fun q => q.n) (g := fun n1 : Nat => (n1 : Int) :: p.n)]
    · rfl
    · rintro a b ⟨c, -, rfl⟩; rfl

theorem averageAndFormat_eq_ok {g : B.R × List (FPath B.CS)} {phi : Filt B.F} {ls : Nat} {average : Average}
    {phiFr : PhiFr B.F} {lsFr : Nat} {averageFr : Average} {arrayOut : Bool} {fmt : Format}
    {out : List (JPath B.R B.RS)}
    (h : averageAndFormat B g phi ls average phiFr lsFr averageFr arrayOut fmt = .ok out) :
    ∃ z l, averageZeroth B average g.1 = .ok z ∧
      g.2.mapM (averageBody B phi ls average phiFr lsFr averageFr arrayOut fmt) = .ok l ∧
      out = ⟨.sig z, [], [], 0, none, none⟩ :: l.flatten := by
  unfold averageAndFormat at h
  obtain ⟨z, hz, h⟩ := bind_eq_ok.1 h
  obtain ⟨l, hl, h⟩ := bind_eq_ok.1 h
  injection h with h
  exact ⟨z, l, hz, hl, h.symm⟩

theorem averageAndFormat_labels {g : B.R × List (FPath B.CS)} {phi : Filt B.F} {ls : Nat} {average : Average}
    {phiFr : PhiFr B.F} {lsFr : Nat} {averageFr : Average} {arrayOut : Bool} {fmt : Format}
    {out : List (JPath B.R B.RS)}
    (h : averageAndFormat B g phi ls average phiFr lsFr averageFr arrayOut fmt = .ok out) :
    out.map (fun q => q.n) = [] :: (g.2.map label).flatMap (fmtLabels fmt lsFr averageFr) := by
  obtain ⟨z, l, -, hl, rfl⟩ := averageAndFormat_eq_ok B h
  rw [List.map_cons]
  congr 1
  replace hl := mapM_eq_ok.1 hl
  clear h
  generalize g.2 = a at hl
  induction hl with
  | nil => rfl
  | cons hab _ ih => rw [List.flatten_cons, List.map_append, ih, averageBody_labels B hab]; rfl

end JTFS

namespace FrontJ

/-- The path labels of the whole transform, in the order they are yielded. -/
def pathLabels {F : Type} (o : JObj F) (lsFr : Nat) : List (List Int) :=
  [] :: (JTFS.labels o.psi1 o.psi2 o.psisFr).flatMap (JTFS.fmtLabels o.fmt lsFr o.averageFr)

theorem paths_labels (B : JBackend) {o : JObj B.F} {ls lsFr : Nat} {U0 : B.R}
    {out : List (JPath B.R B.RS)} (h : paths B o ls lsFr U0 = .ok out) :
    out.map (fun q => q.n) = pathLabels o lsFr := by
  unfold paths at h
  obtain ⟨g, hg, h⟩ := bind_eq_ok.1 h
  rw [JTFS.averageAndFormat_labels B h, JTFS.joint_labels B hg]
  rfl

theorem post_eq_ok {F R RS : Type} {ops : JFrontOps R RS} {o : JObj F} {ls : Nat} {p q : JPath R RS}
    (h : post ops o ls p = .ok q) : ∃ c, q = { p with coef := c } := by
  unfold post at h
  split at h
  · injection h with h
    exact ⟨p.coef, h.symm⟩
  · obtain ⟨_, _, h⟩ := bind_eq_ok.1 h
    obtain ⟨_, _, h⟩ := bind_eq_ok.1 h
    obtain ⟨_, _, h⟩ := bind_eq_ok.1 h
    injection h with h
    exact ⟨_, h.symm⟩

theorem map_forall₂ {α β γ : Type} {R : α → β → Prop} {l : List α} {m : List β} {f : α → γ} {g : β → γ}
    (h : List.Forall₂ R l m) (hf : ∀ a b, R a b → g b = f a) : m.map g = l.map f := by
  induction h with
  | nil => rfl
  | cons hab _ ih => rw [List.map_cons, List.map_cons, ih, hf _ _ hab]

theorem post_labels {F R RS : Type} {ops : JFrontOps R RS} {o : JObj F} {ls : Nat} {l m : List (JPath R RS)}
    (h : l.mapM (post ops o ls) = .ok m) : m.map (fun q => q.n) = l.map fun q => q.n := by
  refine map_forall₂ (mapM_eq_ok.1 h) ?_
  intro a b hab
  obtain ⟨c, rfl⟩ := post_eq_ok hab
  rfl

end FrontJ

end Verif
