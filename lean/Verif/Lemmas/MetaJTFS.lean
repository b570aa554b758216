import Verif.Lemmas.CoreJTFS

/-!
# The dry run of `meta()`

It returns whenever the transform itself returns.
-/

namespace Verif

theorem ok_bind_iff {α β : Type} (a : α) (f : α → Py β) : ((Except.ok a : Py α) >>= f) = f a := rfl

theorem mapM_unit_ok {α β γ : Type} {f : α → Py β} {g : α → Py γ} {l : List α} {r : List β}
    (h : l.mapM f = .ok r) (hg : ∀ a b, a ∈ l → f a = .ok b → ∃ c, g a = .ok c) : ∃ r', l.mapM g = .ok r' := by
  apply mapM_ok_of_forall
  intro a ha
  obtain ⟨b, -, hb⟩ := forall₂_mem_left (mapM_eq_ok.1 h) ha
  exact hg a b ha hb

namespace JTFS

theorem forEnum_dry {α β γ : Type} {f : α → Nat → Py (List β)} {g : α → Nat → Py (List γ)} {l : List α}
    {out : List β} (h : Core1D.forEnum f l 0 = .ok out)
    (hg : ∀ a i x, l[i]? = some a → f a i = .ok x → ∃ y, g a i = .ok y) :
    ∃ out', Core1D.forEnum g l 0 = .ok out' := by
  apply Core1D.forEnum_ok
  intro i a ha
  obtain ⟨x, hx⟩ := Core1D.forEnum_all_ok h ha
  rw [Nat.zero_add]
  exact hg a i x ha hx

variable {B : JBackend}

theorem dry_first {phi : Filt B.F} {ls : Nat} {avg : Bool} {U0hat : B.C} {psi : Filt B.F} {r : B.C × B.R}
    (h : first B phi ls avg U0hat psi = .ok r) : first (dryJ B.F) phi ls avg () psi = .ok ((), ()) := by
  obtain ⟨f, c, y, z, m, g, c', h', hf, -, -, -, -, -, hg, -, -, -⟩ := first_eq_ok B h
  unfold first
  simp only [hf, hg, ok_bind_iff]

theorem dry_zeroth {phi : Filt B.F} {ls : Nat} {avg : Bool} {U0 : B.R} {U0hat : B.C} {r : B.R}
    (h : zeroth B phi ls avg U0 U0hat = .ok r) : zeroth (dryJ B.F) phi ls avg () () = .ok () := by
  unfold zeroth at h ⊢
  cases avg with
  | false => rfl
  | true =>
    simp only [if_true] at h ⊢
    obtain ⟨f, hf, -⟩ := bind_eq_ok.1 h
    simp only [hf, ok_bind_iff]

theorem dry_stack2 {ls : Nat} {avg : Bool} {us : List (Nat × B.C)} {vs : List (Nat × Unit)}
    {psi2 : Filt B.F} {n2 : Nat} {out : List (TPath B.CS)} (h : stack2 B ls avg us psi2 n2 = .ok out)
    (hv : vs.map Prod.fst = us.map Prod.fst) : ∃ out', stack2 (dryJ B.F) ls avg vs psi2 n2 = .ok out' := by
  obtain ⟨ys, hys, -⟩ := stack2_eq_ok B h
  have : ∃ zs, (vs.filter fun u => decide (psi2.j > u.1)).mapM (second (dryJ B.F) ls avg psi2) = .ok zs := by
    apply mapM_ok_of_forall
    intro v hv'
    obtain ⟨hv1, hv2⟩ := List.mem_filter.1 hv'
    have : v.1 ∈ us.map Prod.fst := by rw [← hv]; exact List.mem_map_of_mem hv1
    obtain ⟨u, hu, huv⟩ := List.mem_map.1 this
    have hu' : u ∈ us.filter fun u => decide (psi2.j > u.1) :=
      List.mem_filter.2 ⟨hu, by rw [huv]; exact hv2⟩
    obtain ⟨b, -, hb⟩ := forall₂_mem_left (mapM_eq_ok.1 hys) hu'
    unfold second at hb ⊢
    obtain ⟨f, hf, -⟩ := bind_eq_ok.1 hb
    rw [huv] at hf
    exact ⟨(), by simp only [hf, ok_bind_iff]⟩
  obtain ⟨zs, hzs⟩ := this
  unfold stack2
  rw [hzs, ok_bind_iff]
  split
  · exact ⟨_, rfl⟩
  · exact ⟨_, rfl⟩

theorem dry_widthFirst {U0 : B.R} {phi : Filt B.F} {psi1 psi2 : List (Filt B.F)} {ls : Nat} {avg : Bool}
    {t : B.R × TPath B.RS × List (TPath B.CS)} (h : widthFirst B U0 phi psi1 psi2 ls avg = .ok t) :
    ∃ t', widthFirst (dryJ B.F) () phi psi1 psi2 ls avg = .ok t' := by
  obtain ⟨u, l, S1, -, hz, hl, -, -, h2⟩ := widthFirst_eq_ok B h
  obtain ⟨l', hl'⟩ := mapM_unit_ok (g := first (dryJ B.F) phi ls avg ()) hl
    (fun a b _ hab => ⟨_, dry_first hab⟩)
  obtain ⟨Y, hY⟩ := forEnum_dry (g := stack2 (dryJ B.F) ls avg
    (List.zip (psi1.map fun p => p.j) (l'.map Prod.fst))) h2 (fun a i x _ hx => by
      refine dry_stack2 hx ?_
      rw [List.map_fst_zip (by simp [mapM_length hl']), List.map_fst_zip (by simp [mapM_length hl])])
  unfold widthFirst
  rw [ok_bind_iff, dry_zeroth hz, ok_bind_iff, hl', ok_bind_iff, ok_bind_iff, hY]
  exact ⟨_, rfl⟩

theorem dry_frBody {lsFr : Nat} {avgFr : Bool} {j n j' n' : List Int} {n1Max n1Max' : Nat} {Xhat : B.CS}
    {psi : FiltFr B.F} {nFr : Nat} {out : List (FPath B.CS)}
    (h : frBody B lsFr avgFr j n n1Max Xhat psi nFr = .ok out) :
    ∃ out', frBody (dryJ B.F) lsFr avgFr j' n' n1Max' () psi nFr = .ok out' := by
  obtain ⟨f, c, y, z, Y, hf, -⟩ := frBody_eq_ok B h
  unfold frBody
  simp only [hf, ok_bind_iff]
  exact ⟨_, rfl⟩

theorem dry_frequencyReal {phi : PhiFr B.F} {psis : List (FiltFr B.F)} {lsFr : Nat} {avgFr : Bool}
    {X : TPath B.RS} {out : List (FPath B.CS)} (h : frequencyReal B phi psis lsFr avgFr X = .ok out)
    (X' : TPath Unit) : ∃ out', frequencyReal (dryJ B.F) phi psis lsFr avgFr X' = .ok out' := by
  obtain ⟨_, _, _, _, _, _, hy⟩ := frequencyReal_eq_ok B h
  unfold frequencyReal
  simp only [ok_bind_iff]
  exact forEnum_dry hy fun a i x _ hx => dry_frBody hx

theorem dry_frequencyComplex {phi : PhiFr B.F} {psis : List (FiltFr B.F)} {lsFr : Nat} {avgFr : Bool}
    {X : TPath B.CS} {out : List (FPath B.CS)} (h : frequencyComplex B phi psis lsFr avgFr X = .ok out)
    (X' : TPath Unit) : ∃ out', frequencyComplex (dryJ B.F) phi psis lsFr avgFr X' = .ok out' := by
  obtain ⟨_, _, _, _, _, _, hy⟩ := frequencyComplex_eq_ok B h
  unfold frequencyComplex
  simp only [ok_bind_iff]
  exact forEnum_dry hy fun a i x _ hx => dry_frBody hx

theorem dry_joint {U0 : B.R} {phi : Filt B.F} {psi1 psi2 : List (Filt B.F)} {ls : Nat} {avg : Bool}
    {phiFr : PhiFr B.F} {psisFr : List (FiltFr B.F)} {lsFr : Nat} {avgFr : Bool}
    {g : B.R × List (FPath B.CS)}
    (h : joint B U0 phi psi1 psi2 ls avg phiFr psisFr lsFr avgFr = .ok g) :
    ∃ g', joint (dryJ B.F) () phi psi1 psi2 ls avg phiFr psisFr lsFr avgFr = .ok g' := by
  obtain ⟨t, y1, y2, ht, hy1, hy2, rfl⟩ := joint_eq_ok B h
  obtain ⟨t', ht'⟩ := dry_widthFirst ht
  obtain ⟨y1', hy1'⟩ := dry_frequencyReal hy1 t'.2.1
  have h1 := (widthFirst_labels B ht).2
  have h2 := (widthFirst_labels (dryJ B.F) ht').2
  have : ∃ y2', t'.2.2.mapM (frequencyComplex (dryJ B.F) phiFr psisFr lsFr avgFr) = .ok y2' := by
    cases hc : t.2.2 with
    | nil =>
      have : t'.2.2 = [] := by
        rw [hc] at h1
        rw [← h1] at h2
        simpa using h2
      rw [this]
      exact ⟨[], by rw [List.mapM_nil]; rfl⟩
    | cons X Xs =>
      obtain ⟨b, -, hb⟩ := forall₂_mem_left (mapM_eq_ok.1 hy2) (show X ∈ t.2.2 by rw [hc]; simp)
      exact mapM_ok_of_forall fun a _ => dry_frequencyComplex hb a
  obtain ⟨y2', hy2'⟩ := this
  unfold joint
  rw [ht', ok_bind_iff, hy1', ok_bind_iff, hy2', ok_bind_iff]
  exact ⟨_, rfl⟩

theorem dry_timeAveraging {phi : Filt B.F} {ls : Nat} {j : List Int} {U r : B.RS}
    (h : timeAveraging B phi ls j U = .ok r) : timeAveraging (dryJ B.F) phi ls j () = .ok () := by
  unfold timeAveraging at h ⊢
  split at h
  · cases h
  · rename_i k hk
    obtain ⟨a, -, h⟩ := bind_eq_ok.1 h
    obtain ⟨f, hf, h⟩ := bind_eq_ok.1 h
    simp only [hf, ok_bind_iff]

theorem dry_averageTime {phi : Filt B.F} {ls : Nat} {average : Average} {p : FPath B.CS} {q : FPath Unit}
    {U r : B.RS} (hq : label q = label p)
    (h : averageTime B phi ls average p U = .ok r) : averageTime (dryJ B.F) phi ls average q () = .ok () := by
  have hn : q.n = p.n := congrArg Label.n hq
  have hj : q.j = p.j := congrArg Label.j hq
  unfold averageTime at h ⊢
  rw [hn, hj]
  split
  · rfl
  · rename_i h1
    rw [if_neg h1] at h
    split
    · rename_i h2
      rw [if_pos h2] at h
      exact dry_timeAveraging h
    · rfl

theorem dry_averageFreq {phiFr : PhiFr B.F} {lsFr : Nat} {averageFr : Average} {p : FPath B.CS}
    {q : FPath Unit} {U : B.RS} {r : B.RS × Nat} (hq : label q = label p)
    (h : averageFreq B phiFr lsFr averageFr p U = .ok r) :
    averageFreq (dryJ B.F) phiFr lsFr averageFr q () = .ok ((), r.2) := by
  have hr := averageFreq_stride B h
  have hsp : q.spin = p.spin := congrArg Label.spin hq
  have hjf : q.jFr = p.jFr := congrArg Label.jFr hq
  have h1 : ∃ s, averageFreq (dryJ B.F) phiFr lsFr averageFr q () = .ok s := by
    unfold averageFreq at h ⊢
    rw [hsp, hjf]
    split
    · rename_i hc
      rw [if_pos hc] at h
      unfold frequencyAveraging at h ⊢
      obtain ⟨a, -, h⟩ := bind_eq_ok.1 h
      rw [ok_bind_iff]
      split
      · exact ⟨_, rfl⟩
      · rename_i hg
        rw [if_neg hg] at h
        obtain ⟨b, -, h⟩ := bind_eq_ok.1 h
        obtain ⟨f, hf, h⟩ := bind_eq_ok.1 h
        simp only [hf, ok_bind_iff]
        exact ⟨_, rfl⟩
    · exact ⟨_, rfl⟩
  obtain ⟨s, hs⟩ := h1
  rw [hs, hr, ← hq, ← averageFreq_stride (dryJ B.F) hs]

theorem ceil_le {a s : Nat} (hs : 0 < s) : (a + s - 1) / s ≤ 1 + a / s := by
  calc (a + s - 1) / s ≤ (a + s) / s := Nat.div_le_div_right (by omega)
    _ = 1 + a / s := by rw [Nat.add_div_right a hs]; omega

theorem dry_timeFormatting {F : Type} (p : FPath Unit) (hs : p.n1Stride ≠ 0) :
    ∃ out, timeFormatting (dryJ F) p = .ok out := by
  unfold timeFormatting
  have h0 : (dryJ F).split p.coef p.n1Max p.n1Stride =
      .ok (List.replicate (1 + p.n1Max / p.n1Stride) ()) := if_neg hs
  rw [h0, ok_bind_iff]
  apply Core1D.forEnum_ok
  intro i a ha
  have hi : i < (p.n1Max + p.n1Stride - 1) / p.n1Stride := by
    have := (List.getElem?_eq_some_iff.1 ha).1
    simpa [n1Range] using this
  have := ceil_le (a := p.n1Max) (Nat.pos_of_ne_zero hs)
  have hg : listGet (List.replicate (1 + p.n1Max / p.n1Stride) ()) (0 + i) = .ok () := by
    unfold listGet
    rw [List.getElem?_replicate, if_pos (by omega)]
  rw [hg, ok_bind_iff]
  exact ⟨_, rfl⟩

theorem dry_averageBody {phi : Filt B.F} {ls : Nat} {average : Average} {phiFr : PhiFr B.F} {lsFr : Nat}
    {averageFr : Average} {arrayOut : Bool} {fmt : Format} {p : FPath B.CS} {q : FPath Unit}
    {out : List (JPath B.R B.RS)} (hq : label q = label p)
    (hs : fmt = .time → strideOf lsFr averageFr (label p) ≠ 0)
    (h : averageBody B phi ls average phiFr lsFr averageFr arrayOut fmt p = .ok out) :
    ∃ out', averageBody (dryJ B.F) phi ls average phiFr lsFr averageFr arrayOut fmt q = .ok out' := by
  obtain ⟨U, U', S, S', -, h1, h2, h3, -, -⟩ := averageBody_eq_ok B h
  have hu : ∀ (s : Nat), unpadFr (dryJ B.F) arrayOut fmt q.n1Max s () = .ok () := by
    intro s; unfold unpadFr; split <;> rfl
  unfold averageBody
  rw [ok_bind_iff, dry_averageTime hq h1, ok_bind_iff, dry_averageFreq hq h2, ok_bind_iff, hu, ok_bind_iff]
  unfold formatPath
  cases fmt with
  | joint => exact ⟨_, rfl⟩
  | other => exact ⟨_, rfl⟩
  | time => exact dry_timeFormatting _ (by simp only; rw [h3]; exact hs rfl)

theorem dry_averageAndFormat {g : B.R × List (FPath B.CS)} {g' : Unit × List (FPath Unit)} {phi : Filt B.F}
    {ls : Nat} {average : Average} {phiFr : PhiFr B.F} {lsFr : Nat} {averageFr : Average} {arrayOut : Bool}
    {fmt : Format} {out : List (JPath B.R B.RS)} (hg : g'.2.map label = g.2.map label)
    (hs : fmt = .time → ∀ p ∈ g.2.map label, strideOf lsFr averageFr p ≠ 0)
    (h : averageAndFormat B g phi ls average phiFr lsFr averageFr arrayOut fmt = .ok out) :
    ∃ out', averageAndFormat (dryJ B.F) g' phi ls average phiFr lsFr averageFr arrayOut fmt = .ok out' := by
  obtain ⟨z, l, -, hl, -⟩ := averageAndFormat_eq_ok B h
  have h1 : ∃ l', g'.2.mapM (averageBody (dryJ B.F) phi ls average phiFr lsFr averageFr arrayOut fmt)
      = .ok l' := by
    apply mapM_ok_of_forall
    intro q hq
    have : label q ∈ g.2.map label := by rw [← hg]; exact List.mem_map_of_mem hq
    obtain ⟨p, hp, hpq⟩ := List.mem_map.1 this
    obtain ⟨b, -, hb⟩ := forall₂_mem_left (mapM_eq_ok.1 hl) hp
    exact dry_averageBody hpq.symm (fun ht => hs ht _ (List.mem_map_of_mem hp)) hb
  obtain ⟨l', hl'⟩ := h1
  have hz : averageZeroth (dryJ B.F) average g'.1 = .ok () := by
    unfold averageZeroth; split <;> rfl
  unfold averageAndFormat
  rw [hz, ok_bind_iff, hl', ok_bind_iff]
  exact ⟨_, rfl⟩

end JTFS

namespace FrontJ

/-- `meta()` returns if the transform returns. -/
theorem dry_paths {B : JBackend} {o : JObj B.F} {ls lsFr : Nat} {U0 : B.R} {out : List (JPath B.R B.RS)}
    (hs : o.fmt = .time → ∀ p ∈ JTFS.labels o.psi1 o.psi2 o.psisFr, JTFS.strideOf lsFr o.averageFr p ≠ 0)
    (h : paths B o ls lsFr U0 = .ok out) : ∃ out', paths (dryJ B.F) o ls lsFr () = .ok out' := by
  unfold paths at h
  obtain ⟨g, hg, h⟩ := bind_eq_ok.1 h
  obtain ⟨g', hg'⟩ := JTFS.dry_joint hg
  have h1 := JTFS.joint_labels B hg
  have h2 := JTFS.joint_labels (dryJ B.F) hg'
  obtain ⟨out', ho⟩ := JTFS.dry_averageAndFormat (h2.trans h1.symm)
    (fun ht p hp => hs ht p (by rw [← h1]; exact hp)) h
  refine ⟨out', ?_⟩
  unfold paths
  rw [hg', ok_bind_iff, ho]

end FrontJ

end Verif
