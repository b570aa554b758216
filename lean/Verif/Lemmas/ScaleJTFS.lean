import Verif.Lemmas.TorchJTFS

/-!
# Joint time-frequency scattering of a multiple of a signal
-/

namespace Verif

open Finset

/-- A stack multiplied by a number. -/
noncomputable def smulR (c : ℝ) (x : Img ℝ) : Img ℝ := x.map fun v => c * v

noncomputable def smulC (c : ℝ) (x : Img ℂ) : Img ℂ := x.map fun v => (c : ℂ) * v

theorem Img.map_tab {α β : Type} [Zero α] [Zero β] (g : α → β) (h w : Nat) (f : Nat → Nat → α) :
    (Img.tab h w f).map g = Img.tab h w fun i j => g (f i j) := by
  unfold Img.map
  refine Img.tab_congr fun i j hi hj => ?_
  rw [Img.h_tab] at hi
  rw [Img.w_tab] at hj
  rw [Img.px_tab hi hj]

theorem stackImg_map {α β : Type} [Zero α] [Zero β] (g : α → β) (hg : g 0 = 0) (l : List (List α)) :
    stackImg (l.map (List.map g)) = (stackImg l).map (Img.map g) := by
  unfold stackImg
  cases l with
  | nil => rfl
  | cons a l =>
    have hall : ((a :: l).map (List.map g)).all (fun b => b.length == (a.map g).length) =
        (a :: l).all fun b => b.length == a.length := by
      rw [List.all_map]
      congr 1
      funext b
      simp
    have htab : Img.tab ((a :: l).map (List.map g)).length (a.map g).length
        (fun i j => (((a :: l).map (List.map g)).getD i []).getD j 0) =
        (Img.tab (a :: l).length a.length fun i j => ((a :: l).getD i []).getD j 0).map g := by
      rw [Img.map_tab, List.length_map, List.length_map]
      refine Img.tab_congr fun i j _ _ => ?_
      have := getD_map' (a :: l) (List.map g) i []
      rw [List.map_nil] at this
      rw [this]
      have := getD_map' ((a :: l).getD i []) g j 0
      rw [hg] at this
      exact this
    rw [List.map_cons] at hall htab ⊢
    simp only
    rw [hall]
    split
    · rw [htab]; rfl
    · rfl

theorem map_swap {α β : Type} [Zero α] [Zero β] (g : α → β) (x : Img α) : (x.map g).swap = x.swap.map g := by
  unfold Img.swap
  rw [Img.map_tab]
  exact Img.tab_congr fun i j hi hj => Img.px_map g x hj hi

theorem padFrequency_map {α β : Type} [Zero α] [Zero β] (g : α → β) (hg : g 0 = 0) (x : Img α) (p : Int) :
    padFrequencyImg (x.map g) p = (padFrequencyImg x p).map (Img.map g) := by
  unfold padFrequencyImg
  split
  · rfl
  · show _ = Except.ok _
    rw [Img.map_tab]
    refine congrArg Except.ok (Img.tab_congr fun i j hi hj => ?_)
    show (if j < x.w then (x.map g).px i j else 0) = _
    split
    · rename_i h
      exact Img.px_map g x hi h
    · exact hg.symm

theorem sum_mul_px {x : Img ℂ} {c : ℂ} {i : Nat} (hi : i < x.h) (f : Nat → ℂ) :
    ∑ n ∈ range x.w, (x.map (c * ·)).px i n * f n = c * ∑ n ∈ range x.w, x.px i n * f n := by
  rw [Finset.mul_sum]
  refine Finset.sum_congr rfl fun n hn => ?_
  rw [Img.px_map _ x hi (mem_range.1 hn), mul_assoc]

theorem rowDft_map (c : ℂ) (x : Img ℂ) : rowDft (x.map (c * ·)) = (rowDft x).map (c * ·) := by
  unfold rowDft
  rw [Img.map_tab]
  refine Img.tab_congr fun i k hi _ => ?_
  have hi' : i < x.h := hi
  exact sum_mul_px (c := c) hi' fun n => tw x.w (-((k : Int) * (n : Int)))

theorem rowIdft_map (c : ℂ) (x : Img ℂ) : rowIdft (x.map (c * ·)) = (rowIdft x).map (c * ·) := by
  unfold rowIdft
  rw [Img.map_tab]
  refine Img.tab_congr fun i k hi _ => ?_
  have hi' : i < x.h := hi
  have h := sum_mul_px (c := c) hi' fun n => tw x.w ((n : Int) * (k : Int))
  rw [← mul_div_assoc]
  exact congrArg (· / (x.w : ℂ)) h

theorem rowCdgmm_map (c : ℂ) (x : Img ℂ) (f : List ℝ) :
    rowCdgmm (x.map (c * ·)) f = (rowCdgmm x f).map (Img.map (c * ·)) := by
  unfold rowCdgmm
  show (if x.w ≠ f.length then _ else _) = _
  split
  · rfl
  · show _ = Except.ok _
    rw [Img.map_tab]
    refine congrArg Except.ok (Img.tab_congr fun i j hi hj => ?_)
    rw [Img.px_map _ x hi hj, mul_assoc]

theorem rowSubsample_map (c : ℂ) (x : Img ℂ) (e : Int) :
    rowSubsample (x.map (c * ·)) e = (rowSubsample x e).map (Img.map (c * ·)) := by
  unfold rowSubsample
  split
  · rfl
  · show (if 2 ^ e.toNat * (x.w / 2 ^ e.toNat) ≠ x.w then _ else _) = _
    split
    · rfl
    · rename_i hc
      push Not at hc
      show _ = Except.ok _
      rw [Img.map_tab]
      refine congrArg Except.ok (Img.tab_congr fun i m hi hm => ?_)
      rw [mul_div_assoc', Finset.mul_sum]
      congr 1
      refine Finset.sum_congr rfl fun r hr => Img.px_map _ x hi ?_
      have := block_lt (mem_range.1 hr) hm
      have hw : (x.map (c * ·)).w = x.w := rfl
      rw [hw, hc] at this
      exact this

theorem Img.map_map {α β γ : Type} [Zero β] [Zero γ] (g : α → β) (k : β → γ) (x : Img α) :
    (x.map g).map k = x.map fun v => k (g v) := by
  unfold Img.map
  refine Img.tab_congr fun i j hi hj => ?_
  rw [Img.h_tab] at hi
  rw [Img.w_tab] at hj
  rw [Img.px_tab hi hj]

theorem rowAverage_map (c : ℝ) (x : Img ℝ) : rowAverage (x.map (c * ·)) = (rowAverage x).map (c * ·) := by
  unfold rowAverage
  rw [Img.map_tab]
  refine Img.tab_congr fun i j hi _ => ?_
  rw [Finset.mul_sum]
  exact Finset.sum_congr rfl fun n hn => Img.px_map _ x hi (mem_range.1 hn)

theorem unpadFrequency_map {α β : Type} [Zero α] [Zero β] (g : α → β) (x : Img α) (n s : Nat) :
    unpadFrequencyImg (x.map g) n s = (unpadFrequencyImg x n s).map (Img.map g) := by
  unfold unpadFrequencyImg
  split
  · rfl
  · show _ = Except.ok _
    rw [Img.map_tab]
    refine congrArg Except.ok (Img.tab_congr fun i j hi hj => ?_)
    have hh : (x.map g).h = x.h := rfl
    exact Img.px_map g x (by omega) hj

theorem splitImg_map {α β : Type} [Zero β] (g : α → β) (x : Img α) :
    splitImg (x.map g) = (splitImg x).map (List.map g) := by
  unfold splitImg
  rw [map_tab]
  refine tab_congr fun i hi => ?_
  rw [map_tab]
  exact tab_congr fun j hj => Img.px_map g x hi hj

theorem sim_mapR {α β : Type} {a : Py α} {b : Py β} {f : α → β} (h : b = a.map f) : Sim (fun x y => y = f x) a b := by
  intro x hx
  exact ⟨f x, by rw [h, hx]; rfl, rfl⟩

/-- `x` against a multiple of `x`. -/
noncomputable def scaleRelJ (a : ℝ) : JRel npJ npJ where
  rR i x y := y = List.map (fun v : ℝ => ampl a i * v) x
  rC i x y := y = List.map (fun v : ℂ => (ampl a i : ℂ) * v) x
  rT i x y := y = List.map (fun v : ℂ => (ampl a i : ℂ) * v) x
  rRS i _ x y := y = Img.map (fun v : ℝ => ampl a i * v) x
  rCS i _ _ x y := y = Img.map (fun v : ℂ => (ampl a i : ℂ) * v) x
  rF f g := g = f
  padOk _ := True
  rfft i x y h := (scaleRel a).rfft i 0 x y h
  ifft i x y h := (scaleRel a).ifft i 0 x y h
  irfft i x y h := (scaleRel a).irfft i 0 x y h
  modulus i x y h := (scaleRel a).modulus i 0 x y h
  cdgmm i x y f g h hfg := (scaleRel a).cdgmm i 0 x y f g h hfg.symm
  subsample i x y e h := by
    dsimp only
    split
    · exact Sim.error
    · exact (scaleRel a).subsample i 0 x y e.toNat h
  averageGlobal i x y h := Sim.ok (by
    rw [h]
    unfold npAverageGlobal
    rw [sum_map_mul]
    rfl)
  stackR l m h := by
    rw [forall₂_eq_map h]
    exact sim_mapR (stackImg_map _ (by simp) _)
  stackC l m h := by
    rw [forall₂_eq_map h]
    exact sim_mapR (stackImg_map _ (by simp) _)
  swapR i _ x y h := Sim.ok (by rw [h]; exact map_swap _ _)
  swapC i _ x y h := Sim.ok (by rw [h]; exact map_swap _ _)
  padFrequencyR i x y p _ h := by
    rw [h]
    exact sim_mapR (padFrequency_map _ (by simp) _ _)
  padFrequencyC i x y p _ h := by
    rw [h]
    exact sim_mapR (padFrequency_map _ (by simp) _ _)
  rfftS i _ x y h := Sim.ok (by
    rw [h]
    refine Eq.trans ?_ (rowDft_map _ _)
    rw [Img.map_map, Img.map_map]
    congr 2
    funext v
    push_cast
    rfl)
  cfftS i _ x y h := Sim.ok (by rw [h]; exact rowDft_map _ _)
  ifftS i _ x y h := Sim.ok (by rw [h]; exact rowIdft_map _ _)
  irfftS i _ x y h := Sim.ok (by
    rw [h]
    show ((rowIdft (Img.map _ x)).map Complex.re) = Img.map _ ((rowIdft x).map Complex.re)
    rw [rowIdft_map, Img.map_map, Img.map_map]
    congr 1
    funext v
    simp)
  modulusS i x y h := Sim.ok (by
    rw [h, Img.map_map, Img.map_map]
    congr 1
    funext v
    rw [norm_mul, Complex.norm_real, Real.norm_eq_abs, abs_ampl])
  cdgmmS i _ x y f g h hfg := by
    rw [h, hfg]
    exact sim_mapR (rowCdgmm_map _ _ _)
  subsampleS i _ x y e h := by
    rw [h]
    exact sim_mapR (rowSubsample_map _ _ _)
  averageGlobalS i _ x y h := Sim.ok (by rw [h]; exact rowAverage_map _ _)
  unpadFrequency i x y n s h := by
    rw [h]
    exact sim_mapR (unpadFrequency_map _ _ _ _)
  split x y n s h := Sim.ok (by
    rw [h]
    show List.Forall₂ _ _ (splitImg (Img.map _ x))
    rw [splitImg_map]
    generalize splitImg (x : Img ℝ) = l
    induction l with
    | nil => exact .nil
    | cons b l ih => exact .cons rfl ih)

namespace FrontJ

noncomputable def scaleFrontJ (a : ℝ) : FrontRelJ (scaleRelJ a) npFrontJ npFrontJ where
  rIn x y := y = List.map (a * ·) x
  rO i x y := y = List.map (fun v : ℝ => ampl a i * v) x
  rOS i x y := y = Img.map (fun v : ℝ => ampl a i * v) x
  pad x y l r h := by
    rw [h]
    exact sim_mapR ((npPad_map _ (by simp) _ _ _).trans rfl)
  unpad i x y i0 i1 h := by
    rw [h]
    show npUnpad _ i0 i1 = List.map _ (npUnpad x i0 i1)
    unfold npUnpad
    rw [List.map_drop, List.map_take]
  unpadS i x y i0 i1 h := by
    rw [h]
    show Img.tab _ _ _ = Img.map _ (Img.tab _ _ _)
    rw [Img.map_tab]
    refine Img.tab_congr fun r t hr ht => ?_
    have hw : (Img.map (fun v : ℝ => ampl a i * v) (x : Img ℝ)).w = Img.w x := rfl
    exact Img.px_map _ x hr (by omega)
  keep i x y h := h
  keepS i x y h := h

theorem objJ_refl {S : JRel npJ npJ} (hF : ∀ f, S.rF f f) (hp : ∀ p, S.padOk p) (o : JObj (List ℝ)) : ObjRelJ S o o := by
  have hl : ∀ l : List (List ℝ), List.Forall₂ S.rF l l := forall₂_refl_of hF
  have h0 : ∀ f : Filt (List ℝ), S.filt f f := fun f => ⟨rfl, hl _⟩
  have h1 : ∀ f : FiltFr (List ℝ), S.filtFr f f := fun f => ⟨rfl, rfl, hl _⟩
  exact ⟨rfl, rfl, rfl, rfl, h0 _, forall₂_refl_of h0 _, forall₂_refl_of h0 _, rfl, rfl, ⟨rfl, rfl, hl _⟩,
    forall₂_refl_of h1 _, rfl, rfl, rfl, rfl, fun n hn => hp _⟩

end FrontJ

end Verif
