import Verif.Model.Attributes
import Verif.Props.InstancesJTFS
import Verif.Props.Instances3D
import Verif.Props.Instances2D
import Verif.Props.Torch2D
import Verif.Lemmas.Hom

/-!
# C104: attributes assigned after construction
-/

namespace Verif

theorem Args1D.make_set (a : Args1D) (l : List Set1) : (l.foldl Args1D.set a).make = a.make := by
  induction l generalizing a with
  | nil => rfl
  | cons e l ih =>
    rw [List.foldl_cons, ih]
    cases e <;> rfl

theorem Args1D.obj_set (a : Args1D) (s : Sc1D) (l : List Set1) :
    (l.foldl Args1D.set a).obj s = l.foldl Obj1D.set (a.obj s) := by
  induction l generalizing a with
  | nil => rfl
  | cons e l ih =>
    rw [List.foldl_cons, ih, List.foldl_cons]
    cases e <;> rfl

/-- **1-D.**  After any assignments of `max_order` and `out_type` a constructed object is the object that the constructor
makes from the assigned values, so every method does the same. -/
theorem C104_1d (a : Args1D) (s : Sc1D) (hs : a.make = .ok s) (l : List Set1) :
    (l.foldl Args1D.set a).make = .ok s ∧ (l.foldl Args1D.set a).obj s = l.foldl Obj1D.set (a.obj s) :=
  ⟨by rw [a.make_set, hs], a.obj_set s l⟩

/-- In particular a call returns, or raises, what a newly constructed object does. -/
theorem C104_1d_call (a : Args1D) (s : Sc1D) (hs : a.make = .ok s) (l : List Set1) (x : List ℝ) :
    Front1D.scattering npBackend npFront (l.foldl Obj1D.set (a.obj s)) x = (l.foldl Args1D.set a).run x := by
  unfold Args1D.run
  rw [(C104_1d a s hs l).1, ← (C104_1d a s hs l).2]
  rfl

/-! ## 2-D -/

theorem Live2.foldl_args (o : Live2) (l : List Set2) :
    (l.foldl Live2.set o).args = o.args ∧ (l.foldl Live2.set o).stored = o.stored := by
  induction l generalizing o with
  | nil => exact ⟨rfl, rfl⟩
  | cons e l ih =>
    rw [List.foldl_cons]
    refine ⟨(ih _).1.trans ?_, (ih _).2.trans ?_⟩ <;> cases e <;> rfl

/-- What a list of assignments changes in the arguments. -/
theorem Args2D.foldl_set (a : Args2D) (s : Sc2D) (l : List Set2) :
    l.foldl Args2D.set a = { a with
      maxOrder := (l.foldl Live2.set ⟨a, s, a.maxOrder, a.outType⟩).maxOrder
      outType := (l.foldl Live2.set ⟨a, s, a.maxOrder, a.outType⟩).outType } := by
  have key : ∀ (l : List Set2) (o : Live2), l.foldl Args2D.set { o.args with maxOrder := o.maxOrder, outType := o.outType } =
      { o.args with maxOrder := (l.foldl Live2.set o).maxOrder, outType := (l.foldl Live2.set o).outType } := by
    intro l
    induction l with
    | nil => intro o; rfl
    | cons e l ih =>
      intro o
      rw [List.foldl_cons, List.foldl_cons]
      cases e with
      | maxOrder m => exact ih (o.set (.maxOrder m))
      | outType t => exact ih (o.set (.outType t))
  exact key l ⟨a, s, a.maxOrder, a.outType⟩

/-- **2-D.** -/
theorem C104_2d (a : Args2D) (o : Live2) (ho : a.live = .ok o) (l : List Set2) (x : Img ℝ) :
    (l.foldl Live2.set o).call x = (l.foldl Args2D.set a).run x ∧
    (l.foldl Live2.set o).callTorch x = (l.foldl Args2D.set a).runTorch x := by
  obtain ⟨s, hs, h⟩ := bind_eq_ok.1 ho
  cases h
  obtain ⟨h1, h2⟩ := Live2.foldl_args ⟨a, s, a.maxOrder, a.outType⟩ l
  have e := Args2D.foldl_set a s l
  generalize l.foldl Live2.set ⟨a, s, a.maxOrder, a.outType⟩ = o at h1 h2 e ⊢
  obtain ⟨b, s', m, t⟩ := o
  cases h1
  cases h2
  rw [e]
  constructor
  · unfold Live2.call Args2D.run
    rw [show ({ a with maxOrder := m, outType := t } : Args2D).make = a.make from rfl, hs]
    rfl
  · unfold Live2.callTorch Args2D.runTorch
    rw [show ({ a with maxOrder := m, outType := t } : Args2D).make = a.make from rfl, hs]
    rfl

/-! ## Joint time-frequency scattering -/

/-- The base class never looks at `out_type` during construction. -/
theorem JArgs.make_set (a : JArgs) (l : List SetJ) : (l.foldl JArgs.set a).make = a.make ∧
    (l.foldl JArgs.set a).Q = a.Q := by
  induction l generalizing a with
  | nil => exact ⟨rfl, rfl⟩
  | cons e l ih =>
    rw [List.foldl_cons]
    refine ⟨(ih _).1.trans ?_, (ih _).2.trans ?_⟩ <;> cases e <;> rfl

theorem JArgs.obj_set (a : JArgs) (s : ScJ) (Q1 : Nat) (l : List SetJ) :
    (l.foldl JArgs.set a).obj s Q1 = l.foldl JObj.set (a.obj s Q1) := by
  induction l generalizing a with
  | nil => rfl
  | cons e l ih =>
    rw [List.foldl_cons, ih, List.foldl_cons]
    cases e <;> rfl

/-- **Joint time-frequency scattering.**  The same for `out_type` and `format`. -/
theorem C104_jtfs (a : JArgs) (s : ScJ) (hs : a.make = .ok s) (Q : Int × Int) (hQ : parseQ a.Q = .ok Q) (l : List SetJ)
    (x : List ℝ) :
    (l.foldl JArgs.set a).make = .ok s ∧
    (l.foldl JArgs.set a).obj s Q.1.toNat = l.foldl JObj.set (a.obj s Q.1.toNat) ∧
    FrontJ.scattering npJ npFrontJ (l.foldl JObj.set (a.obj s Q.1.toNat)) x = (l.foldl JArgs.set a).run x := by
  obtain ⟨h1, h2⟩ := a.make_set l
  refine ⟨h1.trans hs, a.obj_set s _ l, ?_⟩
  unfold JArgs.run
  rw [h1, hs, h2]
  show _ = (parseQ a.Q >>= _ : Py _)
  rw [hQ, ← a.obj_set s _ l]
  rfl

/-! ## 3-D -/

theorem mapM_congr_mem {α β : Type} {f g : α → Py β} {l : List α} (h : ∀ a ∈ l, f a = g a) : l.mapM f = l.mapM g := by
  induction l with
  | nil => rfl
  | cons a l ih =>
    rw [List.mapM_cons, List.mapM_cons, h a (by simp), ih fun b hb => h b (by simp [hb])]

namespace Core3D

variable (B : Backend3D)

theorem order1_congr (rot : Bool) (J : Nat) (mo : Int) (fl fl' : List (List B.F))
    (h : ∀ j ≤ J, listGet fl j = listGet fl' j) (U : B.C) (j1 : Nat) (hj : j1 ≤ J) :
    order1 B rot J mo fl U j1 = order1 B rot J mo fl' U j1 := by
  have h2 : ∀ U1, order2 B rot J mo fl U1 j1 = order2 B rot J mo fl' U1 j1 := by
    intro U1
    unfold order2
    split
    · congr 1
      funext c
      apply mapM_congr_mem
      intro j2 hj2
      unfold coef2
      rw [h j2 (by rw [List.mem_range'_1] at hj2; omega)]
    · rfl
  unfold order1
  rw [h j1 hj]
  simp only [h2]

theorem scattering3d_congr (x : B.R) (filters filters' : List (List (List B.F))) (rot : Bool) (L J : Nat) (mo : Int)
    (h : ∀ l ≤ L, ∃ fl fl', listGet filters l = .ok fl ∧ listGet filters' l = .ok fl' ∧
      ∀ j ≤ J, listGet fl j = listGet fl' j) :
    scattering3d B x filters rot L J mo = scattering3d B x filters' rot L J mo := by
  unfold scattering3d
  congr 1
  funext U
  have e : (List.range (L + 1)).mapM (perL B rot J mo filters U) =
      (List.range (L + 1)).mapM (perL B rot J mo filters' U) := by
    apply mapM_congr_mem
    intro l hl
    obtain ⟨fl, fl', h1, h2, h3⟩ := h l (by rw [List.mem_range] at hl; omega)
    unfold perL
    rw [h1, h2]
    show (List.mapM _ _ >>= _ : Py _) = (List.mapM _ _ >>= _ : Py _)
    rw [mapM_congr_mem fun j1 hj => order1_congr B rot J mo fl fl' h3 U j1 (by rw [List.mem_range] at hj; omega)]
  rw [e]

end Core3D

theorem Live3.foldl_set (o : Live3) (l : List Set3) :
    l.foldl Live3.set o = ⟨l.foldl Args3D.set o.args, o.filters⟩ := by
  induction l generalizing o with
  | nil => rfl
  | cons e l ih => rw [List.foldl_cons, ih, List.foldl_cons]; rfl

theorem Args3D.foldl_keep (a : Args3D) (l : List Set3) :
    (l.foldl Args3D.set a).shape = a.shape ∧ (l.foldl Args3D.set a).sigma0 = a.sigma0 := by
  induction l generalizing a with
  | nil => exact ⟨rfl, rfl⟩
  | cons e l ih =>
    rw [List.foldl_cons]
    refine ⟨(ih _).1.trans ?_, (ih _).2.trans ?_⟩ <;> cases e <;> rfl

/-- Filters of a smaller object are among those of a larger one. -/
theorem bank3_prefix {β : Type} (g : Vol ℂ → β) (Y : ℤ → ℕ → ℝ → ℝ → ℂ) (s : Idx3) (sigma0 : ℝ) {J L J' L' : ℕ}
    (hJ : J' ≤ J) (hL : L' ≤ L) : ∀ l ≤ L', ∃ fl fl',
      listGet ((solidHarmonicBank Y s J L sigma0).map fun fl => fl.map fun fs => fs.map g) l = .ok fl ∧
      listGet ((solidHarmonicBank Y s J' L' sigma0).map fun fl => fl.map fun fs => fs.map g) l = .ok fl' ∧
      ∀ j ≤ J', listGet fl j = listGet fl' j := by
  intro l hl
  refine ⟨((List.range (J + 1)).map fun j => solidHarmonic3d Y s (sigma0 * 2 ^ j) l true).map fun fs => fs.map g,
    ((List.range (J' + 1)).map fun j => solidHarmonic3d Y s (sigma0 * 2 ^ j) l true).map fun fs => fs.map g, ?_, ?_, ?_⟩
  · unfold solidHarmonicBank listGet
    rw [List.getElem?_map, List.getElem?_map, List.getElem?_range (by omega)]
    rfl
  · unfold solidHarmonicBank listGet
    rw [List.getElem?_map, List.getElem?_map, List.getElem?_range (by omega)]
    rfl
  · intro j hj
    unfold listGet
    simp only [List.getElem?_map]
    rw [List.getElem?_range (by omega), List.getElem?_range (by omega)]

/-- **3-D.**  The same for `max_order`, `rotation_covariant`, `integral_powers`, `method`, and for `J` and `L` as long as
they are at most those of the constructor. -/
theorem C104_3d (a : Args3D) (Y : ℤ → ℕ → ℝ → ℝ → ℂ) (l : List Set3) (hJ : (l.foldl Args3D.set a).J ≤ a.J)
    (hL : (l.foldl Args3D.set a).L ≤ a.L) (x : Vol ℝ) :
    (l.foldl Live3.set (a.live Y)).call x = (l.foldl Args3D.set a).run Y x ∧
    (l.foldl Live3.set (a.live Y)).callTorch x = (l.foldl Args3D.set a).runTorch Y x := by
  rw [Live3.foldl_set]
  obtain ⟨h1, h2⟩ := a.foldl_keep l
  show Live3.call ⟨l.foldl Args3D.set a, a.filters Y⟩ x = _ ∧ Live3.callTorch ⟨l.foldl Args3D.set a, a.filters Y⟩ x = _
  generalize l.foldl Args3D.set a = b at *
  constructor
  · unfold Live3.call Args3D.run
    split
    · rfl
    · have := bank3_prefix id Y b.shape b.sigma0 hJ hL
      simp only [List.map_id, List.map_id'] at this
      unfold Args3D.filters
      rw [← h1, ← h2]
      exact Core3D.scattering3d_congr (np3Backend b.powers) x _ _ _ _ _ _ this
  · unfold Live3.callTorch Args3D.runTorch
    split
    · rfl
    · split
      · rfl
      · unfold Args3D.filters
        rw [← h1, ← h2]
        exact Core3D.scattering3d_congr (torch3Backend b.powers) x _ _ _ _ _ _
          (bank3_prefix view3R Y b.shape b.sigma0 hJ hL)

theorem mapM_ok_mem {α β : Type} {f : α → Py β} {l : List α} {r : List β} (h : l.mapM f = .ok r) :
    ∀ a ∈ l, ∃ b, f a = .ok b := by
  induction l generalizing r with
  | nil => intro a ha; cases ha
  | cons c l ih =>
    rw [List.mapM_cons] at h
    obtain ⟨b, hb, h⟩ := bind_eq_ok.1 h
    obtain ⟨r', hr, -⟩ := bind_eq_ok.1 h
    intro a ha
    rcases List.mem_cons.1 ha with rfl | ha
    · exact ⟨b, hb⟩
    · exact ih hr a ha

/-- **3-D, beyond the constructor.**  With a larger `J` or `L` no call returns: the filters are missing. -/
theorem C104_3d_larger (a : Args3D) (Y : ℤ → ℕ → ℝ → ℝ → ℂ) (l : List Set3)
    (h : a.J < (l.foldl Args3D.set a).J ∨ a.L < (l.foldl Args3D.set a).L) (x : Vol ℝ) (r : List (List (List ℝ))) :
    (l.foldl Live3.set (a.live Y)).call x ≠ .ok r := by
  rw [Live3.foldl_set]
  show Live3.call ⟨l.foldl Args3D.set a, a.filters Y⟩ x ≠ _
  generalize l.foldl Args3D.set a = b at *
  intro hr
  unfold Live3.call at hr
  split at hr
  · cases hr
  · unfold Core3D.scattering3d at hr
    obtain ⟨U, -, hr⟩ := bind_eq_ok.1 hr
    obtain ⟨s, hs, -⟩ := bind_eq_ok.1 hr
    rcases h with h | h
    · obtain ⟨q, hq⟩ := mapM_ok_mem hs 0 (by simp)
      unfold Core3D.perL at hq
      obtain ⟨fl, hfl, hq⟩ := bind_eq_ok.1 hq
      obtain ⟨w, hw, -⟩ := bind_eq_ok.1 hq
      obtain ⟨v, hv⟩ := mapM_ok_mem hw (a.J + 1) (by rw [List.mem_range]; exact Nat.succ_lt_succ h)
      unfold Core3D.order1 at hv
      obtain ⟨fs, hfs, -⟩ := bind_eq_ok.1 hv
      have e : fl.length = a.J + 1 := by
        unfold Args3D.filters solidHarmonicBank listGet at hfl
        rw [List.getElem?_map, List.getElem?_range (by omega)] at hfl
        cases hfl
        simp
      unfold listGet at hfs
      rw [List.getElem?_eq_none (by omega)] at hfs
      cases hfs
    · obtain ⟨q, hq⟩ := mapM_ok_mem hs (a.L + 1) (by rw [List.mem_range]; exact Nat.succ_lt_succ h)
      unfold Core3D.perL at hq
      obtain ⟨fl, hfl, -⟩ := bind_eq_ok.1 hq
      unfold Args3D.filters solidHarmonicBank listGet at hfl
      rw [List.getElem?_eq_none (by simp)] at hfl
      cases hfl

/-! ## Concrete cases -/

/-- `S = Scattering1D(J=3, shape=1000, Q=8)`, then `S.max_order = 1`, `S.out_type = 'list'`. -/
example (x : List ℝ) (hx : x.length = 1000) : ∃ s r, (exArgs .none .array).make = .ok s ∧
    Front1D.scattering npBackend npFront
      ([Set1.maxOrder 1, .outType .list].foldl Obj1D.set ((exArgs .none .array).obj s)) x = .ok (.list r) := by
  obtain ⟨s, hs, -, -, hrun⟩ := exArgs_run (T := .none) (av := .loc) .list (Or.inl ⟨rfl, rfl⟩) (Or.inl rfl)
  obtain ⟨r, hr⟩ := hrun x hx
  have hs' : (exArgs .none .array).make = .ok s := hs
  obtain ⟨t, ht, hr'⟩ := bind_eq_ok.1 hr
  cases r with
  | list l =>
    obtain ⟨l1, l2, -, h1, -⟩ := C85_object (exArgs .none .list) (by norm_num [exArgs]) x l hr
    exact ⟨s, l1, hs', by rw [C104_1d_call _ s hs']; exact h1⟩
  | array rows =>
    obtain ⟨-, m, -, ha⟩ := Front1D.scattering_eq_ok.1 hr'
    cases ha
  | dict d =>
    obtain ⟨-, m, -, ha⟩ := Front1D.scattering_eq_ok.1 hr'
    cases ha

/-- `S = HarmonicScattering3D(...)`, then `S.max_order = 1`, `S.integral_powers = [1]`, as the test suite does. -/
example (Y : ℤ → ℕ → ℝ → ℝ → ℂ) : ∃ r,
    ([Set3.maxOrder 1, .method true, .powers [1]].foldl Live3.set (ex3.live Y)).call exVol = .ok r := by
  rw [(C104_3d ex3 Y _ (le_refl _) (le_refl _) exVol).1]
  exact ⟨_, run3_eq _ Y (by simp [Args3D.set]) rfl⟩

/-- `S.L` increased. -/
example (Y : ℤ → ℕ → ℝ → ℝ → ℂ) (r : List (List (List ℝ))) :
    ([Set3.L (ex3.L + 1)].foldl Live3.set (ex3.live Y)).call exVol ≠ .ok r :=
  C104_3d_larger ex3 Y _ (Or.inr (Nat.lt_succ_self _)) exVol r

/-- `S.max_order = 1` on a 2-D object. -/
example : ∃ o r, exArgs2.live = .ok o ∧
    ([Set2.maxOrder 1].foldl Live2.set o).call (Img.tab 9 14 fun i j => (i * j : ℝ)) = .ok r := by
  obtain ⟨r, hr⟩ := C40_no_error { exArgs2 with maxOrder := 1 } (by decide) (by decide) (by decide) (by decide)
    (Img.tab 9 14 fun i j => (i * j : ℝ)) ⟨rfl, rfl⟩
  obtain ⟨l, hl⟩ := exArgs2_run (Img.tab 9 14 fun i j => (i * j : ℝ)) rfl rfl
  obtain ⟨s, hs, -⟩ := bind_eq_ok.1 hl
  have ho : exArgs2.live = .ok ⟨exArgs2, s, exArgs2.maxOrder, exArgs2.outType⟩ := by
    unfold Args2D.live
    rw [hs]
    rfl
  exact ⟨_, r, ho, by rw [(C104_2d exArgs2 _ ho _ _).1]; exact hr⟩

/-- `S.format = 'time'` and `S.out_type = 'list'` on a time-frequency object. -/
example (x : List ℝ) (hx : x.length = 1000) : ∃ s r, (exJ .array .joint).make = .ok s ∧
    FrontJ.scattering npJ npFrontJ
      ([SetJ.format .time, .outType .list].foldl JObj.set ((exJ .array .joint).obj s 8)) x = .ok r := by
  obtain ⟨s, -, -, hs, -⟩ := exJ_run .array (by simp) .joint (by simp) x hx
  obtain ⟨-, r, -, -, -, -, -, -, -, hr, -⟩ := exJ_run .list (by simp) .time (by simp) x hx
  exact ⟨s, r, hs, ((C104_jtfs (exJ .array .joint) s hs (8, 1) rfl [.format .time, .outType .list] x).2.2).trans hr⟩

end Verif
