import Verif.Props.StabilityJTFS
import Verif.Props.StrideJTFS
import Verif.Props.PathsJTFS
import Verif.Props.MetaJTFS
import Verif.Props.TorchJTFS
import Verif.Props.Rejections

/-!
# The theorems on joint time-frequency scattering on concrete objects

The theorems with hypotheses applied to `TimeFrequencyScattering(J=3, J_fr=2, Q=8, shape=1000)` in the formats and output
types that the theorem is about; nothing new is claimed.
-/

namespace Verif

open FrontJ JTFS

/-- `TimeFrequencyScattering(J=3, J_fr=2, Q=8, shape=1000, out_type=o, format=f)`. -/
def exJ (o : OutType) (f : Format) : JArgs := ⟨3, 2, .int 8, .int 1000, .none, none, .int 1, .none, none, o, f⟩

theorem exJ_run (o : OutType) (ho : o ≠ .other) (f : Format) (hf : f ≠ .other) (x : List ℝ) (hx : x.length = 1000) :
    ∃ s r P, (exJ o f).make = .ok s ∧ s.base.built.Ninput = 1000 ∧ s.base.average = .loc ∧ s.averageFr = .loc ∧
      ((exJ o f).obj s 8).log2Stride = .ok ((3 : ℕ) : ℤ) ∧ ((exJ o f).obj s 8).log2StrideFr = .ok ((2 : ℕ) : ℤ) ∧
      (exJ o f).run x = .ok r ∧ scattering npJ npFrontJ ((exJ o f).obj s 8) x = .ok r ∧
      Stages npJ npFrontJ ((exJ o f).obj s 8) x P ∧ assemble npFrontJ ((exJ o f).obj s 8) P = .ok r := by
  obtain ⟨r, hr⟩ := C76_defaults 3 2 1000 8 1 (by norm_num) (by norm_num) (by norm_num) o ho f hf x hx
  obtain ⟨s, hs, hNi, hav, havF, hstr⟩ := C76_construction (exJ o f) 1000 rfl (by norm_num)
    (2 ^ 3) .loc rfl 8 1 rfl (by norm_num) (le_jPad_of_pow (by norm_num) (show 2 ^ 3 ≤ 1000 by norm_num)) 1 rfl
    (2 ^ 2) .loc rfl (by rw [floorLog2_twoPow]; rfl)
  have hlog : ∀ K M : ℕ, log2Stride none .none K M = .ok (K : ℤ) := fun K M => by
    refine (C07_log2_stride_ok _ _ _ _ _).2 (Or.inl ⟨rfl, ?_⟩)
    show (Except.ok (floorLog2 ((2 : Rat) ^ K)) : Py ℤ) = _
    rw [floorLog2_twoPow]
  have hsc : scattering npJ npFrontJ ((exJ o f).obj s 8) x = .ok r := by
    have h : (exJ o f).run x = .ok r := hr
    unfold JArgs.run at h
    rw [hs] at h
    exact h
  obtain ⟨-, P, hP, ha⟩ := scattering_eq_ok hsc
  refine ⟨s, r, P, hs, hNi, hav, havF, ?_, hlog 2 _, hr, hsc, hP, ha⟩
  show log2Stride s.base.built.stride .none 3 s.base.built.Ninput = _
  rw [hstr]
  exact hlog 3 _

/-- `C33_joint_list` and `C75_joint`: the keys of `meta()` are those of the output. -/
example (x : List ℝ) (hx : x.length = 1000) : ∃ s S, (exJ .list .joint).make = .ok s ∧
    (exJ .list .joint).run x = .ok (.list S) ∧ metaKey ((exJ .list .joint).obj s 8) = .ok (S.map fun p => p.n) ∧
    ∀ p ∈ S, p.order = p.n.length := by
  obtain ⟨s, r, P, hs, -, -, -, -, -, hr, hsc, hP, ha⟩ := exJ_run .list (by simp) .joint (by simp) x hx
  obtain rfl := Except.ok.inj ha
  exact ⟨s, P, hs, hr, C33_joint_list rfl hsc, fun p hp => C75_joint rfl hP hp⟩

/-- `C33_joint_array_violated`: one key too many. -/
example (x : List ℝ) (hx : x.length = 1000) : ∃ s rows keys, (exJ .array .joint).make = .ok s ∧
    (exJ .array .joint).run x = .ok (.arrayJoint rows) ∧ metaKey ((exJ .array .joint).obj s 8) = .ok keys ∧
    keys.length = rows.length + 1 := by
  obtain ⟨s, r, P, hs, -, -, -, -, -, hr, hsc, hP, ha⟩ := exJ_run .array (by simp) .joint (by simp) x hx
  obtain ⟨rows, -, h⟩ := bind_eq_ok.1 ha
  obtain rfl := Except.ok.inj h
  obtain ⟨keys, hk, hl⟩ := C33_joint_array_violated rfl hsc
  exact ⟨s, rows, keys, hs, hr, hk, hl⟩

/-- `C33_time_partial`, `C75_time_violated` and `C75_meta_order`: format `'time'`. -/
example (x : List ℝ) (hx : x.length = 1000) : ∃ s S keys, (exJ .list .time).make = .ok s ∧
    (exJ .list .time).run x = .ok (.list S) ∧
    (∀ p ∈ S, p.n ≠ [] → p.order = p.n.length - 2 ∧ 2 ≤ p.n.length) ∧
    metaKey ((exJ .list .time).obj s 8) = .ok keys ∧ keys.Perm (S.map fun p => p.n) ∧
    metaOrder ((exJ .list .time).obj s 8) = .ok (keys.map fun n => n.length - 1) := by
  obtain ⟨s, r, P, hs, -, -, -, -, -, hr, hsc, hP, ha⟩ := exJ_run .list (by simp) .time (by simp) x hx
  obtain rfl := Except.ok.inj ha
  obtain ⟨P', -, -, -, -, hk, -⟩ := C89_meta _ s hs 8 x P hP
  exact ⟨s, P, _, hs, hr, fun p hp hn => C75_time_violated rfl hP hp hn, hk, C33_time_partial hP hk,
    C75_meta_order hk (by rintro ⟨h, -⟩; cases h)⟩

/-- `C34_decimation_partial`: 1000 samples, stride 8, so 125 in every path. -/
example (x : List ℝ) (hx : x.length = 1000) : ∃ S, (exJ .list .time).run x = .ok (.list S) ∧
    ∀ p ∈ S, (coefSize p.coef).2 = 125 := by
  obtain ⟨s, r, P, hs, hN, hav, -, hls, -, hr, hsc, hP, ha⟩ := exJ_run .list (by simp) .time (by simp) x hx
  obtain rfl := Except.ok.inj ha
  obtain ⟨L, h, -, -, -, hL⟩ := C34_decimation_partial hs (Q1 := 8) (Q2 := 1) rfl (by norm_num) hav hls
    (by rw [hx, hN]) hP
  rw [hx] at hL
  refine ⟨P, hr, fun p hp => ?_⟩
  rw [h p hp, hL (by norm_num)]
  norm_num

/-- `C36_violated_global`. -/
example (x : List ℝ) (r) : (⟨3, 2, .int 8, .int 1000, .none, none, .int 1, .global, none, .array, .joint⟩ : JArgs).run x ≠
    .ok r :=
  C36_violated_global _ rfl rfl rfl x r

/-- `C80_defaults_partial`: both frontends return the same. -/
example (x : List ℝ) (hx : x.length = 1000) : ∃ r, (exJ .dict .time).run x = .ok r ∧ (exJ .dict .time).runTorch x = .ok r :=
  C80_defaults_partial 3 2 1000 8 1 (by norm_num) (by norm_num) (by norm_num) .dict (by simp) .time (by simp) x hx

/-- `C32_nodup` and `C32_same_filter`: the generator inside the run of a constructed object. -/
example (x : List ℝ) (hx : x.length = 1000) : ∃ s U0 g, (exJ .list .joint).make = .ok s ∧
    joint npJ U0 ((exJ .list .joint).obj s 8).phi ((exJ .list .joint).obj s 8).psi1 ((exJ .list .joint).obj s 8).psi2 3 true
      ((exJ .list .joint).obj s 8).phiFr ((exJ .list .joint).obj s 8).psisFr 2 true = .ok g ∧
    ([] :: g.2.map fun p => p.n).Nodup ∧
    ∀ p ∈ g.2, ∃ f, ((exJ .list .joint).obj s 8).psisFr[p.nFr]? = some f ∧ p.jFr = f.j ∧ p.spin = f.spin := by
  obtain ⟨s, r, P, hs, -, hav, havF, hls, hlsFr, -, -, ⟨U0, ls, lsFr, S, -, h1, h2, h3, -⟩, -⟩ :=
    exJ_run .list (by simp) .joint (by simp) x hx
  rw [hls] at h1
  rw [hlsFr] at h2
  cases h1
  cases h2
  obtain ⟨g, hg, -⟩ := bind_eq_ok.1 h3
  have e1 : decide (((exJ .list .joint).obj s 8).average = .loc) = true := decide_eq_true hav
  have e2 : decide (((exJ .list .joint).obj s 8).averageFr = .loc) = true := decide_eq_true havF
  rw [e1, e2] at hg
  obtain ⟨low, pos, neg, hb, h0, hp, hn, -⟩ := C32_bank hs 8
  refine ⟨s, U0, g, hs, hg, C32_nodup npJ hg, fun p hpm => ?_⟩
  obtain ⟨f, h, -, h', h''⟩ := C32_same_filter npJ hb (by
    intro f hf
    rcases List.mem_cons.1 hf with rfl | hf
    · rw [h0]
    · rw [hp f hf]; norm_num) (by
    intro f hf
    rw [hn f hf]; norm_num) hg p hpm
  exact ⟨f, h, h', h''⟩

/-- `C37_indices`: a stack of stride 2 made of five first-order filters. -/
example : ∃ out, timeFormatting npJ ⟨Img.tab 3 2 fun i j => (i + 10 * j : ℝ), [-1], [4], 5, 1, 4, 2, 1⟩ = .ok out ∧
    ∀ m : Nat, m < 5 → 2 ∣ m → ∃! i : Nat, ∃ q : JPath (List ℝ) (Img ℝ), out[i]? = some q ∧ q.n = [(m : ℤ), 4] := by
  obtain ⟨out, h⟩ := C37_returns ⟨Img.tab 3 2 fun i j => (i + 10 * j : ℝ), [-1], [4], 5, 1, 4, 2, 1⟩
    (fun i (hi : i * 2 < 5) => show i < 3 by omega) (by norm_num)
  exact ⟨out, h, (C37_indices npJ (by norm_num) h).2.1⟩

/-- `C101_args_jtfs`: an unknown format. -/
example (x : List ℝ) (hx : x.length = 1000) : (exJ .list .other).run x = .error .value := by
  obtain ⟨s, -, -, hs, -⟩ := exJ_run .list (by simp) .joint (by simp) x hx
  exact (C101_args_jtfs (exJ .list .other) s hs (Or.inr (Or.inl rfl))).1 x

/-- `C35_object`: both algorithms return on a padded signal of 1000 samples, and the first order agrees. -/
example (x : List ℝ) (hx : x.length = 1000) : ∃ s U0 t out rows, (exJ .list .joint).make = .ok s ∧
    widthFirst npJ U0 ((exJ .list .joint).obj s 8).phi ((exJ .list .joint).obj s 8).psi1 ((exJ .list .joint).obj s 8).psi2 3
      true = .ok t ∧
    Core1D.scattering1d npBackend U0 ((exJ .list .joint).obj s 8).phi [((exJ .list .joint).obj s 8).psi1] 3 true = .ok out ∧
    npJ.stackR rows = .ok t.2.1.coef ∧
    rows = (out.filter fun p => decide (p.n.length = 1)).map (fun p => p.coef) := by
  obtain ⟨s, r, P, hs, -, hav, -, hls, -, -, -, ⟨U0, ls, lsFr, S, -, h2, -, h4, -⟩, -⟩ :=
    exJ_run .list (by simp) .joint (by simp) x hx
  rw [hls] at h2
  obtain rfl := Except.ok.inj h2
  unfold paths at h4
  obtain ⟨g, hg, -⟩ := bind_eq_ok.1 h4
  obtain ⟨t, -, -, hw, -⟩ := joint_eq_ok npJ hg
  have hw1 : widthFirst npJ U0 ((exJ .list .joint).obj s 8).phi ((exJ .list .joint).obj s 8).psi1
      ((exJ .list .joint).obj s 8).psi2 3 true = .ok t := by
    have e : decide (((exJ .list .joint).obj s 8).average = .loc) = true := decide_eq_true hav
    rw [e] at hw
    exact hw
  obtain ⟨out, ho⟩ := C35_depth_first_returns hw1
  obtain ⟨rows, g1, g2, -⟩ := C35_object hs hls (by rw [decide_eq_true hav]; exact hw1) (psis := [_]) rfl ho
  exact ⟨s, U0, t, out, rows, hs, hw1, ho, g1, g2⟩

/-- `C34_returns_iff`: the run exists, so every second-order wavelet in use has `j <= 3`. -/
example (x : List ℝ) (hx : x.length = 1000) : ∃ s, (exJ .list .joint).make = .ok s ∧
    ∀ f ∈ s.base.psi2, ∀ g ∈ s.base.psi1, g.j < f.j → f.j ≤ 3 := by
  obtain ⟨s, r, P, hs, hN, hav, havF, hls, hlsFr, hnFr, -, hst, -⟩ := exJ_run .list (by simp) .joint (by simp) x hx
  refine ⟨s, hs, (C34_returns_iff (Q2 := 1) hs rfl (by norm_num) hav hls (t := 2 ^ 3) (av := .loc) ?_ le_rfl (F := 2 ^ 2)
    (avF := .loc) rfl (by norm_num [exJ]) hlsFr (fun _ => ?_) (by rw [hx, hN])).1 ⟨P, hst⟩⟩
  · rw [hN]; rfl
  · rw [floorLog2_twoPow]

end Verif
