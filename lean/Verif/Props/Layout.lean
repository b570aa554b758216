import Verif.Lemmas.Layout
import Verif.Props.InstancesJTFS
import Verif.Props.Instances3D
import Verif.Props.Instances2D
import Verif.Props.Torch2D
import Verif.Props.Dtype

/-!
# C102: the memory layout of torch tensors
-/

namespace Verif

/-- **1-D.**  Whatever the layout of the input tensor, the transform does what it does on a contiguous one: no check
and no `view` fails because of the layout. -/
theorem C102_1d (B : Backend1D) (ops : FrontOps B.R) (o : Obj1D B.F) (x : B.R) (c : Bool) :
    Out1D.forget <$> scatteringLay B ops o (x, c) = Front1D.scattering B ops o x := by
  unfold scatteringLay Front1D.scattering
  simp only [map_bind', Front1D.psis_lay]
  congr 1
  funext _
  show (((ops.pad x o.padLeft o.padRight) >>= fun y => .ok (y, true)) >>= _ : Py _) = _
  cases ops.pad x o.padLeft o.padRight with
  | error e => rfl
  | ok U0 =>
    show (o.log2Stride >>= _ : Py _) = (o.log2Stride >>= _ : Py _)
    congr 1
    funext ls
    rw [Core1D.lay_scattering1d]
    simp only [bind_map]
    congr 1
    funext out
    rw [← Front1D.mapM_forget ops o ls.toNat (!decide (o.average = .loc)) (by intro h; simp [h]) out, bind_map]
    congr 1
    funext l
    exact Front1D.assemble_forget ops o l

/-- **2-D.**  On a contiguous image no check fails because of the layout. -/
theorem C102_2d (a : Args2D) (x : Img ℝ) : Out2D.forget <$> a.runTorchLay (x, true) = a.runTorch x := by
  unfold Args2D.runTorchLay Args2D.runTorch
  rw [map_bind']
  congr 1
  funext s
  show Out2D.forget <$> (a.check s x.h x.w >>= fun _ => _) = (a.check s x.h x.w >>= fun _ => _)
  rw [map_bind']
  congr 1
  funext _
  exact Core2D.lay_scattering2d torch2Backend _ _ x true (fun _ => rfl) _ _ _ _ _

/-- **2-D.**  An image that is not contiguous is refused with `RuntimeError` by every object. -/
theorem C102_2d_refused (a : Args2D) (s : Sc2D) (hs : a.make = .ok s) (x : Img ℝ) :
    a.runTorchLay (x, false) = .error .runtime := by
  unfold Args2D.runTorchLay
  rw [hs]
  rfl

/-- **3-D.**  Whatever the layout of the volume, the transform does what it does on a contiguous one. -/
theorem C102_3d (a : Args3D) (Y : ℤ → ℕ → ℝ → ℝ → ℂ) (x : Vol ℝ) (c : Bool) :
    a.runTorchLay Y (x, c) = a.runTorch Y x := by
  unfold Args3D.runTorchLay Args3D.runTorch
  have e : ((a.filters Y).map fun fl => fl.map fun fs => fs.map fun f => (view3R f, true)) =
      ((a.filters Y).map fun fl => fl.map fun fs => fs.map view3R).map (List.map (List.map fun f => (f, true))) := by
    simp [List.map_map, Function.comp_def]
  rw [e, Core3D.lay_scattering3d]

/-- **Joint time-frequency scattering.**  Whatever the layout of the input tensor, the transform does what it does on a
contiguous one. -/
theorem C102_jtfs (a : JArgs) (x : List ℝ) (c : Bool) : a.runTorchLay (x, c) = a.runTorch x := by
  unfold JArgs.runTorchLay JArgs.runTorch
  congr 1
  funext s
  congr 1
  funext Q
  rw [← FrontJ.lay_unassembled torchJ torchFrontJ (a.obj s Q.1.toNat) x c, bind_map]

/-- **Calling the object.**  `S(x)`, documented as an alias of `S.scattering(x)`, is that on a contiguous tensor and
raises `RuntimeError` on every other. -/
theorem C102_forward {α β : Type} (scattering : Lay α → Py β) (x : α) :
    torchForward scattering (x, true) = scattering (x, true) ∧
    torchForward scattering (x, false) = .error .runtime := ⟨rfl, rfl⟩

/-- **The alias is not one.**  There are an object and a signal such that `S.scattering(x)` returns and `S(x)` raises. -/
theorem C102_alias_violated : ∃ (a : JArgs) (x : List ℝ) (r : JOut (List ℝ) (Img ℝ)),
    a.runTorchLay (x, false) = .ok r ∧ torchForward a.runTorchLay (x, false) = .error .runtime := by
  obtain ⟨r, -, h⟩ := C80_defaults_partial 3 2 1000 8 1 (by norm_num) (by norm_num) (by norm_num) .dict (by simp) .time
    (by simp) (List.replicate 1000 (1 : ℝ)) List.length_replicate
  exact ⟨_, _, r, by rw [C102_jtfs]; exact h, rfl⟩

/-- A constructed 1-D object and a signal that is not contiguous. -/
example (x : List ℝ) (hx : x.length = 1000) : ∃ s out, (exArgs .none .array).make = .ok s ∧
    scatteringLay torchBackend torchFront ((exArgs .none .array).obj s) (x, false) = .ok out := by
  obtain ⟨s, hs, -, -, hrun⟩ := exArgs_run (T := .none) (av := .loc) .array (Or.inl ⟨rfl, rfl⟩)
    (Or.inr (Or.inr ⟨rfl, by simp⟩))
  obtain ⟨r, hr⟩ := hrun x hx
  obtain ⟨s', hs', hr⟩ := bind_eq_ok.1 hr
  cases (hs.symm.trans hs' : Except.ok s = .ok s')
  have h := (C23_every_out_type ((exArgs .none .array).obj s) x r).2 hr
  have h2 := C102_1d torchBackend torchFront ((exArgs .none .array).obj s) x false
  rw [h] at h2
  refine ⟨s, ?_⟩
  cases e : scatteringLay torchBackend torchFront ((exArgs .none .array).obj s) (x, false) with
  | error e' => rw [e] at h2; cases h2
  | ok out => exact ⟨out, hs, rfl⟩

/-- A constructed 2-D object, an image that is contiguous and one that is not. -/
example : (∃ out, exArgs2.runTorchLay (Img.tab 9 14 fun i j => (i * j : ℝ), true) = .ok out) ∧
    exArgs2.runTorchLay (Img.tab 9 14 fun i j => (i * j : ℝ), false) = .error .runtime := by
  obtain ⟨l, h⟩ := exArgs2_run (Img.tab 9 14 fun i j => (i * j : ℝ)) rfl rfl
  have h2 := C102_2d exArgs2 (Img.tab 9 14 fun i j => (i * j : ℝ))
  rw [(C59_torch_eq_numpy exArgs2 _ _).2 h] at h2
  obtain ⟨s, hs, -⟩ := bind_eq_ok.1 h
  refine ⟨?_, C102_2d_refused exArgs2 s hs _⟩
  cases e : exArgs2.runTorchLay (Img.tab 9 14 fun i j => (i * j : ℝ), true) with
  | error e' => rw [e] at h2; cases h2
  | ok out => exact ⟨out, rfl⟩

/-- A constructed 3-D object and a volume that is not contiguous. -/
example (Y : ℤ → ℕ → ℝ → ℝ → ℂ) : ∃ out, ex3.runTorchLay Y (exVol, false) = .ok out := by
  obtain ⟨out, h, -⟩ := C48_homogeneous ex3 Y (by simp [ex3]) rfl rfl (-2) (x := exVol)
    (y := Vol.tab ex3.shape fun v => -2 * exVol.vx v) fun _ hv => Vol.vx_tab hv
  exact ⟨out, by rw [C102_3d, C65_torch_eq_numpy_partial ex3 Y (by simp [ex3]) rfl exVol, h]⟩

/-- A constructed time-frequency object and a signal that is not contiguous. -/
example (x : List ℝ) (hx : x.length = 1000) : ∃ r, (exJ .dict .time).runTorchLay (x, false) = .ok r := by
  obtain ⟨r, -, h⟩ := C80_defaults_partial 3 2 1000 8 1 (by norm_num) (by norm_num) (by norm_num) .dict (by simp) .time
    (by simp) x hx
  exact ⟨r, by rw [C102_jtfs]; exact h⟩

/-- The checks are not idle: the spectrum of a view is refused, so `torch.stack` and `.contiguous()` are needed between
`irfft` and the next `rfft`. -/
example (B : JBackend) (U : B.C) (s : B.R) (h : B.irfft U = .ok s) :
    ((layJ B).irfft (U, true) >>= (layJ B).rfft) = .error .runtime := by
  show (checked B.irfft false (U, true) >>= checked B.rfft true : Py _) = _
  rw [checked_true, h]
  rfl

end Verif
