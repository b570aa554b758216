import Verif.Model.InputChecks
import Verif.Props.NdArray2D
import Verif.Props.NdArray3D
import Verif.Props.NdJTFS
import Verif.Props.InstancesJTFS

/-!
# C115: inputs that are not arrays
-/

namespace Verif

open InputChecks

namespace Spec

/-- The object is an array that the frontend works with: an array of numpy for numpy and jax, a contiguous tensor for torch,
anything that converts to a tensor for tensorflow (the frontends of dimension one do not convert: they need an object
with a shape). -/
def IsArray : Dim → Fr → Inp → Prop
  | _, _, .none => False
  | _, .numpy, .np _ => True
  | _, .jax, .np _ => True
  | _, .tensorflow, .np _ => True
  | _, .torch, .torch _ c => c = true
  | .two, .tensorflow, .other o => o.isSome
  | .three, .tensorflow, .other o => o.isSome
  | _, _, _ => False

/-- The entries of the array that the object stands for. -/
def content : Inp → Option (Nd ℝ)
  | .none => none
  | .np x => some x
  | .torch x _ => some x
  | .other o => o

end Spec

/-- Arrays of the framework pass the checks unchanged, in every dimension and frontend. -/
theorem C115_array (d : Dim) (f : Fr) (x : Inp) (h : Spec.IsArray d f x) :
    ∃ y, Spec.content x = some y ∧ call d f x = .ok y := by
  cases x with
  | none => cases d <;> cases f <;> exact absurd h id
  | np y => cases d <;> cases f <;> first | exact ⟨y, rfl, rfl⟩ | exact absurd h id
  | torch y c =>
    cases c
    · cases d <;> cases f <;> first | exact absurd h id | exact absurd h Bool.false_ne_true
    · cases d <;> cases f <;> first | exact ⟨y, rfl, rfl⟩ | exact absurd h id
  | other o =>
    cases o with
    | none => cases d <;> cases f <;> first | exact absurd h id | exact absurd h Bool.false_ne_true
    | some y => cases d <;> cases f <;> first | exact ⟨y, rfl, rfl⟩ | exact absurd h id

/-- A tensor that is not contiguous is refused by `S(x)` of torch in every dimension, with `RuntimeError`. -/
theorem C115_contiguous (d : Dim) (x : Nd ℝ) : call d .torch (.torch x false) = .error .runtime := by
  cases d <;> rfl

/-- `None` is refused with `TypeError` by every frontend in 2-D and 3-D, and by torch in 1-D. -/
theorem C115_none_partial (d : Dim) (f : Fr) (h : d = .one → f = .torch) : call d f .none = .error .type := by
  cases d <;> cases f <;> first | rfl | exact absurd (h rfl) (by decide)

/-- In 2-D and 3-D `scattering` of torch and tensorflow refuses with `TypeError` whatever is not a tensor, or does not convert to
one. -/
theorem C115_method_partial (d : Dim) (hd : d ≠ .one) (x : Inp) :
    ((∀ y c, x ≠ .torch y c) → method d .torch x = .error .type) ∧
    (Spec.content x = none → method d .tensorflow x = .error .type) := by
  constructor
  · intro h
    cases x with
    | torch y c => exact absurd rfl (h y c)
    | _ => cases d <;> first | rfl | exact absurd rfl hd
  · intro h
    cases x with
    | none => cases d <;> first | rfl | exact absurd rfl hd
    | np y => simp [Spec.content] at h
    | torch y c => simp [Spec.content] at h
    | other o =>
      simp only [Spec.content] at h
      subst h
      cases d <;> first | rfl | exact absurd rfl hd

/-- Without a kind of exception: whatever is neither `None` nor an array of numpy or torch, and not convertible to a tensor, is
refused by every frontend in every dimension, and so is `None`. -/
theorem C115_refused_partial (d : Dim) (f : Fr) (x : Inp) (h : Spec.content x = none) :
    ∃ e, call d f x = .error e := by
  cases x with
  | np y => simp [Spec.content] at h
  | torch y c => simp [Spec.content] at h
  | none => cases d <;> cases f <;> exact ⟨_, rfl⟩
  | other o =>
    simp only [Spec.content] at h
    subst h
    cases d <;> cases f <;> exact ⟨_, rfl⟩

/-- The numpy objects on an array of numpy run as modelled, on `None` they raise `TypeError` in 2-D and 3-D. -/
theorem C115_numpy_partial (a2 : Args2D) (a3 : Args3D) (Y : ℤ → ℕ → ℝ → ℝ → ℂ) (s : Sc2D) (hs : a2.make = .ok s)
    (x : Nd ℝ) :
    a2.call (.np x) = a2.runNd x ∧ a3.call Y (.np x) = a3.runNd Y x ∧
    a2.call .none = .error .type ∧ a3.call Y .none = .error .type := by
  refine ⟨?_, rfl, ?_, rfl⟩ <;> unfold Args2D.call <;> rw [hs] <;> rfl

/-- The 1-D and joint numpy objects on an array of numpy run as modelled. -/
theorem C115_numpy1_partial (a : Args1D) (b : JArgs) (x : Nd ℝ) : a.call (.np x) = a.runNd x ∧ b.call (.np x) = b.runNd x := by
  constructor
  · unfold Args1D.call Args1D.runNd
    cases a.make with
    | error e => rfl
    | ok s =>
      change (Front1D.checkRuntimeArgs (a.obj s) >>= fun _ => NdFront.scattering (a.obj s) x) = _
      change _ = NdFront.scattering (a.obj s) x
      unfold NdFront.scattering
      cases Front1D.checkRuntimeArgs (a.obj s) <;> rfl
  · unfold JArgs.call JArgs.runNd
    cases b.make with
    | error e => rfl
    | ok s =>
      cases hQ : parseQ b.Q with
      | error e => rfl
      | ok Q =>
        change (FrontJ.checkRuntimeArgs (b.obj s Q.1.toNat) >>= fun _ => NdFrontJ.scattering (b.obj s Q.1.toNat) x) =
          NdFrontJ.scattering (b.obj s Q.1.toNat) x
        unfold NdFrontJ.scattering
        cases FrontJ.checkRuntimeArgs (b.obj s Q.1.toNat) <;> rfl

/-- Every accepted numpy object in 2-D and 3-D raises `NameError`, not `TypeError`, on a list, a number or a tensor of torch:
the check itself uses the undefined name `_np`. -/
theorem C115_violated (a2 : Args2D) (a3 : Args3D) (Y : ℤ → ℕ → ℝ → ℝ → ℂ) (s : Sc2D) (hs : a2.make = .ok s)
    (x : Inp) (h0 : x ≠ .none) (hx : ∀ y, x ≠ .np y) :
    a2.call x = .error .name ∧ a3.call Y x = .error .name := by
  have : numpyBackend x = .error .name := by
    cases x with
    | none => exact absurd rfl h0
    | np y => exact absurd rfl (hx y)
    | torch y c => simp [numpyBackend, Classes.loadName, namesNumpyBackend, Classes.builtinNames]; rfl
    | other o => simp [numpyBackend, Classes.loadName, namesNumpyBackend, Classes.builtinNames]; rfl
  unfold Args2D.call Args3D.call
  rw [hs]
  simp only [call, method]
  rw [this]
  exact ⟨rfl, rfl⟩

/-- In 1-D every accepted numpy object raises `AttributeError` on `None` and on lists: nothing checks the input there. -/
theorem C115_one_violated (a : Args1D) (s : Sc1D) (hs : a.make = .ok s)
    (hc : Front1D.checkRuntimeArgs (a.obj s) = .ok ()) (o : Option (Nd ℝ)) :
    a.call .none = .error .attribute ∧ a.call (.other o) = .error .attribute := by
  constructor <;> unfold Args1D.call <;> rw [hs] <;>
    change (Front1D.checkRuntimeArgs (a.obj s) >>= fun _ => _) = _ <;> rw [hc] <;> rfl

/-- The same for the joint time-frequency objects. -/
theorem C115_joint_violated (a : JArgs) (s : ScJ) (Q : ℤ × ℤ) (hs : a.make = .ok s) (hQ : parseQ a.Q = .ok Q)
    (hc : FrontJ.checkRuntimeArgs (a.obj s Q.1.toNat) = .ok ()) (o : Option (Nd ℝ)) :
    a.call .none = .error .attribute ∧ a.call (.other o) = .error .attribute := by
  constructor <;> unfold JArgs.call <;> rw [hs] <;>
    change (parseQ a.Q >>= fun _ => _) = _ <;> rw [hQ] <;>
    change (FrontJ.checkRuntimeArgs (a.obj s Q.1.toNat) >>= fun _ => _) = _ <;> rw [hc] <;> rfl

/-- Calling a torch object on an array of numpy raises `AttributeError` in every dimension, although `scattering` has the
check that would raise `TypeError`; the jax objects accept a list as far as `x.shape`, which is `AttributeError` too. -/
theorem C115_forward_violated (d : Dim) (x : Nd ℝ) (o : Option (Nd ℝ)) :
    call d .torch (.np x) = .error .attribute ∧ call d .torch (.other o) = .error .attribute ∧
    call d .jax (.other o) = .error .attribute ∧
    (d ≠ .one → method d .torch (.np x) = .error .type ∧ method d .torch (.other o) = .error .type) := by
  refine ⟨by cases d <;> rfl, by cases d <;> rfl, by cases d <;> rfl, fun h => ?_⟩
  cases d <;> first | exact absurd rfl h | exact ⟨rfl, rfl⟩

/-- `Scattering2D(2, (9, 14), L=3)([[...]])` and `HarmonicScattering3D(...)([...])`. -/
example (Y : ℤ → ℕ → ℝ → ℝ → ℂ) (o : Option (Nd ℝ)) :
    exArgs2.call (.other o) = .error .name ∧ ex3.call Y (.other o) = .error .name := by
  obtain ⟨out, hr⟩ := exArgs2_run (Img.tab 9 14 fun _ _ => 0) rfl rfl
  obtain ⟨s, hs, -⟩ := bind_eq_ok.1 hr
  exact C115_violated exArgs2 ex3 Y s hs _ (by simp) (by simp)

/-- The same objects on `None`, and on an array of six images, which they transform. -/
example (Y : ℤ → ℕ → ℝ → ℝ → ℂ) (d : List ℝ) : exArgs2.call .none = .error .type ∧ ex3.call Y .none = .error .type ∧
    exArgs2.call (.np ⟨[2, 3, 9, 14], d⟩) = exArgs2.runNd ⟨[2, 3, 9, 14], d⟩ := by
  obtain ⟨out, hr⟩ := exArgs2_run (Img.tab 9 14 fun _ _ => 0) rfl rfl
  obtain ⟨s, hs, -⟩ := bind_eq_ok.1 hr
  have h := C115_numpy_partial exArgs2 ex3 Y s hs ⟨[2, 3, 9, 14], d⟩
  exact ⟨h.2.2.1, h.2.2.2, h.1⟩

/-- `Scattering1D(J=3, shape=1000, Q=8)(None)`. -/
example (o : Option (Nd ℝ)) : (exArgs .none .list).call .none = .error .attribute ∧
    (exArgs .none .list).call (.other o) = .error .attribute := by
  obtain ⟨s, hs, -⟩ := exArgs_run (T := .none) (av := .loc) .list (Or.inl ⟨rfl, rfl⟩) (Or.inl rfl)
  exact C115_one_violated _ s hs (by simp [Front1D.checkRuntimeArgs, Args1D.obj, exArgs]) o

/-- `TimeFrequencyScattering(J=3, J_fr=2, Q=8, shape=1000, out_type='list')(None)`. -/
example (o : Option (Nd ℝ)) : (exJ .list .time).call .none = .error .attribute ∧
    (exJ .list .time).call (.other o) = .error .attribute := by
  obtain ⟨s, r, P, hs, -⟩ := exJ_run .list (by simp) .time (by simp) (List.replicate 1000 0) List.length_replicate
  exact C115_joint_violated _ s (8, 1) hs rfl (by simp [FrontJ.checkRuntimeArgs, JArgs.obj, exJ]) o

/-- Arrays that pass, one per frontend. -/
example (d : List ℝ) : call .two .numpy (.np ⟨[9, 14], d⟩) = .ok ⟨[9, 14], d⟩ ∧
    call .one .torch (.torch ⟨[1000], d⟩ true) = .ok ⟨[1000], d⟩ ∧
    call .three .tensorflow (.other (some ⟨[4, 2, 6], d⟩)) = .ok ⟨[4, 2, 6], d⟩ := by
  obtain ⟨_, h1, h2⟩ := C115_array .two .numpy (.np ⟨[9, 14], d⟩) trivial
  obtain ⟨_, h3, h4⟩ := C115_array .one .torch (.torch ⟨[1000], d⟩ true) rfl
  obtain ⟨_, h5, h6⟩ := C115_array .three .tensorflow (.other (some ⟨[4, 2, 6], d⟩)) rfl
  cases h1; cases h3; cases h5
  exact ⟨h2, h4, h6⟩

/-- Refusals: `None` given to the torch object in 1-D, a string given to the tensorflow object in 2-D. -/
example : call .one .torch .none = .error .type ∧ method .two .tensorflow (.other none) = .error .type ∧
    ∃ e, call .one .tensorflow (.other none) = .error e :=
  ⟨C115_none_partial .one .torch fun _ => rfl, (C115_method_partial .two (by decide) _).2 rfl,
    C115_refused_partial .one .tensorflow _ rfl⟩

end Verif
