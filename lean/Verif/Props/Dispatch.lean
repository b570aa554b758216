import Verif.Props.Linearisation

/-!
# C95: which code runs
-/

namespace Verif

open Classes

namespace Spec

/-- The classes a user constructs, with the class whose `scattering` holds the computation. -/
def scatteringCode : List (Cls × Cls) :=
  [(.scatteringNumPy1D, .scatteringBase1D), (.scatteringJax1D, .scatteringBase1D),
   (.scatteringTensorFlow1D, .scatteringBase1D), (.scatteringTorch1D, .scatteringBase1D),
   (.scatteringTransformer1D, .scatteringBase1D), (.scatteringKeras1D, .scatteringKeras),
   (.timeFrequencyScatteringNumPy, .timeFrequencyScatteringBase),
   (.timeFrequencyScatteringJax, .timeFrequencyScatteringBase),
   (.timeFrequencyScatteringTensorFlow, .timeFrequencyScatteringBase),
   (.timeFrequencyScatteringTorch, .timeFrequencyScatteringBase),
   (.timeFrequencyScatteringTransformer, .timeFrequencyScatteringBase),
   (.scatteringNumPy2D, .scatteringNumPy2D), (.scatteringJax2D, .scatteringNumPy2D),
   (.scatteringTensorFlow2D, .scatteringTensorFlow2D), (.scatteringTorch2D, .scatteringTorch2D),
   (.scatteringTransformer2D, .scatteringNumPy2D), (.scatteringKeras2D, .scatteringKeras),
   (.harmonicScatteringNumPy3D, .harmonicScatteringNumPy3D), (.harmonicScatteringJax3D, .harmonicScatteringNumPy3D),
   (.harmonicScatteringTensorFlow3D, .harmonicScatteringTensorFlow3D),
   (.harmonicScatteringTorch3D, .harmonicScatteringTorch3D),
   (.harmonicScatteringTransformer3D, .harmonicScatteringNumPy3D)]

/-- The JAX frontends and the numpy frontends they replace. -/
def jaxFrontends : List (Cls × Cls) :=
  [(.scatteringJax1D, .scatteringNumPy1D), (.timeFrequencyScatteringJax, .timeFrequencyScatteringNumPy),
   (.scatteringJax2D, .scatteringNumPy2D), (.harmonicScatteringJax3D, .harmonicScatteringNumPy3D)]

/-- The JAX backends and the numpy backends they replace. -/
def jaxBackends : List (Cls × Cls) :=
  [(.jaxBackend1D, .numpyBackend1D), (.jaxBackend2D, .numpyBackend2D), (.jaxBackend3D, .numpyBackend3D)]

/-- The scikit-cuda backends and the torch backends they replace. -/
def skcudaBackends : List (Cls × Cls) :=
  [(.torchSkcudaBackend1D, .torchBackend1D), (.torchSkcudaBackend2D, .torchBackend2D),
   (.torchSkcudaBackend3D, .torchBackend3D)]

/-- The transformers and the numpy frontends they wrap. -/
def transformers : List (Cls × Cls) :=
  [(.scatteringTransformer1D, .scatteringNumPy1D),
   (.timeFrequencyScatteringTransformer, .timeFrequencyScatteringNumPy),
   (.scatteringTransformer2D, .scatteringNumPy2D), (.harmonicScatteringTransformer3D, .harmonicScatteringNumPy3D)]

/-- The operations called on the backend by the frontends and the cores (`grep backend\.` in `scattering{1,2,3}d/core` and
`scattering{1,2,3}d/frontend`), with the backends. -/
def backendCalls : List (List Attr × List Cls) :=
  [([.averageGlobal, .cdgmm, .cfft, .ifft, .irfft, .modulus, .padFrequency, .rfft, .splitFrequencyAxis, .stack,
     .subsampleFourier, .swapTimeFrequency, .unpadFrequency, .pad, .reshapeInput, .reshapeOutput, .shape, .unpad,
     .inputChecks, .name],
    [.numpyBackend1D, .jaxBackend1D, .tensorFlowBackend1D, .torchBackend1D, .torchSkcudaBackend1D]),
   ([.cdgmm, .ifft, .irfft, .modulus, .rfft, .stack, .subsampleFourier, .pad2, .inputChecks, .unpad, .name],
    [.numpyBackend2D, .jaxBackend2D, .tensorFlowBackend2D, .torchBackend2D, .torchSkcudaBackend2D]),
   ([.cdgmm3d, .ifft, .modulus, .modulusRotation, .rfft, .stack, .computeIntegrals, .inputChecks, .name],
    [.numpyBackend3D, .jaxBackend3D, .tensorFlowBackend3D, .torchBackend3D, .torchSkcudaBackend3D])]

end Spec

namespace Classes

theorem lookup_of {ext : Cls → Attr → Bool} {c : Cls} {a : Attr} {m : List Cls} (h : mro c = .ok m) :
    lookup ext c a = match m.find? fun d => has ext d a with
      | some d => .ok d
      | none => .error .attribute := by
  unfold lookup
  rw [h]
  rfl

/-- Classes that do not have the attribute are passed over. -/
theorem lookup_skip {ext : Cls → Attr → Bool} {c d : Cls} {a : Attr} {p m : List Cls}
    (hc : mro c = .ok (p ++ m)) (hd : mro d = .ok m) (hp : ∀ e ∈ p, has ext e a = false) :
    lookup ext c a = lookup ext d a := by
  rw [lookup_of hc, lookup_of hd, List.find?_append]
  have : p.find? (fun e => has ext e a) = none := by
    rw [List.find?_eq_none]
    intro e he
    simp [hp e he]
  rw [this]
  rfl

/-- The computation returns a value with this property. -/
def okAnd {α : Type} (r : Py α) (p : α → Bool) : Bool :=
  match r with
  | .ok a => p a
  | .error _ => false

theorem okAnd_iff {α : Type} {r : Py α} {p : α → Bool} : okAnd r p = true ↔ ∃ a, r = .ok a ∧ p a = true := by
  cases r <;> simp [okAnd]

/-- No attribute of a class of another library. -/
abbrev noExt : Cls → Attr → Bool := fun _ _ => false

theorem has_noExt {ext : Cls → Attr → Bool} {a : Attr} (h : ∀ c, external c = true → ext c a = false) (c : Cls) :
    has ext c a = has noExt c a := by
  unfold has
  by_cases hc : external c = true
  · rw [if_pos hc, if_pos hc, h c hc]
  · rw [if_neg hc, if_neg hc]

theorem calls_noExt {ext : Cls → Attr → Bool} {a : Attr} (h : ∀ c, external c = true → ext c a = false) :
    ∀ m, calls ext a m = calls noExt a m
  | [] => rfl
  | d :: m => by
    unfold calls
    rw [has_noExt h, calls_noExt h m]

theorem invoke_noExt {ext : Cls → Attr → Bool} {a : Attr} (h : ∀ c, external c = true → ext c a = false) (c : Cls) :
    invoke ext c a = invoke noExt c a := by
  unfold invoke
  congr 1
  funext m
  exact calls_noExt h m

end Classes

/-- The class statements of the library all succeed, and every class gets a linearisation in the sense of
`Spec.Linearisation`. -/
theorem C95_classes (c : Cls) : ∃ m, mro c = .ok m ∧ Spec.Linearisation classes c m := by
  obtain ⟨t, ht⟩ : ∃ t, table = .ok t := ⟨_, rfl⟩
  obtain ⟨m, h1, h2⟩ := C95_linearisation (prog := classes) (by decide) ht (c := c) (by cases c <;> decide)
  refine ⟨m, ?_, h2⟩
  unfold mro
  rw [ht]
  exact h1

/-- Whatever attributes the classes of other libraries have, as long as none is called `scattering`: `obj.scattering(x)` ends
in the code of the right family, for every class of the library; the torch versions of the 1-D transforms load their
filters from the buffers on the way. -/
theorem C95_scattering (ext : Cls → Attr → Bool) (hext : ∀ c, external c = true → ext c .scattering = false)
    {c code : Cls} (hc : (c, code) ∈ Spec.scatteringCode) :
    ∃ chain, invoke ext c .scattering = .ok chain ∧ chain.getLast? = some code ∧
      (c = .scatteringTorch1D ∨ c = .timeFrequencyScatteringTorch → .scatteringTorch1D ∈ chain) := by
  rw [invoke_noExt hext]
  have key : ∀ p ∈ Spec.scatteringCode, okAnd (invoke noExt p.1 .scattering) (fun chain =>
      decide (chain.getLast? = some p.2 ∧
        (p.1 = .scatteringTorch1D ∨ p.1 = .timeFrequencyScatteringTorch → .scatteringTorch1D ∈ chain))) = true := by
    decide
  obtain ⟨chain, h1, h2⟩ := okAnd_iff.mp (key _ hc)
  exact ⟨chain, h1, of_decide_eq_true h2⟩

/-- Every class of the library has a method `scattering` of its own, which carries its documentation: `_document` has been
called on the class, or it defines the method. -/
theorem C95_documented (ext : Cls → Attr → Bool) (hext : ∀ c, external c = true → ext c .scattering = false)
    {c code : Cls} (hc : (c, code) ∈ Spec.scatteringCode) :
    ∃ chain, invoke ext c .scattering = .ok chain ∧ chain.head? = some c := by
  rw [invoke_noExt hext]
  have key : ∀ p ∈ Spec.scatteringCode, okAnd (invoke noExt p.1 .scattering) (fun chain =>
      decide (chain.head? = some p.1)) = true := by decide
  obtain ⟨chain, h1, h2⟩ := okAnd_iff.mp (key _ hc)
  exact ⟨chain, h1, of_decide_eq_true h2⟩

/-- The filters of the torch versions of the 1-D transforms: `register_filters` and `load_filters` run the version of the
class, and those of joint time-frequency scattering also run the version of `ScatteringTorch1D` for the temporal
filters. -/
theorem C95_torch_filters (ext : Cls → Attr → Bool) {a : Attr} (ha : a = .registerFilters ∨ a = .loadFilters)
    (hext : ∀ c, external c = true → ext c a = false) :
    invoke ext .scatteringTorch1D a = .ok [.scatteringTorch1D] ∧
    invoke ext .timeFrequencyScatteringTorch a = .ok [.timeFrequencyScatteringTorch, .scatteringTorch1D] := by
  rw [invoke_noExt hext, invoke_noExt hext]
  rcases ha with rfl | rfl <;> exact ⟨rfl, rfl⟩

/-- A JAX backend differs from the numpy backend in four attributes only: the two array modules, the name and
`input_checks`, all taken from `JaxBackend`. -/
theorem C95_jax_backend (ext : Cls → Attr → Bool) {j n : Cls} (hc : (j, n) ∈ Spec.jaxBackends) (a : Attr) :
    (a ∈ [Attr.np, .fft, .name, .inputChecks] → lookup ext j a = .ok .jaxBackend) ∧
    (a ∉ [Attr.np, .fft, .name, .inputChecks] → lookup ext j a = lookup ext n a) := by
  have hm : ∃ m, mro n = .ok m ∧ mro j = .ok ([j, .jaxBackend] ++ m) ∧ ∀ a, has ext j a = false := by
    simp only [Spec.jaxBackends, List.mem_cons, List.not_mem_nil, or_false, Prod.mk.injEq] at hc
    rcases hc with ⟨rfl, rfl⟩ | ⟨rfl, rfl⟩ | ⟨rfl, rfl⟩ <;> exact ⟨_, rfl, rfl, fun a => rfl⟩
  obtain ⟨m, hn, hj, h0⟩ := hm
  have hjb : has ext .jaxBackend a = [Attr.np, .fft, .name, .inputChecks].contains a := by
    simp [has, external, own, documented]
  constructor
  · intro ha
    have h1 : has ext .jaxBackend a = true := by rw [hjb]; simpa using ha
    rw [lookup_of hj]
    simp [h0 a, h1]
  · intro ha
    refine lookup_skip hj hn fun e he => ?_
    rcases List.mem_cons.mp he with rfl | he
    · exact h0 a
    · rw [List.mem_singleton.mp he, hjb]
      simpa using ha

/-- A JAX frontend differs from the numpy frontend in `__init__` (and in three dimensions in `build`, a copy of the numpy
one) only, besides the `scattering` that forwards to the numpy one (`C95_scattering`). -/
theorem C95_jax_frontend (ext : Cls → Attr → Bool) {j n : Cls} (hc : (j, n) ∈ Spec.jaxFrontends) {a : Attr}
    (hi : a ≠ .init) (hs : a ≠ .scattering) (hb : j = .harmonicScatteringJax3D → a ≠ .build) :
    lookup ext j a = lookup ext n a := by
  have hjax : has ext .scatteringJax a = false := by simp [has, external, own, documented, hi]
  have hm : ∃ m, mro n = .ok m ∧ mro j = .ok ([j, .scatteringJax] ++ m) ∧ has ext j a = false := by
    simp only [Spec.jaxFrontends, List.mem_cons, List.not_mem_nil, or_false, Prod.mk.injEq] at hc
    rcases hc with ⟨rfl, rfl⟩ | ⟨rfl, rfl⟩ | ⟨rfl, rfl⟩ | ⟨rfl, rfl⟩
    · exact ⟨_, rfl, rfl, by simp [has, external, own, documented, hi, hs]⟩
    · exact ⟨_, rfl, rfl, by simp [has, external, own, documented, hi, hs]⟩
    · exact ⟨_, rfl, rfl, by simp [has, external, own, documented, hi, hs]⟩
    · exact ⟨_, rfl, rfl, by simp [has, external, own, documented, hi, hs, hb rfl]⟩
  obtain ⟨m, hn, hj, h0⟩ := hm
  refine lookup_skip hj hn fun e he => ?_
  rcases List.mem_cons.mp he with rfl | he
  · exact h0
  · rw [List.mem_singleton.mp he]
    exact hjax

/-- A scikit-cuda backend differs from the torch backend in the attributes it defines, those of `TorchSkcudaBackend` and
nothing else. -/
theorem C95_skcuda_backend (ext : Cls → Attr → Bool) {k t : Cls} (hc : (k, t) ∈ Spec.skcudaBackends) {a : Attr}
    (ha : a ∉ [Attr.name, .isComplex, .isReal, .cdgmm])
    (hk : a ∉ [Attr.underModulusComplex, .underSubsampleFourier, .modulus, .subsampleFourier, .cdgmm3d]) :
    lookup ext k a = lookup ext t a := by
  have hsk : has ext .torchSkcudaBackend a = false := by simpa [has, external, own, documented] using ha
  have hm : ∃ m, mro t = .ok m ∧ mro k = .ok ([k, .torchSkcudaBackend] ++ m) ∧ has ext k a = false := by
    simp only [List.mem_cons, List.not_mem_nil, or_false, not_or] at hk
    obtain ⟨h1, h2, h3, h4, h5⟩ := hk
    simp only [Spec.skcudaBackends, List.mem_cons, List.not_mem_nil, or_false, Prod.mk.injEq] at hc
    rcases hc with ⟨rfl, rfl⟩ | ⟨rfl, rfl⟩ | ⟨rfl, rfl⟩
    · exact ⟨_, rfl, rfl, by simp [has, external, own, documented, h1, h2, h3, h4]⟩
    · exact ⟨_, rfl, rfl, by simp [has, external, own, documented, h1, h2, h3, h4]⟩
    · exact ⟨_, rfl, rfl, by simp [has, external, own, documented, h5]⟩
  obtain ⟨m, ht, hk', h0⟩ := hm
  refine lookup_skip hk' ht fun e he => ?_
  rcases List.mem_cons.mp he with rfl | he
  · exact h0
  · rw [List.mem_singleton.mp he]
    exact hsk

/-- A scikit-learn transformer is the numpy frontend, `__init__` included, for every attribute that neither the mixin nor
scikit-learn's base classes define. -/
theorem C95_transformer (ext : Cls → Attr → Bool) {s n : Cls} (hc : (s, n) ∈ Spec.transformers) {a : Attr}
    (hs : a ≠ .scattering) (hmix : a ∉ own .scatteringTransformerMixin)
    (h1 : ext .baseEstimator a = false) (h2 : ext .transformerMixin a = false) :
    lookup ext s a = lookup ext n a := by
  have hx : has ext .scatteringTransformerMixin a = false := by
    simpa [has, external, documented] using hmix
  have hm : ∃ m, mro n = .ok m ∧
      mro s = .ok ([s, .scatteringTransformerMixin, .baseEstimator, .transformerMixin] ++ m) ∧
      has ext s a = false := by
    simp only [Spec.transformers, List.mem_cons, List.not_mem_nil, or_false, Prod.mk.injEq] at hc
    rcases hc with ⟨rfl, rfl⟩ | ⟨rfl, rfl⟩ | ⟨rfl, rfl⟩ | ⟨rfl, rfl⟩ <;>
      exact ⟨_, rfl, rfl, by simp [has, external, own, documented, hs]⟩
  obtain ⟨m, hn, hs', h0⟩ := hm
  refine lookup_skip hs' hn fun e he => ?_
  simp only [List.mem_cons, List.not_mem_nil, or_false] at he
  rcases he with rfl | rfl | rfl | rfl
  · exact h0
  · exact hx
  · simpa [has, external] using h1
  · simpa [has, external] using h2

/-- `predict` and `transform` of every transformer are those of the mixin. -/
theorem C95_transformer_predict (ext : Cls → Attr → Bool) {s n : Cls} (hc : (s, n) ∈ Spec.transformers) {a : Attr}
    (ha : a = .predict ∨ a = .transform ∨ a = .fit) : lookup ext s a = .ok .scatteringTransformerMixin := by
  simp only [Spec.transformers, List.mem_cons, List.not_mem_nil, or_false, Prod.mk.injEq] at hc
  rcases hc with ⟨rfl, rfl⟩ | ⟨rfl, rfl⟩ | ⟨rfl, rfl⟩ | ⟨rfl, rfl⟩ <;> rcases ha with rfl | rfl | rfl <;> rfl

/-- Every operation that a frontend or a core calls on its backend exists in every backend of that dimension, in a class of
the library. -/
theorem C95_operations (ext : Cls → Attr → Bool) {ops : List Attr} {bs : List Cls}
    (h : (ops, bs) ∈ Spec.backendCalls) {a : Attr} (ha : a ∈ ops) {b : Cls} (hb : b ∈ bs) :
    ∃ d, lookup ext b a = .ok d ∧ external d = false := by
  have key : ∀ e ∈ Spec.backendCalls, ∀ a ∈ e.1, ∀ b ∈ e.2, okAnd (mro b) (fun m =>
      ((m.takeWhile fun d => !external d).find? fun d => has noExt d a).isSome) = true := by decide
  obtain ⟨m, hm, hk⟩ := okAnd_iff.mp (key _ h a ha b hb)
  obtain ⟨d, hd⟩ := Option.isSome_iff_exists.mp hk
  have hint : ∀ e ∈ m.takeWhile fun d => !external d, external e = false := fun e he => by
    have := List.all_eq_true.mp (List.all_takeWhile (l := m) (p := fun d => !external d)) e he
    simpa using this
  refine ⟨d, ?_, hint d (List.mem_of_find?_eq_some hd)⟩
  have hfind : ∀ l : List Cls, (∀ e ∈ l, external e = false) →
      l.find? (fun d => has ext d a) = l.find? (fun d => has noExt d a) := by
    intro l hl
    induction l with
    | nil => rfl
    | cons x xs ih =>
      have hx := hl x List.mem_cons_self
      have h1 : has ext x a = has noExt x a := by simp [has, hx]
      rw [List.find?_cons, List.find?_cons, h1, ih fun e he => hl e (List.mem_cons_of_mem _ he)]
  rw [lookup_of hm, ← List.takeWhile_append_dropWhile (p := fun d => !external d) (l := m), List.find?_append,
    hfind _ hint, hd]
  rfl

/-- The initialisers reached by `super`: from the base class of each family `ScatteringBase.__init__`, which takes no
argument, then `object`; from the torch and TensorFlow mixins the `Module` of the library, never a class of kymatio; from
`TimeFrequencyScatteringBase` the 1-D initialiser.  This holds for every class of the library below them. -/
theorem C95_super_init (ext : Cls → Attr → Bool) (h0 : ext .object .init = true) (h1 : ext .nnModule .init = true)
    (h2 : ext .tfModule .init = true) (c : Cls) {d e : Cls}
    (h : (d, e) ∈ [(Cls.scatteringBase1D, Cls.scatteringBase), (.scatteringBase2D, .scatteringBase),
      (.scatteringBase3D, .scatteringBase), (.scatteringBase, .object), (.timeFrequencyScatteringBase, .scatteringBase1D),
      (.scatteringTorch, .nnModule), (.scatteringTensorFlow, .tfModule)])
    (hd : Spec.Ancestor classes c d) : superLookup ext c d .init = .ok e := by
  obtain ⟨m, hm, hl⟩ := C95_classes c
  have hdm := (hl.mem d).mpr hd
  have key : ∀ p ∈ [(Cls.scatteringBase1D, Cls.scatteringBase), (.scatteringBase2D, .scatteringBase),
      (.scatteringBase3D, .scatteringBase), (.scatteringBase, .object), (.timeFrequencyScatteringBase, .scatteringBase1D),
      (.scatteringTorch, .nnModule), (.scatteringTensorFlow, .tfModule)],
      okAnd (mro c) (fun m => decide (p.1 ∈ m → (m.dropWhile fun e => e ≠ p.1).tail.head? = some p.2)) = true := by
    cases c <;> decide
  have hk := key _ h
  rw [hm] at hk
  have hh := of_decide_eq_true hk hdm
  have he : has ext e .init = true := by
    simp only [List.mem_cons, List.not_mem_nil, or_false, Prod.mk.injEq] at h
    rcases h with ⟨-, rfl⟩ | ⟨-, rfl⟩ | ⟨-, rfl⟩ | ⟨-, rfl⟩ | ⟨-, rfl⟩ | ⟨-, rfl⟩ | ⟨-, rfl⟩ <;>
      simp [has, external, own, h0, h1, h2]
  unfold superLookup
  rw [hm]
  show (match ((m.dropWhile fun e => e ≠ d).tail).find? fun e => has ext e .init with
    | some e => (.ok e : Py Cls)
    | none => .error .attribute) = _
  cases ht : (m.dropWhile fun e => e ≠ d).tail with
  | nil => rw [ht] at hh; simp at hh
  | cons x xs =>
    rw [ht] at hh
    have : x = e := by simpa using hh
    subst this
    rw [List.find?_cons, he]

/-! ## Concrete cases -/

/-- Attributes of the other libraries that matter here: initialisers, `forward` of `nn.Module`, `get_params`. -/
def exExt : Cls → Attr → Bool
  | .object, .init => true
  | .nnModule, .init => true
  | .nnModule, .forward => true
  | .tfModule, .init => true
  | .layer, .build => true
  | .baseEstimator, .other s => s = "get_params"
  | _, _ => false

theorem exExt_scattering (c : Cls) : exExt c .scattering = false := by cases c <;> rfl

/-- `TimeFrequencyScatteringTorch.scattering`: the function added by `_document`, the one of `ScatteringTorch1D`, then the
transform. -/
example : invoke exExt .timeFrequencyScatteringTorch .scattering =
    .ok [.timeFrequencyScatteringTorch, .scatteringTorch1D, .timeFrequencyScatteringBase] := rfl

example : ∃ chain, invoke exExt .timeFrequencyScatteringJax .scattering = .ok chain ∧
    chain.getLast? = some .timeFrequencyScatteringBase := by
  obtain ⟨chain, h1, h2, -⟩ := C95_scattering exExt (fun c _ => exExt_scattering c)
    (c := .timeFrequencyScatteringJax) (code := .timeFrequencyScatteringBase) (by decide)
  exact ⟨chain, h1, h2⟩

example : ∃ chain, invoke exExt .scatteringTransformer2D .scattering = .ok chain ∧
    chain.head? = some .scatteringTransformer2D :=
  C95_documented exExt (fun c _ => exExt_scattering c) (code := .scatteringNumPy2D) (by decide)

example : lookup exExt .jaxBackend1D .rfft = .ok .numpyBackend1D ∧ lookup exExt .jaxBackend1D .np = .ok .jaxBackend :=
  ⟨rfl, rfl⟩

example : lookup exExt .jaxBackend2D .subsampleFourier = lookup exExt .numpyBackend2D .subsampleFourier :=
  (C95_jax_backend exExt (by decide) _).2 (by decide)

example : lookup exExt .scatteringJax2D .metaMethod = .error .attribute := rfl

example : lookup exExt .scatteringJax1D .metaMethod = lookup exExt .scatteringNumPy1D .metaMethod :=
  C95_jax_frontend exExt (by decide) (by decide) (by decide) (by decide)

example : lookup exExt .scatteringTransformer2D .init = .ok .scatteringNumPy2D :=
  (C95_transformer exExt (n := .scatteringNumPy2D) (by decide) (by decide) (by decide) rfl rfl).trans rfl

example : lookup exExt .torchSkcudaBackend2D .rfft = lookup exExt .torchBackend2D .rfft :=
  C95_skcuda_backend exExt (by decide) (by decide) (by decide)

example : superLookup exExt .timeFrequencyScatteringTorch .scatteringBase1D .init = .ok .scatteringBase := rfl

example : invoke exExt .timeFrequencyScatteringTorch .registerFilters =
    .ok [.timeFrequencyScatteringTorch, .scatteringTorch1D] :=
  (C95_torch_filters exExt (Or.inl rfl) (fun c _ => by cases c <;> rfl)).2

example : lookup exExt .harmonicScatteringTransformer3D .predict = .ok .scatteringTransformerMixin :=
  C95_transformer_predict exExt (n := .harmonicScatteringNumPy3D) (by decide) (Or.inl rfl)

example : ∃ d, lookup exExt .torchSkcudaBackend3D .computeIntegrals = .ok d ∧ external d = false :=
  C95_operations exExt (List.mem_cons_of_mem _ (List.mem_cons_of_mem _ (List.mem_cons_self ..))) (by decide) (by decide)

example : superLookup exExt .scatteringTensorFlow1D .scatteringBase1D .init = .ok .scatteringBase := by
  obtain ⟨m, hm, hl⟩ := C95_classes .scatteringTensorFlow1D
  refine C95_super_init exExt rfl rfl rfl .scatteringTensorFlow1D (by decide) ((hl.mem _).1 ?_)
  have hk : okAnd (mro .scatteringTensorFlow1D) (fun m => decide (Cls.scatteringBase1D ∈ m)) = true := by decide
  rw [hm] at hk
  exact of_decide_eq_true hk

end Verif
