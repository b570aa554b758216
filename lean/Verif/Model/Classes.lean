import Verif.Model.Py

/-!
# Classes, method resolution, `super`

The class statements of `kymatio/backend`, `kymatio/frontend`, `kymatio/scattering{1,2,3}d/backend` and
`kymatio/scattering{1,2,3}d/frontend` (the classes `Pad`, `Modulus`, `SubsampleFourier`, `ModulusStable`, which
inherit from nothing of the library, are left out), and what Python does with them: a class statement computes the
linearisation (`__mro__`) of the new class from those of its bases, an attribute is looked up along it, and
`super(C, self)` continues after `C` in the linearisation of the class of `self`.

Classes of other libraries (`nn.Module`, `tf.Module`, `Layer`, `BaseEstimator`, `TransformerMixin`, `object`) are single
classes below `object`; which attributes they have is a parameter.
-/

namespace Verif

namespace Classes

section linearisation

variable {C : Type} [DecidableEq C]

/-- The first head of one of the lists that is in the tail of none of them (`pmerge` in CPython's `typeobject.c`). -/
def candidate (ls : List (List C)) : Option C :=
  (ls.filterMap List.head?).find? fun c => ls.all fun l => !l.tail.contains c

/-- Take `c` off a list that begins with it. -/
def dropHead (c : C) (l : List C) : List C :=
  if l.head? = some c then l.tail else l

/-- Merge of linearisations; `TypeError` ("Cannot create a consistent method resolution order") if every head is in some
tail.  The first argument bounds the number of steps. -/
def mergeAux : Nat → List (List C) → Py (List C)
  | 0, _ => .ok []
  | n + 1, ls =>
    if ls.all List.isEmpty then .ok []
    else
      match candidate ls with
      | none => .error .type
      | some c => do
        let r ← mergeAux n (ls.map (dropHead c))
        .ok (c :: r)

/-- The merge takes at most as many steps as there are entries. -/
def merge (ls : List (List C)) : Py (List C) := mergeAux (ls.map List.length).sum ls

/-- The classes defined so far with their linearisations, the latest first. -/
abbrev Table (C : Type) := List (C × List C)

/-- `c.__mro__`; `NameError` if the class is not defined. -/
def Table.mro (t : Table C) (c : C) : Py (List C) :=
  match t.find? fun e => e.1 = c with
  | some e => .ok e.2
  | none => .error .name

/-- `class c(*bases)`. -/
def define (t : Table C) (s : C × List C) : Py (Table C) := do
  let ms ← s.2.mapM t.mro
  let m ← merge (ms ++ [s.2])
  .ok ((s.1, s.1 :: m) :: t)

/-- The class statements of a program, in order. -/
def run (prog : List (C × List C)) (t : Table C) : Py (Table C) := prog.foldlM define t

end linearisation

/-! ## The classes of the library -/

/-- The classes: those of other libraries first. -/
inductive Cls where
  | object | nnModule | tfModule | layer | baseEstimator | transformerMixin
  | numpyBackend
  | jaxBackend
  | tensorFlowBackend
  | torchBackend
  | torchSkcudaBackend
  | numpyBackend1D
  | jaxBackend1D
  | tensorFlowBackend1D
  | torchBackend1D
  | torchSkcudaBackend1D
  | numpyBackend2D
  | jaxBackend2D
  | tensorFlowBackend2D
  | torchBackend2D
  | torchSkcudaBackend2D
  | numpyBackend3D
  | jaxBackend3D
  | tensorFlowBackend3D
  | torchBackend3D
  | torchSkcudaBackend3D
  | scatteringBase
  | scatteringNumPy
  | scatteringJax
  | scatteringTensorFlow
  | scatteringTorch
  | scatteringKeras
  | scatteringTransformerMixin
  | scatteringBase1D
  | timeFrequencyScatteringBase
  | scatteringNumPy1D
  | timeFrequencyScatteringNumPy
  | scatteringJax1D
  | timeFrequencyScatteringJax
  | scatteringTensorFlow1D
  | timeFrequencyScatteringTensorFlow
  | scatteringTorch1D
  | timeFrequencyScatteringTorch
  | scatteringKeras1D
  | scatteringTransformer1D
  | timeFrequencyScatteringTransformer
  | scatteringBase2D
  | scatteringNumPy2D
  | scatteringJax2D
  | scatteringTensorFlow2D
  | scatteringTorch2D
  | scatteringKeras2D
  | scatteringTransformer2D
  | scatteringBase3D
  | harmonicScatteringNumPy3D
  | harmonicScatteringJax3D
  | harmonicScatteringTensorFlow3D
  | harmonicScatteringTorch3D
  | harmonicScatteringTransformer3D
  deriving DecidableEq, Repr

/-- Names of attributes: all those defined by the library, and any other. -/
inductive Attr where
  | np
  | fft
  | name
  | inputChecks
  | complexCheck
  | realCheck
  | isComplex
  | isReal
  | stack
  | modulus
  | cdgmm
  | reshapeInput
  | reshapeOutput
  | shape
  | complexContiguousCheck
  | contiguousCheck
  | subsampleFourier
  | pad
  | unpad
  | cfft
  | rfft
  | irfft
  | ifft
  | averageGlobal
  | padFrequency
  | swapTimeFrequency
  | unpadFrequency
  | splitFrequencyAxis
  | underModulusComplex
  | underSubsampleFourier
  | underPad
  | pad2
  | modulusRotation
  | computeIntegrals
  | cdgmm3d
  | init
  | build
  | checkFilterbanks
  | instantiateBackend
  | createFilters
  | dryBackend
  | dunderCall
  | docArray
  | docArrayN
  | docAliasName
  | docAliasCall
  | docFrontendParagraph
  | docSample
  | docHasShape
  | docHasOutType
  | registerFilters
  | forward
  | scattering
  | call
  | fit
  | predict
  | transform
  | metaMethod
  | outputSize
  | checkRuntimeArgs
  | checkInput
  | oversampling
  | average
  | filterbank
  | log2Stride
  | log2T
  | attrQ
  | stride
  | attrT
  | docShape
  | docInstantiationShape
  | docParamShape
  | docAttrsShape
  | docParamVectorize
  | docAttrVectorize
  | docClass
  | docScattering
  | document
  | averageFr
  | attrF
  | filterbankFr
  | log2F
  | log2StrideFr
  | strideFr
  | loadFilters
  | computeOutputShape
  | getConfig
  | attrM
  | attrN
  | docParamOutType
  | docAttrOutType
  | registerSingleFilter
  | loadSingleFilter
  | other (s : String)
  deriving DecidableEq, Repr

/-- The class statements, each after its bases. -/
def classes : List (Cls × List Cls) :=
  [(.object, []),
   (.nnModule, [.object]),
   (.tfModule, [.object]),
   (.layer, [.object]),
   (.baseEstimator, [.object]),
   (.transformerMixin, [.object]),
   -- backend/numpy_backend.py L5
   (.numpyBackend, [.object]),
   -- backend/jax_backend.py L7
   (.jaxBackend, [.numpyBackend]),
   -- backend/tensorflow_backend.py L5
   (.tensorFlowBackend, [.numpyBackend]),
   -- backend/torch_backend.py L99
   (.torchBackend, [.object]),
   -- backend/torch_skcuda_backend.py L5
   (.torchSkcudaBackend, [.object]),
   -- scattering1d/backend/numpy_backend.py L4
   (.numpyBackend1D, [.numpyBackend]),
   -- scattering1d/backend/jax_backend.py L5
   (.jaxBackend1D, [.jaxBackend, .numpyBackend1D]),
   -- scattering1d/backend/tensorflow_backend.py L6
   (.tensorFlowBackend1D, [.tensorFlowBackend]),
   -- scattering1d/backend/torch_backend.py L17
   (.torchBackend1D, [.torchBackend]),
   -- scattering1d/backend/torch_skcuda_backend.py L169
   (.torchSkcudaBackend1D, [.torchSkcudaBackend, .torchBackend1D]),
   -- scattering2d/backend/numpy_backend.py L28
   (.numpyBackend2D, [.numpyBackend]),
   -- scattering2d/backend/jax_backend.py L5
   (.jaxBackend2D, [.jaxBackend, .numpyBackend2D]),
   -- scattering2d/backend/tensorflow_backend.py L49
   (.tensorFlowBackend2D, [.tensorFlowBackend]),
   -- scattering2d/backend/torch_backend.py L89
   (.torchBackend2D, [.torchBackend]),
   -- scattering2d/backend/torch_skcuda_backend.py L174
   (.torchSkcudaBackend2D, [.torchSkcudaBackend, .torchBackend2D]),
   -- scattering3d/backend/numpy_backend.py L4
   (.numpyBackend3D, [.numpyBackend]),
   -- scattering3d/backend/jax_backend.py L5
   (.jaxBackend3D, [.jaxBackend, .numpyBackend3D]),
   -- scattering3d/backend/tensorflow_backend.py L12
   (.tensorFlowBackend3D, [.tensorFlowBackend]),
   -- scattering3d/backend/torch_backend.py L71
   (.torchBackend3D, [.torchBackend]),
   -- scattering3d/backend/torch_skcuda_backend.py L11
   (.torchSkcudaBackend3D, [.torchSkcudaBackend, .torchBackend3D]),
   -- frontend/base_frontend.py L5
   (.scatteringBase, [.object]),
   -- frontend/numpy_frontend.py L3
   (.scatteringNumPy, [.object]),
   -- frontend/jax_frontend.py L4
   (.scatteringJax, [.scatteringNumPy]),
   -- frontend/tensorflow_frontend.py L3
   (.scatteringTensorFlow, [.tfModule]),
   -- frontend/torch_frontend.py L3
   (.scatteringTorch, [.nnModule]),
   -- frontend/keras_frontend.py L4
   (.scatteringKeras, [.layer]),
   -- frontend/sklearn_frontend.py L4
   (.scatteringTransformerMixin, [.baseEstimator, .transformerMixin]),
   -- scattering1d/frontend/base_frontend.py L16
   (.scatteringBase1D, [.scatteringBase]),
   -- scattering1d/frontend/base_frontend.py L524
   (.timeFrequencyScatteringBase, [.scatteringBase1D]),
   -- scattering1d/frontend/numpy_frontend.py L7
   (.scatteringNumPy1D, [.scatteringNumPy, .scatteringBase1D]),
   -- scattering1d/frontend/numpy_frontend.py L20
   (.timeFrequencyScatteringNumPy, [.scatteringNumPy1D, .timeFrequencyScatteringBase]),
   -- scattering1d/frontend/jax_frontend.py L6
   (.scatteringJax1D, [.scatteringJax, .scatteringNumPy1D]),
   -- scattering1d/frontend/jax_frontend.py L39
   (.timeFrequencyScatteringJax, [.scatteringJax, .timeFrequencyScatteringNumPy]),
   -- scattering1d/frontend/tensorflow_frontend.py L8
   (.scatteringTensorFlow1D, [.scatteringTensorFlow, .scatteringBase1D]),
   -- scattering1d/frontend/tensorflow_frontend.py L34
   (.timeFrequencyScatteringTensorFlow, [.scatteringTensorFlow, .timeFrequencyScatteringBase]),
   -- scattering1d/frontend/torch_frontend.py L8
   (.scatteringTorch1D, [.scatteringTorch, .scatteringBase1D]),
   -- scattering1d/frontend/torch_frontend.py L86
   (.timeFrequencyScatteringTorch, [.scatteringTorch1D, .timeFrequencyScatteringBase]),
   -- scattering1d/frontend/keras_frontend.py L9
   (.scatteringKeras1D, [.scatteringKeras, .scatteringBase1D]),
   -- scattering1d/frontend/sklearn_frontend.py L7
   (.scatteringTransformer1D, [.scatteringTransformerMixin, .scatteringNumPy1D]),
   -- scattering1d/frontend/sklearn_frontend.py L12
   (.timeFrequencyScatteringTransformer, [.scatteringTransformerMixin, .timeFrequencyScatteringNumPy]),
   -- scattering2d/frontend/base_frontend.py L7
   (.scatteringBase2D, [.scatteringBase]),
   -- scattering2d/frontend/numpy_frontend.py L6
   (.scatteringNumPy2D, [.scatteringNumPy, .scatteringBase2D]),
   -- scattering2d/frontend/jax_frontend.py L5
   (.scatteringJax2D, [.scatteringJax, .scatteringNumPy2D]),
   -- scattering2d/frontend/tensorflow_frontend.py L6
   (.scatteringTensorFlow2D, [.scatteringTensorFlow, .scatteringBase2D]),
   -- scattering2d/frontend/torch_frontend.py L8
   (.scatteringTorch2D, [.scatteringTorch, .scatteringBase2D]),
   -- scattering2d/frontend/keras_frontend.py L9
   (.scatteringKeras2D, [.scatteringKeras, .scatteringBase2D]),
   -- scattering2d/frontend/sklearn_frontend.py L7
   (.scatteringTransformer2D, [.scatteringTransformerMixin, .scatteringNumPy2D]),
   -- scattering3d/frontend/base_frontend.py L5
   (.scatteringBase3D, [.scatteringBase]),
   -- scattering3d/frontend/numpy_frontend.py L7
   (.harmonicScatteringNumPy3D, [.scatteringNumPy, .scatteringBase3D]),
   -- scattering3d/frontend/jax_frontend.py L6
   (.harmonicScatteringJax3D, [.scatteringJax, .harmonicScatteringNumPy3D]),
   -- scattering3d/frontend/tensorflow_frontend.py L10
   (.harmonicScatteringTensorFlow3D, [.scatteringTensorFlow, .scatteringBase3D]),
   -- scattering3d/frontend/torch_frontend.py L7
   (.harmonicScatteringTorch3D, [.scatteringTorch, .scatteringBase3D]),
   -- scattering3d/frontend/sklearn_frontend.py L7
   (.harmonicScatteringTransformer3D, [.scatteringTransformerMixin, .harmonicScatteringNumPy3D])]

/-- The attributes defined in the body of a class (same lines as in `classes`). -/
def own : Cls → List Attr
  | .object => []
  | .nnModule => []
  | .tfModule => []
  | .layer => []
  | .baseEstimator => []
  | .transformerMixin => []
  | .numpyBackend => [.np, .fft, .name, .inputChecks, .complexCheck, .realCheck, .isComplex, .isReal, .stack,
      .modulus, .cdgmm, .reshapeInput, .reshapeOutput, .shape]
  | .jaxBackend => [.np, .fft, .name, .inputChecks]
  | .tensorFlowBackend => [.name, .stack, .modulus, .reshapeInput, .reshapeOutput, .shape]
  | .torchBackend => [.name, .inputChecks, .complexCheck, .realCheck, .complexContiguousCheck,
      .contiguousCheck, .isComplex, .isReal, .modulus, .stack, .cdgmm, .reshapeInput, .reshapeOutput, .shape]
  | .torchSkcudaBackend => [.name, .isComplex, .isReal, .cdgmm]
  | .numpyBackend1D => [.subsampleFourier, .pad, .unpad, .cfft, .rfft, .irfft, .ifft, .averageGlobal,
      .padFrequency, .swapTimeFrequency, .unpadFrequency, .splitFrequencyAxis]
  | .jaxBackend1D => []
  | .tensorFlowBackend1D => [.subsampleFourier, .pad, .unpad, .cfft, .rfft, .irfft, .ifft, .averageGlobal,
      .padFrequency, .swapTimeFrequency, .unpadFrequency, .splitFrequencyAxis]
  | .torchBackend1D => [.subsampleFourier, .pad, .unpad, .cfft, .rfft, .irfft, .ifft, .averageGlobal,
      .padFrequency, .swapTimeFrequency, .unpadFrequency, .splitFrequencyAxis]
  | .torchSkcudaBackend1D => [.underModulusComplex, .underSubsampleFourier, .modulus, .subsampleFourier]
  | .numpyBackend2D => [.underPad, .unpad, .subsampleFourier, .pad2, .stack, .rfft, .irfft, .ifft]
  | .jaxBackend2D => []
  | .tensorFlowBackend2D => [.pad2, .unpad, .rfft, .irfft, .ifft, .subsampleFourier]
  | .torchBackend2D => [.pad2, .subsampleFourier, .rfft, .irfft, .ifft, .unpad, .stack]
  | .torchSkcudaBackend2D => [.underModulusComplex, .underSubsampleFourier, .modulus, .subsampleFourier]
  | .numpyBackend3D => [.modulusRotation, .computeIntegrals, .stack, .rfft, .ifft, .cdgmm3d]
  | .jaxBackend3D => []
  | .tensorFlowBackend3D => [.modulusRotation, .computeIntegrals, .cdgmm3d, .stack, .rfft, .ifft]
  | .torchBackend3D => [.stack, .rfft, .ifft, .cdgmm3d, .modulusRotation, .computeIntegrals]
  | .torchSkcudaBackend3D => [.cdgmm3d]
  | .scatteringBase => [.init, .build, .checkFilterbanks, .instantiateBackend, .createFilters, .dryBackend]
  | .scatteringNumPy => [.init, .dunderCall, .docArray, .docArrayN, .docAliasName, .docAliasCall,
      .docFrontendParagraph, .docSample, .docHasShape, .docHasOutType]
  | .scatteringJax => [.init]
  | .scatteringTensorFlow => [.init, .dunderCall, .docArray, .docArrayN, .docAliasName, .docAliasCall,
      .docFrontendParagraph, .docSample, .docHasShape, .docHasOutType]
  | .scatteringTorch => [.init, .registerFilters, .forward, .docArray, .docArrayN, .docAliasName,
      .docAliasCall, .docFrontendParagraph, .docSample, .docHasShape, .docHasOutType]
  | .scatteringKeras => [.init, .build, .scattering, .call, .docArray, .docArrayN, .docAliasName,
      .docAliasCall, .docFrontendParagraph, .docSample, .docHasShape, .docHasOutType]
  | .scatteringTransformerMixin => [.fit, .predict, .transform, .docArray, .docArrayN, .docAliasName,
      .docAliasCall, .docFrontendParagraph, .docSample, .docHasShape, .docHasOutType]
  | .scatteringBase1D => [.init, .build, .createFilters, .scattering, .metaMethod, .outputSize, .checkRuntimeArgs,
      .checkInput, .oversampling, .average, .filterbank, .log2Stride, .log2T, .attrQ, .stride, .attrT,
      .docShape, .docInstantiationShape, .docParamShape, .docAttrsShape, .docParamVectorize, .docAttrVectorize,
      .docClass, .docScattering, .document]
  | .timeFrequencyScatteringBase => [.init, .build, .createFilters, .scattering, .metaMethod, .checkRuntimeArgs,
      .averageFr, .attrF, .filterbankFr, .log2F, .log2StrideFr, .strideFr, .docInstantiationShape, .docClass,
      .docScattering]
  | .scatteringNumPy1D => [.init]
  | .timeFrequencyScatteringNumPy => [.init]
  | .scatteringJax1D => [.init]
  | .timeFrequencyScatteringJax => [.init]
  | .scatteringTensorFlow1D => [.init]
  | .timeFrequencyScatteringTensorFlow => [.init]
  | .scatteringTorch1D => [.init, .registerFilters, .loadFilters, .scattering]
  | .timeFrequencyScatteringTorch => [.init, .registerFilters, .loadFilters]
  | .scatteringKeras1D => [.init, .build, .computeOutputShape, .getConfig]
  | .scatteringTransformer1D => []
  | .timeFrequencyScatteringTransformer => []
  | .scatteringBase2D => [.init, .build, .createFilters, .scattering, .attrM, .attrN, .docShape,
      .docInstantiationShape, .docParamShape, .docAttrsShape, .docParamOutType, .docAttrOutType, .docClass,
      .docScattering, .document]
  | .scatteringNumPy2D => [.init, .scattering]
  | .scatteringJax2D => [.init]
  | .scatteringTensorFlow2D => [.init, .scattering]
  | .scatteringTorch2D => [.init, .registerSingleFilter, .registerFilters, .loadSingleFilter, .loadFilters,
      .scattering]
  | .scatteringKeras2D => [.init, .build, .computeOutputShape, .getConfig]
  | .scatteringTransformer2D => []
  | .scatteringBase3D => [.init, .build, .createFilters, .scattering, .docShape, .docClass, .docScattering,
      .document]
  | .harmonicScatteringNumPy3D => [.init, .build, .scattering]
  | .harmonicScatteringJax3D => [.init, .build]
  | .harmonicScatteringTensorFlow3D => [.init, .build, .scattering]
  | .harmonicScatteringTorch3D => [.init, .build, .registerFilters, .scattering]
  | .harmonicScatteringTransformer3D => []

/-- `cls._document()` is called after the class statement. -/
def documented : Cls → Bool
  | .scatteringNumPy1D => true
  | .timeFrequencyScatteringNumPy => true
  | .scatteringJax1D => true
  | .timeFrequencyScatteringJax => true
  | .scatteringTensorFlow1D => true
  | .timeFrequencyScatteringTensorFlow => true
  | .scatteringTorch1D => true
  | .timeFrequencyScatteringTorch => true
  | .scatteringKeras1D => true
  | .scatteringTransformer1D => true
  | .timeFrequencyScatteringTransformer => true
  | .scatteringNumPy2D => true
  | .scatteringJax2D => true
  | .scatteringTensorFlow2D => true
  | .scatteringTorch2D => true
  | .scatteringKeras2D => true
  | .scatteringTransformer2D => true
  | .harmonicScatteringNumPy3D => true
  | .harmonicScatteringJax3D => true
  | .harmonicScatteringTensorFlow3D => true
  | .harmonicScatteringTorch3D => true
  | .harmonicScatteringTransformer3D => true
  | _ => false

/-- Classes of other libraries. -/
def external : Cls → Bool
  | .object | .nnModule | .tfModule | .layer | .baseEstimator | .transformerMixin => true
  | _ => false

/-- `a in cls.__dict__` once the module is loaded: `_document` (scattering1d/frontend/base_frontend.py L513-517,
scattering2d/frontend/base_frontend.py L224-228, scattering3d/frontend/base_frontend.py L123-127) adds `scattering` to
the classes on which it is called and which do not define it.  `ext` says which attributes the classes of other
libraries have. -/
def has (ext : Cls → Attr → Bool) (c : Cls) (a : Attr) : Bool :=
  if external c then ext c a
  else (own c).contains a || (documented c && a = .scattering)

/-- All classes with their linearisations, after the imports. -/
def table : Py (Table Cls) := run classes []

/-- `c.__mro__`. -/
def mro (c : Cls) : Py (List Cls) := do
  let t ← table
  t.mro c

/-- The class whose `a` is found by `c.a`; `AttributeError` if there is none. -/
def lookup (ext : Cls → Attr → Bool) (c : Cls) (a : Attr) : Py Cls := do
  let m ← mro c
  match m.find? fun d => has ext d a with
  | some d => .ok d
  | none => .error .attribute

/-- Does the method `a` of the class call `super().a`?  The functions added by `_document` do; so do
`ScatteringTorch1D.scattering` (scattering1d/frontend/torch_frontend.py L78-80),
`TimeFrequencyScatteringTorch.register_filters` and `.load_filters` (L123, L142) and
`TimeFrequencyScatteringBase.build` (scattering1d/frontend/base_frontend.py L540). -/
def forwards (c : Cls) (a : Attr) : Bool :=
  (documented c && a = .scattering && !(own c).contains .scattering) ||
  (match c, a with
  | .scatteringTorch1D, .scattering => true
  | .timeFrequencyScatteringTorch, .registerFilters => true
  | .timeFrequencyScatteringTorch, .loadFilters => true
  | .timeFrequencyScatteringBase, .build => true
  | _, _ => false)

/-- The classes whose method `a` is run, in order, along the rest of a linearisation. -/
def calls (ext : Cls → Attr → Bool) (a : Attr) : List Cls → Py (List Cls)
  | [] => .error .attribute
  | d :: m =>
    if has ext d a then
      if forwards d a then do
        let r ← calls ext a m
        .ok (d :: r)
      else .ok [d]
    else calls ext a m

/-- The classes whose method `a` is run by `obj.a(...)` for an object of class `c`. -/
def invoke (ext : Cls → Attr → Bool) (c : Cls) (a : Attr) : Py (List Cls) := do
  let m ← mro c
  calls ext a m

/-- The class whose `a` is found by `super(d, obj).a` for an object of class `c`. -/
def superLookup (ext : Cls → Attr → Bool) (c d : Cls) (a : Attr) : Py Cls := do
  let m ← mro c
  match ((m.dropWhile fun e => e ≠ d).tail).find? fun e => has ext e a with
  | some e => .ok e
  | none => .error .attribute

end Classes

end Verif
