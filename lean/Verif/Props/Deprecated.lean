import Verif.Model.Deprecated
import Verif.Props.Dispatch

/-!
# C105: properties of the objects
-/

namespace Verif

open Classes

namespace Spec

/-- The 1-D and time-frequency classes a user constructs. -/
def classes1D : List Cls :=
  [.scatteringNumPy1D, .scatteringJax1D, .scatteringTensorFlow1D, .scatteringTorch1D, .scatteringKeras1D,
   .scatteringTransformer1D, .timeFrequencyScatteringNumPy, .timeFrequencyScatteringJax,
   .timeFrequencyScatteringTensorFlow, .timeFrequencyScatteringTorch, .timeFrequencyScatteringTransformer]

/-- The time-frequency classes among them. -/
def classesJ : List Cls :=
  [.timeFrequencyScatteringNumPy, .timeFrequencyScatteringJax, .timeFrequencyScatteringTensorFlow,
   .timeFrequencyScatteringTorch, .timeFrequencyScatteringTransformer]

/-- The 2-D classes a user constructs. -/
def classes2D : List Cls :=
  [.scatteringNumPy2D, .scatteringJax2D, .scatteringTensorFlow2D, .scatteringTorch2D, .scatteringKeras2D,
   .scatteringTransformer2D]

/-- Attributes that are computed from what the constructor stored. -/
def computed : List (List Cls × List Attr) :=
  [(classes1D, [.oversampling, .average, .filterbank, .log2Stride, .log2T, .attrQ, .stride, .attrT]),
   (classesJ, [.averageFr, .attrF, .filterbankFr, .log2F, .log2StrideFr, .strideFr]),
   (classes2D, [.attrM, .attrN])]

end Spec

namespace Classes

theorem lookup_noExt {ext : Cls → Attr → Bool} {a : Attr} (h : ∀ c, external c = true → ext c a = false) (c : Cls) :
    lookup ext c a = lookup noExt c a := by
  unfold lookup
  congr 1
  funext m
  have : (fun d => has ext d a) = fun d => has noExt d a := funext fun d => has_noExt h d
  rw [this]

end Classes

/-- The computed attributes are read-only: assigning one of them raises `AttributeError`, whatever the frontend. -/
theorem C105_read_only (ext : Cls → Attr → Bool) {c : Cls} {a : Attr} {f : List Cls × List Attr} (hf : f ∈ Spec.computed)
    (hc : c ∈ f.1) (ha : a ∈ f.2) (hext : ∀ c, external c = true → ext c a = false) :
    assign ext c a = .error .attribute := by
  have key : ∀ f ∈ Spec.computed, ∀ c ∈ f.1, ∀ a ∈ f.2,
      okAnd (lookup noExt c a) (fun d => (properties d).contains a) = true := by decide
  obtain ⟨d, h1, h2⟩ := okAnd_iff.mp (key f hf c hc a ha)
  unfold assign
  rw [lookup_noExt hext, h1]
  simp only
  rw [if_pos h2]

/-- The deprecated attribute `oversampling` of a 1-D or time-frequency object still has the value given to the
constructor. -/
theorem C105_oversampling_partial (ext : Cls → Attr → Bool) {c : Cls} (hc : c ∈ Spec.classes1D)
    (hext : ∀ c, external c = true → ext c .oversampling = false) (o : Stored) :
    readDeprecated ext c .oversampling o = .ok o.oversampling := by
  have key : ∀ c ∈ Spec.classes1D, okAnd (lookup noExt c .oversampling) (fun d => decide (d = .scatteringBase1D)) = true := by
    decide
  obtain ⟨d, h1, h2⟩ := okAnd_iff.mp (key c hc)
  unfold readDeprecated
  rw [lookup_noExt hext, h1, of_decide_eq_true h2]
  rfl

/-- The deprecated attributes `M` and `N` of a 2-D object are not the sides of the image: reading them raises `NameError`
for every object of every frontend, since the module does not import `warn`. -/
theorem C105_sides_violated (ext : Cls → Attr → Bool) {c : Cls} (hc : c ∈ Spec.classes2D) {a : Attr}
    (ha : a = .attrM ∨ a = .attrN) (hext : ∀ c, external c = true → ext c a = false) (o : Stored) :
    readDeprecated ext c a o = .error .name := by
  have key : ∀ c ∈ Spec.classes2D, ∀ a ∈ [Attr.attrM, .attrN],
      okAnd (lookup noExt c a) (fun d => decide (d = .scatteringBase2D)) = true := by decide
  obtain ⟨d, h1, h2⟩ := okAnd_iff.mp (key c hc a (by simpa using ha))
  unfold readDeprecated
  rw [lookup_noExt hext, h1, of_decide_eq_true h2]
  rcases ha with rfl | rfl <;> rfl

/-- The missing import is all that is wrong: in a module that binds `warn` the attributes are the sides. -/
theorem C105_sides_import (g1 g2 : List String) (h : "warn" ∈ g2) (o : Stored) :
    deprecatedIn g1 g2 .scatteringBase2D .attrM o = .ok o.shape.1 ∧
      deprecatedIn g1 g2 .scatteringBase2D .attrN o = .ok o.shape.2 := by
  have h1 : loadName g2 "warn" = .ok () := if_pos (Or.inl h)
  have h2 : loadName g2 "DeprecationWarning" = .ok () := if_pos (Or.inr (by decide))
  have h3 : loadName g2 "int" = .ok () := if_pos (Or.inr (by decide))
  unfold deprecatedIn
  simp only [h1, h2, h3]
  exact ⟨rfl, rfl⟩

/-! ## Concrete cases -/

/-- With `from warnings import warn` at the top of the module. -/
example : deprecatedIn names1D ("warn" :: names2D) .scatteringBase2D .attrN ⟨(32, 48), 0⟩ = .ok 48 :=
  (C105_sides_import _ _ (by simp) _).2

example : assign noExt .scatteringTorch1D .attrT = .error .attribute :=
  C105_read_only noExt (f := Spec.computed.head (by simp [Spec.computed])) (by simp [Spec.computed])
    (by decide) (by decide) fun _ _ => rfl

/-- An attribute that is stored as it is can be assigned. -/
example : assign noExt .scatteringTorch1D .build = .ok () := rfl

example : readDeprecated noExt .timeFrequencyScatteringTorch .oversampling ⟨(32, 48), 0⟩ = .ok 0 :=
  C105_oversampling_partial noExt (by decide) (fun _ _ => rfl) _

/-- `Scattering2D(J=2, shape=(32, 48)).M`. -/
example : readDeprecated noExt .scatteringNumPy2D .attrM ⟨(32, 48), 0⟩ = .error .name :=
  C105_sides_violated noExt (by decide) (.inl rfl) (fun _ _ => rfl) _

end Verif
