import Verif.Model.Select
import Mathlib.Data.List.Basic

/-!
# C51, C54
-/

namespace Verif

namespace Select

/-! ## Specification of the choice of frontend -/

/-- The frontends of the documentation with the names of their four classes (`none`: not provided). -/
structure Choice where
  frontend : Str
  oneD : Option Str
  jtfs : Option Str
  twoD : Option Str
  threeD : Option Str

/-- README and documentation: six frontends.  Keras has no 3-D transform and no joint
time-frequency transform. -/
def documented : List Choice :=
  [⟨"numpy".toList, some "ScatteringNumPy1D".toList, some "TimeFrequencyScatteringNumPy".toList,
      some "ScatteringNumPy2D".toList, some "HarmonicScatteringNumPy3D".toList⟩,
   ⟨"torch".toList, some "ScatteringTorch1D".toList, some "TimeFrequencyScatteringTorch".toList,
      some "ScatteringTorch2D".toList, some "HarmonicScatteringTorch3D".toList⟩,
   ⟨"tensorflow".toList, some "ScatteringTensorFlow1D".toList,
      some "TimeFrequencyScatteringTensorFlow".toList,
      some "ScatteringTensorFlow2D".toList, some "HarmonicScatteringTensorFlow3D".toList⟩,
   ⟨"jax".toList, some "ScatteringJax1D".toList, some "TimeFrequencyScatteringJax".toList,
      some "ScatteringJax2D".toList, some "HarmonicScatteringJax3D".toList⟩,
   ⟨"keras".toList, some "ScatteringKeras1D".toList, none, some "ScatteringKeras2D".toList, none⟩,
   ⟨"sklearn".toList, some "ScatteringTransformer1D".toList,
      some "TimeFrequencyScatteringTransformer".toList,
      some "ScatteringTransformer2D".toList, some "HarmonicScatteringTransformer3D".toList⟩]

/-- The class documented for an entry. -/
def Choice.of (c : Choice) : Entry → Option Str
  | .oneD => c.oneD
  | .jtfs => c.jtfs
  | .twoD => c.twoD
  | .threeD => c.threeD

/-- The package of an entry. -/
def package : Entry → Str
  | .oneD | .jtfs => "kymatio.scattering1d".toList
  | .twoD => "kymatio.scattering2d".toList
  | .threeD => "kymatio.scattering3d".toList

/-- The module of a frontend. -/
def moduleOf (e : Entry) (f : Str) : Str := package e ++ ".frontend.".toList ++ f ++ "_frontend".toList

theorem lookup_suffixes (f : Str) :
    frontendSuffixes.lookup f = none ↔ ∀ c ∈ documented, c.frontend ≠ f := by
  simp only [frontendSuffixes, documented, List.lookup_cons, List.lookup_nil, List.mem_cons,
    List.not_mem_nil, or_false, forall_eq_or_imp, forall_eq]
  constructor
  · intro h
    refine ⟨?_, ?_, ?_, ?_, ?_, ?_⟩ <;> (rintro rfl; revert h; decide)
  · rintro ⟨h1, h2, h3, h4, h5, h6⟩
    simp only [beq_eq_false_iff_ne.2 (Ne.symm h1), beq_eq_false_iff_ne.2 (Ne.symm h2),
      beq_eq_false_iff_ne.2 (Ne.symm h3), beq_eq_false_iff_ne.2 (Ne.symm h4),
      beq_eq_false_iff_ne.2 (Ne.symm h5), beq_eq_false_iff_ne.2 (Ne.symm h6)]

/-- The tables of the code agree with the documented choices. -/
theorem tables (c : Choice) (hc : c ∈ documented) (e : Entry) :
    ∃ suffix, frontendSuffixes.lookup c.frontend = some suffix ∧
      "kymatio.".toList ++ e.className ++ ".frontend.".toList ++ c.frontend ++ "_frontend".toList =
        moduleOf e c.frontend ∧
      (∀ k, c.of e = some k → ∃ L, modules.lookup (moduleOf e c.frontend) = some L ∧
        replace e.name "Entry".toList suffix = k ∧ k ∈ L) ∧
      (c.of e = none → modules.lookup (moduleOf e c.frontend) = none ∨
        ∃ L, modules.lookup (moduleOf e c.frontend) = some L ∧
          replace e.name "Entry".toList suffix ∉ L) := by
  simp only [documented, List.mem_cons, List.not_mem_nil, or_false] at hc
  rcases hc with rfl | rfl | rfl | rfl | rfl | rfl <;> cases e <;>
    refine ⟨_, rfl, rfl, ?_, ?_⟩ <;> intro h
  all_goals first
    | (intro h'; cases h'; exact ⟨_, rfl, rfl, by decide⟩)
    | (intro h'; cases h')
    | (cases h; done)
    | exact Or.inl rfl
    | exact Or.inr ⟨_, rfl, by decide⟩

/-- **Frontend selection.**  For every string passed as `frontend`: if its lower-case form is one of the
six documented names, exactly the documented class of that frontend is built, from the module of that
frontend (provided the module's library is installed; otherwise the import fails), and a transform the
frontend does not document is refused; a name that is not documented, and no other, raises
`RuntimeError`. -/
theorem C51_frontend (lower : Str → Str) (installed : Str → Bool) (e : Entry) (s : Str) :
    (∀ c ∈ documented, c.frontend = lower s → installed (moduleOf e (lower s)) = true →
      ∀ k, c.of e = some k → entry lower installed e (some s) = .ok (moduleOf e (lower s), k)) ∧
    (∀ c ∈ documented, c.frontend = lower s → c.of e = none →
      entry lower installed e (some s) = .error .importErr ∨
        entry lower installed e (some s) = .error .attribute) ∧
    (∀ c ∈ documented, c.frontend = lower s → installed (moduleOf e (lower s)) = false →
      entry lower installed e (some s) = .error .importErr) ∧
    (entry lower installed e (some s) = .error .runtime ↔ ∀ c ∈ documented, c.frontend ≠ lower s) := by
  generalize hf : lower s = f
  have key : entry lower installed e (some s) =
      match frontendSuffixes.lookup f with
      | none => .error .runtime
      | some suffix => importClass installed
          ("kymatio.".toList ++ e.className ++ ".frontend.".toList ++ f ++ "_frontend".toList)
          (replace e.name "Entry".toList suffix) := by
    rw [← hf]; rfl
  rw [key]
  refine ⟨?_, ?_, ?_, ?_⟩
  · rintro c hc rfl hi k hk
    obtain ⟨su, h1, h2, h3, -⟩ := tables c hc e
    obtain ⟨L, hL, hk', hkL⟩ := h3 k hk
    rw [h1]
    simp only [h2, importClass, hL, hi, hk', hkL, if_true]
  · rintro c hc rfl hn
    obtain ⟨su, h1, h2, -, h4⟩ := tables c hc e
    rw [h1]
    simp only [h2, importClass]
    rcases h4 hn with h | ⟨L, hL, hk⟩
    · rw [h]; exact Or.inl rfl
    · rw [hL]
      simp only [hk, if_false]
      split
      · exact Or.inr rfl
      · exact Or.inl rfl
  · rintro c hc rfl hi
    obtain ⟨su, h1, h2, -, -⟩ := tables c hc e
    rw [h1]
    simp only [h2, importClass]
    cases modules.lookup (moduleOf e c.frontend) with
    | none => rfl
    | some L => simp [hi]
  · rw [← lookup_suffixes]
    cases frontendSuffixes.lookup f with
    | none => simp
    | some su =>
      simp only [importClass, reduceCtorEq, iff_false]
      cases modules.lookup _ with
      | none => simp
      | some L =>
        simp only
        split
        · split <;> simp
        · simp

/-- Without the argument the numpy frontend is built, for each of the four transforms. -/
theorem C51_default (lower : Str → Str) (installed : Str → Bool)
    (h : ∀ e, installed (moduleOf e "numpy".toList) = true) :
    entry lower installed .oneD none =
      .ok (moduleOf .oneD "numpy".toList, "ScatteringNumPy1D".toList) ∧
    entry lower installed .jtfs none =
      .ok (moduleOf .jtfs "numpy".toList, "TimeFrequencyScatteringNumPy".toList) ∧
    entry lower installed .twoD none =
      .ok (moduleOf .twoD "numpy".toList, "ScatteringNumPy2D".toList) ∧
    entry lower installed .threeD none =
      .ok (moduleOf .threeD "numpy".toList, "HarmonicScatteringNumPy3D".toList) := by
  have key : ∀ e, entry lower installed e none = entry (fun s => s) installed e (some "numpy".toList) :=
    fun e => rfl
  simp only [key]
  refine ⟨?_, ?_, ?_, ?_⟩
  · exact (C51_frontend (fun s => s) installed .oneD "numpy".toList).1 _ (List.mem_cons_self ..) rfl (h _) _ rfl
  · exact (C51_frontend (fun s => s) installed .jtfs "numpy".toList).1 _ (List.mem_cons_self ..) rfl (h _) _ rfl
  · exact (C51_frontend (fun s => s) installed .twoD "numpy".toList).1 _ (List.mem_cons_self ..) rfl (h _) _ rfl
  · exact (C51_frontend (fun s => s) installed .threeD "numpy".toList).1 _ (List.mem_cons_self ..) rfl (h _) _ rfl

/-- The case of ASCII letters does not matter: two ASCII strings that differ only in case choose the same
class.  `hl` is what `str.lower` does on ASCII strings. -/
theorem C51_case_insensitive (lower : Str → Str)
    (hl : ∀ s, (∀ c ∈ s, c.val < 128) → lower s = s.map Char.toLower)
    (installed : Str → Bool) (e : Entry) (s t : Str) (hs : ∀ c ∈ s, c.val < 128)
    (ht : ∀ c ∈ t, c.val < 128) (h : s.map Char.toLower = t.map Char.toLower) :
    entry lower installed e (some s) = entry lower installed e (some t) := by
  simp only [entry, hl s hs, hl t ht, h]

example (lower : Str → Str) (hl : ∀ s, (∀ c ∈ s, c.val < 128) → lower s = s.map Char.toLower) :
    entry lower (fun _ => true) .jtfs (some "TensorFlow".toList) =
      .ok (moduleOf .jtfs "tensorflow".toList, "TimeFrequencyScatteringTensorFlow".toList) := by
  have : lower "TensorFlow".toList = "tensorflow".toList := by
    rw [hl _ (by decide)]; decide
  have h := (C51_frontend lower (fun _ => true) .jtfs "TensorFlow".toList).1
    _ (by right; right; left) (by rw [this]) rfl _ rfl
  rw [h, this]

example (lower : Str → Str) (hl : ∀ s, (∀ c ∈ s, c.val < 128) → lower s = s.map Char.toLower) :
    entry lower (fun _ => true) .oneD (some "Theano".toList) = .error .runtime := by
  rw [(C51_frontend lower (fun _ => true) .oneD "Theano".toList).2.2.2, hl _ (by decide)]
  decide

/-- **Backend selection.**  A backend given by name is accepted exactly when its name starts with the
frontend's name and the module `<import_string><name>_backend` can be imported, and the backend of that
module is used; a backend object is accepted exactly when its own name starts with the frontend's name,
and used unchanged; every refusal is an `ImportError`. -/
theorem C51_backend {B : Type} (name : B → Str) (imp : Str → Option B) (is fr : Str) :
    (∀ s b, instantiateBackend name imp is fr (.str s) = .ok b ↔
      fr <+: s ∧ imp (is ++ s ++ "_backend".toList) = some b) ∧
    (∀ b b', instantiateBackend name imp is fr (.obj b) = .ok b' ↔ fr <+: name b ∧ b' = b) ∧
    (∀ a err, instantiateBackend name imp is fr a = .error err → err = .importErr) := by
  refine ⟨fun s b => ?_, fun b b' => ?_, fun a err => ?_⟩
  · simp only [instantiateBackend, ← List.isPrefixOf_iff_prefix]
    by_cases h : fr.isPrefixOf s = true
    · simp only [h, if_true, true_and]
      cases imp (is ++ s ++ "_backend".toList) <;> simp
    · simp [h]
  · simp only [instantiateBackend, ← List.isPrefixOf_iff_prefix]
    by_cases h : fr.isPrefixOf (name b) = true
    · simp [h, eq_comm]
    · simp [h]
  · cases a with
    | str s =>
      simp only [instantiateBackend]
      split
      · split
        · simp
        · intro h; cases h; rfl
      · intro h; cases h; rfl
    | obj b =>
      simp only [instantiateBackend]
      split
      · simp
      · intro h; cases h; rfl

/-- The backends of the repository: names of the modules, which are also the names of the backend
objects (backend/numpy_backend.py L9, torch_backend.py L100, torch_skcuda_backend.py L6,
tensorflow_backend.py L6, jax_backend.py L11). -/
def backendNames : List Str :=
  ["numpy".toList, "torch".toList, "torch_skcuda".toList, "tensorflow".toList, "jax".toList]

/-- With the backends of the repository: the frontend `torch` accepts `torch` and `torch_skcuda`, every
other frontend accepts only the backend of its own name; `keras` accepts none (it builds a TensorFlow
object). -/
theorem C51_repository_backends (imp : Str → Option Str) (is : Str)
    (himp : ∀ s b, imp (is ++ s ++ "_backend".toList) = some b ↔ s ∈ backendNames ∧ b = s)
    (s : Str) :
    (∀ b, instantiateBackend id imp is "torch".toList (.str s) = .ok b ↔
      (s = "torch".toList ∨ s = "torch_skcuda".toList) ∧ b = s) ∧
    (∀ fr ∈ ["numpy".toList, "tensorflow".toList, "jax".toList],
      ∀ b, instantiateBackend id imp is fr (.str s) = .ok b ↔ s = fr ∧ b = s) ∧
    (∀ b, instantiateBackend id imp is "keras".toList (.str s) ≠ .ok b) := by
  have hP : ∀ fr b, instantiateBackend id imp is fr (.str s) = .ok b ↔
      fr <+: s ∧ s ∈ backendNames ∧ b = s := fun fr b => by
    rw [(C51_backend id imp is fr).1 s b, himp]
  simp only [hP, ne_eq]
  refine ⟨fun b => ?_, fun fr hfr b => ?_, fun b => ?_⟩
  · constructor
    · rintro ⟨h1, h2, rfl⟩
      refine ⟨?_, rfl⟩
      simp only [backendNames, List.mem_cons, List.not_mem_nil, or_false] at h2
      rcases h2 with rfl | rfl | rfl | rfl | rfl
      · revert h1; decide
      · exact Or.inl rfl
      · exact Or.inr rfl
      · revert h1; decide
      · revert h1; decide
    · rintro ⟨rfl | rfl, rfl⟩
      · exact ⟨by decide, by decide, rfl⟩
      · exact ⟨by decide, by decide, rfl⟩
  · simp only [List.mem_cons, List.not_mem_nil, or_false] at hfr
    constructor
    · rintro ⟨h1, h2, rfl⟩
      refine ⟨?_, rfl⟩
      simp only [backendNames, List.mem_cons, List.not_mem_nil, or_false] at h2
      rcases h2 with rfl | rfl | rfl | rfl | rfl <;> rcases hfr with rfl | rfl | rfl <;>
        first | rfl | (revert h1; decide)
    · rintro ⟨rfl, rfl⟩
      refine ⟨List.prefix_rfl, ?_, rfl⟩
      rcases hfr with rfl | rfl | rfl <;> decide
  · rintro ⟨h1, h2, -⟩
    simp only [backendNames, List.mem_cons, List.not_mem_nil, or_false] at h2
    rcases h2 with rfl | rfl | rfl | rfl | rfl <;> (revert h1; decide)

/-- An importer that finds exactly the modules of the repository; the torch frontend gets the backend `torch_skcuda`. -/
example (is : Str) : ∃ imp : Str → Option Str,
    (∀ s b, imp (is ++ s ++ "_backend".toList) = some b ↔ s ∈ backendNames ∧ b = s) ∧
    instantiateBackend id imp is "torch".toList (.str "torch_skcuda".toList) = .ok "torch_skcuda".toList := by
  have h : ∀ s b, backendNames.find? (fun n => decide (is ++ s ++ "_backend".toList = is ++ n ++ "_backend".toList)) =
      some b ↔ s ∈ backendNames ∧ b = s := by
    intro s b
    constructor
    · intro h
      have h1 := List.mem_of_find?_eq_some h
      have h2 := List.find?_some h
      have h3 : s = b := by
        have := of_decide_eq_true h2
        exact List.append_cancel_left (List.append_cancel_right this)
      subst h3
      exact ⟨h1, rfl⟩
    · rintro ⟨h1, rfl⟩
      have : (backendNames.find? (fun n => decide (is ++ b ++ "_backend".toList = is ++ n ++ "_backend".toList))).isSome := by
        rw [List.find?_isSome]
        exact ⟨b, h1, by simp⟩
      obtain ⟨c, hc⟩ := Option.isSome_iff_exists.1 this
      have h2 := List.find?_some hc
      have h3 : b = c := List.append_cancel_left (List.append_cancel_right (of_decide_eq_true h2))
      rw [hc, h3]
  refine ⟨fun p => backendNames.find? (fun n => decide (p = is ++ n ++ "_backend".toList)), h, ?_⟩
  exact ((C51_repository_backends _ is h _).1 _).2 ⟨Or.inr rfl, rfl⟩

/-! ## C54 -/

/-- Specification of the base directory: the first of the three sources that is present. -/
def BaseDir (env : Option Str) (home : Str) (base : Option Str) (d : Str) : Prop :=
  base = some d ∨ (base = none ∧ env = some d) ∨
    (base = none ∧ env = none ∧
      d = (if home = [] ∨ home.getLast? = some '/' then home else home ++ ['/']) ++ "kymatio_cache".toList)

/-- `d` is the base directory of the code iff it is that of the specification. -/
theorem C54_base (env : Option Str) (home : Str) (base : Option Str) (d : Str) :
    findCacheBaseDir env home base = d ↔ BaseDir env home base d := by
  cases base with
  | some b => simp [findCacheBaseDir, BaseDir]
  | none =>
    cases env with
    | some v => simp [findCacheBaseDir, BaseDir]
    | none =>
      have hd : findCacheBaseDir none home none =
          (if home = [] ∨ home.getLast? = some '/' then home else home ++ ['/']) ++
            "kymatio_cache".toList := by
        have h1 : ¬ ("/".toList.isPrefixOf "kymatio_cache".toList = true) := by decide
        have h2 : "/".toList = ['/'] := rfl
        simp only [findCacheBaseDir, join]
        rw [if_neg h1, h2]
        split <;> rfl
      rw [hd]
      simp only [BaseDir, reduceCtorEq, true_and, false_or, and_false]
      exact eq_comm

/-- The requested name appended to a directory, with exactly one separator added if needed. -/
def Appended (d name path : Str) : Prop :=
  if d = [] ∨ d.getLast? = some '/' then path = d ++ name else path = d ++ ['/'] ++ name

/-- **Cache directory.**  For a relative `name`, whenever a path is returned it is the base directory of
the specification with the name appended; it exists afterwards; and every path that existed before still
does if `os.makedirs` removes nothing.  `ValueError` is raised exactly when the directory did not exist
and either creation was not allowed or `os.makedirs` itself raised `ValueError`.
Partial: an absolute `name` replaces the base directory (`C54_absolute_violated`). -/
theorem C54_cache_partial (mk : (Str → Prop) → Str → Py (Str → Prop))
    (hmk : ∀ fs p fs', mk fs p = .ok fs' → fs' p)
    (env : Option Str) (home : Str) (fs : Str → Prop) [DecidablePred fs] (name : Str)
    (base : Option Str) (create : Bool) (hrel : ¬ ['/'] <+: name) :
    (∀ path fs', getCacheDir mk env home fs name base create = .ok (path, fs') →
      (∃ d, BaseDir env home base d ∧ Appended d name path) ∧ fs' path ∧
        (fs path → fs' = fs) ∧ (¬ fs path → create = true ∧ mk fs path = .ok fs')) ∧
    (∃ d path, BaseDir env home base d ∧ Appended d name path ∧
      (getCacheDir mk env home fs name base create = .error .value ↔
        ¬ fs path ∧ (create = true → mk fs path = .error .value))) := by
  have hj : ∀ d, Appended d name (join d name) := fun d => by
    have h1 : "/".toList.isPrefixOf name = false := by
      rw [Bool.eq_false_iff]
      intro h
      exact hrel (List.isPrefixOf_iff_prefix.1 h)
    have h2 : "/".toList = ['/'] := rfl
    simp only [Appended, join, h1]
    by_cases h : d = [] ∨ d.getLast? = some '/' <;> simp [h, h2]
  constructor
  · intro path fs' h
    simp only [getCacheDir] at h
    split at h
    · rename_i he
      injection h with h
      injection h with h h'
      subst h h'
      exact ⟨⟨_, (C54_base ..).1 rfl, hj _⟩, he, fun _ => rfl, fun hn => absurd he hn⟩
    · rename_i he
      split at h
      · rename_i hc
        cases hm : mk fs (join (findCacheBaseDir env home base) name) with
        | error e => rw [hm] at h; cases h
        | ok fs'' =>
          rw [hm] at h
          injection h with h
          injection h with h h'
          subst h h'
          exact ⟨⟨_, (C54_base ..).1 rfl, hj _⟩, hmk _ _ _ hm, fun hn => absurd hn he, fun _ => ⟨hc, hm⟩⟩
      · cases h
  · refine ⟨_, _, (C54_base ..).1 rfl, hj _, ?_⟩
    simp only [getCacheDir]
    split
    · rename_i he
      simp [he]
    · rename_i he
      split
      · rename_i hc
        cases hm : mk fs (join (findCacheBaseDir env home base) name) with
        | error e => simp [he, hc, bind, Except.bind]
        | ok fs'' => simp [he, hc, bind, Except.bind]
      · rename_i hc
        simp [he, hc]

/-- `os.makedirs` on a file system without obstacles: the directory exists afterwards. -/
def mkAll (fs : Str → Prop) (p : Str) : Py (Str → Prop) := .ok fun q => fs q ∨ q = p

example : ∃ fs', getCacheDir mkAll none "/root".toList (fun _ => False) "mnist".toList none true =
    .ok ("/root/kymatio_cache/mnist".toList, fs') ∧ fs' "/root/kymatio_cache/mnist".toList := by
  refine ⟨_, rfl, Or.inr rfl⟩

/-- An empty `KYMATIO_CACHE` counts as present. -/
example : (getCacheDir mkAll (some []) "/root".toList (fun _ => False) "mnist".toList none true).map Prod.fst =
    .ok "mnist".toList := rfl

/-- The name is not appended when it is absolute: whatever the base directory, the path returned is the
name itself. -/
theorem C54_absolute_violated (mk : (Str → Prop) → Str → Py (Str → Prop)) (env : Option Str) (home : Str)
    (fs : Str → Prop) [DecidablePred fs] (name : Str) (base : Option Str) (create : Bool)
    (habs : ['/'] <+: name) (path : Str) (fs' : Str → Prop)
    (h : getCacheDir mk env home fs name base create = .ok (path, fs')) : path = name := by
  have hj : ∀ d, join d name = name := fun d => by
    have h1 : "/".toList.isPrefixOf name = true := List.isPrefixOf_iff_prefix.2 habs
    simp only [join, h1, if_true]
  simp only [getCacheDir, hj] at h
  split at h
  · injection h with h; injection h with h; exact h.symm
  · split at h
    · cases hm : mk fs name with
      | error e => rw [hm] at h; cases h
      | ok fs'' => rw [hm] at h; injection h with h; injection h with h; exact h.symm
    · cases h

example : (getCacheDir mkAll none "/root".toList (fun _ => False) "/tmp/x".toList (some "/data".toList) true).map
    Prod.fst = .ok "/tmp/x".toList := rfl

end Select

end Verif
