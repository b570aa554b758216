import Verif.Model.Object1D
import Verif.Lemmas.Paths1D
import Verif.Lemmas.Example1D
import Verif.Props.Sizes1D

/-!
# Properties C05, C15, C16 of `ScatteringBase1D.scattering` and `meta`
-/

namespace Verif

open Front1D

/-! ## C16: output types -/

/-- C16, sorting: the list output is in strictly increasing order of its labels, compared by order
first and then lexicographically; so no label appears twice. -/
theorem C16_list_sorted (B : Backend1D) (ops : FrontOps B.R) (o : Obj1D B.F) (x : B.R)
    (l : List (Path B.R)) (h : scattering B ops o x = .ok (.list l)) :
    (l.map fun p => p.n).Pairwise fun a b =>
      a.length < b.length ∨ (a.length = b.length ∧ a < b) := by
  obtain ⟨-, m, hm, ha⟩ := scattering_eq_ok.1 h
  unfold assemble at ha
  split at ha
  · cases ha
  · injection ha with ha
    injection ha with ha
    rw [← ha]
    exact sortPaths_sorted (paths_nodup hm)
  · obtain ⟨r, -, ha⟩ := bind_eq_ok.1 ha
    cases ha

/-- C16, dictionary: with `out_type='dict'` the call succeeds exactly when it does with
`out_type='list'`, and the two contain the same coefficients under the same labels, each label once. -/
theorem C16_dict_eq_list (B : Backend1D) (ops : FrontOps B.R) (o : Obj1D B.F) (x : B.R) :
    (∀ l, scattering B ops { o with outType := .list } x = .ok (.list l) →
      ∃ d, scattering B ops { o with outType := .dict } x = .ok (.dict d) ∧
        d.Perm (l.map fun p => (p.n, p.coef)) ∧ (d.map Prod.fst).Nodup) ∧
    (∀ d, scattering B ops { o with outType := .dict } x = .ok (.dict d) →
      ∃ l, scattering B ops { o with outType := .list } x = .ok (.list l) ∧
        d.Perm (l.map fun p => (p.n, p.coef)) ∧ (d.map Prod.fst).Nodup) := by
  have key : ∀ m, paths B ops o x = .ok m →
      (m.foldl (fun d p => dictInsert d p.n p.coef) []).Perm
        ((sortPaths m).map fun p => (p.n, p.coef)) ∧
      ((m.foldl (fun d p => dictInsert d p.n p.coef) []).map Prod.fst).Nodup := by
    intro m hm
    have hn := paths_nodup hm
    rw [dictInsert_fold m hn [] (by simp), List.nil_append]
    refine ⟨((sortPaths_perm m).map _).symm, ?_⟩
    rw [List.map_map]
    exact hn
  constructor
  · intro l h
    obtain ⟨-, m, hm, ha⟩ := scattering_eq_ok.1 h
    injection ha with ha
    injection ha with ha
    subst ha
    have hm' : paths B ops o x = .ok m := hm
    exact ⟨_, scattering_eq_ok.2 ⟨⟨(by simp), (by simp)⟩, m, hm', rfl⟩, key m hm'⟩
  · intro d h
    obtain ⟨-, m, hm, ha⟩ := scattering_eq_ok.1 h
    injection ha with ha
    injection ha with ha
    subst ha
    have hm' : paths B ops o x = .ok m := hm
    exact ⟨_, scattering_eq_ok.2 ⟨⟨(by simp), (by simp)⟩, m, hm', rfl⟩, key m hm'⟩

/-- C16, exceptions: `'list'` and `'dict'` raise the same exception on the same inputs. -/
theorem C16_dict_list_errors (B : Backend1D) (ops : FrontOps B.R) (o : Obj1D B.F) (x : B.R)
    (e : PyErr) :
    scattering B ops { o with outType := .list } x = .error e ↔
      scattering B ops { o with outType := .dict } x = .error e := by
  rw [scattering_eq, scattering_eq]
  have h1 : checkRuntimeArgs { o with outType := .list } = .ok () := check_ok.2 (by simp)
  have h2 : checkRuntimeArgs { o with outType := .dict } = .ok () := check_ok.2 (by simp)
  rw [h1, h2]
  have h3 : paths B ops { o with outType := .list } x = paths B ops o x := rfl
  have h4 : paths B ops { o with outType := .dict } x = paths B ops o x := rfl
  simp only [h3, h4, bind, Except.bind]
  cases paths B ops o x with
  | error e => exact Iff.rfl
  | ok m => simp [assemble]

/-- C16, array: an array output is the stack of the coefficients of the list output, in the order of
that list. -/
theorem C16_array_eq_list (B : Backend1D) (ops : FrontOps B.R) (o : Obj1D B.F) (x : B.R)
    (rows : List B.R) (h : scattering B ops { o with outType := .array } x = .ok (.array rows)) :
    ∃ l, scattering B ops { o with outType := .list } x = .ok (.list l) ∧
      rows = l.map fun p => p.coef := by
  obtain ⟨-, m, hm, ha⟩ := scattering_eq_ok.1 h
  obtain ⟨r, hr, ha⟩ := bind_eq_ok.1 ha
  injection ha with ha
  injection ha with ha
  subst ha
  have hm' : paths B ops o x = .ok m := hm
  refine ⟨_, scattering_eq_ok.2 ⟨⟨(by simp), (by simp)⟩, m, hm', rfl⟩, ?_⟩
  unfold stackRows at hr
  split at hr
  · cases hr
  · split at hr
    · injection hr with hr
      exact hr.symm
    · cases hr

/-- C16, array, converse: when averaging is on and all coefficients of the list output have equal
sizes, the array output exists. -/
theorem C16_array_exists (B : Backend1D) (ops : FrontOps B.R) (o : Obj1D B.F) (x : B.R)
    (l : List (Path B.R)) (h : scattering B ops { o with outType := .list } x = .ok (.list l))
    (havg : o.average ≠ .no)
    (hsize : ∀ p ∈ l, ∀ q ∈ l, ops.size p.coef = ops.size q.coef) :
    scattering B ops { o with outType := .array } x = .ok (.array (l.map fun p => p.coef)) := by
  obtain ⟨-, m, hm, ha⟩ := scattering_eq_ok.1 h
  injection ha with ha
  injection ha with ha
  subst ha
  have hm' : paths B ops o x = .ok m := hm
  refine scattering_eq_ok.2 ⟨⟨(by simp), (by simp [havg])⟩, m, hm', ?_⟩
  refine bind_eq_ok.2 ⟨(sortPaths m).map fun p => p.coef, ?_, rfl⟩
  have hne : sortPaths m ≠ [] := by
    intro h0
    have := (sortPaths_perm m).length_eq
    rw [h0, List.length_nil] at this
    exact paths_ne_nil hm' (List.length_eq_zero_iff.1 this.symm)
  obtain ⟨a, t, hat⟩ := List.exists_cons_of_ne_nil hne
  unfold stackRows
  rw [hat, List.map_cons]
  simp only
  rw [if_pos]
  rw [List.all_eq_true]
  intro c hc
  rw [← List.map_cons (f := fun p : Path B.R => p.coef), ← hat] at hc
  obtain ⟨p, hp, rfl⟩ := List.mem_map.1 hc
  simpa using hsize p hp a (by rw [hat]; simp)

/-- C16, array: with averaging off the array output is refused. -/
theorem C16_array_refused (B : Backend1D) (ops : FrontOps B.R) (o : Obj1D B.F) (x : B.R)
    (havg : o.average = .no) (ho : o.outType = .array) :
    scattering B ops o x = .error .value := by
  rw [scattering_eq]
  unfold checkRuntimeArgs
  rw [if_neg (by rw [ho]; simp), if_pos ⟨havg, ho⟩]
  rfl

/-! ## C05: output lengths -/

theorem dictGet_eq_ok {α : Type} {d : Dict α} {k : Nat} {a : α} :
    dictGet d k = .ok a ↔ d k = some a := by
  unfold dictGet
  cases d k <;> simp

/-- What a successful construction stores. -/
theorem make_sizes {a : Args1D} {s : Sc1D} (h : a.make = .ok s) :
    ∃ t lT, parseShape a.shape = .ok s.built.Ninput ∧
      parseT a.T a.J s.built.Ninput = .ok (t, s.average) ∧ lT = (floorLog2 t).toNat ∧
      s.built.padLeft + s.built.Ninput + s.built.padRight = s.built.Npadded ∧
      s.built.padLeft ≤ s.built.padRight ∧ s.built.padRight ≤ s.built.padLeft + 1 ∧
      s.built.padRight < s.built.Ninput ∧
      s.built.Npadded = 2 ^ jPad s.built.Ninput (minToPad s.built.Ninput t) ∧
      s.built.indStart = borderDict (max lT a.J) s.built.padLeft ∧
      s.built.indEnd = borderDict (max lT a.J) (s.built.padLeft + s.built.Ninput) ∧
      ∃ Q, parseQ a.Q = .ok Q ∧ createFilters s.built.Npadded a.J Q.1.toNat Q.2.toNat t =
        .ok (s.phi, s.psi1, s.psi2) := by
  unfold Args1D.make at h
  obtain ⟨N, hN, h⟩ := bind_eq_ok.1 h
  obtain ⟨T, hT, h⟩ := bind_eq_ok.1 h
  obtain ⟨b, hb, h⟩ := bind_eq_ok.1 h
  obtain ⟨Q, hQ, h⟩ := bind_eq_ok.1 h
  obtain ⟨f, hf, h⟩ := bind_eq_ok.1 h
  injection h with h
  subst h
  unfold build1D at hb
  obtain ⟨N', hN', hb⟩ := bind_eq_ok.1 hb
  rw [hN] at hN'
  injection hN' with hN'
  subst hN'
  obtain ⟨st, hst, hb⟩ := bind_eq_ok.1 hb
  obtain ⟨lT, hlT, hb⟩ := bind_eq_ok.1 hb
  obtain ⟨⟨l, r⟩, hlr, hb⟩ := bind_eq_ok.1 hb
  injection hb with hb
  subst hb
  unfold log2T at hlT
  rw [hT] at hlT
  injection hlT with hlT
  obtain ⟨h1, h2, h3, h4⟩ := (computePadding_eq _ _ _ _).1 hlr
  exact ⟨T.1, lT.toNat, hN, hT, by rw [← hlT], h1, h2, h3, h4, rfl, rfl, rfl, Q, hQ, hf⟩

/-- C05: for every successfully constructed object with local averaging, every coefficient of a
signal of length `N` has the same length `L`: the number of multiples of the stride `2^ls` in the
original range of the padded signal.  `L` differs from `N / 2^ls` by less than one and equals it when
the stride divides `N`. -/
theorem C05_output_length (a : Args1D) (s : Sc1D) (ls : Nat) (x : List ℝ)
    (l : List (Path (List ℝ))) (hmake : a.make = .ok s) (havg : s.average = .loc)
    (hls : log2Stride s.built.stride a.T a.J s.built.Ninput = .ok ls)
    (hx : parseShape a.shape = .ok x.length)
    (hl : a.run x = .ok (.list l)) :
    ∃ L, (∀ p ∈ l, p.coef.length = L) ∧
      L = ((Finset.range s.built.Npadded).filter fun i => 2 ^ ls ∣ i ∧ s.built.padLeft ≤ i ∧
        i < s.built.padLeft + x.length).card ∧
      L * 2 ^ ls < x.length + 2 ^ ls ∧ x.length < L * 2 ^ ls + 2 ^ ls ∧
      (2 ^ ls ∣ x.length → L = x.length / 2 ^ ls) := by
  obtain ⟨s', hs', hrun⟩ := bind_eq_ok.1 hl
  rw [hmake] at hs'
  injection hs' with hs'
  subst hs'
  obtain ⟨t, lT, hN, hT, hlT, h1, h2, h3, h4, h5, h6, h7, -⟩ := make_sizes hmake
  rw [hx] at hN
  injection hN with hN
  obtain ⟨-, m, hm, ha⟩ := scattering_eq_ok.1 hrun
  have hl' : l = sortPaths m := by
    unfold assemble at ha
    split at ha
    · cases ha
    · injection ha with ha
      injection ha with ha
      exact ha.symm
    · obtain ⟨r, -, ha⟩ := bind_eq_ok.1 ha
      cases ha
  obtain ⟨U0, ls', out, hU0, hls', hout, hpost⟩ := paths_eq_ok.1 hm
  have hls'' : (ls : Int) = ls' := by
    have : log2Stride s.built.stride a.T a.J s.built.Ninput = .ok ls' := hls'
    rw [hls] at this
    injection this
  subst hls''
  rw [Int.toNat_natCast] at hout hpost
  have hav : (a.obj s).average = .loc := havg
  have hU : U0.length = s.built.padLeft + x.length + s.built.padRight := (npPad_length hU0).2.2
  rw [hN, h1] at hU
  have hcoef : ∀ p ∈ out, p.coef.length * 2 ^ ls = s.built.Npadded := by
    intro p hp
    have := core_length hout hp
    rw [hU] at this
    simpa [hav] using this
  have hres : ∀ p : Path (List ℝ), resolution (a.obj s) ls p = .ok ls := by
    intro p
    unfold resolution
    rw [if_pos hav]
  have hrow : ∀ q ∈ m, ∃ p ∈ out, ∃ i0 i1, s.built.indStart ls = some i0 ∧
      s.built.indEnd ls = some i1 ∧ q.coef = npUnpad p.coef i0 i1 := by
    intro q hq
    obtain ⟨p, hp, hpq⟩ := forall₂_mem_right hpost hq
    unfold post at hpq
    rw [hres] at hpq
    have hne : ¬ (a.obj s).average = .glob := by rw [hav]; simp
    simp only [bind, Except.bind, if_neg hne] at hpq
    cases hi0 : dictGet (a.obj s).indStart ls with
    | error e => rw [hi0] at hpq; cases hpq
    | ok i0 =>
      rw [hi0] at hpq
      cases hi1 : dictGet (a.obj s).indEnd ls with
      | error e => rw [hi1] at hpq; cases hpq
      | ok i1 =>
        rw [hi1] at hpq
        injection hpq with hpq
        refine ⟨p, hp, i0, i1, dictGet_eq_ok.1 hi0, dictGet_eq_ok.1 hi1, ?_⟩
        rw [← hpq]
        rfl
  obtain ⟨q0, hq0⟩ := List.exists_mem_of_ne_nil _ (paths_ne_nil hm)
  obtain ⟨p0, hp0, i0, i1, hi0, hi1, -⟩ := hrow q0 hq0
  have hjle : ls ≤ max lT a.J := by
    rw [h6, borderDict_get] at hi0
    by_contra hc
    rw [if_neg hc] at hi0
    cases hi0
  have hdiv : 2 ^ ls ∣ s.built.padLeft + s.built.Ninput + s.built.padRight := by
    rw [h1, ← hcoef p0 hp0]
    exact Dvd.intro_left _ rfl
  obtain ⟨st, e, hst, he, hse, hle, hcard, hlt1, hlt2, hdv⟩ :=
    C05_unpadded_length lT a.J s.built.Ninput s.built.padLeft s.built.padRight ls hjle hdiv
  have hst' : s.built.indStart ls = some st := by rw [h6]; exact hst
  have he' : s.built.indEnd ls = some e := by rw [h7]; exact he
  rw [hN]
  rw [h1] at hcard hle
  refine ⟨e - st, ?_, hcard, hlt1, hlt2, hdv⟩
  intro q hq
  rw [hl', mem_sortPaths] at hq
  obtain ⟨p, hp, j0, j1, hj0, hj1, hqc⟩ := hrow q hq
  rw [hst'] at hj0
  rw [he'] at hj1
  injection hj0 with hj0
  injection hj1 with hj1
  subst hj0
  subst hj1
  rw [hqc]
  unfold npUnpad
  rw [List.length_drop, List.length_take]
  have := hcoef p hp
  have hp' : p.coef.length = s.built.Npadded / 2 ^ ls := by
    rw [← this, Nat.mul_div_cancel _ (by positivity)]
  rw [hp', min_eq_left hle]

/-- With global averaging every coefficient is a single number. -/
theorem C05_global_length (a : Args1D) (s : Sc1D) (x : List ℝ)
    (l : List (Path (List ℝ))) (hmake : a.make = .ok s) (havg : s.average = .glob)
    (hl : a.run x = .ok (.list l)) : ∀ p ∈ l, p.coef.length = 1 := by
  obtain ⟨s', hs', hrun⟩ := bind_eq_ok.1 hl
  rw [hmake] at hs'
  injection hs' with hs'
  subst hs'
  obtain ⟨-, m, hm, ha⟩ := scattering_eq_ok.1 hrun
  have hl' : l = sortPaths m := by
    unfold assemble at ha
    split at ha
    · cases ha
    · injection ha with ha
      injection ha with ha
      exact ha.symm
    · obtain ⟨r, -, ha⟩ := bind_eq_ok.1 ha
      cases ha
  obtain ⟨U0, ls, out, -, -, -, hpost⟩ := paths_eq_ok.1 hm
  intro q hq
  rw [hl', mem_sortPaths] at hq
  obtain ⟨p, hp, hpq⟩ := forall₂_mem_right hpost hq
  unfold post at hpq
  obtain ⟨r, -, hpq⟩ := bind_eq_ok.1 hpq
  have hav : (a.obj s).average = .glob := havg
  rw [if_pos hav] at hpq
  injection hpq with hpq
  rw [← hpq]
  rfl

/-! ## C15: metadata -/

theorem metaPaths_keys {F : Type} {o : Obj1D F} {S : List (Path Unit)}
    (h : metaPaths o = .ok S) :
    (S.map fun p => p.n) = ((Core1D.labels (dryBackend F) (psis o)).map Prod.snd).mergeSort keyLe := by
  unfold metaPaths at h
  obtain ⟨ls, hls, h⟩ := bind_eq_ok.1 h
  obtain ⟨out, hout, h⟩ := bind_eq_ok.1 h
  obtain ⟨_, -, h⟩ := bind_eq_ok.1 h
  injection h with h
  rw [← h, map_sortPaths, ← Core1D.labels_eq (dryBackend F) hout, List.map_map]
  rfl

theorem labels_length (B : Backend1D) (l : List (List (Filt B.F))) :
    ∀ q ∈ Core1D.labels B l, q.2.length ≤ 2 ∧ (l[1]? = none → q.2.length ≤ 1) := by
  intro q hq
  unfold Core1D.labels at hq
  rcases List.mem_cons.1 hq with rfl | hq
  · exact ⟨by simp, fun _ => by simp⟩
  obtain ⟨p, -, hq⟩ := List.mem_flatMap.1 hq
  rcases List.mem_cons.1 hq with rfl | hq
  · exact ⟨by simp, fun _ => by simp⟩
  unfold Core1D.labels2 at hq
  obtain ⟨g, hg, hq⟩ := List.mem_flatMap.1 hq
  split at hq
  · rw [List.mem_singleton.1 hq]
    refine ⟨by simp, fun h => ?_⟩
    rw [h] at hg
    simp at hg
  · cases hq

/-- The rows of `meta()['n']` have the same length whenever no path is longer than `max_order`. -/
theorem metaN_ok {mo : Int} {S : List (Path Unit)} (h : ∀ p ∈ S, (p.n.length : Int) ≤ mo) :
    ∃ r, metaN mo S = .ok r := by
  have hlen : ∀ r ∈ S.map (fun p => p.n.map some ++ List.replicate (mo - p.n.length).toNat (none : Option Nat)),
      r.length = mo.toNat := by
    intro r hr
    obtain ⟨p, hp, rfl⟩ := List.mem_map.1 hr
    have := h p hp
    simp only [List.length_append, List.length_map, List.length_replicate]
    omega
  refine ⟨_, if_pos ?_⟩
  rw [List.all_eq_true]
  intro r hr
  rw [List.all_eq_true]
  intro r' hr'
  rw [hlen r hr, hlen r' hr', beq_self_eq_true]

theorem metaN_ok_of_run {F : Type} {o : Obj1D F} (hmo : 1 ≤ o.maxOrder) {ls : Nat}
    {out : List (Path Unit)}
    (h : Core1D.scattering1d (dryBackend F) () o.phi (psis o) ls false = .ok out) :
    ∃ r, metaN o.maxOrder (sortPaths out) = .ok r := by
  refine metaN_ok fun p hp => ?_
  have hp' : p ∈ out := (List.mergeSort_perm _ _).mem_iff.1 hp
  have hl : (p.j, p.n) ∈ Core1D.labels (dryBackend F) (psis o) := by
    rw [← Core1D.labels_eq (dryBackend F) h]
    exact List.mem_map.2 ⟨p, hp', rfl⟩
  obtain ⟨h2, h1⟩ := labels_length _ _ _ hl
  by_cases hm : 2 ≤ o.maxOrder
  · have : p.n.length ≤ 2 := h2
    omega
  · have : p.n.length ≤ 1 := h1 (by
      rw [psis_eq, nBanks_of_nonneg (by omega), show o.maxOrder = 1 by omega]
      rfl)
    omega

theorem labels_backend (A B : Backend1D) (hF : A.F = B.F) (l : List (List (Filt A.F))) :
    Core1D.labels A l = Core1D.labels B (hF ▸ l) := by
  obtain ⟨RA, CA, FA, a1, a2, a3, a4, a5, a6⟩ := A
  obtain ⟨RB, CB, FB, b1, b2, b3, b4, b5, b6⟩ := B
  simp only at hF
  subst hF
  rfl

/-- C15: whenever `meta()` returns and the transform returns a list, `meta()['key']` is the list of
the labels of the items in order, `meta()['order']` their lengths, and `output_size()` their number;
and these are also the rows of the array output. -/
theorem C15_meta_rows (B : Backend1D) (ops : FrontOps B.R) (o : Obj1D B.F) (x : B.R)
    (keys : List (List Nat)) (hk : metaKey o = .ok keys) (l : List (Path B.R))
    (hl : scattering B ops { o with outType := .list } x = .ok (.list l)) :
    keys = l.map (fun p => p.n) ∧ metaOrder o = .ok (l.map fun p => p.n.length) ∧
      outputSize o = .ok l.length ∧
      ∀ rows, scattering B ops { o with outType := .array } x = .ok (.array rows) →
        rows.length = keys.length ∧
          ∀ (i : Nat) (r : B.R) (n : List Nat), rows[i]? = some r → keys[i]? = some n →
            ∃ p ∈ l, p.n = n ∧ p.coef = r := by
  obtain ⟨S, hS, hk⟩ := bind_eq_ok.1 hk
  injection hk with hk
  obtain ⟨-, m, hm, ha⟩ := scattering_eq_ok.1 hl
  injection ha with ha
  injection ha with ha
  have hm' : paths B ops o x = .ok m := hm
  have hkl : keys = l.map (fun p => p.n) := by
    rw [← hk, metaPaths_keys hS, ← ha, map_sortPaths]
    congr 1
    have hlab := paths_labels hm'
    have : Core1D.labels B (psis o) = Core1D.labels (dryBackend B.F) (psis o) :=
      labels_backend B (dryBackend B.F) rfl _
    rw [← this, ← hlab, List.map_map]
    rfl
  refine ⟨hkl, ?_, ?_, ?_⟩
  · unfold metaOrder
    refine bind_eq_ok.2 ⟨S, hS, ?_⟩
    have : (S.map fun p => p.n.length) = (S.map fun p => p.n).map List.length := by
      rw [List.map_map]; rfl
    rw [this, hk, hkl, List.map_map]
    rfl
  · unfold outputSize metaKey
    refine bind_eq_ok.2 ⟨keys, bind_eq_ok.2 ⟨S, hS, by rw [hk]⟩, ?_⟩
    rw [hkl, List.length_map]
  · intro rows hrows
    obtain ⟨l', hl', hr⟩ := C16_array_eq_list B ops o x rows hrows
    rw [hl] at hl'
    injection hl' with hl'
    injection hl' with hl'
    subst hl'
    refine ⟨by rw [hr, hkl]; simp, ?_⟩
    intro i r n hri hni
    rw [hr, List.getElem?_map] at hri
    rw [hkl, List.getElem?_map] at hni
    cases hp : l[i]? with
    | none => rw [hp] at hri; cases hri
    | some p =>
      rw [hp] at hri hni
      injection hri with hri
      injection hni with hni
      exact ⟨p, List.mem_of_getElem? hp, hni, hri⟩

/-- C15, attribute columns: the entry of row `key` and order `i` is the attribute of the filter
number `key[i]` of the `i`-th bank, and NaN (`none`) beyond the length of the key. -/
theorem C15_meta_column {V : Type} (key : List Nat) (i : Nat) (bank : List V) :
    metaEntry key i bank = (key[i]?).bind fun n => bank[n]? := by
  have gen : ∀ (bank : List V) (k : Nat) (acc : Option V),
      (bank.zipIdx k).foldl (fun acc q => if key[i]? = some q.2 then some q.1 else acc) acc =
        match key[i]? with
        | none => acc
        | some n => if k ≤ n ∧ n < k + bank.length then bank[n - k]? else acc := by
    intro bank
    induction bank with
    | nil =>
      intro k acc
      cases key[i]? with
      | none => rfl
      | some n =>
        simp only [List.zipIdx_nil, List.foldl_nil, List.length_nil]
        rw [if_neg (by omega)]
    | cons v bank ih =>
      intro k acc
      rw [List.zipIdx_cons, List.foldl_cons, ih]
      cases hn : key[i]? with
      | none => simp
      | some n =>
        simp only [Option.some.injEq, List.length_cons]
        by_cases h1 : n = k
        · subst h1
          rw [if_neg (by omega), if_pos rfl, if_pos (by omega)]
          simp
        · rw [if_neg h1]
          by_cases h2 : k + 1 ≤ n ∧ n < k + 1 + bank.length
          · rw [if_pos h2, if_pos (by omega)]
            have : n - k = (n - (k + 1)) + 1 := by omega
            rw [this, List.getElem?_cons_succ]
          · rw [if_neg h2, if_neg (by omega)]
  unfold metaEntry
  rw [gen]
  cases key[i]? with
  | none => rfl
  | some n =>
    simp only [Option.bind_some, zero_le, true_and, Nat.zero_add, Nat.sub_zero]
    split
    · rfl
    · rename_i h
      exact (List.getElem?_eq_none (by omega)).symm

/-- C15, where `meta()` works: with the dry backend the only thing that can fail is reading a filter
resolution.  Given that the stride is valid and the object has a first-order bank, `meta()` returns
if and only if every first-order filter has a level 0 and, for each pair with `j1 < j2`, the
second-order filter has a level `j1`. -/
theorem C15_meta_ok_iff {F : Type} (o : Obj1D F) (ls : Int) (hls : o.log2Stride = .ok ls)
    (hmo : 1 ≤ o.maxOrder) :
    (∃ keys, metaKey o = .ok keys) ↔
      (∀ f ∈ o.psi1, 0 < f.levels.length) ∧
      (2 ≤ o.maxOrder → ∀ f ∈ o.psi1, ∀ g ∈ o.psi2, f.j < g.j → f.j < g.levels.length) := by
  have hget : ∀ {α : Type} (l : List α) (i : Nat), (∃ a, listGet l i = .ok a) ↔ i < l.length := by
    intro α l i
    unfold listGet
    constructor
    · rintro ⟨a, ha⟩
      by_contra hc
      rw [List.getElem?_eq_none (by omega)] at ha
      cases ha
    · intro h
      rw [List.getElem?_eq_getElem h]
      exact ⟨_, rfl⟩
  have hband : ∀ (psi : Filt F) (u : Unit) (lev e : Nat),
      (∃ a, Core1D.bandpass (dryBackend F) psi u lev e = .ok a) ↔ lev < psi.levels.length := by
    intro psi u lev e
    rw [← hget]
    unfold Core1D.bandpass
    constructor
    · rintro ⟨a, ha⟩
      obtain ⟨f, hf, -⟩ := bind_eq_ok.1 ha
      exact ⟨f, hf⟩
    · rintro ⟨f, hf⟩
      exact ⟨(), bind_eq_ok.2 ⟨f, hf, rfl⟩⟩
  have h0 : (psis o)[0]? = some o.psi1 := by
    rw [psis_eq, nBanks_of_nonneg (by omega), List.getElem?_take]
    rw [if_pos (by omega)]
    rfl
  have h1 : (psis o)[1]? = if 2 ≤ o.maxOrder then some o.psi2 else none := by
    rw [psis_eq, nBanks_of_nonneg (by omega), List.getElem?_take]
    by_cases h : 2 ≤ o.maxOrder
    · rw [if_pos (by omega), if_pos h]; rfl
    · rw [if_neg (by omega), if_neg h]
  have hsec : ∀ (j1 n1 : Nat) (u : Unit) (g : Filt F) (n2 : Nat),
      (∃ r, Core1D.secondOrder (dryBackend F) o.phi ls.toNat false j1 n1 j1 u g n2 = .ok r) ↔
        (j1 < g.j → j1 < g.levels.length) := by
    intro j1 n1 u g n2
    unfold Core1D.secondOrder
    by_cases hj : g.j > j1
    · simp only [hj, if_true, Bool.false_eq_true, if_false]
      simp only [forall_const]
      rw [← hband g u j1 (g.j - j1)]
      constructor
      · rintro ⟨r, hr⟩
        obtain ⟨a, ha, -⟩ := bind_eq_ok.1 hr
        exact ⟨a, ha⟩
      · rintro ⟨a, ha⟩
        exact ⟨_, bind_eq_ok.2 ⟨a, ha, rfl⟩⟩
    · simp only [hj, if_false]
      constructor
      · intro _ h; exact absurd h id
      · intro _; exact ⟨_, rfl⟩
  have hfirst : ∀ (u : Unit) (f : Filt F) (n1 : Nat),
      (∃ r, Core1D.firstOrder (dryBackend F) o.phi (psis o) ls.toNat false u f n1 = .ok r) ↔
        0 < f.levels.length ∧
          (2 ≤ o.maxOrder → ∀ g ∈ o.psi2, f.j < g.j → f.j < g.levels.length) := by
    intro u f n1
    rw [← hband f u 0 f.j]
    unfold Core1D.firstOrder
    rw [h1]
    by_cases h2 : 2 ≤ o.maxOrder
    · simp only [h2, if_true, forall_const]
      constructor
      · rintro ⟨r, hr⟩
        obtain ⟨a, ha, hr⟩ := bind_eq_ok.1 hr
        refine ⟨⟨a, ha⟩, ?_⟩
        obtain ⟨uh, -, hr⟩ := bind_eq_ok.1 hr
        obtain ⟨p1, -, hr⟩ := bind_eq_ok.1 hr
        obtain ⟨p2, hp2, -⟩ := bind_eq_ok.1 hr
        intro g hg
        obtain ⟨i, hi⟩ := List.getElem?_of_mem hg
        exact (hsec f.j n1 uh g i).1 (Core1D.forEnum_all_ok hp2 hi)
      · rintro ⟨⟨a, ha⟩, hg⟩
        obtain ⟨p2, hp2⟩ := Core1D.forEnum_ok (n := 0) (l := o.psi2)
          (f := Core1D.secondOrder (dryBackend F) o.phi ls.toNat false f.j n1 f.j ())
          (fun i g hi => by
            rw [Nat.zero_add]
            exact (hsec f.j n1 () g i).2 (hg g (List.mem_of_getElem? hi)))
        exact ⟨_, bind_eq_ok.2 ⟨a, ha, bind_eq_ok.2 ⟨(), rfl, bind_eq_ok.2 ⟨_, rfl,
          bind_eq_ok.2 ⟨p2, hp2, rfl⟩⟩⟩⟩⟩
    · simp only [h2, if_false, false_imp_iff, and_true]
      constructor
      · rintro ⟨r, hr⟩
        obtain ⟨a, ha, hr⟩ := bind_eq_ok.1 hr
        exact ⟨a, ha⟩
      · rintro ⟨a, ha⟩
        exact ⟨_, bind_eq_ok.2 ⟨a, ha, rfl⟩⟩
  have hcore : (∃ out, Core1D.scattering1d (dryBackend F) () o.phi (psis o) ls.toNat false = .ok out)
      ↔ ∀ f ∈ o.psi1, 0 < f.levels.length ∧
          (2 ≤ o.maxOrder → ∀ g ∈ o.psi2, f.j < g.j → f.j < g.levels.length) := by
    constructor
    · rintro ⟨out, hout⟩ f hf
      obtain ⟨uh, c, p1, r, huh, hc, hp1, hr, -⟩ := Core1D.scattering1d_eq_ok _ hout
      rw [h0] at hp1
      injection hp1 with hp1
      subst hp1
      obtain ⟨i, hi⟩ := List.getElem?_of_mem hf
      exact (hfirst uh f i).1 (Core1D.forEnum_all_ok hr hi)
    · intro h
      obtain ⟨r, hr⟩ := Core1D.forEnum_ok (n := 0) (l := o.psi1)
          (f := Core1D.firstOrder (dryBackend F) o.phi (psis o) ls.toNat false ())
          (fun i f hi => by
            rw [Nat.zero_add]
            exact (hfirst () f i).2 (h f (List.mem_of_getElem? hi)))
      refine ⟨_, bind_eq_ok.2 ⟨(), rfl, bind_eq_ok.2 ⟨(), rfl, bind_eq_ok.2 ⟨o.psi1, ?_,
        bind_eq_ok.2 ⟨r, hr, rfl⟩⟩⟩⟩⟩
      unfold listGet
      rw [h0]
  have hmeta : (∃ keys, metaKey o = .ok keys) ↔
      ∃ out, Core1D.scattering1d (dryBackend F) () o.phi (psis o) ls.toNat false = .ok out := by
    unfold metaKey metaPaths
    constructor
    · rintro ⟨k, hk⟩
      obtain ⟨S, hS, -⟩ := bind_eq_ok.1 hk
      obtain ⟨ls', hls', hS⟩ := bind_eq_ok.1 hS
      rw [hls] at hls'
      injection hls' with hls'
      subst hls'
      obtain ⟨out, hout, -⟩ := bind_eq_ok.1 hS
      exact ⟨out, hout⟩
    · rintro ⟨out, hout⟩
      obtain ⟨r, hr⟩ := metaN_ok_of_run hmo hout
      exact ⟨_, bind_eq_ok.2 ⟨sortPaths out,
        bind_eq_ok.2 ⟨ls, hls, bind_eq_ok.2 ⟨out, hout, bind_eq_ok.2 ⟨r, hr, rfl⟩⟩⟩, rfl⟩⟩
  rw [hmeta, hcore]
  constructor
  · intro h
    exact ⟨fun f hf => (h f hf).1, fun h2 f hf => (h f hf).2 h2⟩
  · rintro ⟨h1, h2⟩ f hf
    exact ⟨h1 f hf, fun hm => h2 hm f hf⟩

/-! ### Examples -/

example (x : List ℝ) (hx : x.length = 4) :
    ∃ l, scattering npBackend npFront { exObj .loc with outType := .list } x = .ok (.list l) :=
  exObj_run .loc x hx

example : ∃ keys, metaKey (exObj .loc) = .ok keys :=
  (C15_meta_ok_iff _ 1 rfl (by decide)).2 (by
    simp only [exObj, exFilt]
    refine ⟨by simp, fun _ f hf g hg h => ?_⟩
    simp only [List.mem_cons, List.not_mem_nil, or_false] at hf hg
    rcases hf with rfl | rfl <;> rcases hg with rfl | rfl <;> simp at h ⊢)

end Verif
