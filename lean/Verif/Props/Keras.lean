import Verif.Model.Keras
import Verif.Props.NdArray
import Verif.Props.NdArray2D
import Verif.Props.Meta1D

/-!
# C53, C79: Keras layers
-/

namespace Verif

/-- The static shape agrees with the shape of an actual array: same rank, and every known dimension is right. -/
def Spec.Describes (st : StaticShape) (shape : List Nat) : Prop :=
  List.Forall₂ (fun d n => d = none ∨ d = some n) st shape

open Spec

theorem describes_lead {st : StaticShape} {shape : List Nat} (h : Describes st shape) : st.length = shape.length :=
  h.length_eq

/-! ## One dimension -/

/-- The number of multiples of `2^j` inside the signal, in the padded domain. -/
def insideCount (s : Sc1D) (j : Nat) : Nat :=
  ((Finset.range s.built.Npadded).filter fun i =>
    2 ^ j ∣ i ∧ s.built.padLeft ≤ i ∧ i < s.built.padLeft + s.built.Ninput).card

/-- What the layer announces and what it returns. -/
theorem keras1_shapes (k : Keras1D) (N : Nat) (hN : 1 ≤ N) (t : Rat) (av : Average)
    (hT : parseT k.T k.J N = .ok (t, av)) (hav : av ≠ .no) (Q1 Q2 : Int) (hQ : parseQ k.Q = .ok (Q1, Q2))
    (hQ12 : Q2 ≤ Q1) (hJ : k.J ≤ jPad N (minToPad N t)) (ht4 : (2 : Rat) ^ k.J ≤ 4 * t) (lead : StaticShape)
    (bs : List Nat) (X : Nd ℝ) (hs : X.shape = bs ++ [N]) (hd : X.data.length = bs.prod * N) :
    ∃ s S nc n, (k.args (.tuple [N])).make = .ok s ∧ s.built.Ninput = N ∧
      k.call (lead ++ [some N]) X = .ok (.array S) ∧ S.shape = bs ++ [nc, n] ∧
      (k.outputShape (lead ++ [some N]) = .ok [(lead ++ [some N])[0], some nc, some (insideCount s k.J)]) ∧
      (av = .loc → n = insideCount s (floorLog2 t).toNat) ∧ (av = .glob → n = 1) ∧
      (∀ j, j ≤ max (floorLog2 t).toNat k.J → j ≤ jPad N (minToPad N t) → 2 ^ j ∣ N → insideCount s j = N / 2 ^ j) := by
  have hav' : (k.args (.tuple [N])).outType = .array ∧ av ≠ .no := ⟨rfl, hav⟩
  obtain ⟨s, hmake, hNi, hsav, hrun⟩ := C17_no_error (k.args (.tuple [N])) N rfl hN t av hT Q1 Q2 hQ hQ12 hJ rfl
    (by show 1 ≤ 2; norm_num) (Or.inl rfl) (Or.inr (Or.inr hav'))
  obtain ⟨t', lT, hNs, hT', hlT, h1, h2, h3, h4, h5, h6, h7, Q, hQ', hcf⟩ := make_sizes hmake
  have hT'' : parseT k.T k.J s.built.Ninput = .ok (t', s.average) := hT'
  rw [hNi, hT] at hT''
  obtain ⟨rfl, -⟩ := Prod.mk.inj (Except.ok.inj hT'')
  have hbuild : k.build (lead ++ [some N]) = .ok (k.args (.tuple [N]), s) := by
    unfold Keras1D.build lastAxis
    rw [List.getLast?_append]
    simp only [List.getLast?_singleton, Option.some_or]
    show ((k.args (.tuple [N])).make >>= _) = _
    rw [hmake]
    rfl
  -- a lone signal
  have hz : (List.replicate N (0 : ℝ)).length = N := List.length_replicate
  obtain ⟨r, hr⟩ := hrun (List.replicate N 0) hz
  unfold Args1D.run at hr
  rw [hmake] at hr
  have hr : Front1D.scattering npBackend npFront ((k.args (.tuple [N])).obj s) (List.replicate N 0) = .ok r := hr
  have hr1 := hr
  unfold Front1D.scattering at hr1
  obtain ⟨_, _, hr1⟩ := bind_eq_ok.1 hr1
  obtain ⟨_, _, hr1⟩ := bind_eq_ok.1 hr1
  obtain ⟨_, _, hr1⟩ := bind_eq_ok.1 hr1
  obtain ⟨_, _, hr1⟩ := bind_eq_ok.1 hr1
  obtain ⟨_, _, hr1⟩ := bind_eq_ok.1 hr1
  obtain ⟨rows, hst, hr1⟩ := bind_eq_ok.1 hr1
  obtain rfl := Except.ok.inj hr1
  clear hr1
  have hne : rows ≠ [] := by
    intro h0
    unfold Front1D.stackRows at hst
    split at hst
    · cases hst
    · split at hst
      · rename_i e _
        have e' := Except.ok.inj hst
        rw [h0] at e'
        rw [e'] at e
        cases e
      · cases hst
  obtain ⟨l, hl, hrows⟩ := C16_array_eq_list npBackend npFront ((k.args (.tuple [N])).obj s) _ rows hr
  obtain ⟨s', hmake', -, -, hstr⟩ := C17_construction (k.args (.tuple [N])) N rfl hN t av hT Q1 Q2 hQ hQ12 hJ
    (Or.inr rfl)
  rw [hmake] at hmake'
  obtain rfl := Except.ok.inj hmake'
  obtain ⟨kT, hk, hk1, hk2⟩ := C06_log2_T k.T k.J N _ hT
  have hfl : floorLog2 t = (kT : ℤ) := by
    unfold log2T at hk
    rw [hT] at hk
    exact Except.ok.inj hk
  have hls : log2Stride s.built.stride (k.args (.tuple [N])).T (k.args (.tuple [N])).J s.built.Ninput = .ok (kT : ℤ) := by
    rw [hstr, hNi]
    exact hk
  obtain ⟨keys, hkeys⟩ := C15_meta_object_partial (k.args (.tuple [N])) s hmake Q1 Q2 hQ hQ12 (by show 1 ≤ 2; norm_num)
    kT hls t av (by rw [hNi]; exact hT) ht4
  obtain ⟨-, -, hos, hrk⟩ := C15_meta_rows npBackend npFront ((k.args (.tuple [N])).obj s) _ keys hkeys l hl
  obtain ⟨S, n, hS, hSs, hn, -⟩ := C22_nd_array_returns ((k.args (.tuple [N])).obj s) _ rows hr bs X
    (by rw [hz]; exact hs) (by rw [hz]; exact hd)
  have hlen : l.length = rows.length := by rw [hrows, List.length_map]
  have hlist : { k.args (.tuple [N]) with outType := .list }.run (List.replicate N 0) = .ok (.list l) :=
    bind_eq_ok.2 ⟨s, hmake, hl⟩
  obtain ⟨y, hy⟩ : ∃ y, y ∈ rows := List.exists_mem_of_ne_nil rows hne
  obtain ⟨p, hp, hpy⟩ : ∃ p ∈ l, p.coef = y := by
    rw [hrows] at hy
    exact List.mem_map.1 hy
  -- border indices at any resolution
  have hKdiv : ∀ j, j ≤ jPad N (minToPad N t) → 2 ^ j ∣ s.built.padLeft + N + s.built.padRight := by
    intro j hj
    have : s.built.padLeft + N + s.built.padRight = s.built.padLeft + s.built.Ninput + s.built.padRight := by rw [hNi]
    rw [this, h1, h5, hNi]
    exact Nat.pow_dvd_pow 2 hj
  have hborder : ∀ j, j ≤ max (floorLog2 t).toNat k.J → j ≤ jPad N (minToPad N t) → ∃ b e,
      s.built.indStart j = some b ∧ s.built.indEnd j = some e ∧ e - b = insideCount s j ∧
      (2 ^ j ∣ N → insideCount s j = N / 2 ^ j) := by
    intro j hj hj2
    obtain ⟨b, e, hb, he, -, -, hcard, -, -, hdiv⟩ := C05_unpadded_length (floorLog2 t).toNat k.J N s.built.padLeft
      s.built.padRight j hj (hKdiv j hj2)
    have hcount : e - b = insideCount s j := by
      rw [hcard]
      unfold insideCount
      have : s.built.padLeft + N + s.built.padRight = s.built.Npadded := by rw [← h1, hNi]
      rw [this, hNi]
    refine ⟨b, e, ?_, ?_, hcount, fun hd => by rw [← hcount]; exact hdiv hd⟩
    · rw [h6, hlT]; exact hb
    · rw [h7, hlT, hNi]; exact he
  refine ⟨s, S, rows.length, n, hmake, hNi, ?_, hSs, ?_, ?_, ?_, ?_⟩
  · unfold Keras1D.call
    rw [hbuild]
    exact hS
  · obtain ⟨b, e, hb, he, hc, -⟩ := hborder k.J (le_max_right _ _) hJ
    unfold Keras1D.outputShape
    rw [hbuild]
    refine bind_eq_ok.2 ⟨_, rfl, bind_eq_ok.2 ⟨l.length, hos, bind_eq_ok.2 ⟨e, dictGet_eq_ok.2 he,
      bind_eq_ok.2 ⟨b, dictGet_eq_ok.2 hb, bind_eq_ok.2 ⟨_, listGet_eq_ok.2 (List.getElem?_eq_getElem (by simp)), ?_⟩⟩⟩⟩⟩
    rw [hlen, hc]
  · rintro rfl
    obtain ⟨L, hL, hLc, -⟩ := C05_output_length { k.args (.tuple [N]) with outType := .list } s kT
      (List.replicate N 0) l hmake hsav hls (by rw [hz]; rfl) hlist
    rw [← hn y hy, ← hpy, hL p hp, hLc, hfl]
    unfold insideCount
    rw [hz, hNi]
    rfl
  · rintro rfl
    rw [← hn y hy, ← hpy]
    exact C05_global_length { k.args (.tuple [N]) with outType := .list } s (List.replicate N 0) l hmake hsav hlist p hp
  · intro j hj hj2 hdiv
    obtain ⟨-, -, -, -, -, h⟩ := hborder j hj hj2
    exact h hdiv

/-- **Keras 1-D.**  With local averaging at a scale `T` whose logarithm rounds to `J` (in particular `T=None`), and a
batch of signals, the layer returns an array that has the announced shape. -/
theorem C53_1d_partial (k : Keras1D) (N : Nat) (hN : 1 ≤ N) (t : Rat) (hT : parseT k.T k.J N = .ok (t, .loc))
    (hlog : (2 : Rat) ^ k.J ≤ t ∧ t < 2 ^ (k.J + 1)) (Q1 Q2 : Int) (hQ : parseQ k.Q = .ok (Q1, Q2))
    (hQ12 : Q2 ≤ Q1) (hJ : k.J ≤ jPad N (minToPad N t)) (ishape : StaticShape) (d : Option Nat)
    (hi : ishape = [d, some N]) (X : Nd ℝ) (hX : X.data.length = X.shape.prod) (hdesc : Describes ishape X.shape) :
    ∃ S st, k.call ishape X = .ok (.array S) ∧ k.outputShape ishape = .ok st ∧ Describes st S.shape := by
  subst hi
  obtain ⟨B, hB, hdB⟩ : ∃ B, X.shape = [B] ++ [N] ∧ (d = none ∨ d = some B) := by
    unfold Describes at hdesc
    cases hXs : X.shape with
    | nil => rw [hXs] at hdesc; cases hdesc
    | cons B l =>
      rw [hXs] at hdesc
      cases hdesc with
      | cons h1 h2 =>
        cases h2 with
        | cons h3 h4 =>
          cases h4
          rcases h3 with h3 | h3
          · cases h3
          · cases h3
            exact ⟨B, rfl, h1⟩
  have ht : (2 : Rat) ^ k.J ≤ 4 * t := by
    have : (0 : Rat) < 2 ^ k.J := by positivity
    linarith [hlog.1]
  obtain ⟨s, S, nc, n, hmake, -, hcall, hsh, hst, hloc, -, -⟩ := keras1_shapes k N hN t .loc hT (by simp) Q1 Q2 hQ hQ12 hJ
    ht [d] [B] X hB (by rw [hX, hB]; simp)
  refine ⟨S, _, hcall, hst, ?_⟩
  rw [hsh]
  have hfl : (floorLog2 t).toNat = k.J := by
    obtain ⟨kT, hk, hk1, hk2⟩ := C06_log2_T k.T k.J N _ hT
    have hfl : floorLog2 t = (kT : ℤ) := by
      unfold log2T at hk
      rw [hT] at hk
      exact Except.ok.inj hk
    rw [hfl]
    have h1 := (pow_lt_pow_iff_right₀ (by norm_num : (1 : Rat) < 2)).1 (lt_of_le_of_lt hk1 hlog.2)
    have h2 := (pow_lt_pow_iff_right₀ (by norm_num : (1 : Rat) < 2)).1 (lt_of_le_of_lt hlog.1 hk2)
    show kT = k.J
    omega
  rw [hloc rfl, hfl]
  exact List.Forall₂.cons hdB (List.Forall₂.cons (Or.inr rfl) (List.Forall₂.cons (Or.inr rfl) List.Forall₂.nil))

/-- `T=None` is such a scale. -/
theorem C53_1d_default (k : Keras1D) (hTn : k.T = .none) (N : Nat) (hN : 1 ≤ N) (Q1 Q2 : Int)
    (hQ : parseQ k.Q = .ok (Q1, Q2)) (hQ12 : Q2 ≤ Q1) (hJ : k.J ≤ jPad N (minToPad N (2 ^ k.J))) (d : Option Nat)
    (X : Nd ℝ) (hX : X.data.length = X.shape.prod) (hdesc : Describes [d, some N] X.shape) :
    ∃ S st, k.call [d, some N] X = .ok (.array S) ∧ k.outputShape [d, some N] = .ok st ∧ Describes st S.shape :=
  C53_1d_partial k N hN (2 ^ k.J) (by rw [hTn]; rfl)
    ⟨le_rfl, pow_lt_pow_right₀ (by norm_num) (Nat.lt_succ_self _)⟩ Q1 Q2 hQ hQ12 hJ _ d rfl X hX hdesc

/-- **The announced length is wrong for other scales.**  With local averaging at a scale whose logarithm does not round to
`J`, the number of samples announced is not the number returned, for every length divisible by both strides. -/
theorem C53_1d_scale_violated (k : Keras1D) (N : Nat) (hN : 1 ≤ N) (t : Rat) (hT : parseT k.T k.J N = .ok (t, .loc))
    (ht4 : (2 : Rat) ^ k.J ≤ 4 * t) (m : Nat) (hm : (2 : Rat) ^ m ≤ t ∧ t < 2 ^ (m + 1)) (hmJ : m ≠ k.J)
    (hd1 : 2 ^ m ∣ N) (hd2 : 2 ^ k.J ∣ N) (Q1 Q2 : Int) (hQ : parseQ k.Q = .ok (Q1, Q2))
    (hQ12 : Q2 ≤ Q1) (hJ : k.J ≤ jPad N (minToPad N t)) (hmP : m ≤ jPad N (minToPad N t)) (d : Option Nat) (B : Nat)
    (X : Nd ℝ) (hX : X.shape = [B, N]) (hXd : X.data.length = B * N) :
    ∃ S st, k.call [d, some N] X = .ok (.array S) ∧ k.outputShape [d, some N] = .ok st ∧ ¬ Describes st S.shape := by
  obtain ⟨s, S, nc, n, hmake, -, hcall, hsh, hst, hloc, -, hcount⟩ := keras1_shapes k N hN t .loc hT (by simp) Q1 Q2 hQ hQ12
    hJ ht4 [d] [B] X hX (by rw [hXd]; simp)
  refine ⟨S, _, hcall, hst, ?_⟩
  have hfl : (floorLog2 t).toNat = m := by
    obtain ⟨kT, hk, hk1, hk2⟩ := C06_log2_T k.T k.J N _ hT
    have hfl : floorLog2 t = (kT : ℤ) := by
      unfold log2T at hk
      rw [hT] at hk
      exact Except.ok.inj hk
    rw [hfl]
    have h1 := (pow_lt_pow_iff_right₀ (by norm_num : (1 : Rat) < 2)).1 (lt_of_le_of_lt hk1 hm.2)
    have h2 := (pow_lt_pow_iff_right₀ (by norm_num : (1 : Rat) < 2)).1 (lt_of_le_of_lt hm.1 hk2)
    show kT = m
    omega
  have hn : n = N / 2 ^ m := by
    rw [hloc rfl, hfl]
    exact hcount m (by rw [hfl]; exact le_max_left _ _) hmP hd1
  have hc : insideCount s k.J = N / 2 ^ k.J := hcount k.J (le_max_right _ _) hJ hd2
  rw [hsh, hn]
  intro h
  rw [hc] at h
  cases h with
  | cons _ h =>
    cases h with
    | cons _ h =>
      cases h with
      | cons h _ =>
        rcases h with h | h
        · cases h
        · have h := Option.some.inj h
          obtain ⟨a, ha⟩ := hd1
          obtain ⟨b, hb⟩ := hd2
          rw [Nat.div_eq_of_eq_mul_right (by positivity) hb, Nat.div_eq_of_eq_mul_right (by positivity) ha] at h
          subst h
          have hb0 : 0 < b := by
            rcases Nat.eq_zero_or_pos b with h0 | h0
            · rw [h0, Nat.mul_zero] at hb; omega
            · exact h0
          have := Nat.eq_of_mul_eq_mul_right hb0 (ha.symm.trans hb)
          exact hmJ (Nat.pow_right_injective le_rfl this)

/-- **With `T='global'` the announced length is wrong**: one sample is returned, `N / 2^J` are announced. -/
theorem C53_1d_global_violated (k : Keras1D) (hTg : k.T = .global) (N : Nat) (hN : 2 ^ k.J < N) (hd2 : 2 ^ k.J ∣ N)
    (Q1 Q2 : Int) (hQ : parseQ k.Q = .ok (Q1, Q2)) (hQ12 : Q2 ≤ Q1) (hJ : k.J ≤ jPad N (minToPad N (2 ^ k.J)))
    (d : Option Nat) (B : Nat) (X : Nd ℝ) (hX : X.shape = [B, N]) (hXd : X.data.length = B * N) :
    ∃ S st, k.call [d, some N] X = .ok (.array S) ∧ k.outputShape [d, some N] = .ok st ∧ ¬ Describes st S.shape := by
  obtain ⟨s, S, nc, n, hmake, -, hcall, hsh, hst, -, hglob, hcount⟩ := keras1_shapes k N (by omega) (2 ^ k.J) .glob
    (by rw [hTg]; rfl) (by simp) Q1 Q2 hQ hQ12 hJ (by
      have : (0 : Rat) < 2 ^ k.J := by positivity
      linarith) [d] [B] X hX (by rw [hXd]; simp)
  refine ⟨S, _, hcall, hst, ?_⟩
  rw [hsh, hglob rfl, hcount k.J (le_max_right _ _) hJ hd2]
  intro h
  cases h with
  | cons _ h =>
    cases h with
    | cons _ h =>
      cases h with
      | cons h _ =>
        rcases h with h | h
        · cases h
        · have h := Option.some.inj h
          obtain ⟨b, hb⟩ := hd2
          rw [Nat.div_eq_of_eq_mul_right (by positivity) hb] at h
          rw [h, Nat.mul_one] at hb
          omega

/-- **Additional leading axes are dropped from the announced shape**: the rank is wrong whenever there is not exactly one
leading axis. -/
theorem C53_1d_axes_violated (k : Keras1D) (N : Nat) (hN : 1 ≤ N) (t : Rat) (av : Average)
    (hT : parseT k.T k.J N = .ok (t, av)) (hav : av ≠ .no) (Q1 Q2 : Int) (hQ : parseQ k.Q = .ok (Q1, Q2))
    (hQ12 : Q2 ≤ Q1) (hJ : k.J ≤ jPad N (minToPad N t)) (ht4 : (2 : Rat) ^ k.J ≤ 4 * t) (lead : StaticShape)
    (bs : List Nat) (hl : bs.length ≠ 1) (X : Nd ℝ) (hs : X.shape = bs ++ [N]) (hd : X.data.length = bs.prod * N) :
    ∃ S st, k.call (lead ++ [some N]) X = .ok (.array S) ∧ k.outputShape (lead ++ [some N]) = .ok st ∧
      ¬ Describes st S.shape := by
  obtain ⟨s, S, nc, n, -, -, hcall, hsh, hst, -⟩ := keras1_shapes k N hN t av hT hav Q1 Q2 hQ hQ12 hJ ht4 lead bs X hs hd
  refine ⟨S, _, hcall, hst, fun h => ?_⟩
  have := describes_lead h
  rw [hsh] at this
  simp only [List.length_append, List.length_cons, List.length_nil] at this
  omega

/-- The layer used in the examples: `ScatteringKeras1D(J=3, Q=8, T=T)`. -/
def exKeras (T : PyT) : Keras1D := ⟨3, .int 8, T, 2, some (.int 0)⟩

theorem exKeras_jPad (t : Rat) : (3 : Nat) ≤ jPad 1024 (minToPad 1024 t) := le_jPad_of_pow (by norm_num) (by norm_num)

example (d : List ℝ) (hd : d.length = 7 * 1024) : ∃ S st, (exKeras .none).call [none, some 1024] ⟨[7, 1024], d⟩ = .ok (.array S) ∧
    (exKeras .none).outputShape [none, some 1024] = .ok st ∧ Describes st S.shape :=
  C53_1d_default (exKeras .none) rfl 1024 (by norm_num) 8 1 rfl (by norm_num) (exKeras_jPad _) none ⟨[7, 1024], d⟩
    (by rw [hd]; rfl)
    (List.Forall₂.cons (Or.inl rfl) (List.Forall₂.cons (Or.inr rfl) List.Forall₂.nil))

-- `ScatteringKeras1D(J=3, Q=8, T=6)`: 128 samples announced, 256 returned
example (d : List ℝ) (hd : d.length = 7 * 1024) : ∃ S st, (exKeras (.num 6)).call [none, some 1024] ⟨[7, 1024], d⟩ = .ok (.array S) ∧
    (exKeras (.num 6)).outputShape [none, some 1024] = .ok st ∧ ¬ Describes st S.shape :=
  C53_1d_scale_violated (exKeras (.num 6)) 1024 (by norm_num) 6 (by norm_num [parseT, exKeras]) (by norm_num [exKeras]) 2
    (by norm_num) (by norm_num [exKeras]) (by norm_num) (by norm_num [exKeras]) 8 1 rfl (by norm_num) (exKeras_jPad _)
    (le_trans (by norm_num) (exKeras_jPad _)) none 7 ⟨[7, 1024], d⟩ rfl hd

-- `T='global'`: 128 samples announced, one returned
example (d : List ℝ) (hd : d.length = 7 * 1024) : ∃ S st, (exKeras .global).call [none, some 1024] ⟨[7, 1024], d⟩ = .ok (.array S) ∧
    (exKeras .global).outputShape [none, some 1024] = .ok st ∧ ¬ Describes st S.shape :=
  C53_1d_global_violated (exKeras .global) rfl 1024 (by norm_num [exKeras]) (by norm_num [exKeras]) 8 1 rfl (by norm_num)
    (exKeras_jPad _) none 7 ⟨[7, 1024], d⟩ rfl hd

-- two leading axes
example (d : List ℝ) (hd : d.length = 6 * 1024) : ∃ S st, (exKeras .none).call [none, some 3, some 1024] ⟨[2, 3, 1024], d⟩ = .ok (.array S) ∧
    (exKeras .none).outputShape [none, some 3, some 1024] = .ok st ∧ ¬ Describes st S.shape :=
  C53_1d_axes_violated (exKeras .none) 1024 (by norm_num) (2 ^ 3) .loc rfl (by simp) 8 1 rfl (by norm_num) (exKeras_jPad _)
    (by norm_num [exKeras]) [none, some 3] [2, 3] (by simp) ⟨[2, 3, 1024], d⟩ rfl (by rw [hd]; rfl)

/-! ## Two dimensions -/

/-- **Keras 2-D.**  Without `pre_pad`, with both orders and one leading axis, every batch of images is transformed into an
array of the announced shape. -/
theorem C53_2d_partial (k : Keras2D) (hp : k.prePad = false) (ho : 2 ≤ k.maxOrder) (hJ : 1 ≤ k.J) (M N : Nat)
    (hM : 2 ^ k.J ≤ M) (hN : 2 ^ k.J ≤ N) (d : Option Nat) (X : Nd ℝ)
    (hdesc : Describes [d, some M, some N] X.shape) :
    ∃ S st, k.call [d, some M, some N] X = .ok (.array S) ∧ k.outputShape [d, some M, some N] = .ok st ∧
      Describes st S.shape := by
  obtain ⟨B, hB, hdB⟩ : ∃ B, X.shape = [B] ++ [M, N] ∧ (d = none ∨ d = some B) := by
    cases hXs : X.shape with
    | nil => rw [hXs] at hdesc; cases hdesc
    | cons B l =>
      rw [hXs] at hdesc
      cases hdesc with
      | cons h1 h2 =>
        cases h2 with
        | cons h3 h4 =>
          cases h4 with
          | cons h5 h6 =>
            cases h6
            rcases h3 with h3 | h3
            · cases h3
            · rcases h5 with h5 | h5
              · cases h5
              · cases h3; cases h5
                exact ⟨B, rfl, h1⟩
  obtain ⟨S, hS, hsh, -⟩ := C22_2d_array (k.args M N) rfl hJ hM hN M N (by
    show if k.prePad = true then _ else _
    rw [hp]
    exact ⟨rfl, rfl⟩) [B] X hB
  refine ⟨S, _, hS, rfl, ?_⟩
  rw [hsh]
  refine List.Forall₂.cons hdB (List.Forall₂.cons (Or.inr ?_) (List.Forall₂.cons (Or.inr rfl)
    (List.Forall₂.cons (Or.inr rfl) List.Forall₂.nil)))
  rw [C39_count]
  show some _ = some (1 + k.L * k.J + if k.maxOrder < 2 then 0 else k.L ^ 2 * (k.J * (k.J - 1) / 2))
  rw [if_neg (by omega)]
  have he : 2 ∣ k.J * (k.J - 1) := (Nat.even_mul_pred_self k.J).two_dvd
  rw [Nat.mul_assoc, Nat.mul_div_assoc _ he]
  congr 1
  omega

/-- **`max_order=1` is ignored by the announced shape**: wrong number of channels whenever `J ≥ 2`. -/
theorem C53_2d_order_violated (k : Keras2D) (hp : k.prePad = false) (ho : k.maxOrder < 2) (hJ : 2 ≤ k.J) (hL : 1 ≤ k.L)
    (M N : Nat) (hM : 2 ^ k.J ≤ M) (hN : 2 ^ k.J ≤ N) (d : Option Nat) (B : Nat) (X : Nd ℝ) (hX : X.shape = [B, M, N]) :
    ∃ S st, k.call [d, some M, some N] X = .ok (.array S) ∧ k.outputShape [d, some M, some N] = .ok st ∧
      ¬ Describes st S.shape := by
  obtain ⟨S, hS, hsh, -⟩ := C22_2d_array (k.args M N) rfl (by show 1 ≤ k.J; omega) hM hN M N (by
    show if k.prePad = true then _ else _
    rw [hp]
    exact ⟨rfl, rfl⟩) [B] X hX
  refine ⟨S, _, hS, rfl, ?_⟩
  rw [hsh, C39_count]
  intro h
  cases h with
  | cons _ h =>
    cases h with
    | cons h _ =>
      rcases h with h | h
      · cases h
      · have h : k.L ^ 2 * k.J * (k.J - 1) / 2 + k.L * k.J + 1 =
          1 + k.L * k.J + if k.maxOrder < 2 then 0 else k.L ^ 2 * (k.J * (k.J - 1) / 2) := Option.some.inj h
        rw [if_pos ho] at h
        have h0 : k.L ^ 2 * k.J * (k.J - 1) / 2 = 0 := by omega
        have h1 : 2 ≤ k.L ^ 2 * k.J * (k.J - 1) := by
          have a1 : 1 ≤ k.L ^ 2 := Nat.one_le_pow _ _ hL
          calc 2 ≤ 1 * k.J * 1 := by omega
            _ ≤ k.L ^ 2 * k.J * (k.J - 1) := Nat.mul_le_mul (Nat.mul_le_mul a1 le_rfl) (by omega)
        omega

/-- **Additional leading axes are dropped**, as in one dimension. -/
theorem C53_2d_axes_violated (k : Keras2D) (hp : k.prePad = false) (hJ : 1 ≤ k.J) (M N : Nat) (hM : 2 ^ k.J ≤ M)
    (hN : 2 ^ k.J ≤ N) (lead : StaticShape) (bs : List Nat) (hl : bs.length ≠ 1) (X : Nd ℝ)
    (hX : X.shape = bs ++ [M, N]) :
    ∃ S st, k.call (lead ++ [some M, some N]) X = .ok (.array S) ∧
      k.outputShape (lead ++ [some M, some N]) = .ok st ∧ ¬ Describes st S.shape := by
  obtain ⟨S, hS, hsh, -⟩ := C22_2d_array (k.args M N) rfl hJ hM hN M N (by
    show if k.prePad = true then _ else _
    rw [hp]
    exact ⟨rfl, rfl⟩) bs X hX
  have hla : lastAxes (lead ++ [some M, some N]) = .ok (M, N) := by
    unfold lastAxes
    rw [List.reverse_append]
    rfl
  refine ⟨S, [(lead ++ [some M, some N])[0], some (k.L ^ 2 * k.J * (k.J - 1) / 2 + k.L * k.J + 1), some (M / 2 ^ k.J),
    some (N / 2 ^ k.J)], ?_, ?_, fun h => ?_⟩
  · unfold Keras2D.call
    rw [hla]
    exact hS
  · unfold Keras2D.outputShape
    rw [hla]
    exact bind_eq_ok.2 ⟨_, rfl, bind_eq_ok.2 ⟨_, listGet_eq_ok.2 (List.getElem?_eq_getElem (by simp)), rfl⟩⟩
  · have := describes_lead h
    rw [hsh] at this
    simp only [List.length_append, List.length_cons, List.length_nil] at this
    omega

/-- **With `pre_pad` the layer never returns**: it is built for the shape of its input, and then demands the padded
size. -/
theorem C53_2d_prepad_violated (k : Keras2D) (hp : k.prePad = true) (ishape : StaticShape) (X : Nd ℝ)
    (hdesc : Describes ishape X.shape) (out : Out2Nd) : k.call ishape X ≠ .ok out := by
  intro h
  obtain ⟨⟨M, N⟩, hMN, h⟩ := bind_eq_ok.1 h
  have hshape : ∃ bs, X.shape = bs ++ [M, N] := by
    unfold lastAxes at hMN
    have hrev := List.forall₂_reverse_iff.2 hdesc
    generalize ishape.reverse = ir at hMN hrev
    split at hMN
    · obtain ⟨rfl, rfl⟩ := Prod.mk.inj (Except.ok.inj hMN)
      cases hX : X.shape.reverse with
      | nil => rw [hX] at hrev; cases hrev
      | cons n l =>
        rw [hX] at hrev
        cases hrev with
        | cons h1 h2 =>
          cases l with
          | nil => cases h2
          | cons m l =>
            cases h2 with
            | cons h3 _ =>
              rcases h1 with h1 | h1
              · cases h1
              · rcases h3 with h3 | h3
                · cases h3
                · cases h1; cases h3
                  exact ⟨l.reverse, by rw [← List.reverse_reverse X.shape, hX]; simp⟩
    · cases hMN
    · cases hMN
  obtain ⟨bs, hbs⟩ := hshape
  obtain ⟨s, hs, h⟩ := bind_eq_ok.1 h
  split at h
  · cases h
  · obtain ⟨⟨⟩, hc, -⟩ := bind_eq_ok.1 h
    have e1 : X.shape.getD (X.shape.length - 2) 0 = M := by rw [hbs]; simp
    have e2 : X.shape.getD (X.shape.length - 1) 0 = N := by rw [hbs]; simp
    rw [e1, e2] at hc
    obtain ⟨-, c2, -⟩ := check_eq_ok.1 hc
    obtain ⟨h1, -, h3, -⟩ := make_eq_ok hs
    have c2 := (c2 hp).1
    rw [h3] at c2
    have c2 : M = padded2 M k.J := c2
    have := padded2_eq M k.J
    have hP : 0 < 2 ^ k.J := by positivity
    have hdm := Nat.div_add_mod M (2 ^ k.J)
    have hlt := Nat.mod_lt M hP
    rw [← c2, Nat.add_mul, Nat.mul_comm (M / 2 ^ k.J)] at this
    omega

example (d : List ℝ) : ∃ S st, (Keras2D.mk 2 8 2 false).call [none, some 32, some 48] ⟨[5, 32, 48], d⟩ = .ok (.array S) ∧
    (Keras2D.mk 2 8 2 false).outputShape [none, some 32, some 48] = .ok st ∧ Describes st S.shape :=
  C53_2d_partial ⟨2, 8, 2, false⟩ rfl le_rfl (by norm_num) 32 48 (by norm_num) (by norm_num) none ⟨[5, 32, 48], d⟩
    (List.Forall₂.cons (Or.inl rfl) (List.Forall₂.cons (Or.inr rfl) (List.Forall₂.cons (Or.inr rfl) List.Forall₂.nil)))

-- `ScatteringKeras2D(J=2, L=8, max_order=1)`: 81 channels announced, 17 returned
example (d : List ℝ) : ∃ S st, (Keras2D.mk 2 8 1 false).call [none, some 32, some 48] ⟨[5, 32, 48], d⟩ = .ok (.array S) ∧
    (Keras2D.mk 2 8 1 false).outputShape [none, some 32, some 48] = .ok st ∧ ¬ Describes st S.shape :=
  C53_2d_order_violated ⟨2, 8, 1, false⟩ rfl (by norm_num) le_rfl (by norm_num) 32 48 (by norm_num) (by norm_num) none 5
    ⟨[5, 32, 48], d⟩ rfl

example (d : List ℝ) (out : Out2Nd) : (Keras2D.mk 2 8 2 true).call [none, some 32, some 48] ⟨[5, 32, 48], d⟩ ≠ .ok out :=
  C53_2d_prepad_violated ⟨2, 8, 2, true⟩ rfl [none, some 32, some 48] ⟨[5, 32, 48], d⟩
    (List.Forall₂.cons (Or.inl rfl) (List.Forall₂.cons (Or.inr rfl) (List.Forall₂.cons (Or.inr rfl) List.Forall₂.nil))) out

/-! ## C79 -/

/-- **`get_config` of the 2-D layer returns the constructor arguments.** -/
theorem C79_config_2d_partial (k : Keras2D) : k.getConfig =
    .ok [("J", .nat k.J), ("L", .nat k.L), ("max_order", .num (.int k.maxOrder)), ("pre_pad", .bool k.prePad)] := rfl

/-- **`get_config` of the 1-D layer always raises**: `max_order` is not an attribute of the layer (`AttributeError`), unless
`Q` is refused first. -/
theorem C79_config_1d_violated (k : Keras1D) :
    (∀ c, k.getConfig ≠ .ok c) ∧ ∀ q, parseQ k.Q = .ok q → k.getConfig = .error .attribute := by
  have key : ∀ q, parseQ k.Q = .ok q → k.getConfig = .error .attribute := by
    intro q hq
    unfold Keras1D.getConfig Verif.getConfig
    have e1 : k.attr "J" = .ok (.nat k.J) := rfl
    have e2 : k.attr "Q" = .ok (.pair q.1 q.2) := by
      show (parseQ k.Q >>= _) = _
      rw [hq]; rfl
    have e3 : k.attr "max_order" = .error .attribute := rfl
    simp only [List.mapM_cons, e1, e2, e3]
    rfl
  refine ⟨fun c hc => ?_, key⟩
  cases hq : parseQ k.Q with
  | ok q => rw [key q hq] at hc; cases hc
  | error e =>
    unfold Keras1D.getConfig Verif.getConfig at hc
    have e1 : k.attr "J" = .ok (.nat k.J) := rfl
    have e2 : k.attr "Q" = .error e := by
      show (parseQ k.Q >>= _) = _
      rw [hq]; rfl
    simp only [List.mapM_cons, e1, e2] at hc
    cases hc

/-- **`max_order` and `oversampling` have no effect on the 1-D layer**: `__init__` replaces them by 2 and 0. -/
theorem C79_arguments_1d_violated (k : Keras1D) (m : Nat) (o : Option PyNum) (ishape : StaticShape) (X : Nd ℝ) :
    { k with maxOrder := m, oversampling := o }.call ishape X = k.call ishape X ∧
    { k with maxOrder := m, oversampling := o }.outputShape ishape = k.outputShape ishape := ⟨rfl, rfl⟩

example : (exKeras .none).getConfig = .error .attribute := (C79_config_1d_violated _).2 (8, 1) rfl

end Verif
