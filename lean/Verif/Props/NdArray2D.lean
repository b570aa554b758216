import Verif.Lemmas.NdArray2D
import Verif.Props.NdArray
import Verif.Props.Channels2D
import Verif.Props.Laws2D

/-!
# C22, C44 and C52 for the 2-D transform on arrays of any shape
-/

namespace Verif

open Core2D Nd
open Spec (position entry)
open NdFront

/-- Two outputs with the same channels, related image by image. -/
def OutImgs (n i : Nat) : Out2D (Img ℝ) → Out2D (Imgs ℝ) → Prop
  | .array l, .array m => List.Forall₂ (HasImg n i) l m
  | .list l, .list m => List.Forall₂ (fun p q => p.j = q.j ∧ p.n = q.n ∧ p.theta = q.theta ∧ HasImg n i p.coef q.coef) l m
  | _, _ => False

theorem imgs_stack {n i : Nat} {a : Args2D} {s : Sc2D} {l : List (Img ℝ)} {m : List (Imgs ℝ)}
    (h : List.Forall₂ (HasImg n i) l m) {l' : List (Img ℝ)} (hl : stack np2Backend (a.ops s) l = .ok l') :
    l' = l ∧ stack imgsBackend (a.imgsOps s) m = .ok m := by
  have hsize : List.Forall₂ (fun (x : Img ℝ) (X : Imgs ℝ) => (a.ops s).size x = (a.imgsOps s).size X) l m :=
    h.imp fun x X hx => by
      show (x.h, x.w) = (X.h, X.w)
      rw [hx.2.1, hx.2.2.1]
  cases h with
  | nil => cases hl
  | cons h0 ht =>
    rename_i x X l m
    cases hsize with
    | cons e et =>
    simp only [stack] at hl ⊢
    split at hl
    · rename_i hall
      refine ⟨(Except.ok.inj hl).symm, ?_⟩
      rw [if_pos]
      simp only [List.all_cons, Bool.and_eq_true, List.all_eq_true, beq_iff_eq] at hall ⊢
      refine ⟨trivial, fun Y hY => ?_⟩
      obtain ⟨y, hy, hyY⟩ := forall₂_mem_right et hY
      rw [← hyY, ← e]
      exact hall.2 y hy
    · cases hl

/-- The core on an array: image number `i` of the result is the result on image number `i`. -/
theorem imgs_core {a : Args2D} {s : Sc2D} (hs : a.make = .ok s) {n i : Nat} {x : Img ℝ} {X : Imgs ℝ}
    (h : HasImg n i x X) {out : Out2D (Img ℝ)} (hr : a.run x = .ok out) :
    ∃ OUT, scattering2d imgsBackend (a.imgsOps s) X a.J s.phi s.psi a.maxOrder (decide (a.outType = .array)) = .ok OUT ∧
      OutImgs n i out OUT := by
  unfold Args2D.run at hr
  obtain ⟨s', hs', hr⟩ := bind_eq_ok.1 hr
  rw [hs] at hs'
  obtain rfl := Except.ok.inj hs'
  obtain ⟨⟨⟩, hc, hr⟩ := bind_eq_ok.1 hr
  unfold scattering2d at hr
  obtain ⟨l, hl, hr⟩ := bind_eq_ok.1 hr
  obtain ⟨m, hm, hrel⟩ := sim_paths (imgsRel n i) (opsA := a.ops s) (opsB := a.imgsOps s)
    (P := fun _ x y => HasImg n i x y) (J := a.J) (fun _ r r' hr => imgsUnpad_img hr)
    (phi := s.phi) (phi' := s.phi)
    ⟨rfl, fun k a b ha hb => by rw [ha] at hb; cases hb; rfl⟩
    (psi := s.psi) (psi' := s.psi)
    (by
      have : ∀ q : List (Filt2 (Img ℝ)), List.Forall₂ (filt2 (imgsRel n i)) q q := by
        intro q
        induction q with
        | nil => exact List.Forall₂.nil
        | cons f q ih =>
          exact List.Forall₂.cons ⟨rfl, rfl, rfl, fun k a b ha hb => by
            rw [ha] at hb; cases hb; rfl⟩ ih
      exact this _)
    a.maxOrder (x := x) (y := X) (by
      show Sim (HasImg n i) (a.pad s x) _
      unfold Args2D.pad Args2D.imgsOps
      cases a.prePad with
      | true => exact Sim.ok h
      | false => exact imgsPad_img h _ _ _ _) _ hl
  have hrel : List.Forall₂ (fun (p : Path2 (Img ℝ)) (q : Path2 (Imgs ℝ)) =>
    p.j = q.j ∧ p.n = q.n ∧ p.theta = q.theta ∧ HasImg n i p.coef q.coef) l m := hrel
  by_cases ho : a.outType = .array
  · rw [if_pos (by simp [ho])] at hr
    obtain ⟨rows, hrows, hr⟩ := bind_eq_ok.1 hr
    obtain rfl := Except.ok.inj hr
    have hf : List.Forall₂ (HasImg n i) (l.map fun p => p.coef) (m.map fun p => p.coef) := by
      rw [List.forall₂_map_left_iff, List.forall₂_map_right_iff]
      exact hrel.imp fun p q hpq => hpq.2.2.2
    obtain ⟨rfl, hst⟩ := imgs_stack hf hrows
    refine ⟨.array (m.map fun (p : Path2 (Imgs ℝ)) => p.coef), ?_, hf⟩
    unfold scattering2d
    refine bind_eq_ok.2 ⟨m, hm, ?_⟩
    rw [if_pos (by simp [ho])]
    exact bind_eq_ok.2 ⟨_, hst, rfl⟩
  · rw [if_neg (by simp [ho])] at hr
    obtain rfl := Except.ok.inj hr
    refine ⟨.list m, ?_, hrel⟩
    unfold scattering2d
    refine bind_eq_ok.2 ⟨m, hm, ?_⟩
    rw [if_neg (by simp [ho])]

/-! ### Reading and writing arrays -/

/-- `reshape((-1,) + shape)`. -/
theorem reshape_lead {α : Type} {X : Nd α} {p : Nat} {shape : List Nat} (hs : X.size = p * shape.prod)
    (hp : 0 < shape.prod) : X.reshape (none :: shape.map some) = .ok ⟨p :: shape, X.data⟩ := by
  have hc : (none :: shape.map some).count none = 1 := by
    rw [List.count_cons_self, List.count_eq_zero.2 (by simp)]
  have hf : (none :: shape.map some).filterMap id = shape := by
    rw [List.filterMap_cons_none rfl, List.filterMap_map]; simp
  unfold Nd.reshape
  rw [hc, hf]
  simp only
  rw [if_neg, hs, Nat.mul_div_cancel _ hp]
  · simp
  · rw [hs]
    push Not
    exact ⟨by omega, Nat.mul_mod_left _ _⟩

theorem position_three (m h w c r q : Nat) :
    position [m, h, w] [c, r, q] = if c < m ∧ r < h ∧ q < w then some (c * (h * w) + (r * w + q)) else none := by
  have : position [m, h, w] [c, r, q] = if c < m then (position [h, w] [r, q]).map (c * (h * w) + ·) else none := by
    simp [position]
  rw [this, position_two]
  by_cases hc : c < m
  · by_cases ht : r < h ∧ q < w
    · simp [hc, ht]
    · rw [if_pos hc, if_neg ht, if_neg (by tauto)]; rfl
  · rw [if_neg hc, if_neg (by tauto)]

theorem div_mod_row {r q w : Nat} (hq : q < w) : (r * w + q) / w = r ∧ (r * w + q) % w = q := by
  constructor
  · rw [mul_comm, Nat.mul_add_div (by omega), Nat.div_eq_of_lt hq, add_zero]
  · rw [mul_comm, Nat.mul_add_mod, Nat.mod_eq_of_lt hq]

theorem row_lt {r q h w : Nat} (hr : r < h) (hq : q < w) : r * w + q < h * w := by
  have : (r + 1) * w ≤ h * w := Nat.mul_le_mul_right w hr
  have h2 : (r + 1) * w = r * w + w := by ring
  omega

theorem getElem?_flat {α : Type} (y : Imgs α) (i : Nat) {r q : Nat} (hr : r < y.h) (hq : q < y.w) :
    (y.flat i)[r * y.w + q]? = some (y.px i r q) := by
  unfold Imgs.flat
  rw [Nd.getElem?_tab, if_pos (row_lt hr hq), (div_mod_row hq).1, (div_mod_row hq).2]

theorem length_flat {α : Type} (y : Imgs α) (i : Nat) : (y.flat i).length = y.h * y.w := length_tab _ _

/-- Entries of `np.stack(rows, axis=-3)` after `reshape`. -/
theorem entry_stack {α : Type} {n h w : Nat} {rows : List (Imgs α)} (hh : ∀ y ∈ rows, y.h = h ∧ y.w = w) {S : Nd α}
    {bs : List Nat} (hS : S.shape = bs ++ [rows.length, h, w]) (hd : S.data = (Imgs.stack n h w rows).data)
    {b : List Nat} {i : Nat} (hb : position bs b = some i) (hi : i < n) (c r q : Nat) :
    entry S (b ++ [c, r, q]) = rows[c]?.bind fun y => Spec.pixel (y.img i) r q := by
  unfold entry
  rw [hS, position_append hb, position_three]
  by_cases hc : c < rows.length ∧ r < h ∧ q < w
  · obtain ⟨h1, h2, h3⟩ := hc
    rw [if_pos ⟨h1, h2, h3⟩]
    simp only [Option.map_some, Option.bind_some]
    have hlen : ∀ k ∈ List.range n, (rows.flatMap fun y => y.flat k).length = rows.length * (h * w) := by
      intro k _
      exact Nd.length_flatMap_unif fun y hy => by rw [length_flat, (hh y hy).1, (hh y hy).2]
    have hblk := Nd.block_flatMap hlen (i := i) (a := i) (by rw [List.getElem?_range hi])
    have hk : c * (h * w) + (r * w + q) < rows.length * (h * w) := row_lt h1 (row_lt h2 h3)
    have hprod : [rows.length, h, w].prod = rows.length * (h * w) := by simp
    rw [hprod]
    have := Nd.getElem?_block (rows.length * (h * w)) i (c * (h * w) + (r * w + q)) S.data
    rw [if_pos hk] at this
    rw [← this, hd]
    show (Nd.block _ _ ((List.range n).flatMap _))[_]? = _
    rw [hblk, List.flatMap_def, getElem?_flatten_unif (n := h * w) ?_ (row_lt h2 h3), List.getElem?_map]
    · rw [List.getElem?_eq_getElem h1]
      simp only [Option.map_some, Option.bind_some]
      obtain ⟨e1, e2⟩ := hh _ (List.getElem_mem h1)
      have hg := getElem?_flat rows[c] i (r := r) (q := q) (by rw [e1]; exact h2) (by rw [e2]; exact h3)
      rw [e2] at hg
      rw [hg]
      unfold Spec.pixel Imgs.img
      rw [if_pos ⟨by rw [e1]; exact h2, by rw [e2]; exact h3⟩]
    · intro l hl
      obtain ⟨y, hy, rfl⟩ := List.mem_map.1 hl
      rw [length_flat, (hh y hy).1, (hh y hy).2]
  · rw [if_neg hc]
    simp only [Option.map_none, Option.bind_none]
    by_cases h1 : c < rows.length
    · rw [List.getElem?_eq_getElem h1]
      simp only [Option.bind_some]
      unfold Spec.pixel Imgs.img
      obtain ⟨e1, e2⟩ := hh _ (List.getElem_mem h1)
      rw [if_neg]
      rw [e1, e2]
      tauto
    · rw [List.getElem?_eq_none (by omega)]; rfl

/-- Entries of one coefficient after `reshape`. -/
theorem entry_toNd {α : Type} {y : Imgs α} {S : Nd α} {bs : List Nat} (hS : S.shape = bs ++ [y.h, y.w])
    (hd : S.data = y.toNd.data) {b : List Nat} {i : Nat} (hb : position bs b = some i) (hi : i < y.n) (r q : Nat) :
    entry S (b ++ [r, q]) = Spec.pixel (y.img i) r q := by
  unfold entry Spec.pixel
  rw [hS, position_append hb, position_two]
  by_cases hc : r < y.h ∧ q < y.w
  · rw [if_pos hc, if_pos (show r < (y.img i).h ∧ q < (y.img i).w from hc)]
    simp only [Option.map_some, Option.bind_some]
    have hlen : ∀ k ∈ List.range y.n, (y.flat k).length = y.h * y.w := fun k _ => length_flat y k
    have hblk := Nd.block_flatMap hlen (i := i) (a := i) (by rw [List.getElem?_range hi])
    have := Nd.getElem?_block (y.h * y.w) i (r * y.w + q) S.data
    rw [if_pos (row_lt hc.1 hc.2)] at this
    have hprod : [y.h, y.w].prod = y.h * y.w := by simp
    rw [hprod, ← this, hd]
    show (Nd.block _ _ ((List.range y.n).flatMap _))[_]? = _
    rw [hblk, getElem?_flat y i hc.1 hc.2]
    rfl
  · rw [if_neg hc, if_neg (show ¬ (r < (y.img i).h ∧ q < (y.img i).w) from hc)]
    rfl

/-- Reading an array. -/
theorem ofData_img {X : Nd ℝ} {bs : List Nat} {h w : Nat} (hs : X.shape = bs ++ [h, w])
    {b : List Nat} {i : Nat} (hb : position bs b = some i) :
    HasImg bs.prod i (Spec.image X h w b) (Imgs.ofData bs.prod h w X.data) := by
  refine ⟨rfl, rfl, rfl, fun hi => ?_⟩
  show (Img.tab h w _).px = (Img.tab h w _).px
  congr 1
  apply Img.tab_congr
  intro r q hr hq
  unfold entry
  rw [hs, position_append hb, position_two, if_pos ⟨hr, hq⟩]
  simp only [Option.map_some, Option.bind_some]
  have hprod : [h, w].prod = h * w := by simp
  rw [hprod, List.getD_eq_getElem?_getD, show i * (h * w) + (r * w + q) = (i * h + r) * w + q by ring]

theorem shape_last2 (bs : List Nat) (h w : Nat) : ¬ (bs ++ [h, w]).length < 2 ∧
    (bs ++ [h, w]).getD ((bs ++ [h, w]).length - 2) 0 = h ∧ (bs ++ [h, w]).getD ((bs ++ [h, w]).length - 1) 0 = w ∧
    (bs ++ [h, w]).take ((bs ++ [h, w]).length - 2) = bs := by
  have hl : (bs ++ [h, w]).length = bs.length + 2 := by simp
  rw [hl]
  refine ⟨by omega, ?_, ?_, ?_⟩
  · rw [List.getD_eq_getElem?_getD, List.getElem?_append_right (by omega)]; simp
  · rw [List.getD_eq_getElem?_getD, List.getElem?_append_right (by omega)]; simp
  · simp

/-- The number of channels of an array output. -/
theorem run_array_length {a : Args2D} {x : Img ℝ} {rows : List (Img ℝ)} (h : a.run x = .ok (.array rows)) :
    rows.length = (Spec.channels2 a.J a.L a.maxOrder).length := by
  obtain ⟨s, l, hs, hc, hl, ha, hli⟩ := run_eq_ok h
  obtain ⟨-, -, -, -, -, h6⟩ := make_eq_ok hs
  have := labels_eq np2Backend _ hl
  rw [h6, labels_bank] at this
  have hr : Out2D.array rows = .array (l.map fun p => p.coef) := by
    cases ho : a.outType with
    | array => exact ha ho
    | list => cases hli ho
    | other => exact absurd ho (check_eq_ok.1 hc).2.2
  injection hr with hr
  rw [hr, List.length_map, ← this, List.length_map]

/-- What the array frontend does once the core has been run. -/
theorem runNd2_eq {a : Args2D} {s : Sc2D} (hs : a.make = .ok s) {X : Nd ℝ} {bs : List Nat} {h w : Nat}
    (hsh : X.shape = bs ++ [h, w]) (hc : a.check s h w = .ok ()) (hp : 0 < h * w) :
    a.runNd X = (scattering2d imgsBackend (a.imgsOps s) (Imgs.ofData bs.prod h w X.data) a.J s.phi s.psi a.maxOrder
      (decide (a.outType = .array)) >>= reshapeOut2 bs) := by
  obtain ⟨e1, e2, e3, e4⟩ := shape_last2 bs h w
  unfold Args2D.runNd
  rw [hs]
  simp only [bind, Except.bind]
  rw [hsh, if_neg e1, e2, e3, e4, hc]
  simp only
  have hre : X.reshape [none, some h, some w] = .ok ⟨bs.prod :: [h, w], X.data⟩ :=
    reshape_lead (shape := [h, w]) (by rw [Nd.size, hsh, List.prod_append]) (by simpa using hp)
  rw [hre]
  rfl

/-- **2-D batch independence for arrays of any shape, array output.**  Every array `X` of shape `bs + (h, w)`, where
`(h, w)` is the shape accepted by the object, is transformed; the result has shape
`bs + (C, ⌊M/2^J⌋, ⌊N/2^J⌋)`, and its entry at `b + (c, r, q)` is pixel `(r, q)` of channel `c` of the
scattering of the image `X[b]` alone. -/
theorem C22_2d_array (a : Args2D) (ho : a.outType = .array) (hJ : 1 ≤ a.J) (hM : 2 ^ a.J ≤ a.M) (hN : 2 ^ a.J ≤ a.N)
    (h w : Nat) (hx : if a.prePad then h = padded2 a.M a.J ∧ w = padded2 a.N a.J else h = a.M ∧ w = a.N)
    (bs : List Nat) (X : Nd ℝ) (hs : X.shape = bs ++ [h, w]) :
    ∃ S, a.runNd X = .ok (.array S) ∧
      S.shape = bs ++ [(Spec.channels2 a.J a.L a.maxOrder).length, a.M / 2 ^ a.J, a.N / 2 ^ a.J] ∧
      ∀ b i, position bs b = some i → ∃ rows, a.run (Spec.image X h w b) = .ok (.array rows) ∧
        ∀ c r q, entry S (b ++ [c, r, q]) = rows[c]?.bind fun y => Spec.pixel y r q := by
  have hrun : ∀ x : Img ℝ, x.h = h → x.w = w → ∃ rows, a.run x = .ok (.array rows) := by
    intro x h1 h2
    obtain ⟨out, hout⟩ := C40_no_error a hJ hM hN (by rw [ho]; simp) x (by rw [h1, h2]; exact hx)
    obtain ⟨-, l, -, -, -, ha, -⟩ := run_eq_ok hout
    exact ⟨_, by rw [hout, ha ho]⟩
  obtain ⟨s, hmake⟩ := (C38_rejects a).2.2 ⟨hM, hN⟩
  obtain ⟨-, -, h3, h4, -, -⟩ := make_eq_ok hmake
  have hP : 0 < 2 ^ a.J := by positivity
  have hpos : 0 < h * w := by
    have p1 := (C38_padding a.M a.J hM)
    split at hx
    · rw [hx.1, hx.2, padded2_eq, padded2_eq]; positivity
    · rw [hx.1, hx.2]; exact Nat.mul_pos (by omega) (by omega)
  have hc : a.check s h w = .ok () := by
    rw [check_eq_ok, h3, h4]
    refine ⟨fun hp => ?_, fun hp => ?_, by rw [ho]; simp⟩
    · rw [if_neg (by simp [hp])] at hx; exact hx
    · rw [if_pos hp] at hx; exact hx
  -- existence, from an arbitrary image of the shape
  obtain ⟨rows0, hrows0⟩ := hrun (Img.tab h w fun _ _ => 0) rfl rfl
  obtain ⟨OUT, hOUT, hrel0⟩ := imgs_core hmake (n := bs.prod) (i := bs.prod)
    (x := Img.tab h w fun _ _ => 0) (X := Imgs.ofData bs.prod h w X.data)
    ⟨rfl, rfl, rfl, fun hi => absurd hi (lt_irrefl _)⟩ hrows0
  cases OUT with
  | list => exact hrel0.elim
  | array ROWS =>
  have hrel0 : List.Forall₂ (HasImg bs.prod bs.prod) rows0 ROWS := hrel0
  have hlen0 := run_array_length hrows0
  have hsz := C38_output_size a _ _ hrows0
  have hlen : ROWS.length = (Spec.channels2 a.J a.L a.maxOrder).length := by rw [← hrel0.length_eq, hlen0]
  have hR : ∀ y ∈ ROWS, y.n = bs.prod ∧ y.h = a.M / 2 ^ a.J ∧ y.w = a.N / 2 ^ a.J := by
    intro y hy
    obtain ⟨x, hx, hxy⟩ := forall₂_mem_right hrel0 hy
    obtain ⟨z1, z2⟩ := hsz x hx
    exact ⟨hxy.1, by rw [hxy.2.1, z1], by rw [hxy.2.2.1, z2]⟩
  have hne : ∃ y ys, ROWS = y :: ys := by
    cases ROWS with
    | nil => rw [C39_count] at hlen; simp at hlen; omega
    | cons y ys => exact ⟨y, ys, rfl⟩
  obtain ⟨y, ys, hcons⟩ := hne
  have hy := hR y (by rw [hcons]; exact List.mem_cons_self)
  have hhead : ROWS.head?.getD ⟨0, 0, 0, fun _ _ _ => 0⟩ = y := by rw [hcons]; rfl
  refine ⟨⟨bs ++ [ROWS.length, y.h, y.w], (Imgs.stack y.n y.h y.w ROWS).data⟩, ?_, ?_, ?_⟩
  · rw [runNd2_eq hmake hs hc hpos, hOUT]
    show reshapeOut2 bs (.array ROWS) = _
    simp only [reshapeOut2]
    rw [hhead, Nd.reshape_some]
    · rfl
    · rw [Nd.size]
      simp [Imgs.stack, hy.1]
  · simp only
    rw [hlen, hy.2.1, hy.2.2]
  · intro b i hb
    obtain ⟨rows, hrows⟩ := hrun (Spec.image X h w b) rfl rfl
    obtain ⟨OUT', hOUT', hrel⟩ := imgs_core hmake (ofData_img hs hb) hrows
    rw [hOUT] at hOUT'
    obtain rfl := Except.ok.inj hOUT'
    have hrel : List.Forall₂ (HasImg bs.prod i) rows ROWS := hrel
    refine ⟨rows, hrows, fun c r q => ?_⟩
    have hi := position_lt hb
    rw [entry_stack (S := ⟨bs ++ [ROWS.length, y.h, y.w], (Imgs.stack y.n y.h y.w ROWS).data⟩) (n := y.n) (h := y.h)
      (w := y.w) (rows := ROWS)
      (fun z hz => ⟨by rw [(hR z hz).2.1, hy.2.1], by rw [(hR z hz).2.2, hy.2.2]⟩) rfl rfl hb (by rw [hy.1]; exact hi)]
    by_cases hcl : c < rows.length
    · have hcl' : c < ROWS.length := by rw [← hrel.length_eq]; exact hcl
      rw [List.getElem?_eq_getElem hcl, List.getElem?_eq_getElem hcl']
      simp only [Option.bind_some]
      have := (List.forall₂_iff_get.1 hrel).2 c hcl hcl'
      simp only [List.get_eq_getElem] at this
      obtain ⟨-, e2, e3, e4⟩ := this
      have : ROWS[c].img i = rows[c] := by
        unfold Imgs.img
        rw [e2, e3, e4 hi]
      rw [this]
    · have hcl' : ROWS.length ≤ c := by rw [← hrel.length_eq]; omega
      rw [List.getElem?_eq_none hcl', List.getElem?_eq_none (l := rows) (by omega)]
      rfl

/-- **2-D batch independence, list output**: the same paths in the same order as for each image alone, and entry
`b + (r, q)` of each coefficient is pixel `(r, q)` of the coefficient of the image `X[b]`. -/
theorem C22_2d_list (a : Args2D) (ho : a.outType = .list) (hJ : 1 ≤ a.J) (hM : 2 ^ a.J ≤ a.M) (hN : 2 ^ a.J ≤ a.N)
    (h w : Nat) (hx : if a.prePad then h = padded2 a.M a.J ∧ w = padded2 a.N a.J else h = a.M ∧ w = a.N)
    (bs : List Nat) (X : Nd ℝ) (hs : X.shape = bs ++ [h, w]) :
    ∃ L, a.runNd X = .ok (.list L) ∧ (∀ p ∈ L, p.coef.shape = bs ++ [a.M / 2 ^ a.J, a.N / 2 ^ a.J]) ∧
      ∀ b i, position bs b = some i → ∃ l, a.run (Spec.image X h w b) = .ok (.list l) ∧
        List.Forall₂ (fun p q => p.j = q.j ∧ p.n = q.n ∧ p.theta = q.theta ∧
          ∀ r c, entry q.coef (b ++ [r, c]) = Spec.pixel p.coef r c) l L := by
  have hrun : ∀ x : Img ℝ, x.h = h → x.w = w → ∃ l, a.run x = .ok (.list l) := by
    intro x h1 h2
    obtain ⟨out, hout⟩ := C40_no_error a hJ hM hN (by rw [ho]; simp) x (by rw [h1, h2]; exact hx)
    obtain ⟨-, l, -, -, -, -, hli⟩ := run_eq_ok hout
    exact ⟨_, by rw [hout, hli ho]⟩
  obtain ⟨s, hmake⟩ := (C38_rejects a).2.2 ⟨hM, hN⟩
  obtain ⟨-, -, h3, h4, -, -⟩ := make_eq_ok hmake
  have hP : 0 < 2 ^ a.J := by positivity
  have hpos : 0 < h * w := by
    split at hx
    · rw [hx.1, hx.2, padded2_eq, padded2_eq]; positivity
    · rw [hx.1, hx.2]; exact Nat.mul_pos (by omega) (by omega)
  have hc : a.check s h w = .ok () := by
    rw [check_eq_ok, h3, h4]
    refine ⟨fun hp => ?_, fun hp => ?_, by rw [ho]; simp⟩
    · rw [if_neg (by simp [hp])] at hx; exact hx
    · rw [if_pos hp] at hx; exact hx
  obtain ⟨l0, hl0⟩ := hrun (Img.tab h w fun _ _ => 0) rfl rfl
  obtain ⟨OUT, hOUT, hrel0⟩ := imgs_core hmake (n := bs.prod) (i := bs.prod)
    (x := Img.tab h w fun _ _ => 0) (X := Imgs.ofData bs.prod h w X.data)
    ⟨rfl, rfl, rfl, fun hi => absurd hi (lt_irrefl _)⟩ hl0
  cases OUT with
  | array => exact hrel0.elim
  | list LP =>
  have hrel0 : List.Forall₂ (fun (p : Path2 (Img ℝ)) (q : Path2 (Imgs ℝ)) =>
    p.j = q.j ∧ p.n = q.n ∧ p.theta = q.theta ∧ HasImg bs.prod bs.prod p.coef q.coef) l0 LP := hrel0
  have hsz := C38_output_size a _ _ hl0
  have hR : ∀ p ∈ LP, p.coef.n = bs.prod ∧ p.coef.h = a.M / 2 ^ a.J ∧ p.coef.w = a.N / 2 ^ a.J := by
    intro p hp
    obtain ⟨q, hq, -, -, -, hqp⟩ := forall₂_mem_right hrel0 hp
    obtain ⟨z1, z2⟩ := hsz q.coef (List.mem_map.2 ⟨q, hq, rfl⟩)
    exact ⟨hqp.1, by rw [hqp.2.1, z1], by rw [hqp.2.2.1, z2]⟩
  let g : Path2 (Imgs ℝ) → Path2 (Nd ℝ) := fun p =>
    ⟨⟨bs ++ [a.M / 2 ^ a.J, a.N / 2 ^ a.J], p.coef.toNd.data⟩, p.j, p.n, p.theta⟩
  refine ⟨LP.map g, ?_, ?_, ?_⟩
  · rw [runNd2_eq hmake hs hc hpos, hOUT]
    show reshapeOut2 bs (.list LP) = _
    simp only [reshapeOut2]
    refine bind_eq_ok.2 ⟨LP.map g, ?_, rfl⟩
    rw [mapM_eq_ok, List.forall₂_map_right_iff]
    apply List.forall₂_same.2
    intro p hp
    have hz : ((LP.head?.map fun (p : Path2 (Imgs ℝ)) => p.coef).getD (⟨0, 0, 0, fun _ _ _ => 0⟩ : Imgs ℝ)).h = a.M / 2 ^ a.J ∧
        ((LP.head?.map fun (p : Path2 (Imgs ℝ)) => p.coef).getD (⟨0, 0, 0, fun _ _ _ => 0⟩ : Imgs ℝ)).w = a.N / 2 ^ a.J := by
      cases LP with
      | nil => cases hp
      | cons y ys => exact (hR y List.mem_cons_self).2
    rw [hz.1, hz.2, Nd.reshape_some]
    · rfl
    · obtain ⟨z1, z2, z3⟩ := hR p hp
      rw [Nd.size]
      simp only [Imgs.toNd, z1, z2, z3]
      simp
  · intro p hp
    obtain ⟨q, -, rfl⟩ := List.mem_map.1 hp
    rfl
  · intro b i hb
    obtain ⟨l, hl⟩ := hrun (Spec.image X h w b) rfl rfl
    obtain ⟨OUT', hOUT', hrel⟩ := imgs_core hmake (ofData_img hs hb) hl
    rw [hOUT] at hOUT'
    obtain rfl := Except.ok.inj hOUT'
    have hrel : List.Forall₂ (fun (p : Path2 (Img ℝ)) (q : Path2 (Imgs ℝ)) =>
      p.j = q.j ∧ p.n = q.n ∧ p.theta = q.theta ∧ HasImg bs.prod i p.coef q.coef) l LP := hrel
    have hi := position_lt hb
    refine ⟨l, hl, ?_⟩
    rw [List.forall₂_map_right_iff]
    have hboth : List.Forall₂ (fun (p : Path2 (Img ℝ)) (q : Path2 (Imgs ℝ)) =>
        (p.j = q.j ∧ p.n = q.n ∧ p.theta = q.theta ∧ HasImg bs.prod i p.coef q.coef) ∧ q ∈ LP) l LP := by
      rw [List.forall₂_iff_get] at hrel ⊢
      exact ⟨hrel.1, fun k h1 h2 => ⟨hrel.2 k h1 h2, List.get_mem _ _⟩⟩
    refine hboth.imp ?_
    rintro p q ⟨⟨e1, e2, e3, -, f2, f3, f4⟩, hq⟩
    refine ⟨e1, e2, e3, fun r c => ?_⟩
    obtain ⟨z1, z2, z3⟩ := hR q hq
    rw [entry_toNd (y := q.coef) (S := (g q).coef) (by rw [z2, z3]) rfl hb (by rw [z1]; exact hi)]
    have : q.coef.img i = p.coef := by unfold Imgs.img; rw [f2, f3, f4 hi]
    rw [this]

/-! ### The scikit-learn interface -/

theorem getElem?_flatten_img {α : Type} {rows : List (Img α)} {h w : Nat} (hh : ∀ y ∈ rows, y.h = h ∧ y.w = w)
    {c r q : Nat} (hr : r < h) (hq : q < w) :
    (Spec.flatten rows)[c * (h * w) + (r * w + q)]? = rows[c]?.map fun y => y.px r q := by
  have hin : ∀ y : Img α, ((List.range y.h).flatMap fun r => (List.range y.w).map fun q => y.px r q).length =
      y.h * y.w := by
    intro y
    rw [Nd.length_flatMap_unif (m := y.w) (fun _ _ => by simp)]
    simp
  unfold Spec.flatten
  rw [List.flatMap_def, getElem?_flatten_unif (n := h * w) ?_ (row_lt hr hq), List.getElem?_map]
  · cases hc : rows[c]? with
    | none => rfl
    | some y =>
      obtain ⟨e1, e2⟩ := hh y (List.mem_of_getElem? hc)
      simp only [Option.map_some, Option.bind_some]
      rw [List.flatMap_def, getElem?_flatten_unif (n := w) ?_ hq, List.getElem?_map,
        List.getElem?_range (by rw [e1]; exact hr)]
      · simp only [Option.map_some, Option.bind_some]
        rw [List.getElem?_map, List.getElem?_range (by rw [e2]; exact hq)]
        rfl
      · intro l hl
        obtain ⟨k, -, rfl⟩ := List.mem_map.1 hl
        simp [e2]
  · intro l hl
    obtain ⟨y, hy, rfl⟩ := List.mem_map.1 hl
    rw [hin, (hh y hy).1, (hh y hy).2]

theorem length_flatten_img {α : Type} {rows : List (Img α)} {h w : Nat} (hh : ∀ y ∈ rows, y.h = h ∧ y.w = w) :
    (Spec.flatten rows).length = rows.length * (h * w) := by
  unfold Spec.flatten
  rw [Nd.length_flatMap_unif (m := h * w)]
  intro y hy
  rw [Nd.length_flatMap_unif (m := y.w) (fun _ _ => by simp)]
  simp [(hh y hy).1, (hh y hy).2]

/-- **The 2-D scikit-learn transformer without `pre_pad`, non-empty batch**: it returns, and the entry at
`b + (k,)` is entry `k` of the flattened scattering of the image whose pixels are the flattened sample `X[b]`. -/
theorem C52_2d_predict_partial (a : Args2D) (ho : a.outType = .array) (hp : a.prePad = false) (hJ : 1 ≤ a.J)
    (hM : 2 ^ a.J ≤ a.M) (hN : 2 ^ a.J ≤ a.N) (bs : List Nat) (hbs : 0 < bs.prod) (X : Nd ℝ)
    (hs : X.shape = bs ++ [a.M * a.N]) :
    ∃ P, a.predict X = .ok P ∧
      P.shape = bs ++ [(Spec.channels2 a.J a.L a.maxOrder).length * (a.M / 2 ^ a.J * (a.N / 2 ^ a.J))] ∧
      ∀ b i, position bs b = some i → ∃ rows,
        a.run (Spec.unflatten a.M a.N (Spec.signal X (a.M * a.N) b)) = .ok (.array rows) ∧
        ∀ k, entry P (b ++ [k]) = (Spec.flatten rows)[k]? := by
  have hP : 0 < 2 ^ a.J := by positivity
  have hpos : 0 < [a.M, a.N].prod := by
    simp only [List.prod_cons, List.prod_nil, mul_one]
    exact Nat.mul_pos (by omega) (by omega)
  have hprod : [a.M, a.N].prod = a.M * a.N := by simp
  set Y : Nd ℝ := ⟨bs.prod :: [a.M, a.N], X.data⟩ with hY
  have hre : X.reshape (none :: [a.M, a.N].map some) = .ok Y := reshape_samples (by rw [hprod]; exact hs) hpos
  obtain ⟨S, hS, hsh, hent⟩ := C22_2d_array a ho hJ hM hN a.M a.N (by rw [hp]; exact ⟨rfl, rfl⟩) [bs.prod] Y rfl
  set nc := (Spec.channels2 a.J a.L a.maxOrder).length with hnc
  set m := a.M / 2 ^ a.J with hm
  set n := a.N / 2 ^ a.J with hn
  have hfl := reshape_flat (S := S) (osh := [nc, m, n]) (bs := bs) hsh hbs
  have hprod3 : [nc, m, n].prod = nc * (m * n) := by simp
  rw [hprod3] at hfl
  refine ⟨⟨bs ++ [nc * (m * n)], S.data⟩, ?_, rfl, ?_⟩
  · unfold Args2D.predict sklearnPredict
    rw [hre]
    simp only [bind, Except.bind]
    rw [hS]
    simp only
    rw [hs, List.dropLast_concat]
    exact hfl
  · intro b i hb
    have hi := position_lt hb
    obtain ⟨rows, hrows, hrow⟩ := hent [i] i (by rw [position_one, if_pos hi])
    have himg : Spec.image Y a.M a.N [i] = Spec.unflatten a.M a.N (Spec.signal X (a.M * a.N) b) := by
      unfold Spec.image Spec.unflatten
      apply Img.tab_congr
      intro r q hr hq
      have hk := row_lt hr hq
      rw [List.getD_eq_getElem?_getD, Spec.signal, Nd.getElem?_tab, if_pos hk]
      simp only [Option.getD_some]
      unfold entry
      rw [hs, position_append hb, position_one, if_pos hk]
      have : position Y.shape ([i] ++ [r, q]) = some (i * (a.M * a.N) + (r * a.N + q)) := by
        show position [bs.prod, a.M, a.N] [i, r, q] = _
        rw [position_three, if_pos ⟨hi, hr, hq⟩]
      rw [this, hY]
      simp
    rw [himg] at hrows
    refine ⟨rows, hrows, fun k => ?_⟩
    have hlen := run_array_length hrows
    have hsz := C38_output_size a _ _ hrows
    have hh : ∀ y ∈ rows, y.h = m ∧ y.w = n := fun y hy => hsz y hy
    have hlf := length_flatten_img hh
    rw [hlen] at hlf
    unfold entry
    rw [position_append hb, position_one]
    by_cases hk : k < nc * (m * n)
    · rw [if_pos hk]
      have hmn : 0 < m * n := by
        rcases Nat.eq_zero_or_pos (m * n) with h0 | h0
        · rw [h0] at hk; simp at hk
        · exact h0
      have hn0 : 0 < n := Nat.pos_of_mul_pos_left hmn
      obtain ⟨c, t, ht, rfl⟩ : ∃ c t, t < m * n ∧ k = c * (m * n) + t :=
        ⟨k / (m * n), k % (m * n), Nat.mod_lt _ hmn, by rw [mul_comm]; exact (Nat.div_add_mod _ _).symm⟩
      obtain ⟨r, q, hq, rfl⟩ : ∃ r q, q < n ∧ t = r * n + q :=
        ⟨t / n, t % n, Nat.mod_lt _ hn0, by rw [mul_comm]; exact (Nat.div_add_mod _ _).symm⟩
      have hr : r < m := by
        by_contra hr
        have : m * n ≤ r * n := Nat.mul_le_mul_right n (by omega)
        omega
      rw [getElem?_flatten_img hh hr hq]
      have hc : c < nc := by
        by_contra hc
        have : nc * (m * n) ≤ c * (m * n) := Nat.mul_le_mul_right _ (by omega)
        omega
      have := hrow c r q
      unfold entry at this
      rw [hsh] at this
      have hpos3 : position ([bs.prod] ++ [nc, m, n]) ([i] ++ [c, r, q]) =
          some (i * (nc * (m * n)) + (c * (m * n) + (r * n + q))) := by
        rw [position_append (ix := [i]) (k := i) (by rw [position_one, if_pos hi]), position_three, if_pos ⟨hc, hr, hq⟩, hprod3]
        rfl
      rw [hpos3] at this
      simp only [Option.bind_some, Option.map_some] at this ⊢
      have hp1 : [nc * (m * n)].prod = nc * (m * n) := by simp
      rw [hp1, this]
      cases hcc : rows[c]? with
      | none => rfl
      | some y =>
        obtain ⟨f1, f2⟩ := hh y (List.mem_of_getElem? hcc)
        simp only [Option.bind_some, Option.map_some, Spec.pixel]
        rw [if_pos ⟨by rw [f1]; exact hr, by rw [f2]; exact hq⟩]
    · rw [if_neg hk, List.getElem?_eq_none (by rw [hlf]; exact Nat.le_of_not_lt hk)]
      rfl

/-- **Violated with `pre_pad`**: the transformer reshapes its input to `(-1, M, N)` while the transform then demands
the padded size, so every call fails, whatever the input. -/
theorem C52_2d_prepad_violated (a : Args2D) (hp : a.prePad = true) (X P : Nd ℝ) :
    a.predict X ≠ .ok P := by
  intro h
  unfold Args2D.predict sklearnPredict at h
  obtain ⟨Y, hY, h⟩ := bind_eq_ok.1 h
  obtain ⟨Z, hZ, -⟩ := bind_eq_ok.1 h
  obtain ⟨r, hr, -⟩ := bind_eq_ok.1 hZ
  have hsh : ∃ k, Y.shape = [k] ++ [a.M, a.N] := by
    have hc : (none :: [a.M, a.N].map some).count none = 1 := by
      rw [List.count_cons_self, List.count_eq_zero.2 (by simp)]
    unfold Nd.reshape at hY
    rw [hc] at hY
    simp only at hY
    split at hY
    · cases hY
    · obtain rfl := Except.ok.inj hY
      exact ⟨_, rfl⟩
  obtain ⟨k, hk⟩ := hsh
  unfold Args2D.runNd at hr
  obtain ⟨s, hs, hr⟩ := bind_eq_ok.1 hr
  obtain ⟨e1, e2, e3, -⟩ := shape_last2 [k] a.M a.N
  rw [hk, if_neg e1, e2, e3] at hr
  obtain ⟨⟨⟩, hc, -⟩ := bind_eq_ok.1 hr
  obtain ⟨h1, h2, h3, -, -, -⟩ := make_eq_ok hs
  obtain ⟨-, hc2, -⟩ := check_eq_ok.1 hc
  have := (hc2 hp).1
  rw [h3, padded2_eq] at this
  have hP : 0 < 2 ^ a.J := by positivity
  have h4 := Nat.div_mul_le_self a.M (2 ^ a.J)
  have h5 := Nat.lt_div_mul_add (a := a.M) hP
  nlinarith

/-- **Violated on an empty batch**, as in one dimension. -/
theorem C52_2d_empty_violated (a : Args2D) (X P : Nd ℝ) (bs : List Nat) (k : Nat) (hs : X.shape = bs ++ [k])
    (hbs : bs.prod = 0) : a.predict X ≠ .ok P := by
  intro h
  unfold Args2D.predict sklearnPredict at h
  obtain ⟨Y, -, h⟩ := bind_eq_ok.1 h
  obtain ⟨Z, -, h⟩ := bind_eq_ok.1 h
  rw [hs, List.dropLast_concat, reshape_flat_empty hbs] at h
  cases h

/-! ### Concrete cases -/

/-- A batch of six images arranged as `(2, 3)`. -/
example (d : List ℝ) : ∃ S, (⟨2, 9, 14, 3, 2, false, .array⟩ : Args2D).runNd ⟨[2, 3, 9, 14], d⟩ = .ok (.array S) ∧
    S.shape = [2, 3, 16, 2, 3] := by
  obtain ⟨S, h1, h2, -⟩ := C22_2d_array ⟨2, 9, 14, 3, 2, false, .array⟩ rfl (by decide) (by decide) (by decide) 9 14
    ⟨rfl, rfl⟩ [2, 3] ⟨[2, 3, 9, 14], d⟩ rfl
  refine ⟨S, h1, h2.trans ?_⟩
  rw [C39_count]
  rfl

/-- Six flattened images. -/
example (d : List ℝ) : ∃ P, (⟨2, 9, 14, 3, 2, false, .array⟩ : Args2D).predict ⟨[2, 3, 126], d⟩ = .ok P ∧
    P.shape = [2, 3, 96] := by
  obtain ⟨P, h1, h2, -⟩ := C52_2d_predict_partial ⟨2, 9, 14, 3, 2, false, .array⟩ rfl rfl (by decide) (by decide)
    (by decide) [2, 3] (by decide) ⟨[2, 3, 126], d⟩ rfl
  refine ⟨P, h1, h2.trans ?_⟩
  rw [C39_count]
  rfl

/-- The padded list output. -/
example (d : List ℝ) : ∃ L, exArgs2p.runNd ⟨[5, 16, 20], d⟩ = .ok (.list L) ∧ ∀ p ∈ L, p.coef.shape = [5, 2, 3] := by
  obtain ⟨L, h1, h2, -⟩ := C22_2d_list exArgs2p rfl (by decide) (by decide) (by decide) 16 20 ⟨by decide, by decide⟩ [5]
    ⟨[5, 16, 20], d⟩ rfl
  exact ⟨L, h1, h2⟩

end Verif
