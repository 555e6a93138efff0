import Verif.Props.EndToEnd
import Verif.Props.Words
import Verif.Proofs.Video

/-! # From the command line and files with several frames to the printed result (C81) -/

namespace Verif.Props

open Spec

variable {s : Sys} {io : Io} {v : CliEnv} {permute : Bool} {words operands : List (List UInt8)} {opts : List CliOpt} {input : List UInt8} {m : Method}
  {p : Params} {fuel : ℕ} {w : World} {W H : ℕ} {vb : ℤ} {u B e : ℝ} {offset : ℕ}

/-- The words of the command line ask for the sign method and no filter, on a build with the bundled transform whose operations and tables have
errors up to `u`; there is enough memory, and the size is acceptable for samples up to `B`. -/
structure Job (s : Sys) (io : Io) (v : CliEnv) (permute : Bool) (words : List (List UInt8)) (opts : List CliOpt) (input : List UInt8) (m : Method)
    (p : Params) (w : World) (W H : ℕ) (vb : ℤ) (u B : ℝ) : Prop where
  build : Build s
  bundled : s.cfg.backend = .kiss
  precise : Precise s.cfg
  accurate : Accurate s u
  moderate : Moderate s u B W H
  heap : w.WF
  memory : Plenty w
  scores : ¬ HugeScores s W H
  pixels : W * H ≤ 2 ^ s.cfg.inter.p
  size : expected s W H = RDEOK
  line : ∃ operands, CommandLine permute words opts (input :: operands)
  wants : Wants s.cfg io v opts input m p
  sign : m.func = .sign
  unfiltered : p.compressionFilter = 0
  verbosity : Verbosity s.cfg opts vb

/-- Frames selected by `-n` from those left by `-o`. -/
def Chosen {α : Type} (opts : List CliOpt) (frames sel : List α) : Prop :=
  (last CliOpt.nArg opts = none ∧ sel = frames) ∨ ∃ n, Limits opts n ∧ sel = frames.take n

/-- The error made in the mean over `k` frames. -/
def meanError (c : Cfg) (k : ℕ) : ℚ := (k + 2) * pow2 (-c.inter.p)

/-- What is printed and returned for spectra of pictures `pics`. -/
def Reports (s : Sys) (m : Method) (p : Params) (W H : ℕ) (vb : ℤ) (d : ℝ) (pics : List (ℕ → ℕ → ℝ)) (ex : Exit) : Prop :=
  ∃ l1 l2, Legible vb W H l1 l2 (cliText ex.shown) ∧ ex.code = (if vb = 0 ∧ l1.length = 1 ∧ l2.length = 1 then 1 else 0) ∧
    MeanList d (meanError s.cfg pics.length) (meanError s.cfg pics.length + 1 / 2 ^ 24) (val (effParams s.cfg m (some p)).threshold) p.range W H
      (pics.map (fun pic y x => dct2 W H pic x y)) l1 ∧
    MeanList d (meanError s.cfg pics.length) (meanError s.cfg pics.length + 1 / 2 ^ 24) (val (effParams s.cfg m (some p)).threshold) p.range H W
      (pics.map (fun pic x y => dct2 W H pic x y)) l2

theorem sampled_finite {f : List Fl} (hW : 0 < W) (h : Sampled B W H f) : ∀ x ∈ f.take (W * H), x.isfinite = true := by
  intro x hx
  obtain ⟨i, hi, rfl⟩ := List.getElem_of_mem hx
  rw [List.length_take] at hi
  have hj : i / W < H := Nat.div_lt_of_lt_mul (by omega)
  obtain ⟨b, q, e, _⟩ := h (i % W) (i / W) (Nat.mod_lt _ hW) hj
  rw [Nat.div_add_mod', List.getElem?_eq_getElem (by omega)] at e
  rw [List.getElem_take, Option.some.inj e]
  rfl

/-- The method and the parameters in use are the sign method and no filter, on a build with the bundled transform whose operations and tables have
errors up to `u`, for images of this size and samples up to `B`. -/
structure Suited (s : Sys) (m : Option Method) (p : Option Params) (W H : ℕ) (u B : ℝ) : Prop where
  build : Build s
  bundled : s.cfg.backend = .kiss
  precise : Precise s.cfg
  accurate : Accurate s u
  moderate : Moderate s u B W H
  pixels : W * H ≤ 2 ^ s.cfg.inter.p
  method : ValidMethod? m
  params : ValidParams? s.cfg p
  sign : (effMethod m).func = .sign
  unfiltered : (effParams s.cfg (effMethod m) p).compressionFilter = 0
  float : binary32.rnd (val (effParams s.cfg (effMethod m) p).threshold) = val (effParams s.cfg (effMethod m) p).threshold

/-- What exact arithmetic gives for the widths and for the heights in pictures `pics`, with coefficients known up to `d`. -/
def WidthsOf (s : Sys) (m : Option Method) (p : Option Params) (W H : ℕ) (d : ℝ) (pics : List (ℕ → ℕ → ℝ)) (l : List Res) : Prop :=
  MeanList d (meanError s.cfg pics.length) (meanError s.cfg pics.length + 1 / 2 ^ 24) (val (effParams s.cfg (effMethod m) p).threshold)
    (effParams s.cfg (effMethod m) p).range W H (pics.map (fun pic y x => dct2 W H pic x y)) l

@[inherit_doc WidthsOf]
def HeightsOf (s : Sys) (m : Option Method) (p : Option Params) (W H : ℕ) (d : ℝ) (pics : List (ℕ → ℕ → ℝ)) (l : List Res) : Prop :=
  MeanList d (meanError s.cfg pics.length) (meanError s.cfg pics.length + 1 / 2 ^ 24) (val (effParams s.cfg (effMethod m) p).threshold)
    (effParams s.cfg (effMethod m) p).range H W (pics.map (fun pic x y => dct2 W H pic x y)) l

theorem depicts_finite {frames : List (List Fl)} {pics : List (ℕ → ℕ → ℝ)} (hW : 0 < W) (hpics : List.Forall₂ (Depicts B e W H) frames pics) :
    frameError W H frames = RDEOK := by
  unfold frameError
  rw [if_pos]
  intro f hf
  obtain ⟨i, hi, rfl⟩ := List.getElem_of_mem hf
  have hl := hpics.length_eq
  exact sampled_finite hW ((List.forall₂_iff_get.mp hpics).2 i hi (by omega)).1

theorem expected_pos (h : expected s W H = RDEOK) : 0 < W ∧ 0 < H := by
  unfold expected at h
  split_ifs at h with h1
  all_goals first | exact absurd h (by decide) | exact ⟨by omega, by omega⟩

/-- The lists of an analysis fed with frames. -/
theorem history_means {m : Option Method} {p : Option Params} (h : Suited s m p W H u B) {ev : List (Call × Obs)} {a : Analysis} {rw rh : Option (List Res)}
    {cw ch : ℕ} {frames : List (List Fl)} {pics : List (ℕ → ℕ → ℝ)} (hr : Returned s m W H p ev a rw cw rh ch)
    (hno : NoOom ev) (f2 : (analysed ev).map (fun x => x.1.op) = frames.map (fun f => Op.analyze (some f)))
    (hplw : ∀ x ∈ analysed ev, Plenty x.1.world) (hpics : List.Forall₂ (Depicts B e W H) frames pics) (hexact : Exact s.cfg frames.length)
    (hlen : frames.length ≤ s.cfg.sizeMax) :
    (∀ l, rw = some l → WidthsOf s m p W H (totalError u B e W H) pics l) ∧ (∀ l, rh = some l → HeightsOf s m p W H (totalError u B e W H) pics l) := by
  have hs := h.build
  have hm := h.method
  have hp := h.params
  have hpic : ∀ f ∈ frames, ∃ pic ∈ pics, Depicts B e W H f pic := by
    intro f hf
    obtain ⟨i, hi, rfl⟩ := List.getElem_of_mem hf
    have hl := hpics.length_eq
    exact ⟨pics[i], List.getElem_mem _, (List.forall₂_iff_get.mp hpics).2 i hi (by omega)⟩
  have hcount : (analysed ev).length = frames.length := by
    rw [← List.length_map (fun x : Call × Obs => x.1.op), f2, List.length_map]
  obtain ⟨fs, hfs, _⟩ := (reach_inv hs hm hp hr.1).scores hno
  obtain ⟨fne, hl1, hX, hY⟩ := returned_listed hs hm hp hno (by rw [hcount]; exact hlen) hr hfs
  rw [hcount] at hl1
  obtain ⟨w0, h0, _, _, r0, htu⟩ := returned_sizes hs h.precise hm hp hr
  have hacc := history_accuracy hs h.bundled hm hp hr.1 h.accurate h.moderate (Or.inr hplw) hfs (Q := fun im => im ∈ frames)
    (fun x hx => by
      have := List.mem_map_of_mem (f := fun x => x.1.op) hx
      rw [f2, List.mem_map] at this
      obtain ⟨f, hf, ef⟩ := this
      obtain ⟨pic, _, h1, _⟩ := hpic f hf
      exact ⟨f, ef.symm, h1, hf⟩)
  have hspec : List.Forall₂ (fun f pic => ∀ i j, i < W → j < H → Spec.Within (totalError u B e W H) (rows f W j i) (dct2 W H pic i j)) fs pics := by
    refine List.forall₂_iff_get.mpr ⟨by rw [hl1, hpics.length_eq], fun i hi hi' => ?_⟩
    have hie : i < (analysed ev).length := by rw [hcount, ← hl1]; exact hi
    have his : i < frames.length := by rw [← hl1]; exact hi
    obtain ⟨image, eo, _, hw⟩ := (List.forall₂_iff_get.mp hacc).2 i hie hi
    have ef : ((analysed ev).map (fun x => x.1.op))[i]? = (frames.map (fun f => Op.analyze (some f)))[i]? := by rw [f2]
    rw [List.getElem?_map, List.getElem?_map, List.getElem?_eq_getElem hie, List.getElem?_eq_getElem his] at ef
    simp only [List.get_eq_getElem] at eo hw ⊢
    rw [Option.map_some, Option.map_some, eo] at ef
    cases ef
    have hd := (List.forall₂_iff_get.mp hpics).2 i his hi'
    intro x y hx hy
    exact within_shift (hw x y hx hy) (dct2_apart hd.2 x y)
  have hplen : pics.length = fs.length := by rw [hl1, hpics.length_eq]
  refine ⟨fun l hl => ?_, fun l hl => ?_⟩
  · have hX := hX l hl
    rw [h.sign] at hX
    have E1 := meanList hs.wf.inter_wf h.precise hX (by rw [hl1]; exact hexact) fne h.unfiltered htu h.float h0 r0 (by rw [mul_comm]; exact h.pixels)
      (Xs := pics.map (fun pic y x => dct2 W H pic x y)) (d := totalError u B e W H)
      (List.forall₂_map_right_iff.mpr (hspec.imp fun f pic hw y hy x hx => hw x y hx hy))
    rw [← hplen] at E1
    exact E1
  · have hY := hY l hl
    rw [h.sign] at hY
    have E2 := meanList hs.wf.inter_wf h.precise hY (by rw [hl1]; exact hexact) fne h.unfiltered htu h.float w0 r0 h.pixels
      (Xs := pics.map (fun pic x y => dct2 W H pic x y)) (d := totalError u B e W H)
      (List.forall₂_map_right_iff.mpr (hspec.imp fun f pic hw x hx y hy => hw x y hx hy))
    rw [← hplen] at E2
    exact E2

theorem all_analysed {ev : List (Call × Obs)} {n : ℕ} (f1 : ev.map (fun x => x.2) = List.replicate n (.analyzed RDEOK)) : analysed ev = ev ∧ NoOom ev := by
  refine ⟨List.filter_eq_self.mpr fun x hx => ?_, fun x hx => ?_⟩
  · have := List.mem_map_of_mem (f := fun x => x.2) hx
    rw [f1] at this
    simp [List.eq_of_mem_replicate this]
  · have := List.mem_map_of_mem (f := fun x => x.2) hx
    rw [f1] at this
    rw [List.eq_of_mem_replicate this]
    decide

@[inherit_doc history_means]
theorem returned_means {m : Option Method} {p : Option Params} (h : Suited s m p W H u B) {ev : List (Call × Obs)} {a : Analysis} {rw rh : Option (List Res)}
    {cw ch : ℕ} {frames : List (List Fl)} {pics : List (ℕ → ℕ → ℝ)} (hr : Returned s m W H p ev a rw cw rh ch)
    (f1 : ev.map (fun x => x.2) = List.replicate frames.length (.analyzed RDEOK)) (f2 : ev.map (fun x => x.1.op) = frames.map (fun f => Op.analyze (some f)))
    (hplw : ∀ x ∈ ev, Plenty x.1.world) (hpics : List.Forall₂ (Depicts B e W H) frames pics) (hexact : Exact s.cfg frames.length)
    (hlen : frames.length ≤ s.cfg.sizeMax) :
    (∀ l, rw = some l → WidthsOf s m p W H (totalError u B e W H) pics l) ∧ (∀ l, rh = some l → HeightsOf s m p W H (totalError u B e W H) pics l) := by
  obtain ⟨han, hno⟩ := all_analysed f1
  exact history_means h hr hno (by rw [han]; exact f2) (by rw [han]; exact hplw) hpics hexact hlen

theorem Job.suited (h : Job s io v permute words opts input m p w W H vb u B) : Suited s (some m) (some p) W H u B where
  build := h.build
  bundled := h.bundled
  precise := h.precise
  accurate := h.accurate
  moderate := h.moderate
  pixels := h.pixels
  method := valid_method h.wants
  params := valid_params h.build h.wants
  sign := h.sign
  unfiltered := h.unfiltered
  float := threshold_float (s := s) h.wants.threshold (wantsMethod_mem h.wants.method)

/-- **C81** Whatever the format: the command, called with words, succeeds on frames, and what it prints can be read as two lists.  These are what
exact arithmetic gives for the pictures the selected frames depict, with coefficients known up to `totalError`. -/
theorem C81_any (h : Job s io v permute words opts input m p w W H vb u B) {frames sel : List (List Fl)} {pics : List (ℕ → ℕ → ℝ)}
    (hk : Skips opts offset) (hy : Presents s io (opening s io opts input) offset W H frames) (hsel : Chosen opts frames sel) (hne : sel ≠ [])
    (hpics : List.Forall₂ (Depicts B e W H) sel pics) (hexact : Exact s.cfg sel.length) (hlen : frames.length < s.cfg.sizeMax)
    (hfuel : frames.length < fuel) :
    ∃ ex w', cliCommand s io v fuel permute words w = some (ex, w') ∧ Reports s m p W H vb (totalError u B e W H) pics ex := by
  obtain ⟨operands, hline⟩ := h.line
  rw [C80_words hline]
  have hs := h.build
  have hfin := depicts_finite (expected_pos h.size).1 hpics
  obtain ⟨ex, w', e1, _, e2⟩ := C48_readers (fuel := fuel) hs h.heap h.memory h.scores h.wants h.verbosity hk hy hsel hfuel hlen
  obtain ⟨ev, a, l1, l2, hsu, hfed, hplw⟩ := e2 (by
    rintro (h1 | h1 | h1)
    · exact h1 h.size
    · exact h1 hfin
    · exact hne h1)
  obtain ⟨f1, f2⟩ := fed_ok hfed
  have hsl : sel.length ≤ frames.length := by
    rcases hsel with ⟨_, rfl⟩ | ⟨n, _, rfl⟩
    · exact le_rfl
    · rw [List.length_take]; exact min_le_right _ _
  have hrange : (effParams s.cfg (effMethod (some m)) (some p)).range = p.range := by
    show (if m.func = .zerox then 1 else p.range) = p.range
    rw [h.sign]
    rfl
  obtain ⟨E1, E2⟩ := returned_means h.suited hsu.returned f1 f2 hplw hpics hexact (by omega)
  have E1 := E1 l1 rfl
  have E2 := E2 l2 rfl
  unfold WidthsOf at E1
  unfold HeightsOf at E2
  rw [hrange] at E1 E2
  obtain ⟨i1, k1, _⟩ := E1.parts
  obtain ⟨i2, k2, _⟩ := E2.parts
  exact ⟨ex, w', e1, l1, l2, prints_legible (by rw [k1]; simp) (by rw [k2]; simp) hsu.prints, hsu.code, E1, E2⟩

/-- The samples of a frame of a Y4M stream depict its luma. -/
theorem luma_depicts {d : ℕ} (hd : 1 ≤ d) {l : List ℕ} (hl : l.length = W * H) (hv : ∀ x ∈ l, x < 2 ^ d) :
    Depicts 1 (2 ^ (-24 : ℤ)) W H (l.map (normal (2 ^ d - 1))) (lumaPicture W d l) := by
  have h1 : 1 ≤ 2 ^ d - 1 := by
    have : 2 ^ 1 ≤ 2 ^ d := Nat.pow_le_pow_right (by norm_num) hd
    omega
  have hc : ((2 ^ d - 1 : ℕ) : ℝ) = 2 ^ d - 1 := by
    rw [Nat.cast_sub Nat.one_le_two_pow]; push_cast; ring
  have hat : ∀ i j, i < W → j < H → ∃ x ∈ l, l[j * W + i]? = some x := by
    intro i j hi hj
    have hlt : j * W + i < l.length := by
      rw [hl]
      calc j * W + i < j * W + W := by omega
        _ = (j + 1) * W := by ring
        _ ≤ H * W := Nat.mul_le_mul_right W hj
        _ = W * H := mul_comm _ _
    exact ⟨l[j * W + i], List.getElem_mem hlt, List.getElem?_eq_getElem hlt⟩
  constructor
  · intro i j hi hj
    obtain ⟨x, hx, ex⟩ := hat i j hi hj
    obtain ⟨q, e, q1, _⟩ := normal_near h1 (b := x) (by have := hv x hx; omega)
    exact ⟨false, q, by rw [List.getElem?_map, ex, Option.map_some, e], q1⟩
  · intro i j hi hj
    obtain ⟨x, hx, ex⟩ := hat i j hi hj
    obtain ⟨q, e, _, q2⟩ := normal_near h1 (b := x) (by have := hv x hx; omega)
    unfold pixel lumaPicture
    rw [List.getElem?_map, ex, Option.map_some, e]
    rw [hc] at q2
    exact q2

theorem y4m_frames {x : Sampling} {d : ℕ} {frames : List (List ℕ)} {file : List UInt8} (hf : Y4mFile W H x d frames file) :
    1 ≤ d ∧ ∀ l ∈ frames, l.length = W * H ∧ ∀ n ∈ l, n < 2 ^ d := by
  obtain ⟨hl, _, hp⟩ := hf
  constructor
  · have : ∀ y ∈ layouts, 1 ≤ y.2.2 := by decide
    exact this _ hl
  · clear hl
    induction hp with
    | nil => simp
    | cons h1 _ ih =>
      intro l hm
      rcases List.mem_cons.mp hm with rfl | hm
      · cases h1 with | mk _ a b _ => exact ⟨a, b⟩
      · exact ih l hm

theorem chosen_map {α β : Type} {frames sel : List α} (f : α → β) (h : Chosen opts frames sel) : Chosen opts (frames.map f) (sel.map f) := by
  rcases h with ⟨h1, rfl⟩ | ⟨n, h1, rfl⟩
  · exact Or.inl ⟨h1, rfl⟩
  · exact Or.inr ⟨n, h1, List.map_take ..⟩

theorem chosen_mem {α : Type} {frames sel : List α} (h : Chosen opts frames sel) : ∀ f ∈ sel, f ∈ frames := by
  rcases h with ⟨_, rfl⟩ | ⟨n, _, rfl⟩
  · exact fun _ h => h
  · exact fun _ h => List.mem_of_mem_take h

theorem forall₂_mem {α β : Type} {R S : α → β → Prop} {as : List α} {bs : List β} (h : List.Forall₂ R as bs) (hS : ∀ a b, a ∈ as → R a b → S a b) :
    List.Forall₂ S as bs := by
  induction h with
  | nil => exact .nil
  | cons h1 _ ih => exact .cons (hS _ _ (by simp) h1) (ih fun a b ha => hS a b (List.mem_cons_of_mem _ ha))

theorem depicts_near {δ : ℝ} {frame : List Fl} {pic pic' : ℕ → ℕ → ℝ} (h : Depicts B e W H frame pic) (hn : Near δ W H pic pic') :
    Depicts B (e + δ) W H frame pic' :=
  ⟨h.1, fun i j hi hj => le_trans (abs_sub_le _ (pic i j) _) (add_le_add (h.2 i j hi hj) (hn i j hi hj))⟩

/-- Frames of a Y4M stream close to pictures. -/
theorem y4m_reports (h : Job s io v permute words opts input m p w W H vb u 1) {x : Sampling} {d : ℕ} {frames sel : List (List ℕ)} {file : List UInt8}
    {k : Bool} (ho : io.omitY4m = false) (hu : Uses s io input (cs "y4m") (opening s io opts input)) (hh : io.fs.Holds input (file, k))
    (hf : Y4mFile W H x d frames file) (hx : Skippable W H x) (hs : Feasible s.cfg W H x d) (hlong : k = true → file.length ≤ s.cfg.longMax)
    (hk : Skips opts offset) {δ : ℝ} {pics : List (ℕ → ℕ → ℝ)}
    (hpics : List.Forall₂ (fun l pic => Near δ W H (lumaPicture W d l) pic) sel pics)
    (hle : offset ≤ frames.length) (hsel : Chosen opts (frames.drop offset) sel) (hne : sel ≠ [])
    (hexact : Exact s.cfg sel.length) (hlen : frames.length < s.cfg.sizeMax) (hfuel : frames.length < fuel) :
    ∃ ex w', cliCommand s io v fuel permute words w = some (ex, w') ∧
      Reports s m p W H vb (totalError u 1 (2 ^ (-24 : ℤ) + δ) W H) pics ex := by
  obtain ⟨d1, hfr⟩ := y4m_frames hf
  have hpl := y4m_all ho hu hh hf hx hs hlong
  have hy := (C48_plays hpl (k := offset)).1 (by unfold lumas; rw [List.length_map]; exact hle) trivial
  unfold lumas at hy
  rw [← List.map_drop] at hy
  refine C81_any (sel := sel.map (fun l => l.map (normal (2 ^ d - 1)))) h hk (.native (.y4m ho hu) hy) (chosen_map _ hsel) (by simpa using hne) ?_
    (by rw [List.length_map]; exact hexact) (by rw [List.length_map, List.length_drop]; omega) (by rw [List.length_map, List.length_drop]; omega)
  rw [List.forall₂_map_left_iff]
  refine forall₂_mem hpics fun l pic hl hn => ?_
  obtain ⟨a, b⟩ := hfr l (List.mem_of_mem_drop (chosen_mem hsel l hl))
  exact depicts_near (luma_depicts d1 a b) hn

/-- PFM images close to pictures. -/
theorem pfm_reports (h : Job s io v permute words opts input m p w W H vb u B) {images sel : List PfmImage} {file : List UInt8} {k : Bool}
    (ho : io.omitPfm = false) (hu : Uses s io input (cs "pfm") (opening s io opts input)) (hh : io.fs.Holds input (file, k))
    (hf : PfmFile W H images file) (hw : Verif.Within s.cfg W H) (hlong : k = true → file.length ≤ s.cfg.longMax) (hk : Skips opts offset)
    (hkind : offset = 0 ∨ ∃ colour, (∀ i ∈ images, i.colour = colour) ∧ 4 * (if colour then 3 else 1) * W * H ≤ s.cfg.sizeMax)
    {δ : ℝ} {pics : List (ℕ → ℕ → ℝ)}
    (hpics : List.Forall₂ (fun i pic => Near δ W H (pixel W i.samples) pic) sel pics) (hle : offset ≤ images.length)
    (hsel : Chosen opts (images.drop offset) sel) (hne : sel ≠ []) (hb : ∀ i ∈ sel, Sampled B W H i.samples)
    (hexact : Exact s.cfg sel.length) (hlen : images.length < s.cfg.sizeMax) (hfuel : images.length < fuel) :
    ∃ ex w', cliCommand s io v fuel permute words w = some (ex, w') ∧
      Reports s m p W H vb (totalError u B δ W H) pics ex := by
  have h0 : images ≠ [] := by
    rintro rfl
    obtain ⟨f, hf⟩ := List.exists_mem_of_ne_nil sel hne
    have := chosen_mem hsel f hf
    simp at this
  have hpl := pfm_plays hu ho hh hf h0 hw hlong rfl
  have hy := (C48_plays hpl (k := offset)).1 (by rw [List.length_map]; exact hle) (by
    rcases hkind with rfl | ⟨c, h1, h2⟩
    · left
      intro op hop
      simpa [skipping] using hop
    · by_cases h3 : offset = 0
      · left
        subst h3
        intro op hop
        simpa [skipping] using hop
      · right
        refine ⟨?_, c, h1, by unfold comps; exact h2⟩
        unfold skipping
        rw [if_neg h3]
        simpa using h3)
  rw [← List.map_drop] at hy
  refine C81_any (sel := sel.map PfmImage.samples) h hk (.native (.pfm ho hu) hy) (chosen_map _ hsel) (by simpa using hne) ?_
    (by rw [List.length_map]; exact hexact) (by rw [List.length_map, List.length_drop]; omega) (by rw [List.length_map, List.length_drop]; omega)
  rw [List.forall₂_map_left_iff]
  exact forall₂_mem hpics fun i pic hi hn => ⟨hb i hi, hn⟩

/-- **C81** (partial) A Y4M stream: of its frames `-o` skips the first ones and `-n` takes as many as it says; the result is that of exact
arithmetic for the luma of the frames taken.  Missing: the layouts that are skipped by a wrong size, see `C38_fails` and `C81_fails`, and samples of two
bytes on big endian hosts, see `C37_fails`. -/
theorem C81_y4m_partial (h : Job s io v permute words opts input m p w W H vb u 1) {x : Sampling} {d : ℕ} {frames sel : List (List ℕ)} {file : List UInt8}
    {k : Bool} (ho : io.omitY4m = false) (hu : Uses s io input (cs "y4m") (opening s io opts input)) (hh : io.fs.Holds input (file, k))
    (hf : Y4mFile W H x d frames file) (hx : Skippable W H x) (hs : Feasible s.cfg W H x d) (hlong : k = true → file.length ≤ s.cfg.longMax)
    (hk : Skips opts offset) (hle : offset ≤ frames.length) (hsel : Chosen opts (frames.drop offset) sel) (hne : sel ≠ [])
    (hexact : Exact s.cfg sel.length) (hlen : frames.length < s.cfg.sizeMax) (hfuel : frames.length < fuel) :
    ∃ ex w', cliCommand s io v fuel permute words w = some (ex, w') ∧
      Reports s m p W H vb (totalError u 1 (2 ^ (-24 : ℤ)) W H) (sel.map (lumaPicture W d)) ex := by
  have := y4m_reports (δ := 0) (pics := sel.map (lumaPicture W d)) h ho hu hh hf hx hs hlong hk
    (List.forall₂_map_right_iff.mpr (List.forall₂_same.mpr fun l _ i j _ _ => by simp)) hle hsel hne hexact hlen hfuel
  rwa [add_zero] at this

/-- **C81** (partial) Several PFM images one after another: the result is that of exact arithmetic for the samples in the file, or the means of three
for images in colour.  Missing: skipping in files with both kinds of images, see `C36_fails`. -/
theorem C81_pfm_partial (h : Job s io v permute words opts input m p w W H vb u B) {images sel : List PfmImage} {file : List UInt8} {k : Bool}
    (ho : io.omitPfm = false) (hu : Uses s io input (cs "pfm") (opening s io opts input)) (hh : io.fs.Holds input (file, k))
    (hf : PfmFile W H images file) (hw : Verif.Within s.cfg W H) (hlong : k = true → file.length ≤ s.cfg.longMax) (hk : Skips opts offset)
    (hkind : offset = 0 ∨ ∃ colour, (∀ i ∈ images, i.colour = colour) ∧ 4 * (if colour then 3 else 1) * W * H ≤ s.cfg.sizeMax)
    (hle : offset ≤ images.length) (hsel : Chosen opts (images.drop offset) sel) (hne : sel ≠ []) (hb : ∀ i ∈ sel, Sampled B W H i.samples)
    (hexact : Exact s.cfg sel.length) (hlen : images.length < s.cfg.sizeMax) (hfuel : images.length < fuel) :
    ∃ ex w', cliCommand s io v fuel permute words w = some (ex, w') ∧
      Reports s m p W H vb (totalError u B 0 W H) (sel.map (fun i => pixel W i.samples)) ex := by
  have hpics : List.Forall₂ (fun i pic => Near 0 W H (pixel W i.samples) pic) sel (sel.map fun i => pixel W i.samples) :=
    List.forall₂_map_right_iff.mpr (List.forall₂_same.mpr fun l _ i j _ _ => by simp)
  exact pfm_reports h ho hu hh hf hw hlong hk hkind hpics hle hsel hne hb hexact hlen hfuel

theorem across_cross {k N : ℕ} {pic : ℕ → ℕ → ℝ} (hk : 2 ≤ k) (hN : 0 < N) (hw : ∀ i j, i < k * N → j < H → pic i j = pic (i / k * k) j) :
    Crosses (fun y x => dct2 (k * N) H pic x y) H N := by
  constructor
  · intro j hj
    obtain ⟨c, hc, hall⟩ := dct2_wide (x := pic) (o := fun a j => pic (a * k) j) hN hk hw hj
    exact ⟨c, hc, fun y _ => hall y⟩
  · intro y _
    exact dct2_wide_zero (x := pic) (o := fun a j => pic (a * k) j) hN hk hw y

theorem down_cross {k N : ℕ} {pic : ℕ → ℕ → ℝ} (hk : 2 ≤ k) (hN : 0 < N) (hw : ∀ i j, i < W → j < k * N → pic i j = pic i (j / k * k)) :
    Crosses (fun x y => dct2 W (k * N) pic x y) W N := by
  constructor
  · intro j hj
    obtain ⟨c, hc, hall⟩ := dct2_tall (x := pic) (o := fun i a => pic i (a * k)) hN hk hw hj
    exact ⟨c, hc, fun y _ => hall y⟩
  · intro y _
    exact dct2_tall_zero (x := pic) (o := fun i a => pic i (a * k)) hN hk hw y

/-- An entry of positive confidence is not the last one. -/
theorem _root_.Verif.Spec.MeanList.before {d : ℝ} {ε ε' t : ℚ} {range len n N : ℕ} {Xs : List (ℕ → ℕ → ℝ)} {l : List Res}
    (hl : MeanList d ε ε' t range len n Xs l) {q : ℚ} (hm : (⟨N, .fin false q⟩ : Res) ∈ l) : (⟨N, .fin false q⟩ : Res) ∈ l.dropLast ∧ l.length ≠ 1 := by
  obtain ⟨init, e, _⟩ := hl.parts
  rw [e] at hm ⊢
  rcases List.mem_append.mp hm with h | h
  · refine ⟨by rw [List.dropLast_concat]; exact h, ?_⟩
    have := List.length_pos_of_mem h
    rw [List.length_append, List.length_singleton]
    omega
  · rw [List.mem_singleton] at h
    cases h

/-- For clear sizes the mean of the shares decides. -/
theorem _root_.Verif.Spec.MeanList.clear {d : ℝ} {ε ε' t : ℚ} {range len n N : ℕ} {Xs : List (ℕ → ℕ → ℝ)} {l : List Res}
    (hl : MeanList d ε ε' t range len n Xs l) (h1 : range ≤ N) (h2 : N + range < len) (hc : ∀ X ∈ Xs, Clear d X n range N) :
    (t + ε ≤ meanShare Xs n range N → ∃ c, (⟨N, c⟩ : Res) ∈ l) ∧
    ∀ c, (⟨N, c⟩ : Res) ∈ l → t ≤ meanShare Xs n range N + ε ∧ ∃ v, c = .fin false v ∧ |v - meanShare Xs n range N| ≤ ε' := by
  obtain ⟨e1, e2⟩ := mean_clear h1 hc
  refine ⟨fun h => hl.listed N h1 h2 (by rw [e1]; exact h), fun c hm => ?_⟩
  obtain ⟨a, v, rfl, b1, b2⟩ := hl.entries N h1 h2 c hm
  rw [e2] at a b2
  rw [e1] at b1
  exact ⟨a, v, rfl, abs_le.mpr ⟨by linarith, by linarith⟩⟩

/-- A size for which everything speaks in all pictures has confidence 1. -/
theorem _root_.Verif.Spec.MeanList.full {d : ℝ} {ε ε' t : ℚ} {range len n N : ℕ} {Xs : List (ℕ → ℕ → ℝ)} {l : List Res}
    (hl : MeanList d ε ε' t range len n Xs l) (ht : t ≤ 1) (h1 : range ≤ N) (h2 : N + range < len) (hc : ∀ X ∈ Xs, Clear d X n range N)
    (hs : ∀ X ∈ Xs, share X n range N = 1) : (⟨N, .fin false 1⟩ : Res) ∈ l := by
  have one := binary32.rnd_one binary32_wf
  obtain ⟨a, b, _⟩ := hl.between N h1 h2 1 1 zero_le_one le_rfl one one (fun X hX => by
    rw [(share_clear h1 (hc X hX)).1, (share_clear h1 (hc X hX)).2, hs X hX]; exact ⟨le_rfl, le_rfl⟩)
  obtain ⟨c, hm⟩ := b ht
  obtain ⟨v, rfl, v1, v2⟩ := a c hm
  rwa [le_antisymm v2 v1] at hm

/-- A list without entries besides the length. -/
theorem _root_.Verif.Spec.MeanList.alone {d : ℝ} {ε ε' t : ℚ} {range len n : ℕ} {Xs : List (ℕ → ℕ → ℝ)} {l : List Res}
    (hl : MeanList d ε ε' t range len n Xs l)
    (h : ∀ N, range ≤ N → N + range < len → (∀ X ∈ Xs, Clear d X n range N) ∧ meanShare Xs n range N + ε < t) : l = [⟨len, .fin true (-1)⟩] := by
  obtain ⟨init, e, _, h2⟩ := hl.parts
  cases init with
  | nil => rw [e]; rfl
  | cons r rs =>
    exfalso
    obtain ⟨a, b⟩ := h2 r (by simp)
    obtain ⟨c1, c2⟩ := h _ a b
    have := ((hl.clear a b c1).2 r.confidence (by rw [e]; simp)).1
    exact absurd c2 (not_lt.mpr this)

theorem Job.range_pos (h : Job s io v permute words opts input m p w W H vb u B) : 0 < p.range :=
  (valid_params h.build h.wants p rfl).range_pos

theorem Job.threshold_le (h : Job s io v permute words opts input m p w W H vb u B) : val (effParams s.cfg m (some p)).threshold ≤ 1 := by
  obtain ⟨b, q, e, _, q1⟩ := (effParams_good h.build.wf (wantsMethod_mem h.wants.method) (valid_params h.build h.wants)).2.1
  rw [e]
  exact q1

theorem Job.positive (h : Job s io v permute words opts input m p w W H vb u B) : 0 < W ∧ 0 < H := by
  have := h.size
  unfold expected at this
  split_ifs at this with h1
  all_goals first | exact absurd this (by decide) | exact ⟨by omega, by omega⟩

/-- **C81** Frames all of which repeat each column `k` times, as after enlarging by pixel repetition, are reported as enlarged from their original
width, with full confidence; in the same way for rows. -/
theorem C81_enlarged (h : Job s io v permute words opts input m p w W H vb u B) {d : ℝ} (hd : 0 < d) {pics : List (ℕ → ℕ → ℝ)} {ex : Exit}
    (hr : Reports s m p W H vb d pics ex) {k N : ℕ} (hk : 2 ≤ k) (hN : p.range < N) :
    (W = k * N → (∀ pic ∈ pics, (∀ i j, i < W → j < H → pic i j = pic (i / k * k) j) ∧ Clear d (fun y x => dct2 W H pic x y) H p.range N) →
      ex.code = 0 ∧ ShowsWidth vb N (cliText ex.shown)) ∧
    (H = k * N → (∀ pic ∈ pics, (∀ i j, i < W → j < H → pic i j = pic i (j / k * k)) ∧ Clear d (fun x y => dct2 W H pic x y) W p.range N) →
      ex.code = 0 ∧ ShowsHeight vb N (cliText ex.shown)) := by
  obtain ⟨l1, l2, e2, e3, e4, e5⟩ := hr
  have hr := h.range_pos
  obtain ⟨w0, h0⟩ := h.positive
  constructor
  · intro hW hall
    have hm : (⟨N, .fin false 1⟩ : Res) ∈ l1 := e4.full h.threshold_le hN.le (by rw [hW]; nlinarith)
      (by
        intro X hX
        obtain ⟨pic, hp, rfl⟩ := List.mem_map.mp hX
        exact (hall pic hp).2)
      (by
        intro X hX
        obtain ⟨pic, hp, rfl⟩ := List.mem_map.mp hX
        refine share_full hd h0 hr hN ?_ (hall pic hp).2
        subst hW
        exact across_cross hk (by omega) (hall pic hp).1)
    obtain ⟨hd, h1⟩ := e4.before hm
    exact ⟨by rw [e3, if_neg (fun h => h1 h.2.1)], legible_width e2 hm hd⟩
  · intro hW hall
    have hm : (⟨N, .fin false 1⟩ : Res) ∈ l2 := e5.full h.threshold_le hN.le (by rw [hW]; nlinarith)
      (by
        intro X hX
        obtain ⟨pic, hp, rfl⟩ := List.mem_map.mp hX
        exact (hall pic hp).2)
      (by
        intro X hX
        obtain ⟨pic, hp, rfl⟩ := List.mem_map.mp hX
        refine share_full hd w0 hr hN ?_ (hall pic hp).2
        subst hW
        exact down_cross hk (by omega) (hall pic hp).1)
    obtain ⟨hd, h1⟩ := e5.before hm
    exact ⟨by rw [e3, if_neg (fun h => h1 h.2.2)], legible_height e2 hm hd⟩

/-- The size given is the only one in both lists. -/
theorem legible_original {t : List UInt8} (h : Legible vb W H [⟨W, .fin true (-1)⟩] [⟨H, .fin true (-1)⟩] t) : ShowsOriginal vb W H t := by
  obtain ⟨_, k1, k2, k3, k4⟩ := h
  refine ⟨fun hv => ?_, fun hv => ?_, fun hv => ?_, fun hv => ?_⟩
  · obtain ⟨a, b, l, ha, hb, h1, h2⟩ := k1 hv
    cases ha; cases hb
    exact ⟨l, h1, h2⟩
  · obtain ⟨a, b, x, y, h1, h2, h3, h4, h5⟩ := k2 hv
    cases h4 with | cons n1 t1 => cases t1; cases h5 with | cons n2 t2 => cases t2; exact ⟨_, _, by simpa [h2.1, h3.1] using h1, n1, n2⟩
  · obtain ⟨a, b, x, y, h1, h2, h3, h4, h5⟩ := k3 hv
    cases h4 with | cons n1 t1 => cases t1; cases h5 with | cons n2 t2 => cases t2; exact ⟨_, _, by simpa [h2.1, h3.1] using h1, n1, n2⟩
  · obtain ⟨a, b, ha, hb, g, x, rows, h1, h2, h3, _⟩ := k4 hv
    cases ha; cases hb
    exact ⟨g, x, by simpa using h3, h1, h2⟩

/-- **C81** Frames with too few opposite signs about every size, on average, are reported as not upsampled. -/
theorem C81_original {d : ℝ} {pics : List (ℕ → ℕ → ℝ)} {ex : Exit} (hr : Reports s m p W H vb d pics ex)
    (hX : ∀ N, p.range ≤ N → N + p.range < W → (∀ pic ∈ pics, Clear d (fun y x => dct2 W H pic x y) H p.range N) ∧
      meanShare (pics.map (fun pic y x => dct2 W H pic x y)) H p.range N + meanError s.cfg pics.length < val (effParams s.cfg m (some p)).threshold)
    (hY : ∀ N, p.range ≤ N → N + p.range < H → (∀ pic ∈ pics, Clear d (fun x y => dct2 W H pic x y) W p.range N) ∧
      meanShare (pics.map (fun pic x y => dct2 W H pic x y)) W p.range N + meanError s.cfg pics.length < val (effParams s.cfg m (some p)).threshold) :
    ex.code = (if vb = 0 then 1 else 0) ∧ ShowsOriginal vb W H (cliText ex.shown) := by
  obtain ⟨l1, l2, e2, e3, e4, e5⟩ := hr
  obtain rfl := e4.alone (fun N a b => ⟨by
    intro X hX'
    obtain ⟨pic, hp, rfl⟩ := List.mem_map.mp hX'
    exact (hX N a b).1 pic hp, (hX N a b).2⟩)
  obtain rfl := e5.alone (fun N a b => ⟨by
    intro X hX'
    obtain ⟨pic, hp, rfl⟩ := List.mem_map.mp hX'
    exact (hY N a b).1 pic hp, (hY N a b).2⟩)
  exact ⟨by rw [e3]; simp, legible_original e2⟩

/-- An entry above all others is the first. -/
theorem _root_.Verif.Spec.MeanList.first {d : ℝ} {ε ε' t : ℚ} {range len n N : ℕ} {Xs : List (ℕ → ℕ → ℝ)} {l : List Res}
    (hl : MeanList d ε ε' t range len n Xs l) (h1 : range ≤ N) (h2 : N + range < len) (hN : t + ε ≤ meanShare Xs n range N)
    (hc : ∀ M, range ≤ M → M + range < len → ∀ X ∈ Xs, Clear d X n range M)
    (h : ∀ M, range ≤ M → M + range < len → M ≠ N → meanShare Xs n range M + 2 * ε' < meanShare Xs n range N) :
    ∃ r, l.head? = some r ∧ r.index = N := by
  obtain ⟨c, hm⟩ := (hl.clear h1 h2 (hc N h1 h2)).1 hN
  obtain ⟨_, q, rfl, hq⟩ := (hl.clear h1 h2 (hc N h1 h2)).2 c hm
  obtain ⟨init, e, _, h3⟩ := hl.parts
  cases l with
  | nil => cases hm
  | cons r rs =>
    refine ⟨r, rfl, ?_⟩
    by_contra hne
    have hmr : (⟨N, .fin false q⟩ : Res) ∈ rs := by
      rcases List.mem_cons.mp hm with h | h
      · exact absurd (by rw [← h]) hne
      · exact h
    have hge : r.confidence.ge (.fin false q) = true := (List.pairwise_cons.mp hl.sorted).1 _ hmr
    have hr : r ∈ init ++ [⟨len, .fin true (-1)⟩] := by rw [← e]; simp
    have hq' := abs_le.mp hq
    rcases List.mem_append.mp hr with hr | hr
    · obtain ⟨a, b⟩ := h3 r hr
      obtain ⟨_, q2, e2, hq2⟩ := (hl.clear a b (hc _ a b)).2 r.confidence (by simp)
      have hq2' := abs_le.mp hq2
      have := h _ a b hne
      rw [e2] at hge
      simp only [Fl.ge, Fl.lt, Bool.not_eq_true', decide_eq_false_iff_not, not_lt] at hge
      linarith [hq'.1, hq'.2, hq2'.1, hq2'.2]
    · rw [List.mem_singleton] at hr
      rw [hr] at hge
      simp only [Fl.ge, Fl.lt, Bool.not_eq_true', decide_eq_false_iff_not, not_lt] at hge
      have hq0 : 0 ≤ q := by
        by_contra hneg
        have hb := (hl.between N h1 h2 0 1 le_rfl le_rfl binary32.rnd_zero (binary32.rnd_one binary32_wf) (fun X hX => by
          rw [(share_clear h1 (hc N h1 h2 X hX)).1, (share_clear h1 (hc N h1 h2 X hX)).2]
          refine ⟨by unfold share; positivity, ?_⟩
          unfold share
          refine div_le_one_of_le₀ ?_ (by positivity)
          have : oppositePairs X n range N ≤ n * range := by
            classical
            unfold oppositePairs
            refine le_trans (Finset.card_filter_le _ _) ?_
            rw [Finset.card_product, Finset.card_range, Nat.card_Icc, Nat.add_sub_cancel]
          exact_mod_cast this)).1 _ hm
        obtain ⟨v', e', v0, _⟩ := hb
        cases e'
        exact hneg v0
      linarith

/-- The first sizes in the lists are the best guess. -/
theorem legible_best {l1 l2 : List Res} {t : List UInt8} {r1 r2 : Res} (h : Legible vb W H l1 l2 t) (f1 : l1.head? = some r1) (f2 : l2.head? = some r2) :
    ShowsBest vb r1.index r2.index t := by
  obtain ⟨_, k1, k2, k3, k4⟩ := h
  obtain ⟨t1, rfl⟩ : ∃ t, l1 = r1 :: t := by cases l1 with | nil => cases f1 | cons a t => cases f1; exact ⟨t, rfl⟩
  obtain ⟨t2, rfl⟩ : ∃ t, l2 = r2 :: t := by cases l2 with | nil => cases f2 | cons a t => cases f2; exact ⟨t, rfl⟩
  refine ⟨fun hv => ?_, fun hv => ?_, fun hv => ?_, fun hv => ?_⟩
  · obtain ⟨a, b, l, ha, hb, h1, h2⟩ := k1 hv
    cases ha; cases hb
    exact ⟨l, h1, h2⟩
  · obtain ⟨a, b, x, y, h1, h2, h3, h4, h5⟩ := k2 hv
    cases h4 with | cons n1 _ => cases h5 with | cons n2 _ => exact ⟨_, _, _, _, by rw [h2.1, h3.1] at h1; exact h1, n1, n2⟩
  · obtain ⟨a, b, x, y, h1, h2, h3, h4, h5⟩ := k3 hv
    cases h4 with
    | cons n1 _ =>
      cases h5 with
      | cons n2 _ =>
        obtain ⟨a1, b1, rfl, n1, _⟩ := n1
        obtain ⟨a2, b2, rfl, n2, _⟩ := n2
        refine ⟨_, _, a1, a2, by rw [h2.1, h3.1] at h1; simpa using h1, n1, n2⟩
  · obtain ⟨a, b, ha, hb, g, x, rows, h1, h2, h3, _⟩ := k4 hv
    cases ha; cases hb
    exact ⟨_, x, _, _, h3, h2⟩

/-- The spectra are clear about all sizes, and on average speak most for size `N`, by more than the errors; or for none, and `N` is the length. -/
def PrevailsOnAverage (c : Cfg) (d : ℝ) (t : ℚ) (range len n : ℕ) (Xs : List (ℕ → ℕ → ℝ)) (N : ℕ) : Prop :=
  (∀ M, range ≤ M → M + range < len → ∀ X ∈ Xs, Clear d X n range M) ∧
  ((range ≤ N ∧ N + range < len ∧ t + meanError c Xs.length ≤ meanShare Xs n range N ∧ ∀ M, range ≤ M → M + range < len → M ≠ N →
      meanShare Xs n range M + 2 * (meanError c Xs.length + 1 / 2 ^ 24) < meanShare Xs n range N) ∨
    (N = len ∧ ∀ M, range ≤ M → M + range < len → meanShare Xs n range M + meanError c Xs.length < t))

/-- **C81** The best guess printed is the one of exact arithmetic. -/
theorem C81_best {d : ℝ} {pics : List (ℕ → ℕ → ℝ)} {ex : Exit} (hr : Reports s m p W H vb d pics ex) {a b : ℕ}
    (hX : PrevailsOnAverage s.cfg d (val (effParams s.cfg m (some p)).threshold) p.range W H (pics.map (fun pic y x => dct2 W H pic x y)) a)
    (hY : PrevailsOnAverage s.cfg d (val (effParams s.cfg m (some p)).threshold) p.range H W (pics.map (fun pic x y => dct2 W H pic x y)) b) :
    ShowsBest vb a b (cliText ex.shown) := by
  have key : ∀ {len n N : ℕ} {Xs : List (ℕ → ℕ → ℝ)} {l : List Res},
      MeanList d (meanError s.cfg Xs.length) (meanError s.cfg Xs.length + 1 / 2 ^ 24) (val (effParams s.cfg m (some p)).threshold) p.range len n Xs l →
      PrevailsOnAverage s.cfg d (val (effParams s.cfg m (some p)).threshold) p.range len n Xs N → ∃ r, l.head? = some r ∧ r.index = N := by
    rintro len n N Xs l hl ⟨hc, ⟨h1, h2, h3, h4⟩ | ⟨rfl, h1⟩⟩
    · have : 0 ≤ meanError s.cfg Xs.length := by unfold meanError; have := pow2_pos (-s.cfg.inter.p); positivity
      exact hl.first h1 h2 h3 hc h4
    · rw [hl.alone (fun M a b => ⟨hc M a b, h1 M a b⟩)]
      exact ⟨_, rfl, rfl⟩
  obtain ⟨l1, l2, e2, _, e4, e5⟩ := hr
  obtain ⟨r1, f1, rfl⟩ := key (by rw [List.length_map]; exact e4) hX
  obtain ⟨r2, f2, rfl⟩ := key (by rw [List.length_map]; exact e5) hY
  exact legible_best e2 f1 f2

/-! ## Examples: a stream of four frames, of which the second and third are taken -/

namespace Demo

/-- resdet -v1 -r1 -o1 -n2 file -/
def shotWords (name : List UInt8) : List (List UInt8) := [cs "-v1", cs "-r1", cs "-o1", cs "-n2", name]

/-- Its options. -/
def shotOpts : List CliOpt := [.v (cs "1"), .r (cs "1"), .o (cs "1"), .n (cs "2")]

theorem shot_line {name : List UInt8} (hn : Operand name) : CommandLine true (shotWords name) shotOpts [name] := by
  have j : ∀ {c : Char} {f : List UInt8 → CliOpt} {a : List UInt8}, (c, f) ∈ valued → a ≠ [] → Phrase [ch '-' :: ([] ++ ch c :: a)] ([] ++ [f a]) :=
    fun h1 h2 => .joined .nil h1 h2
  exact .phrase (j (c := 'v') (a := cs "1") (by simp [valued]) (by decide)) (.phrase (j (c := 'r') (a := cs "1") (by simp [valued]) (by decide))
    (.phrase (j (c := 'o') (a := cs "1") (by simp [valued]) (by decide)) (.phrase (j (c := 'n') (a := cs "2") (by simp [valued]) (by decide))
    (.operand rfl hn .nil))))

theorem counts_two : Counts (cs "2") 2 := strtou_iff.mp (by decide)

theorem shot_wants (io : Io) (name : List UInt8) : Wants Demo.sysN.cfg io Demo.cliEnv shotOpts name Demo.sign { defaultParams Demo.sysN.cfg with range := 1 } where
  goes := by
    refine Goes.not_ends (fun b1 o1 a1 code h hend => ?_)
    rcases b1 with _ | ⟨_, _ | ⟨_, _ | ⟨_, _ | ⟨_, b1⟩⟩⟩⟩ <;> simp [shotOpts] at h
    · obtain ⟨rfl, _⟩ := h; cases hend
    · obtain ⟨_, rfl, _⟩ := h; cases hend
    · obtain ⟨_, _, rfl, _⟩ := h
      cases hend with
      | offset h => exact h 1 Demo.counts_one
    · obtain ⟨_, _, _, rfl, _⟩ := h
      cases hend with
      | count h => exact h 2 (by decide) counts_two
  method := Or.inl ⟨rfl, rfl⟩
  threshold := Or.inl ⟨rfl, rfl⟩
  range := Or.inr ⟨cs "1", 1, rfl, Demo.counts_one, show 1 = 1 % ((lp64 .kiss).sizeMax + 1) by decide +kernel, Nat.one_ne_zero⟩
  filter := Or.inl ⟨rfl, rfl⟩
  one := Or.inl rfl

/-- A stream of four frames: the first and the last are black. -/
def shotFrames (a : ℕ) : List (List ℕ) := [[0, 0, 0, 0], [255, a, 0, 0], [255, a, 0, 0], [0, 0, 0, 0]]

/-- Its bytes. -/
def shotBytes (a : ℕ) : List UInt8 :=
  cs "YUV4MPEG2" ++ ((ch ' ' :: (ch 'W' :: cs "4")) ++ ((ch ' ' :: (ch 'H' :: cs "1")) ++ ((ch ' ' :: (ch 'C' :: cs "mono")) ++ [])) ++ [ch '\n']) ++
    ((cs "FRAME" ++ ([] ++ (ch '\n' :: (([0, 0, 0, 0].map (sampleBytes 8)).flatten ++ [])))) ++
    ((cs "FRAME" ++ ([] ++ (ch '\n' :: (([255, a, 0, 0].map (sampleBytes 8)).flatten ++ [])))) ++
    ((cs "FRAME" ++ ([] ++ (ch '\n' :: (([255, a, 0, 0].map (sampleBytes 8)).flatten ++ [])))) ++
    ((cs "FRAME" ++ ([] ++ (ch '\n' :: (([0, 0, 0, 0].map (sampleBytes 8)).flatten ++ [])))) ++ []))))

theorem shot_file {a : ℕ} (ha : a < 256) : Y4mFile 4 1 .mono 8 (shotFrames a) (shotBytes a) := by
  have hh := Demo.y4m_head (W := 4) (H := 1) (nW := cs "4") (nH := cs "1") (name := "mono") ⟨by decide, by unfold Digits; decide, by decide⟩
    ⟨by decide, by unfold Digits; decide, by decide⟩ ⟨(.mono, 8), by decide⟩
  have h1 := Demo.y4m_part (W := 4) (H := 1) (d := 8) (x := .mono) (luma := [0, 0, 0, 0]) (extra := []) (by decide) (by decide) (by decide)
  have h2 := Demo.y4m_part (W := 4) (H := 1) (d := 8) (x := .mono) (luma := [255, a, 0, 0]) (extra := []) rfl
    (by intro v hv; simp only [List.mem_cons, List.not_mem_nil, or_false] at hv; rcases hv with rfl | rfl | rfl | rfl <;> omega) (by decide)
  exact Y4mFile.mk (name := "mono") (by decide) hh (.cons h1 (.cons h2 (.cons h2 (.cons h1 .nil))))

theorem shot_length (a : ℕ) : (shotBytes a).length ≤ (lp64 .kiss).longMax := by
  have e : (shotBytes a).length = 62 := by simp [shotBytes, sampleBytes, cs]
  rw [e]
  decide +kernel

theorem shot_job (io : Io) {name : List UInt8} (hn : Operand name) : Job Demo.sysN io Demo.cliEnv true (shotWords name) shotOpts name Demo.sign
    { defaultParams Demo.sysN.cfg with range := 1 } Demo.w0 4 1 1 (2 ^ (-24 : ℤ)) 1 where
  build := Demo.lp64_build _ _
  bundled := rfl
  precise := show Precise (lp64 .kiss) from ⟨by decide +kernel, by decide +kernel⟩
  accurate := Demo.sysN_accurate
  moderate := demoN_moderate
  heap := Demo.w0_wf
  memory := fun _ => rfl
  scores := by
    rintro ⟨side, rfl | rfl, h⟩
    · exact absurd (show (lp64 .kiss).sizeMax < 4 * (lp64 .kiss).szInter from h) (by decide +kernel)
    · exact absurd (show (lp64 .kiss).sizeMax < 1 * (lp64 .kiss).szInter from h) (by decide +kernel)
  pixels := show 4 * 1 ≤ 2 ^ (lp64 .kiss).inter.p by decide +kernel
  size := by
    have hc : Demo.sysN.cfg = lp64 .kiss := rfl
    unfold expected
    rw [hc, if_neg (by decide), if_neg (show ¬ (4 * 1 > (lp64 .kiss).pixelMax ∨ 4 * 1 * (lp64 .kiss).szCoeff > (lp64 .kiss).sizeMax ∨
      4 > sideMax (lp64 .kiss) ∨ 1 > sideMax (lp64 .kiss)) by decide +kernel), if_neg (fun h => by cases h.1)]
  line := ⟨[], shot_line hn⟩
  wants := shot_wants _ _
  sign := rfl
  unfiltered := rfl
  verbosity := Or.inr ⟨cs "1", false, 1, rfl, number_iff.mpr ⟨by decide, by decide, by decide⟩, show 1 ≤ (lp64 .kiss).intMax by decide +kernel, rfl⟩

theorem shot_report {a : ℕ} (ha : a < 256) : ∃ ex w', cliCommand Demo.sysN (Demo.disk (shotBytes a) true) Demo.cliEnv 5 true (shotWords (cs "a.y4m")) Demo.w0 = some (ex, w') ∧
    Reports Demo.sysN Demo.sign { defaultParams Demo.sysN.cfg with range := 1 } 4 1 1 (totalError (2 ^ (-24 : ℤ)) 1 (2 ^ (-24 : ℤ)) 4 1)
      [lumaPicture 4 8 [255, a, 0, 0], lumaPicture 4 8 [255, a, 0, 0]] ex := by
  have hc : Demo.sysN.cfg = lp64 .kiss := rfl
  exact C81_y4m_partial (shot_job _ (Or.inl (by decide))) (offset := 1) (sel := [[255, a, 0, 0], [255, a, 0, 0]]) rfl
    (.byType (ext := cs "y4m") (.suffix (cs "a") (cs "y4m") (by decide) (by decide)) (Or.inr (by decide)) rfl) (Demo.disk_holds (by decide)) (shot_file ha)
    ⟨by decide, by decide⟩ (by rw [hc]; constructor <;> decide +kernel) (fun _ => shot_length a) (Or.inr ⟨cs "1", rfl, Demo.counts_one⟩) (show 1 ≤ 4 by decide)
    (Or.inr ⟨2, ⟨cs "2", rfl, counts_two⟩, rfl⟩) (by simp) (show Exact (lp64 .kiss) 2 from ⟨by decide +kernel, by decide +kernel⟩)
    (show 4 < (lp64 .kiss).sizeMax by decide +kernel) (show 4 < 5 by decide)

theorem shot_luma (a : ℕ) : lumaPicture 4 8 [255, a, 0, 0] 0 0 = 1 ∧ lumaPicture 4 8 [255, a, 0, 0] 1 0 = (a : ℝ) / 255 ∧
    lumaPicture 4 8 [255, a, 0, 0] 2 0 = 0 ∧ lumaPicture 4 8 [255, a, 0, 0] 3 0 = 0 := by
  unfold lumaPicture
  norm_num

end Demo

/-- The hypotheses of C81 for enlarged images can be met: two columns, doubled, in both frames taken. -/
example : ∃ ex w', cliCommand Demo.sysN (Demo.disk (Demo.shotBytes 255) true) Demo.cliEnv 5 true (Demo.shotWords (cs "a.y4m")) Demo.w0 = some (ex, w') ∧
    ex.code = 0 ∧ ShowsWidth 1 2 (cliText ex.shown) := by
  obtain ⟨ex, w', h1, h2⟩ := Demo.shot_report (a := 255) (by norm_num)
  refine ⟨ex, w', h1, (C81_enlarged (Demo.shot_job (Demo.disk (Demo.shotBytes 255) true) (Or.inl (by decide) : Operand (cs "a.y4m"))) ?_ h2 (k := 2) (N := 2) le_rfl (by decide)).1 rfl ?_⟩
  · unfold totalError errorBound
    positivity
  · obtain ⟨ca, cb, sa, sb, _⟩ := eighth
    obtain ⟨_, X1, _, X3⟩ := spectrum4 (lumaPicture 4 8 [255, 255, 0, 0])
    obtain ⟨g0, g1, g2, g3⟩ := Demo.shot_luma 255
    rw [g0, g1, g2, g3] at X1 X3
    generalize Real.cos (Real.pi / 8) = co at *
    generalize Real.sin (Real.pi / 8) = si at *
    norm_num at X1 X3
    intro pic hp
    obtain rfl : pic = lumaPicture 4 8 [255, 255, 0, 0] := by simpa using hp
    refine ⟨fun i j hi hj => ?_, row_clear (by norm_num) ?_ ?_⟩
    · obtain rfl : j = 0 := by omega
      unfold lumaPicture
      interval_cases i <;> rfl
    · rw [X1, le_abs]; left; linarith
    · rw [X3, le_abs]; right; linarith

/-- **C81** (negation) Skipping in a Y4M stream whose chroma is smaller than assumed: `-o 1` on a stream of two frames.  The second frame is
there, but the command does not find it, prints nothing and fails. -/
theorem C81_fails : Job Demo.sysN (Demo.disk quarterBytes true) Demo.cliEnv true (Demo.shotWords (cs "a.y4m")) Demo.shotOpts (cs "a.y4m") Demo.sign
      { defaultParams Demo.sysN.cfg with range := 1 } Demo.w0 4 1 1 (2 ^ (-24 : ℤ)) 1 ∧
    Y4mFile 4 1 .s411 8 [[255, 0, 0, 0], [255, 0, 0, 0]] quarterBytes ∧ Feasible Demo.sysN.cfg 4 1 .s411 8 ∧ Skips Demo.shotOpts 1 ∧
    Chosen Demo.shotOpts [[255, 0, 0, 0]] [[255, 0, 0, 0]] ∧
    ∃ ex w', cliCommand Demo.sysN (Demo.disk quarterBytes true) Demo.cliEnv 5 true (Demo.shotWords (cs "a.y4m")) Demo.w0 = some (ex, w') ∧
      ex.code = 1 ∧ cliText ex.shown = [] ∧ ∀ d pics, ¬ Reports Demo.sysN Demo.sign { defaultParams Demo.sysN.cfg with range := 1 } 4 1 1 d pics ex := by
  have hc : Demo.sysN.cfg = lp64 .kiss := rfl
  refine ⟨Demo.shot_job _ (Or.inl (by decide)), quarter_file, by rw [hc]; constructor <;> decide +kernel, Or.inr ⟨cs "1", rfl, Demo.counts_one⟩,
    Or.inr ⟨2, ⟨cs "2", rfl, Demo.counts_two⟩, rfl⟩, ?_⟩
  have : (cliCommand Demo.sysN (Demo.disk quarterBytes true) Demo.cliEnv 5 true (Demo.shotWords (cs "a.y4m")) Demo.w0).map
      (fun r => (r.1.code, cliText r.1.shown)) = some (1, []) := by decide +kernel
  cases h : cliCommand Demo.sysN (Demo.disk quarterBytes true) Demo.cliEnv 5 true (Demo.shotWords (cs "a.y4m")) Demo.w0 with
  | none => rw [h] at this; cases this
  | some r =>
    rw [h, Option.map_some, Option.some.injEq, Prod.mk.injEq] at this
    refine ⟨r.1, r.2, rfl, this.1, this.2, ?_⟩
    rintro d pics ⟨l1, l2, _, h2, _⟩
    rw [this.1, if_neg (by rintro ⟨h, _⟩; cases h)] at h2
    cases h2

/-- The hypotheses of C81 for best guesses can be met: two columns, interpolated, in both frames taken. -/
example : ∃ ex w', cliCommand Demo.sysN (Demo.disk (Demo.shotBytes 128) true) Demo.cliEnv 5 true (Demo.shotWords (cs "a.y4m")) Demo.w0 = some (ex, w') ∧
    ShowsBest 1 2 1 (cliText ex.shown) := by
  obtain ⟨ex, w', h1, h2⟩ := Demo.shot_report (a := 128) (by norm_num)
  refine ⟨ex, w', h1, ?_⟩
  obtain ⟨ca, cb, sa, sb, r⟩ := eighth
  obtain ⟨X0, X1, X2, X3⟩ := spectrum4 (lumaPicture 4 8 [255, 128, 0, 0])
  obtain ⟨g0, g1, g2, g3⟩ := Demo.shot_luma 128
  rw [g0, g1, g2, g3] at X0 X1 X2 X3
  generalize Real.cos (Real.pi / 8) = co at *
  generalize Real.sin (Real.pi / 8) = si at *
  norm_num at X0 X1 X2 X3
  generalize lumaPicture 4 8 [255, 128, 0, 0] = pic at *
  have Y0 : 1 / 10 < dct2 4 1 pic 0 0 := by rw [X0]; norm_num
  have Y1 : 1 / 10 < dct2 4 1 pic 1 0 := by rw [X1]; linarith
  have Y2 : 1 / 10 < dct2 4 1 pic 2 0 := by rw [X2]; linarith
  have Y3 : dct2 4 1 pic 3 0 < -1 / 10 := by rw [X3]; linarith
  have s1 : share (fun v u => dct2 4 1 pic u v) 1 1 1 = 0 := row_share.2 (mul_pos (by linarith) (by linarith))
  have s2 : share (fun v u => dct2 4 1 pic u v) 1 1 2 = 1 := row_share.1 (by nlinarith)
  have m1 : meanShare ([pic, pic].map (fun pic y x => dct2 4 1 pic x y)) 1 1 1 = 0 := by simp [meanShare, s1]
  have m2 : meanShare ([pic, pic].map (fun pic y x => dct2 4 1 pic x y)) 1 1 2 = 1 := by norm_num [meanShare, s2]
  refine C81_best h2 ⟨fun M a b => ?_, Or.inl ⟨by decide, by decide, ?_, fun M a b hne => ?_⟩⟩
    ⟨fun M a b => by have : 1 ≤ M := a; omega, Or.inr ⟨rfl, fun M a b => by have : 1 ≤ M := a; omega⟩⟩
  · intro X hX
    obtain rfl : X = fun y x => dct2 4 1 pic x y := by simpa using hX
    rcases row_positions a b with rfl | rfl
    · exact row_clear le_rfl (le_abs.mpr (Or.inl Y0.le)) (le_abs.mpr (Or.inl Y2.le))
    · exact row_clear (by norm_num) (le_abs.mpr (Or.inl Y1.le)) (le_abs.mpr (Or.inr (by linarith)))
  · refine le_trans ?_ (le_of_eq m2.symm)
    show val (effParams (lp64 .kiss) Demo.sign (some { defaultParams (lp64 .kiss) with range := 1 })).threshold + meanError (lp64 .kiss) 2 ≤ _
    decide +kernel
  · rcases row_positions a b with rfl | rfl
    · refine lt_of_lt_of_eq ?_ m2.symm
      refine lt_of_eq_of_lt (congrArg (· + _) m1) ?_
      show 0 + 2 * (meanError (lp64 .kiss) 2 + 1 / 2 ^ 24) < 1
      decide +kernel
    · exact absurd rfl hne

namespace Demo

/-- A black row in a PFM image. -/
def darkRow : PfmImage := ⟨false, true, [[.gray 0, .gray 0, .gray 0, .gray 0]]⟩

/-- A row with a white dot at its start. -/
def dotRow : PfmImage := ⟨false, true, [[.gray 0x3f800000, .gray 0, .gray 0, .gray 0]]⟩

/-- A PFM file of three such images. -/
def rowBytes : List UInt8 :=
  (cs "Pf 4 1 -1\n" ++ darkRow.data) ++ ((cs "Pf 4 1 -1\n" ++ dotRow.data) ++ ((cs "Pf 4 1 -1\n" ++ dotRow.data) ++ []))

theorem row_head : PfmHead 4 1 false true (cs "Pf 4 1 -1\n") := by
  refine PfmHead.mk (s0 := cs " ") (s1 := []) (nW := cs "4") (s2 := cs " ") (nH := cs "1") (s3 := cs " ") (nS := cs "-1") (lines := [])
    (sp := ch '\n') ?_ ?_ ?_ ?_ ?_ ?_ ?_ ?_ ?_ ?_ ?_ ?_ <;> (try simp only [Blank, Numeral, Digits, OneLine]) <;> try decide
  refine Scale.int (sign := cs "-") (i := cs "1") ?_ ?_ ?_ ?_ ?_ <;> (try simp only [Digits]) <;> decide

theorem row_file : PfmFile 4 1 [darkRow, dotRow, dotRow] rowBytes :=
  .cons (.mk (i := darkRow) (by simp [darkRow, PfmImage.Ok, Pixel.Ok]) row_head)
    (.cons (.mk (i := dotRow) (by simp [dotRow, PfmImage.Ok, Pixel.Ok]) row_head)
    (.cons (.mk (i := dotRow) (by simp [dotRow, PfmImage.Ok, Pixel.Ok]) row_head) .nil))

theorem dotRow_samples : dotRow.samples = [.fin false 1, .fin false 0, .fin false 0, .fin false 0] := by decide +kernel

end Demo

/-- The hypotheses of C81 for original images can be met: a dot in the first column has no zero crossing. -/
example : ∃ ex w', cliCommand Demo.sysN (Demo.disk Demo.rowBytes true) Demo.cliEnv 5 true (Demo.shotWords (cs "a.pfm")) Demo.w0 = some (ex, w') ∧
    ex.code = 0 ∧ ShowsOriginal 1 4 1 (cliText ex.shown) := by
  have hc : Demo.sysN.cfg = lp64 .kiss := rfl
  have hsam : Sampled 1 4 1 Demo.dotRow.samples := by
    rw [Demo.dotRow_samples]
    intro i j hi hj
    obtain rfl : j = 0 := by omega
    interval_cases i <;> exact ⟨_, _, rfl, by norm_num⟩
  obtain ⟨ex, w', h1, h2⟩ := C81_pfm_partial (fuel := 5) (images := [Demo.darkRow, Demo.dotRow, Demo.dotRow]) (sel := [Demo.dotRow, Demo.dotRow])
    (Demo.shot_job (Demo.disk Demo.rowBytes true) (Or.inl (by decide) : Operand (cs "a.pfm"))) rfl
    (.byType (ext := cs "pfm") (.suffix (cs "a") (cs "pfm") (by decide) (by decide)) (Or.inr (by decide)) rfl) (Demo.disk_holds (by decide)) Demo.row_file
    (by rw [hc]; constructor <;> decide +kernel) (fun _ => by rw [hc]; decide +kernel) (offset := 1) (Or.inr ⟨cs "1", rfl, Demo.counts_one⟩)
    (Or.inr ⟨false, by simp [Demo.darkRow, Demo.dotRow], by rw [hc]; decide +kernel⟩) (by decide)
    (Or.inr ⟨2, ⟨cs "2", rfl, Demo.counts_two⟩, rfl⟩) (by simp) (by simp [hsam]) (show Exact (lp64 .kiss) 2 from ⟨by decide +kernel, by decide +kernel⟩)
    (show 3 < (lp64 .kiss).sizeMax by decide +kernel) (by decide)
  refine ⟨ex, w', h1, C81_original h2 (fun N a b => ?_) (fun N a b => by have : 1 ≤ N := a; omega)⟩
  obtain ⟨ca, cb, sa, sb, r⟩ := eighth
  obtain ⟨X0, X1, X2, X3⟩ := spectrum4 (pixel 4 Demo.dotRow.samples)
  have g0 : pixel 4 Demo.dotRow.samples 0 0 = 1 := by rw [Demo.dotRow_samples]; simp [pixel, val]
  have g1 : pixel 4 Demo.dotRow.samples 1 0 = 0 := by rw [Demo.dotRow_samples]; simp [pixel, val]
  have g2 : pixel 4 Demo.dotRow.samples 2 0 = 0 := by rw [Demo.dotRow_samples]; simp [pixel, val]
  have g3 : pixel 4 Demo.dotRow.samples 3 0 = 0 := by rw [Demo.dotRow_samples]; simp [pixel, val]
  rw [g0, g1, g2, g3] at X0 X1 X2 X3
  generalize Real.cos (Real.pi / 8) = co at *
  generalize Real.sin (Real.pi / 8) = si at *
  norm_num at X0 X1 X2 X3
  simp only [List.map_cons, List.map_nil, List.length_cons, List.length_nil]
  generalize pixel 4 Demo.dotRow.samples = pic at *
  have Y0 : 1 / 10 < dct2 4 1 pic 0 0 := by rw [X0]; norm_num
  have Y1 : 1 / 10 < dct2 4 1 pic 1 0 := by rw [X1]; linarith
  have Y2 : 1 / 10 < dct2 4 1 pic 2 0 := by rw [X2]; linarith
  have Y3 : 1 / 10 < dct2 4 1 pic 3 0 := by rw [X3]; linarith
  have s1 : share (fun v u => dct2 4 1 pic u v) 1 1 1 = 0 := row_share.2 (mul_pos (by linarith) (by linarith))
  have s2 : share (fun v u => dct2 4 1 pic u v) 1 1 2 = 0 := row_share.2 (mul_pos (by linarith) (by linarith))
  have hth : 0 + meanError (lp64 .kiss) 2 < val (effParams (lp64 .kiss) Demo.sign (some { defaultParams (lp64 .kiss) with range := 1 })).threshold := by
    decide +kernel
  have h0 : ∀ N, share (fun v u => dct2 4 1 pic u v) 1 1 N = 0 →
      meanShare [fun y x => dct2 4 1 pic x y, fun y x => dct2 4 1 pic x y] 1 1 N = 0 := fun N h => by simp [meanShare, h]
  have hcl : ∀ N, N = 1 ∨ N = 2 → Clear (totalError (2 ^ (-24 : ℤ)) 1 0 4 1) (fun y x => dct2 4 1 pic x y) 1 1 N := by
    have hle : totalError (2 ^ (-24 : ℤ)) 1 0 4 1 ≤ totalError (2 ^ (-24 : ℤ)) 1 (2 ^ (-24 : ℤ)) 4 1 := by
      unfold totalError
      norm_num
    have c : ∀ N, N = 1 ∨ N = 2 → Clear (totalError (2 ^ (-24 : ℤ)) 1 (2 ^ (-24 : ℤ)) 4 1) (fun y x => dct2 4 1 pic x y) 1 1 N := by
      rintro N (rfl | rfl)
      · exact row_clear le_rfl (le_abs.mpr (Or.inl Y0.le)) (le_abs.mpr (Or.inl Y2.le))
      · exact row_clear (by norm_num) (le_abs.mpr (Or.inl Y1.le)) (le_abs.mpr (Or.inl Y3.le))
    intro N h y hy i i1 i2 hne
    exact le_trans hle (c N h y hy i i1 i2 hne)
  have hN := row_positions a b
  refine ⟨fun p hp => ?_, ?_⟩
  · obtain rfl : p = pic := by simpa using hp
    exact hcl N hN
  · refine lt_of_eq_of_lt (congrArg (· + _) (h0 N ?_)) hth
    rcases hN with rfl | rfl
    · exact s1
    · exact s2

end Verif.Props
