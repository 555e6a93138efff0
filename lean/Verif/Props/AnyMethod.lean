import Verif.Props.Library
import Verif.Proofs.AnyMethod

/-! # From pictures to results for every method, every filter (C89) -/

namespace Verif.Props

open Spec

variable {s : Sys} {io : Io} {fn ft : Option (List UInt8)} {ptr : Ptrs} {m : Option Method} {p : Option Params} {fuel : ℕ} {w : World} {W H : ℕ}
  {u B e A : ℝ} {frames : List (List Fl)} {pics : List (ℕ → ℕ → ℝ)}

/-- Any method and parameters, on a build with the bundled transform whose operations and tables have errors up to `u`, for images of this size and
samples up to `B` that are off by up to `e`.  The orig method needs a bound `A` for the coefficients. -/
structure Suits (s : Sys) (m : Option Method) (p : Option Params) (W H : ℕ) (u B e A : ℝ) : Prop where
  build : Build s
  bundled : s.cfg.backend = .kiss
  precise : Precise s.cfg
  accurate : Accurate s u
  moderate : Moderate s u B W H
  pixels : W * H ≤ 2 ^ s.cfg.inter.p
  method : ValidMethod? m
  params : ValidParams? s.cfg p
  float : binary32.rnd (val (effParams s.cfg (effMethod m) p).threshold) = val (effParams s.cfg (effMethod m) p).threshold
  fitW : Capable s.cfg (effMethod m).func A H (effParams s.cfg (effMethod m) p).range
  fitH : Capable s.cfg (effMethod m).func A W (effParams s.cfg (effMethod m) p).range
  bound : (effMethod m).func = .orig → 4 * (W * H * (B + e)) + totalError u B e W H ≤ A

/-- What exact arithmetic gives for the widths and for the heights in pictures `pics`, with coefficients known up to `d`. -/
def WidthsBy (s : Sys) (m : Option Method) (p : Option Params) (W H : ℕ) (d A : ℝ) (pics : List (ℕ → ℕ → ℝ)) (l : List Res) : Prop :=
  let q := effParams s.cfg (effMethod m) p
  BracketList (fun X N => sureOf s.cfg (effMethod m).func d A X H q.range N) (fun X N => possibleOf s.cfg (effMethod m).func d A X H q.range N)
    (meanError s.cfg pics.length) (meanError s.cfg pics.length + 1 / 2 ^ 24) (val q.threshold) q.compressionFilter q.range W
    (pics.map (fun pic y x => dct2 W H pic x y)) l

@[inherit_doc WidthsBy]
def HeightsBy (s : Sys) (m : Option Method) (p : Option Params) (W H : ℕ) (d A : ℝ) (pics : List (ℕ → ℕ → ℝ)) (l : List Res) : Prop :=
  let q := effParams s.cfg (effMethod m) p
  BracketList (fun X N => sureOf s.cfg (effMethod m).func d A X W q.range N) (fun X N => possibleOf s.cfg (effMethod m).func d A X W q.range N)
    (meanError s.cfg pics.length) (meanError s.cfg pics.length + 1 / 2 ^ 24) (val q.threshold) q.compressionFilter q.range H
    (pics.map (fun pic x y => dct2 W H pic x y)) l

theorem depicts_bound {f : List Fl} {pic : ℕ → ℕ → ℝ} (h : Depicts B e W H f pic) (i j : ℕ) : |dct2 W H pic i j| ≤ 4 * (W * H * (B + e)) := by
  have h0 : dct2 W H (fun _ _ => 0) i j = 0 := by simp [dct2, dct]
  have := dct2_apart (w := W) (h := H) (x := pic) (y := fun _ _ => 0) (e := B + e) (fun a b ha hb => by
    rw [sub_zero]
    obtain ⟨b', v, h1, h2⟩ := h.1 a b ha hb
    have h3 := h.2 a b ha hb
    have e1 : pixel W f a b = v := by unfold pixel; rw [h1]; rfl
    rw [e1] at h3
    have h4 := abs_sub_abs_le_abs_sub (pic a b) v
    rw [abs_sub_comm] at h4
    linarith) i j
  rwa [h0, sub_zero] at this

/-- **C89** An analysis fed with frames that depict pictures returns what exact arithmetic gives for the pictures, by the method in use, whatever the
order of the other calls and however often results are asked for. -/
theorem C89_analysis (h : Suits s m p W H u B e A) {ev : List (Call × Obs)} {a : Analysis} {rw rh : Option (List Res)} {cw ch : ℕ}
    (hr : Returned s m W H p ev a rw cw rh ch) (hno : NoOom ev)
    (hf : (analysed ev).map (fun x => x.1.op) = frames.map (fun f => Op.analyze (some f))) (hplw : ∀ x ∈ analysed ev, Plenty x.1.world)
    (hpics : List.Forall₂ (Depicts B e W H) frames pics) (hexact : Exact s.cfg frames.length) (hlen : frames.length ≤ s.cfg.sizeMax) :
    (∀ l, rw = some l → WidthsBy s m p W H (totalError u B e W H) A pics l) ∧
    (∀ l, rh = some l → HeightsBy s m p W H (totalError u B e W H) A pics l) := by
  have hs := h.build
  have hm := h.method
  have hp := h.params
  have hpic : ∀ f ∈ frames, ∃ pic ∈ pics, Depicts B e W H f pic := by
    intro f hf
    obtain ⟨i, hi, rfl⟩ := List.getElem_of_mem hf
    have hl := hpics.length_eq
    exact ⟨pics[i], List.getElem_mem _, (List.forall₂_iff_get.mp hpics).2 i hi (by omega)⟩
  have hcount : (analysed ev).length = frames.length := by
    rw [← List.length_map (fun x : Call × Obs => x.1.op), hf, List.length_map]
  obtain ⟨fs, hfs, _⟩ := (reach_inv hs hm hp hr.1).scores hno
  obtain ⟨fne, hl1, hX, hY⟩ := returned_listed hs hm hp hno (by rw [hcount]; exact hlen) hr hfs
  rw [hcount] at hl1
  obtain ⟨w0, h0, _, _, r0, htu⟩ := returned_sizes hs h.precise hm hp hr
  have hacc := history_accuracy hs h.bundled hm hp hr.1 h.accurate h.moderate (Or.inr hplw) hfs (Q := fun im => im ∈ frames)
    (fun x hx => by
      have := List.mem_map_of_mem (f := fun x => x.1.op) hx
      rw [hf, List.mem_map] at this
      obtain ⟨f, hf, ef⟩ := this
      obtain ⟨pic, _, h1, _⟩ := hpic f hf
      exact ⟨f, ef.symm, h1, hf⟩)
  have hspec : List.Forall₂ (fun f pic => ∀ i j, i < W → j < H → Spec.Within (totalError u B e W H) (rows f W j i) (dct2 W H pic i j) ∧
      |dct2 W H pic i j| ≤ 4 * (W * H * (B + e))) fs pics := by
    refine List.forall₂_iff_get.mpr ⟨by rw [hl1, hpics.length_eq], fun i hi hi' => ?_⟩
    have hie : i < (analysed ev).length := by rw [hcount, ← hl1]; exact hi
    have his : i < frames.length := by rw [← hl1]; exact hi
    obtain ⟨image, eo, _, hw⟩ := (List.forall₂_iff_get.mp hacc).2 i hie hi
    have ef : ((analysed ev).map (fun x => x.1.op))[i]? = (frames.map (fun f => Op.analyze (some f)))[i]? := by rw [hf]
    rw [List.getElem?_map, List.getElem?_map, List.getElem?_eq_getElem hie, List.getElem?_eq_getElem his] at ef
    simp only [List.get_eq_getElem] at eo hw ⊢
    rw [Option.map_some, Option.map_some, eo] at ef
    cases ef
    have hd := (List.forall₂_iff_get.mp hpics).2 i his hi'
    intro x y hx hy
    exact ⟨within_shift (hw x y hx hy) (dct2_apart hd.2 x y), depicts_bound hd x y⟩
  have hplen : pics.length = fs.length := by rw [hl1, hpics.length_eq]
  have hz : (effMethod m).func = .zerox → (effParams s.cfg (effMethod m) p).range = 1 := by
    intro hz
    unfold effParams; simp only; rw [if_pos hz]
  refine ⟨fun l hl => ?_, fun l hl => ?_⟩
  · unfold WidthsBy
    simp only
    unfold meanError
    rw [hplen]
    refine bracketList (R := fun f pic => ∀ y < H, ∀ x < W, Spec.Within (totalError u B e W H) (rows f W y x) (pic y x) ∧ |pic y x| ≤ 4 * (W * H * (B + e)))
      hs.wf.inter_wf h.precise (hX l hl) (by rw [hl1]; exact hexact) fne htu h.float h0 r0 (by rw [mul_comm]; exact h.pixels)
      (List.forall₂_map_right_iff.mpr (hspec.imp fun f pic hw y hy x hx => hw x y hx hy)) (fun f X hw N n1 n2 => ?_)
    exact evidence_bracket hs.wf.coeff_wf hs.wf.inter_wf h.precise (fun y hy x hx => (hw y hy x hx).1) h0 r0 n1 n2 h.fitW
      (fun ho y hy x hx => le_trans (add_le_add_left (hw y hy x hx).2 _) (h.bound ho)) hz
  · unfold HeightsBy
    simp only
    unfold meanError
    rw [hplen]
    refine bracketList (R := fun f pic => ∀ y < W, ∀ x < H, Spec.Within (totalError u B e W H) (cols f W y x) (pic y x) ∧ |pic y x| ≤ 4 * (W * H * (B + e)))
      hs.wf.inter_wf h.precise (hY l hl) (by rw [hl1]; exact hexact) fne htu h.float w0 r0 h.pixels
      (List.forall₂_map_right_iff.mpr (hspec.imp fun f pic hw x hx y hy => hw x y hx hy)) (fun f X hw N n1 n2 => ?_)
    exact evidence_bracket hs.wf.coeff_wf hs.wf.inter_wf h.precise (fun y hy x hx => (hw y hy x hx).1) w0 r0 n1 n2 h.fitH
      (fun ho y hy x hx => le_trans (add_le_add_left (hw y hy x hx).2 _) (h.bound ho)) hz

@[inherit_doc C89_analysis]
theorem returned_by (h : Suits s m p W H u B e A) {ev : List (Call × Obs)} {a : Analysis} {rw rh : Option (List Res)} {cw ch : ℕ}
    (hr : Returned s m W H p ev a rw cw rh ch)
    (f1 : ev.map (fun x => x.2) = List.replicate frames.length (.analyzed RDEOK)) (f2 : ev.map (fun x => x.1.op) = frames.map (fun f => Op.analyze (some f)))
    (hplw : ∀ x ∈ ev, Plenty x.1.world) (hpics : List.Forall₂ (Depicts B e W H) frames pics) (hexact : Exact s.cfg frames.length)
    (hlen : frames.length ≤ s.cfg.sizeMax) :
    (∀ l, rw = some l → WidthsBy s m p W H (totalError u B e W H) A pics l) ∧
    (∀ l, rh = some l → HeightsBy s m p W H (totalError u B e W H) A pics l) := by
  obtain ⟨han, hno⟩ := all_analysed f1
  exact C89_analysis h hr hno (by rw [han]; exact f2) (by rw [han]; exact hplw) hpics hexact hlen

/-- The lists asked for are handed out with their lengths, and they are what exact arithmetic gives for the pictures. -/
structure DeliversBy (s : Sys) (m : Option Method) (p : Option Params) (W H : ℕ) (d A : ℝ) (pics : List (ℕ → ℕ → ℝ)) (ptr : Ptrs) (out : Out) : Prop where
  widths : ptr.rw = true → ∃ l, out.rw = some l ∧ out.cw = l.data.length ∧ WidthsBy s m p W H d A pics l.data
  heights : ptr.rh = true → ∃ l, out.rh = some l ∧ out.ch = l.data.length ∧ HeightsBy s m p W H d A pics l.data
  nothing : (ptr.rw = false → out.rw = none) ∧ (ptr.rh = false → out.rh = none)

theorem delivers_by {d : ℝ} {out : Out} {w' : World} (ho : Outputs ptr RDEOK out w w')
    (h1 : ∀ l, out.rw.map Buf.data = some l → WidthsBy s m p W H d A pics l) (h2 : ∀ l, out.rh.map Buf.data = some l → HeightsBy s m p W H d A pics l) :
    DeliversBy s m p W H d A pics ptr out := by
  obtain ⟨a1, a2⟩ := ho.rw rfl
  obtain ⟨b1, b2⟩ := ho.rh rfl
  refine ⟨fun h => ?_, fun h => ?_, fun h => ?_, fun h => ?_⟩
  · obtain ⟨l, hl⟩ := Option.isSome_iff_exists.mp (a1.mpr h)
    rw [hl] at a2
    exact ⟨l, hl, a2, h1 _ (by rw [hl]; rfl)⟩
  · obtain ⟨l, hl⟩ := Option.isSome_iff_exists.mp (b1.mpr h)
    rw [hl] at b2
    exact ⟨l, hl, b2, h2 _ (by rw [hl]; rfl)⟩
  · cases hl : out.rw with
    | none => rfl
    | some l => rw [a1.mp (by rw [hl]; rfl)] at h; cases h
  · cases hl : out.rh with
    | none => rfl
    | some l => rw [b1.mp (by rw [hl]; rfl)] at h; cases h

/-- **C89** `resdetect` on frames in memory that depict pictures succeeds and returns what exact arithmetic gives for the pictures. -/
theorem C89_resdetect (h : Suits s m p W H u B e A) (hsize : expected s W H = RDEOK) {n : ℕ} {image : List Fl} (himg : image.length ≤ s.cfg.sizeMax)
    (hlen : n * (W * H) ≤ image.length) (hn : n ≠ 0) (hrw : ptr.rw = true → ptr.cw = true) (hrh : ptr.rh = true → ptr.ch = true) (hw : w.WF)
    (hpl : Plenty w) (hsc : ¬ HugeScores s W H) (hpics : List.Forall₂ (Depicts B e W H) (framesOf image W H n) pics) (hexact : Exact s.cfg n) :
    ∃ out w', resdetect s (some image) n W H ptr m p w = some ((RDEOK, out), w') ∧ DeliversBy s m p W H (totalError u B e W H) A pics ptr out := by
  have hs := h.build
  obtain ⟨hW, hH⟩ := expected_pos hsize
  obtain ⟨out, w', h1⟩ := C14_error (ptr := ptr) hs h.method h.params himg hlen hrw hrh hw hpl hsc
  rw [if_neg hn, if_neg (not_not.mpr hsize), depicts_finite hW hpics] at h1
  obtain ⟨ev, a, h2, _, h3, h4, h5⟩ := C14_resdetect_history hs h.method h.params himg hlen hw h1
  obtain ⟨e', out', w'', h6, h7⟩ := C16_resdetect_outputs hs h.method h.params (image := some image) (n := n) (w := W) (h := H)
    (by rintro _ h; cases h; exact ⟨himg, hlen⟩) ptr hw
  rw [h1] at h6
  cases h6
  have hfl : (framesOf image W H n).length = n := by simp [framesOf]
  have hns : n ≤ s.cfg.sizeMax := le_trans (Nat.le_mul_of_pos_right n (Nat.mul_pos hW hH)) (le_trans hlen himg)
  obtain ⟨E1, E2⟩ := returned_by h h2 (by rw [hfl]; exact h3) h4 (h5 hpl hsc) hpics (by rw [hfl]; exact hexact) (by rw [hfl]; exact hns)
  exact ⟨out, w', h1, delivers_by h7 E1 E2⟩

/-- **C89** `resdetect_file` on a file, of any format, whose frames depict pictures. -/
theorem C89_file (h : Suits s m p W H u B e A) (hsize : expected s W H = RDEOK) (hy : Presents s io (resdetOpenImage s io fn ft true true true) 0 W H frames)
    (hne : frames ≠ []) (hrw : ptr.rw = true → ptr.cw = true) (hrh : ptr.rh = true → ptr.ch = true) (hfuel : frames.length < fuel)
    (hlen : frames.length ≤ s.cfg.sizeMax) (hw : w.WF) (hpl : Plenty w) (hsc : ¬ HugeScores s W H)
    (hpics : List.Forall₂ (Depicts B e W H) frames pics) (hexact : Exact s.cfg frames.length) :
    ∃ out w', resdetectFile s io fuel fn ft ptr m p w = some ((RDEOK, out), w') ∧ DeliversBy s m p W H (totalError u B e W H) A pics ptr out := by
  obtain ⟨err, out, w', h1, h2, h3, h4, _⟩ := C15_readers (ptr := ptr) (fuel := fuel) h.build h.method h.params hy hrw hrh hfuel hlen hw hpl hsc
  rw [if_neg (not_not.mpr hsize), if_neg (not_not.mpr (depicts_finite (expected_pos hsize).1 hpics)), if_neg hne] at h2
  subst h2
  obtain ⟨ev, a, g1, g2, g3, g4⟩ := h3 rfl
  obtain ⟨E1, E2⟩ := returned_by h g1 g2 g3 g4 hpics hexact hlen
  exact ⟨out, w', h1, delivers_by h4 E1 E2⟩

/-- **C89** The command, with any method, range, threshold and filter: it succeeds on frames of any format, and what it prints can be read as two
lists, which are what exact arithmetic gives for the pictures the selected frames depict. -/
theorem C89_command {v : CliEnv} {permute : Bool} {words operands : List (List UInt8)} {opts : List CliOpt} {input : List UInt8} {m : Method} {p : Params}
    {vb : ℤ} {offset : ℕ} {sel : List (List Fl)} (h : Suits s (some m) (some p) W H u B e A) (hsize : expected s W H = RDEOK)
    (hline : CommandLine permute words opts (input :: operands)) (hwants : Wants s.cfg io v opts input m p) (hvb : Verbosity s.cfg opts vb)
    (hk : Skips opts offset) (hy : Presents s io (opening s io opts input) offset W H frames) (hsel : Chosen opts frames sel) (hne : sel ≠ [])
    (hw : w.WF) (hpl : Plenty w) (hsc : ¬ HugeScores s W H) (hpics : List.Forall₂ (Depicts B e W H) sel pics) (hexact : Exact s.cfg sel.length)
    (hlen : frames.length < s.cfg.sizeMax) (hfuel : frames.length < fuel) :
    ∃ ex w' l1 l2, cliCommand s io v fuel permute words w = some (ex, w') ∧ Legible vb W H l1 l2 (cliText ex.shown) ∧
      ex.code = (if vb = 0 ∧ l1.length = 1 ∧ l2.length = 1 then 1 else 0) ∧
      WidthsBy s (some m) (some p) W H (totalError u B e W H) A pics l1 ∧ HeightsBy s (some m) (some p) W H (totalError u B e W H) A pics l2 := by
  rw [C80_words hline]
  have hs := h.build
  have hfin := depicts_finite (expected_pos hsize).1 hpics
  obtain ⟨ex, w', e1, _, e2⟩ := C48_readers (fuel := fuel) hs hw hpl hsc hwants hvb hk hy hsel hfuel hlen
  obtain ⟨ev, a, l1, l2, hsu, hfed, hplw⟩ := e2 (by
    rintro (h1 | h1 | h1)
    · exact h1 hsize
    · exact h1 hfin
    · exact hne h1)
  obtain ⟨f1, f2⟩ := fed_ok hfed
  have hsl : sel.length ≤ frames.length := by
    rcases hsel with ⟨_, rfl⟩ | ⟨n, _, rfl⟩
    · exact le_rfl
    · rw [List.length_take]; exact min_le_right _ _
  obtain ⟨E1, E2⟩ := returned_by h hsu.returned f1 f2 hplw hpics hexact (by omega)
  have E1 := E1 l1 rfl
  have E2 := E2 l2 rfl
  obtain ⟨i1, k1, _⟩ := E1.parts
  obtain ⟨i2, k2, _⟩ := E2.parts
  exact ⟨ex, w', l1, l2, e1, prints_legible (by rw [k1]; simp) (by rw [k2]; simp) hsu.prints, hsu.code, E1, E2⟩

/-- **C89** The two shares are shares, in this order. -/
theorem C89_order {c : Cfg} {k : Detect} {d : ℝ} (hd : 0 < d) (hA : k = .orig → 0 ≤ A) (X : ℕ → ℕ → ℝ) (n range N : ℕ) :
    0 ≤ sureOf c k d A X n range N ∧ sureOf c k d A X n range N ≤ possibleOf c k d A X n range N ∧ possibleOf c k d A X n range N ≤ 1 :=
  sureOf_le_possibleOf hd hA X n range N

/-- **C89** For the sign method without a filter, the lists are those of C83: pairs are sure if they are opposite and not smaller than the error, and
possible unless they are equal in sign and not smaller than the error. -/
theorem C89_sign {d : ℝ} (hd : 0 < d) (hm : (effMethod m).func = .sign) (hf : (effParams s.cfg (effMethod m) p).compressionFilter = 0) (l : List Res) :
    (WidthsBy s m p W H d A pics l ↔ WidthsOf s m p W H d pics l) ∧ (HeightsBy s m p W H d A pics l ↔ HeightsOf s m p W H d pics l) := by
  have key : ∀ {n len : ℕ} {Xs : List (ℕ → ℕ → ℝ)} {ε ε' t : ℚ} {r : ℕ},
      BracketList (fun X N => sureOf s.cfg .sign d A X n r N) (fun X N => possibleOf s.cfg .sign d A X n r N) ε ε' t 0 r len Xs l ↔
      MeanList d ε ε' t r len n Xs l := by
    intro n len Xs ε ε' t r
    have hno : ∀ i, filteredOut len 0 i = false := fun i => by unfold filteredOut; rw [if_pos rfl]
    have e1 : ∀ N, meanOf (fun X => sureOf s.cfg .sign d A X n r N) Xs = meanSure d Xs n r N := fun N => by
      unfold meanOf meanSure; simp only [sureOf_sign hd]
    have e2 : ∀ N, meanOf (fun X => possibleOf s.cfg .sign d A X n r N) Xs = meanPossible d Xs n r N := fun N => by
      unfold meanOf meanPossible; simp only [possibleOf_sign hd]
    constructor
    · rintro ⟨h1, ⟨init, h2, h3, h4⟩, h5, h6, h7⟩
      refine ⟨h1, ⟨init, h2, h3, fun x hx => ⟨(h4 x hx).1, (h4 x hx).2.1⟩⟩, fun N a b c => ?_, fun N a b c hc => ?_, fun N a b lo hi l0 l1 l2 l3 l4 => ?_⟩
      · exact h5 N a b (hno _) (by rw [e1]; exact c)
      · have := h6 N a b c hc
        rwa [e1, e2] at this
      · obtain ⟨k1, k2, k3⟩ := h7 N a b lo hi l0 l1 l2 l3 (fun X hX => by simp only [sureOf_sign hd, possibleOf_sign hd]; exact l4 X hX)
        exact ⟨k1, fun h => k2 h (hno _), k3⟩
    · rintro ⟨h1, ⟨init, h2, h3, h4⟩, h5, h6, h7⟩
      refine ⟨h1, ⟨init, h2, h3, fun x hx => ⟨(h4 x hx).1, (h4 x hx).2, hno _⟩⟩, fun N a b _ c => ?_, fun N a b c hc => ?_,
        fun N a b lo hi l0 l1 l2 l3 l4 => ?_⟩
      · exact h5 N a b (by rw [← e1]; exact c)
      · rw [e1, e2]
        exact h6 N a b c hc
      · obtain ⟨k1, k2, k3⟩ := h7 N a b lo hi l0 l1 l2 l3 (fun X hX => by
          have := l4 X hX
          simp only [sureOf_sign hd, possibleOf_sign hd] at this
          exact this)
        exact ⟨k1, fun h _ => k2 h, k3⟩
  unfold WidthsBy HeightsBy WidthsOf HeightsOf
  simp only [hm, hf]
  exact ⟨key, key⟩

/-- **C89** A size that at least the share `t` of the pairs speaks for in every picture, with `t` not below the threshold, is in the list with a
confidence of at least `t`, unless the filter discards it. -/
theorem C89_found {d : ℝ} (hd : 0 < d) (hA : (effMethod m).func = .orig → 0 ≤ A) {t : ℚ} (t0 : 0 ≤ t) (htf : binary32.rnd t = t)
    (ht : val (effParams s.cfg (effMethod m) p).threshold ≤ t) {N range f : ℕ} (hrange : range = (effParams s.cfg (effMethod m) p).range)
    (hfilter : f = (effParams s.cfg (effMethod m) p).compressionFilter) (hN : range ≤ N) {l : List Res} :
    (N + range < W → filteredOut W f (N - range) = false → (∀ pic ∈ pics, t ≤ sureOf s.cfg (effMethod m).func d A (fun y x => dct2 W H pic x y) H range N) →
      WidthsBy s m p W H d A pics l → ∃ v, (⟨N, .fin false v⟩ : Res) ∈ l ∧ t ≤ v ∧ v ≤ 1) ∧
    (N + range < H → filteredOut H f (N - range) = false → (∀ pic ∈ pics, t ≤ sureOf s.cfg (effMethod m).func d A (fun x y => dct2 W H pic x y) W range N) →
      HeightsBy s m p W H d A pics l → ∃ v, (⟨N, .fin false v⟩ : Res) ∈ l ∧ t ≤ v ∧ v ≤ 1) := by
  subst hrange hfilter
  constructor
  all_goals
    intro hlt hf hall hl
    refine BracketList.found hl hN hlt t0 htf ht hf fun X hX => ?_
    obtain ⟨pic, hp, rfl⟩ := List.mem_map.mp hX
    exact ⟨hall pic hp, (C89_order hd hA _ _ _ _).2.2⟩

/-- **C89** If for every size that the filter leaves, the share that may speak for it is below the threshold on average, the list has the length of
the image alone. -/
theorem C89_refused {d : ℝ} {range f : ℕ} (hrange : range = (effParams s.cfg (effMethod m) p).range)
    (hfilter : f = (effParams s.cfg (effMethod m) p).compressionFilter) {l : List Res} :
    ((∀ N, range ≤ N → N + range < W → filteredOut W f (N - range) = false →
        meanOf (fun X => possibleOf s.cfg (effMethod m).func d A X H range N) (pics.map (fun pic y x => dct2 W H pic x y)) + meanError s.cfg pics.length <
          val (effParams s.cfg (effMethod m) p).threshold) → WidthsBy s m p W H d A pics l → l = [⟨W, .fin true (-1)⟩]) ∧
    ((∀ N, range ≤ N → N + range < H → filteredOut H f (N - range) = false →
        meanOf (fun X => possibleOf s.cfg (effMethod m).func d A X W range N) (pics.map (fun pic x y => dct2 W H pic x y)) + meanError s.cfg pics.length <
          val (effParams s.cfg (effMethod m) p).threshold) → HeightsBy s m p W H d A pics l → l = [⟨H, .fin true (-1)⟩]) := by
  subst hrange hfilter
  exact ⟨fun h hl => BracketList.alone hl h, fun h hl => BracketList.alone hl h⟩

/-- **C89** The zerox method on pictures enlarged in one direction by a symmetric filter from `N` samples: if of the pairs next to `N` at least the
share `t` is at least twice the error, in every picture, then `N` is in the list, with a confidence of at least `t`. -/
theorem C89_zerox {d : ℝ} (hd : 0 < d) (hm : (effMethod m).func = .zerox) (hf : (effParams s.cfg (effMethod m) p).compressionFilter = 0) {t : ℚ}
    (t0 : 0 ≤ t) (htf : binary32.rnd t = t) (ht : val (effParams s.cfg (effMethod m) p).threshold ≤ t) {k N : ℕ} (w0 : 0 < W) (h0 : 0 < H)
    {F : Kernel k} (hF : F.Even N 1) (hN : 1 ≤ N) {l : List Res} :
    (W = k * N → N + 1 < W → (∀ pic ∈ pics, RowsEnlarged F N H pic ∧ t * H ≤ clearPairs (2 * d) (fun y x => dct2 W H pic x y) H 1 N) →
      WidthsBy s m p W H d A pics l → ∃ v, (⟨N, .fin false v⟩ : Res) ∈ l ∧ t ≤ v ∧ v ≤ 1) ∧
    (H = k * N → N + 1 < H → (∀ pic ∈ pics, ColsEnlarged F N W pic ∧ t * W ≤ clearPairs (2 * d) (fun x y => dct2 W H pic x y) W 1 N) →
      HeightsBy s m p W H d A pics l → ∃ v, (⟨N, .fin false v⟩ : Res) ∈ l ∧ t ≤ v ∧ v ≤ 1) := by
  have hr : (effParams s.cfg (effMethod m) p).range = 1 := by
    show (if (effMethod m).func = .zerox then 1 else _) = 1
    rw [if_pos hm]
  have hno : ∀ len i, filteredOut len 0 i = false := fun len i => by unfold filteredOut; rw [if_pos rfl]
  obtain ⟨F1, F2⟩ := C89_found (s := s) (m := m) (p := p) (pics := pics) (A := A) (W := W) (H := H) (l := l) hd (by rw [hm]; intro h; cases h) t0 htf ht hr.symm hf.symm hN
  refine ⟨fun hW hlt hall hl => F1 hlt (hno _ _) (fun pic hp => ?_) hl, fun hH hlt hall hl => F2 hlt (hno _ _) (fun pic hp => ?_) hl⟩
  · rw [hm]
    refine sureOf_zerox hd h0 ?_ (hall pic hp).2
    subst hW
    exact rows_flip (by omega) (Nat.pos_of_mul_pos_right w0) hF hN (hall pic hp).1
  · rw [hm]
    refine sureOf_zerox hd w0 ?_ (hall pic hp).2
    subst hH
    exact cols_flip (by omega) (Nat.pos_of_mul_pos_right h0) hF hN (hall pic hp).1

namespace Demo

/-- Every method suits. -/
theorem any_suits {k : Method} (hk : k ∈ methods) {e : ℝ} (he : 0 < e) (he' : e ≤ 1 / 1000) :
    Suits Demo.sysN (some k) (some rowParams) 4 1 (2 ^ (-24 : ℤ)) 1 e 100 := by
  have hE : totalError (2 ^ (-24 : ℤ)) 1 e 4 1 ≤ 1 / 10 := by
    unfold totalError errorBound
    rw [primeSum_four, primeSum_one]
    norm_num
    linarith
  have hr : (effParams Demo.sysN.cfg (effMethod (some k)) (some rowParams)).range = 1 := by
    show (if k.func = .zerox then 1 else 1) = 1
    rw [ite_self]
  have hcap : ∀ n, n ≤ 4 → Capable Demo.sysN.cfg k.func 100 n 1 := by
    intro n hn
    refine ⟨fun _ => show 24 ≤ (lp64 .kiss).coeff.p ∧ 24 ≤ (lp64 .kiss).inter.p ∧ (lp64 .kiss).coeff.qmin ≤ 1 - (lp64 .kiss).inter.p by decide +kernel,
      fun _ => ⟨by norm_num, ?_, ?_⟩⟩
    · have h1 : 2 ^ (lp64 .kiss).inter.p = 2 ^ 53 := by decide +kernel
      show 32 * (n + 1) ≤ 2 ^ (lp64 .kiss).inter.p
      rw [h1]
      omega
    · have h1 : (4000 : ℚ) ≤ pow2 ((lp64 .kiss).inter.emax - 1) := by decide +kernel
      have h2 : (4000 : ℝ) ≤ ((pow2 ((lp64 .kiss).inter.emax - 1) : ℚ) : ℝ) := by exact_mod_cast h1
      have h3 : (n : ℝ) ≤ 4 := by exact_mod_cast hn
      refine le_trans ?_ h2
      push_cast
      linarith
  have h := row_suited
  exact {
    build := h.build
    bundled := h.bundled
    precise := h.precise
    accurate := h.accurate
    moderate := h.moderate
    pixels := h.pixels
    method := by rintro q hq; cases hq; exact hk
    params := h.params
    float := by
      show binary32.rnd (val k.threshold) = val k.threshold
      have : ∀ k ∈ methods, binary32.rnd (val k.threshold) = val k.threshold := by decide +kernel
      exact this k hk
    fitW := by rw [hr]; exact hcap 1 (by decide)
    fitH := by rw [hr]; exact hcap 4 (by decide)
    bound := fun _ => by norm_num; linarith }

/-- The zerox method. -/
def zerox : Method := ⟨"zerox", .zerox, binary32.deliver false (5 / 10)⟩

theorem zerox_mem : zerox ∈ methods := by simp [methods, zerox]

theorem zerox_finds {e : ℝ} (he : 0 < e) (he' : e ≤ 1 / 1000) {l : List Res}
    (hl : WidthsBy Demo.sysN (some zerox) (some rowParams) 4 1 (totalError (2 ^ (-24 : ℤ)) 1 e 4 1) 100 [pixel 4 ramp4] l) :
    (⟨2, .fin false 1⟩ : Res) ∈ l := by
  have hE : 2 * totalError (2 ^ (-24 : ℤ)) 1 e 4 1 ≤ 1 / 10 := by
    unfold totalError errorBound
    rw [primeSum_four, primeSum_one]
    norm_num
    linarith
  obtain ⟨v, hv, v1, v2⟩ := (C89_zerox (s := Demo.sysN) (m := some zerox) (p := some rowParams) (t := 1) (k := 2) (N := 2) (F := linear 2) (error_pos (by positivity) zero_le_one he (by norm_num) one_pos) rfl rfl
    zero_le_one (by decide +kernel) (show val zerox.threshold ≤ 1 by decide +kernel) (by norm_num) one_pos (C74_linear (by norm_num) (by decide)).2
    (by decide)).1 rfl (by decide) (by
      intro pic hpic
      obtain rfl := List.mem_singleton.mp hpic
      refine ⟨ramp4_enlarged, le_of_eq ?_⟩
      rw [ramp4_pairs hE]
      norm_num) hl
  rwa [le_antisymm v2 v1] at hv

/-- A row of 4 samples. -/
def loud4 : List Fl := [3 / 4, 1, 0, 1 / 4].map (fun q : ℚ => .fin false q)

theorem loud4_sampled : Sampled 1 4 1 loud4 := by
  intro i j hi hj
  obtain rfl : j = 0 := by omega
  interval_cases i
  · exact ⟨false, 3 / 4, rfl, by norm_num [abs_of_pos]⟩
  · exact ⟨false, 1, rfl, by norm_num⟩
  · exact ⟨false, 0, rfl, by norm_num⟩
  · exact ⟨false, 1 / 4, rfl, by norm_num [abs_of_pos]⟩

/-- All methods are sure of width 2 in it. -/
theorem loud4_sure {k : Detect} {d : ℝ} (hE : d ≤ 1 / 10) :
    1 ≤ sureOf Demo.sysN.cfg k d 100 (fun y x => dct2 4 1 (pixel 4 loud4) x y) 1 1 2 := by
  obtain ⟨ca, cb, sa, sb, _⟩ := eighth
  obtain ⟨_, X1, X2, X3⟩ := spectrum4 (pixel 4 loud4)
  have g0 : pixel 4 loud4 0 0 = 3 / 4 := by simp [pixel, loud4, val]
  have g1 : pixel 4 loud4 1 0 = 1 := by simp [pixel, loud4, val]
  have g2 : pixel 4 loud4 2 0 = 0 := by simp [pixel, loud4, val]
  have g3 : pixel 4 loud4 3 0 = 1 / 4 := by simp [pixel, loud4, val]
  rw [g0, g1, g2, g3] at X1 X2 X3
  norm_num at X1 X2 X3
  have hy : ∀ Y, Around d (fun y x => dct2 4 1 (pixel 4 loud4) x y) Y → 3.2 < Y 0 1 ∧ Y 0 1 < 3.6 ∧ |Y 0 2| < 0.1 ∧ -3.1 < Y 0 3 ∧ Y 0 3 < -2.7 := by
    intro Y h
    have h1 := abs_lt.mp (h 0 1)
    have h2 := h 0 2
    have h3 := abs_lt.mp (h 0 3)
    simp only at h1 h2 h3
    rw [X1] at h1
    rw [X2, sub_zero] at h2
    rw [X3] at h3
    norm_num at *
    refine ⟨?_, ?_, ?_, ?_, ?_⟩ <;> linarith
  have hsl : slack Demo.sysN.cfg 100 1 1 ≤ 1 / 10 := by
    have h1 : (pow2 (-(lp64 .kiss).inter.p) : ℚ) ≤ 1 / 1000000 := by decide +kernel
    have h2 : ((pow2 (-(lp64 .kiss).inter.p) : ℚ) : ℝ) ≤ 1 / 1000000 := by
      have h2 := (Rat.cast_le (K := ℝ)).mpr h1
      push_cast at h2
      exact h2
    show 120 * (((1 : ℕ) : ℝ) * (((1 : ℕ) : ℝ) + ((1 : ℕ) : ℝ)) * 100) * ((pow2 (-(lp64 .kiss).inter.p) : ℚ) : ℝ) ≤ 1 / 10
    push_cast
    linarith
  have hfl : floorOf Demo.sysN.cfg ≤ 1 := by
    have h1 : (pow2 (1 - ((lp64 .kiss).inter.p : ℤ)) : ℚ) ≤ 1 := by decide +kernel
    show ((pow2 (1 - ((lp64 .kiss).inter.p : ℤ)) : ℚ) : ℝ) ≤ 1
    exact_mod_cast h1
  classical
  unfold sureOf
  rw [if_neg, Finset.filter_true_of_mem]
  · simp
  · intro q hq Y hY
    simp only [Finset.range_one, Finset.mem_product, Finset.mem_singleton, Finset.Icc_self] at hq
    obtain ⟨y, i⟩ := q
    obtain ⟨rfl, rfl⟩ := hq
    obtain ⟨h1, h2, h3, h4, h5⟩ := hy Y hY
    rw [abs_lt] at h3
    norm_num at *
    refine ⟨show Y 0 1 * Y 0 3 < 0 by nlinarith, ?_⟩
    cases k with
    | sign => trivial
    | orig => trivial
    | zerox =>
      right
      exact ⟨show Y 0 3 < Y 0 2 by linarith, show Y 0 2 < Y 0 1 by linarith⟩
    | mag =>
      show 1 / 2 ^ 23 * max |Y 0 3| (floorOf Demo.sysN.cfg) ≤ |Y 0 1| ∧ |Y 0 1| ≤ (2 - 1 / 2 ^ 23) * max |Y 0 3| (floorOf Demo.sysN.cfg)
      rw [abs_of_neg (show Y 0 3 < 0 by linarith), abs_of_pos (show 0 < Y 0 1 by linarith), max_eq_left (by linarith)]
      norm_num
      constructor <;> linarith
  · rintro ⟨_, hno⟩
    refine hno fun Y hY => ?_
    obtain ⟨h1, h2, h3, h4, h5⟩ := hy Y hY
    have e : ∀ x, level Y 1 x = |Y 0 x| := fun x => by unfold level; simp
    unfold Dips
    simp only [Finset.sum_range_one, e, Nat.cast_one, mul_one]
    norm_num at *
    rw [abs_of_neg (show Y 0 3 < 0 by linarith), abs_of_pos (show 0 < Y 0 1 by linarith)]
    have a0 := abs_nonneg (Y 0 2)
    refine ⟨by linarith, by linarith, ?_, ?_⟩
    · rw [abs_of_pos (show 0 < Y 0 1 - -Y 0 3 by linarith), abs_of_pos (show 0 < Y 0 1 - |Y 0 2| by linarith)]
      linarith
    · rw [abs_of_pos (show 0 < Y 0 1 - -Y 0 3 by linarith), abs_of_pos (show 0 < -Y 0 3 - |Y 0 2| by linarith)]
      linarith

/-- Options of the command. -/
def zeroxOpts : List CliOpt := [.v (cs "3"), .m (cs "zerox"), .r (cs "1")]

theorem zerox_line : CommandLine true [cs "-v3", cs "-mzerox", cs "-r1", cs "a.pgm"] zeroxOpts [cs "a.pgm"] := by
  have j : ∀ {c : Char} {f : List UInt8 → CliOpt} {a : List UInt8}, (c, f) ∈ valued → a ≠ [] → Phrase [ch '-' :: ([] ++ ch c :: a)] ([] ++ [f a]) :=
    fun h1 h2 => .joined .nil h1 h2
  exact .phrase (j (c := 'v') (a := cs "3") (by simp [valued]) (by decide)) (.phrase (j (c := 'm') (a := cs "zerox") (by simp [valued]) (by decide))
    (.phrase (j (c := 'r') (a := cs "1") (by simp [valued]) (by decide)) (.operand rfl (Or.inl (by decide)) .nil)))

theorem zerox_wants (io : Io) : Wants Demo.sysN.cfg io Demo.cliEnv zeroxOpts (cs "a.pgm") zerox rowParams where
  goes := by
    refine Goes.not_ends (fun b1 o1 a1 code h hend => ?_)
    rcases b1 with _ | ⟨_, _ | ⟨_, _ | ⟨_, b1⟩⟩⟩ <;> simp [zeroxOpts] at h
    · obtain ⟨rfl, _⟩ := h; cases hend
    · obtain ⟨_, rfl, _⟩ := h; cases hend
    · obtain ⟨_, _, rfl, _⟩ := h; cases hend
  method := Or.inr ⟨zerox_mem, rfl⟩
  threshold := Or.inl ⟨rfl, rfl⟩
  range := Or.inr ⟨cs "1", 1, rfl, Demo.counts_one, show 1 = 1 % ((lp64 .kiss).sizeMax + 1) by decide +kernel, Nat.one_ne_zero⟩
  filter := Or.inl ⟨rfl, rfl⟩
  one := Or.inl rfl

end Demo

/-- The hypotheses of C89 for frames in memory can be met by every method. -/
example {k : Method} (hk : k ∈ methods) : ∃ out w', resdetect Demo.sysN (some ramp4) 1 4 1 .all (some k) (some Demo.rowParams) Demo.w0 = some ((RDEOK, out), w') ∧
    DeliversBy Demo.sysN (some k) (some Demo.rowParams) 4 1 (totalError (2 ^ (-24 : ℤ)) 1 (2 ^ (-24 : ℤ)) 4 1) 100 [pixel 4 ramp4] .all out :=
  C89_resdetect (Demo.any_suits hk (by positivity) (by norm_num)) Demo.row_size (le_trans (by decide) Demo.row_image) le_rfl one_ne_zero (fun _ => rfl) (fun _ => rfl)
    Demo.w0_wf (fun _ => rfl) Demo.row_scores Demo.row_sampled Demo.row_exact

/-- Every method finds width 2 in this row. -/
example {k : Method} (hk : k ∈ methods) : ∃ out w' lw, resdetect Demo.sysN (some Demo.loud4) 1 4 1 .all (some k) (some Demo.rowParams) Demo.w0 = some ((RDEOK, out), w') ∧
    out.rw = some lw ∧ ⟨2, .fin false 1⟩ ∈ lw.data := by
  have hE : totalError (2 ^ (-24 : ℤ)) 1 (2 ^ (-24 : ℤ)) 4 1 ≤ 1 / 10 := by
    unfold totalError errorBound
    rw [primeSum_four, primeSum_one]
    norm_num
  have hr : (effParams Demo.sysN.cfg (effMethod (some k)) (some Demo.rowParams)).range = 1 := by
    show (if k.func = .zerox then 1 else 1) = 1
    rw [ite_self]
  have ht : ∀ k ∈ methods, val k.threshold ≤ 1 := by decide +kernel
  obtain ⟨out, w', h1, h2⟩ := C89_resdetect (ptr := .all) (Demo.any_suits hk (e := 2 ^ (-24 : ℤ)) (by positivity) (by norm_num)) Demo.row_size (n := 1)
    (image := Demo.loud4) (show 4 ≤ (lp64 .kiss).sizeMax by decide +kernel) le_rfl one_ne_zero (fun _ => rfl) (fun _ => rfl) Demo.w0_wf (fun _ => rfl)
    Demo.row_scores (pics := [pixel 4 Demo.loud4])
    (by
      have : framesOf Demo.loud4 4 1 1 = [Demo.loud4] := by simp [framesOf, frameOf, Demo.loud4]
      rw [this]
      exact .cons ⟨Demo.loud4_sampled, fun i j _ _ => by rw [sub_self, abs_zero]; positivity⟩ .nil) Demo.row_exact
  obtain ⟨l, h3, _, h4⟩ := h2.widths rfl
  obtain ⟨v, hv, v1, v2⟩ := (C89_found (s := Demo.sysN) (m := some k) (p := some Demo.rowParams) (t := 1) (N := 2) (Demo.error_pos (by positivity) zero_le_one (by positivity) (by norm_num) one_pos) (fun _ => by norm_num)
    zero_le_one (by decide +kernel) (ht k hk) hr.symm rfl (by decide)).1 (by decide) rfl (by
      intro pic hpic
      obtain rfl := List.mem_singleton.mp hpic
      exact Demo.loud4_sure hE) h4
  rw [le_antisymm v2 v1] at hv
  exact ⟨out, w', l, h1, h3, hv⟩

/-- The zerox method finds width 2 in a file. -/
example : ∃ out w' lw, resdetectFile Demo.sysN (Demo.disk Demo.file4 true) 2 (some (cs "a.pgm")) none .all (some Demo.zerox) (some Demo.rowParams) Demo.w0 =
    some ((RDEOK, out), w') ∧ out.rw = some lw ∧ ⟨2, .fin false 1⟩ ∈ lw.data := by
  obtain ⟨out, w', h1, h2⟩ := C89_file (Demo.any_suits Demo.zerox_mem (e := 2 ^ (-24 : ℤ) + 1 / 1020) (by positivity) (by norm_num)) Demo.row_size Demo.file4_presents
    (List.cons_ne_nil _ _) (ptr := .all) (fun _ => rfl) (fun _ => rfl) (fuel := 2) (by decide) (show 1 ≤ (lp64 .kiss).sizeMax by decide +kernel) Demo.w0_wf
    (fun _ => rfl) Demo.row_scores Demo.file4_depicts Demo.row_exact
  obtain ⟨l, h3, _, h4⟩ := h2.widths rfl
  exact ⟨out, w', l, h1, h3, Demo.zerox_finds (by positivity) (by norm_num) h4⟩

/-- The command does. -/
example : ∃ ex w' l1 l2, cliCommand Demo.sysN (Demo.disk Demo.file4 true) Demo.cliEnv 2 true [cs "-v3", cs "-mzerox", cs "-r1", cs "a.pgm"] Demo.w0 = some (ex, w') ∧
    Legible 3 4 1 l1 l2 (cliText ex.shown) ∧ ⟨2, .fin false 1⟩ ∈ l1 := by
  obtain ⟨ex, w', l1, l2, h1, h2, _, h3, _⟩ := C89_command (Demo.any_suits Demo.zerox_mem (e := 2 ^ (-24 : ℤ) + 1 / 1020) (by positivity) (by norm_num)) Demo.row_size
    Demo.zerox_line (Demo.zerox_wants (Demo.disk Demo.file4 true)) (vb := 3)
    (Or.inr ⟨cs "3", false, 3, rfl, number_iff.mpr ⟨by decide, by decide, by decide⟩, show 3 ≤ (lp64 .kiss).intMax by decide +kernel, rfl⟩) (Or.inl ⟨rfl, rfl⟩)
    Demo.file4_presents (Or.inl ⟨rfl, rfl⟩) (List.cons_ne_nil _ _) Demo.w0_wf (fun _ => rfl) Demo.row_scores Demo.file4_depicts Demo.row_exact
    (show 1 < (lp64 .kiss).sizeMax by decide +kernel) (show 1 < 2 by decide)
  exact ⟨ex, w', l1, l2, h1, h2, Demo.zerox_finds (by positivity) (by norm_num) h3⟩

end Verif.Props
