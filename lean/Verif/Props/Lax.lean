import Verif.Props.Formats
import Verif.Proofs.Lax
import Verif.Proofs.AnyFile
import Verif.Spec.DemoFiles

/-!
# Which files are opened (C59)
-/

namespace Verif.Props

open Spec

variable {s : Sys} {io : Io} {name file : List UInt8} {k : Kind} {m : M Opened}

/-- **C59** (partial) A file the PGM reader opens starts with the numbers the size is taken from, with the maximum and white space
after them.  Missing: that it is a PGM, see `C59_fails`. -/
theorem C59_pgm_partial (ho : io.omitPgm = false) (hu : Uses s io name (cs "pgm") m) (hh : io.fs.Holds name (file, k)) {w w1 : World}
    {o : Opened} (hw : w.WF) (hm : m w = some (o, w1)) (he : o.error = RDEOK) :
    ∃ head data maxval, file = head ++ data ∧ LaxPgm s.cfg.sizeMax o.width o.height maxval head := by
  rw [uses_pgm hu ho] at hm
  obtain ⟨x, ha, _⟩ := Builtin.pgm.opened ((pgm_determined (s := s) name).1 _ k hh) hw hm he
  split at ha
  · cases ha
  · cases ha
  · rename_i W H depth st hp
    simp only [Option.some.injEq, Prod.mk.injEq] at ha
    obtain ⟨_, rfl, rfl, _⟩ := ha
    obtain ⟨head, h1, h2⟩ := pgmHeader_split hp
    exact ⟨head, st.rest, depth, h2, h1⟩

/-- **C59** Every such file is opened, and what follows is its only frame: sample `i` is byte `i` divided by the maximum.  So
`LaxPgm` is exactly what is accepted. -/
theorem C59_pgm_reads {W H maxval : ℕ} {head data : List UInt8} (ho : io.omitPgm = false) (hu : Uses s io name (cs "pgm") m)
    (hh : io.fs.Holds name (head ++ data, k)) (hl : LaxPgm s.cfg.sizeMax W H maxval head) (hw : Within s.cfg W H) :
    (W * H ≤ data.length →
      Yields m W H [(data.take (W * H)).map (fun b => binary32.div (binary32.ofNat b.toNat) (binary32.ofNat maxval))] RDEOK) ∧
    (data.length < W * H → Yields m W H [] RDEINVAL) := by
  rw [uses_pgm hu ho]
  obtain ⟨p, hp⟩ := pgmHeader_lax (c := s.cfg) (k := k) (rest := data) hl
  have hd := (pgm_determined (s := s) name).1 _ k hh
  rw [hp] at hd
  have h0 : 0 < W * H := Nat.mul_pos hw.1 hw.2.1
  constructor
  · intro h
    refine Builtin.pgm.yields hd hw ?_
    rw [Ctx.frames_next h0 (x' := .pgm ⟨0, ⟨none, (⟨data, p, k⟩ : Stream).advance (min (W * H) data.length)⟩, true, maxval⟩) (e := RDEOK)
      (f := (data.take (W * H)).map (pgmSample maxval)) (by simp [Ctx.step, h])]
    rw [Ctx.frames_stop (e := RDEOK) (x' := .pgm ⟨0, ⟨none, (⟨data, p, k⟩ : Stream).advance (min (W * H) data.length)⟩, true, maxval⟩)
      (by simp [Ctx.step])]
    rfl
  · intro h
    refine Builtin.pgm.yields hd hw ?_
    refine Ctx.frames_stop (x' := .pgm ⟨0, ⟨none, (⟨data, p, k⟩ : Stream).advance (min (W * H) data.length)⟩, true, maxval⟩) ?_
    simp [Ctx.step, h]

/-- A PGM without white space after the magic number, and with a sign. -/
def joinedPgm : List UInt8 := cs "P52+1 255\n"

example : LaxPgm (2 ^ 64 - 1) 2 1 255 joinedPgm := by
  refine .mk (magic := cs "P5") (s0 := []) (lines := []) (s1 := []) (nW := cs "2") (s2 := []) (nH := cs "+1") (s3 := cs " ") (nM := cs "255")
    (sp := ch '\n') (Or.inl rfl) ?_ ?_ ?_ (.plain ?_ (by decide)) ?_ (Or.inr (Or.inl ⟨_, rfl⟩)) (.plus ?_ (by decide)) ?_ (Or.inl (by decide))
    (.plain ?_ (by decide)) (by decide) ?_ ?_ <;> (try simp only [Blank, Numeral, Digits, OneLine]) <;> (try decide)
  intro t ht
  exact absurd (List.cons.inj ht).1 (by decide)

/-- **C59** (partial) A file the PFM reader opens starts with the letters, the numbers the size is taken from, a number, infinity or NaN
for the scale, and white space.  Missing: that it is a PFM, see `C59_fails`. -/
theorem C59_pfm_partial (ho : io.omitPfm = false) (hu : Uses s io name (cs "pfm") m) (hh : io.fs.Holds name (file, k)) {w w1 : World}
    {o : Opened} (hw : w.WF) (hm : m w = some (o, w1)) (he : o.error = RDEOK) :
    ∃ head data colour little, file = head ++ data ∧ LaxPfm s.cfg.sizeMax o.width o.height colour little head := by
  rw [uses_pfm hu ho] at hm
  obtain ⟨x, ha, _⟩ := Builtin.pfm.opened ((pfm_determined (s := s) name).1 _ k hh) hw hm he
  split at ha
  · cases ha
  · cases ha
  · rename_i format W H scale st hp
    simp only [Option.some.injEq, Prod.mk.injEq] at ha
    obtain ⟨_, rfl, rfl, _⟩ := ha
    obtain ⟨colour, head, _, h1, h2⟩ := pfmHeader_split hp
    exact ⟨head, st.rest, colour, _, h2, h1⟩

/-- **C59** Every file that starts like this is opened if its size is within the limits, whatever follows, and if the data of an image
of that kind and byte order follows, and then further images, they are read like those of a PFM.  So `LaxPfm` is exactly what is
accepted. -/
theorem C59_pfm_reads {W H : ℕ} {colour little : Bool} {head data : List UInt8} (ho : io.omitPfm = false) (hu : Uses s io name (cs "pfm") m)
    (hh : io.fs.Holds name (head ++ data, k)) (hl : LaxPfm s.cfg.sizeMax W H colour little head) (hw : Within s.cfg W H) :
    (∀ w : World, w.WF → Plenty w → ∃ i buf w1, m w = some (⟨some i, W, H, some buf, RDEOK⟩, w1)) ∧
    (∀ image images more, data = image.data ++ more → image.Ok W H → image.colour = colour → image.little = little →
      PfmFile W H images more → (k.seekable = true → (head ++ data).length ≤ s.cfg.longMax) → k.broken = false →
      Plays m W H ((image :: images).map PfmImage.samples) (fun ops => (∀ op ∈ ops, op = .read) ∨ ops.head? ≠ some (.seek 0) ∧
        (∀ i ∈ images, i.colour = colour) ∧ 4 * (if colour then 3 else 1) * W * H ≤ s.cfg.sizeMax)) := by
  obtain ⟨hW, hH⟩ := Within.le_size hw
  rw [uses_pfm hu ho]
  obtain ⟨v, hp, hv⟩ := pfmHeader_lax (c := s.cfg) (rest := data) (k := k) hl
  have hd := (pfm_determined (s := s) name).1 _ k hh
  rw [hp] at hd
  constructor
  · intro w hwf hpl
    obtain ⟨i, buf, w1, h, _⟩ := Builtin.plays Builtin.pfm (R := fun _ _ _ => False) (frames := []) (ok := fun _ => False)
      ⟨False.elim, False.elim, False.elim⟩ hd hw (fun _ h => h.elim) w hwf hpl
    exact ⟨i, buf, w1, h⟩
  · rintro image images more rfl h1 rfl rfl h4 hk hb
    refine Builtin.plays Builtin.pfm (pfm_sim hW hH) hd hw (fun ops hops => ?_)
    refine ⟨_, v, letter image.colour, true, image :: images, rfl, rfl, fun h => by have := hk h; simp only [List.length_append] at this ⊢; omega, hb,
      Or.inr ⟨rfl, image, images, more, rfl, h1, rfl, h4, rfl, hv⟩, ?_⟩
    rcases hops with h | ⟨h, h5, h6⟩
    · exact Or.inl h
    · refine Or.inr ⟨fun _ => h, image.colour, rfl, ?_, h6⟩
      intro i hi
      rcases List.mem_cons.mp hi with rfl | hi
      · rfl
      · exact h5 i hi

/-- **C59** (partial) A file the Y4M reader opens starts with the magic number and parameters up to a line break, and the size is
taken from the last width and height among them, the sampling and the depth, which is from 8 to 16, from the start of the last
layout.  Missing: that it is a YUV4MPEG2 stream, see `C59_fails`. -/
theorem C59_y4m_partial (ho : io.omitY4m = false) (hu : Uses s io name (cs "y4m") m) (hh : io.fs.Holds name (file, k)) {w w1 : World}
    {o : Opened} (hw : w.WF) (hm : m w = some (o, w1)) (he : o.error = RDEOK) :
    ∃ head data layout x d, file = head ++ data ∧ LaxY4m s.cfg.sizeMax o.width o.height layout head ∧ LaxLayout layout x d ∧ 8 ≤ d ∧ d ≤ 16 := by
  rw [uses_y4m hu ho] at hm
  obtain ⟨x, ha, _⟩ := Builtin.y4m.opened ((y4m_determined (s := s) name).1 _ k hh) hw hm he
  unfold y4mOutcome at ha
  split at ha
  · cases ha
  · cases ha
  · rename_i p st hp
    split at ha
    · cases ha
    · cases ha
    · rename_i y uv depth hz
      simp only [Option.some.injEq, Prod.mk.injEq] at ha
      obtain ⟨_, h1, h2, _⟩ := ha
      obtain ⟨head, layout, x, d, h3, h4, h5, h6, h7⟩ := y4mOpen_split hp hz
      rw [h1, h2] at h3
      exact ⟨head, st.rest, layout, x, d, h7, h3, h4, h5, h6⟩

/-- **C59** Every file that starts like this is opened if its size is within the limits, whatever follows, and if frames follow
they are read like those of a YUV4MPEG2 stream of that sampling and depth.  So `LaxY4m` and `LaxLayout` are exactly what is
accepted.  Where the fifth character of the layout is not ASCII, `isdigit` is undefined for it. -/
theorem C59_y4m_reads {W H d : ℕ} {layout head data : List UInt8} {x : Sampling} (ho : io.omitY4m = false) (hu : Uses s io name (cs "y4m") m)
    (hh : io.fs.Holds name (head ++ data, k)) (hl : LaxY4m s.cfg.sizeMax W H layout head) (hx : LaxLayout layout x d)
    (h5 : ∀ b, layout[4]? = some b → b.toNat < 128) (h8 : 8 ≤ d) (h16 : d ≤ 16) (hs : Feasible s.cfg W H x d) :
    (∀ w : World, w.WF → Plenty w → ∃ i buf w1, m w = some (⟨some i, W, H, some buf, RDEOK⟩, w1)) ∧
    (∀ frames, Y4mParts W H x d frames data → (k.seekable = true → (head ++ data).length ≤ s.cfg.longMax) → k.broken = false →
      Plays m W H (lumas d frames) (fun _ => True)) := by
  have hw : Within s.cfg W H := ⟨hs.width, hs.height, by have := hs.pixels; omega, hs.floats⟩
  obtain ⟨csp, pad, h1, _, rfl⟩ := y4mHeader_lax (rest := data) (k := k) hl
  have hz := y4mSizes_of (c := s.cfg) (hx.reads (pad := pad) h5 hs.width hs.height hs.floats) h8 h16 hs.width hs.height hs.pixels hs.floats
    (by unfold wide; exact hs.bytes)
  refine ⟨?_, fun frames hf hk hb => y4m_plays_of hu ho hh h1 rfl hz h8 h16 hw hf hs.order hk hb⟩
  rw [uses_y4m hu ho]
  have hd := (y4m_determined (s := s) name).1 _ k hh
  unfold y4mOutcome at hd
  rw [h1] at hd
  simp only at hd
  rw [hz] at hd
  simp only at hd
  intro w hwf hp
  obtain ⟨i, buf, w1, h, _⟩ := Builtin.plays Builtin.y4m (R := fun _ _ _ => False) (frames := []) (ok := fun _ => False)
    ⟨False.elim, False.elim, False.elim⟩ hd hw (fun _ h => h.elim) w hwf hp
  exact ⟨i, buf, w1, h⟩

/-- A PFM without white space after the magic number. -/
def joinedPfm : List UInt8 := cs "Pf2 1 -1\n"

/-- An image of two pixels to go with it. -/
def joinedImage : PfmImage := ⟨false, true, [[.gray 0, .gray 0x3f800000]]⟩

example : joinedImage.Ok 2 1 ∧ PfmFile 2 1 [] [] ∧ Within Demo.sys.cfg 2 1 := by
  refine ⟨⟨rfl, ?_⟩, .nil, ?_⟩
  · intro r hr
    obtain rfl := List.mem_singleton.mp hr
    refine ⟨rfl, fun p hp => ?_⟩
    rcases List.mem_cons.mp hp with rfl | hp
    · exact ⟨rfl, by decide⟩
    · obtain rfl := List.mem_singleton.mp hp
      exact ⟨rfl, by decide⟩
  · unfold Within; decide

/-- A width with a sign. -/
def signedY4m : List UInt8 := cs "YUV4MPEG2 W+2 H1 Cmono\n"

theorem minusOne : FloatText (.fin true (-1)) (cs "-1") := by
  have h := FloatText.number (sign := cs "-") .minus (.decimal (ds := cs "1") (fs := []) (by unfold Digits; decide) (by simp [Digits]) (.whole (by decide)) .none)
  have e : (value (cs "1" ++ []) : ℚ) * 10 ^ ((0 : ℤ) - ([] : List UInt8).length) = 1 := by
    rw [show value (cs "1" ++ []) = 1 by decide]; norm_num
  rw [e, show binary32.deliver true (if true = true then -1 else 1) = .fin true (-1) by decide +kernel] at h
  exact h rfl

example : LaxPfm (2 ^ 64 - 1) 2 1 false true joinedPfm := by
  refine .mk (s0 := []) (lines := []) (s1 := []) (nW := cs "2") (s2 := cs " ") (nH := cs "1") (s3 := cs " ") (nS := cs "-1")
    (sp := ch '\n') ?_ ?_ ?_ (.plain ?_ (by decide)) ?_ (Or.inl (by decide)) (.plain ?_ (by decide)) ?_ minusOne (fun h => absurd h (by decide)) rfl ?_ <;>
    (try simp only [Blank, Numeral, Digits, OneLine]) <;> decide

/-- A negative scale so small that it becomes zero: it is not less than zero, and the image is taken for big endian. -/
example : FloatText (.fin true 0) (cs "-1e-60") ∧ (Fl.fin true 0).lt (.fin false 0) = false := by
  have h := FloatText.number (sign := cs "-") .minus (.decimal (ds := cs "1") (fs := []) (by unfold Digits; decide) (by simp [Digits]) (.whole (by decide))
    (.some (b := ch 'e') (n := 60) (ds := cs "60") (by unfold AnyCase; decide) .minus ⟨by decide, by unfold Digits; decide, by decide⟩))
  have e : (value (cs "1" ++ []) : ℚ) * 10 ^ ((if true = true then -((60 : ℕ) : ℤ) else ((60 : ℕ) : ℤ)) - ([] : List UInt8).length) = 1 / 10 ^ 60 := by
    rw [show value (cs "1" ++ []) = 1 by decide]; norm_num
  rw [e, show binary32.deliver true (if true = true then -(1 / 10 ^ 60) else 1 / 10 ^ 60) = .fin true 0 by decide +kernel] at h
  exact ⟨h rfl, by decide⟩

/-- The same scale in hexadecimal, an infinity and a NaN. -/
example : FloatText (.fin true (-1)) (cs "-0x.8P+1") ∧ FloatText (.inf true) (cs "-Infinity") ∧ FloatText (.nan false) (cs "nan(1)") := by
  refine ⟨?_, .inf (sign := cs "-") (l := cs "Infinity") .minus (Or.inr (by unfold AnyCase; decide)),
    .nan (sign := []) (l := cs "nan") (more := cs "(1)") .none (by unfold AnyCase; decide) (Or.inr ⟨cs "1", by unfold NanBody; decide, by decide⟩)⟩
  have h := FloatText.number (sign := cs "-") .minus (.hex (x := ch 'x') (ds := []) (fs := cs "8") (by unfold AnyCase; decide) (by simp [HexDigits])
    (by unfold HexDigits; decide) (.point (by decide)) (.some (b := ch 'P') (n := 1) (ds := cs "1") (by unfold AnyCase; decide) .plus
      ⟨by decide, by unfold Digits; decide, by decide⟩))
  have e : (hexValue ([] ++ cs "8") : ℚ) * 2 ^ ((if false = true then -((1 : ℕ) : ℤ) else ((1 : ℕ) : ℤ)) - 4 * (cs "8").length) = 1 := by
    rw [show hexValue ([] ++ cs "8") = 8 by decide, show (cs "8").length = 1 by decide]; norm_num
  rw [e, show binary32.deliver true (if true = true then -1 else 1) = .fin true (-1) by decide +kernel] at h
  exact h rfl

example : LaxLayout (cs "420p16be") .s420 16 ∧ (∀ b, (cs "420p16be")[4]? = some b → b.toNat < 128) ∧ Feasible Demo.sys.cfg 2 1 .s420 16 := by
  refine ⟨.deep (p := "420") (t := cs "16be") (by simp) (.digits (ds := cs "16") (r := cs "be") ⟨by decide, ?_, by decide⟩ ?_), ?_,
    by constructor <;> decide⟩
  · unfold Digits; decide
  · intro b hb
    cases hb
    unfold Digits
    decide
  · intro b hb
    cases hb
    decide

example : LaxY4m (2 ^ 64 - 1) 2 1 (cs "mono") signedY4m ∧ LaxLayout (cs "mono") .mono 8 := by
  refine ⟨?_, .mono (t := []) (.none (by simp))⟩
  refine .mk (ps := [.width 2 [] (cs "+2"), .space, .height 1 [] (cs "1"), .space, .layout [] (cs "mono")]) ?_ ?_ rfl rfl rfl
  rotate_left
  · refine ⟨?_, trivial, ?_, trivial, Or.inr ?_, trivial⟩ <;> intro b hb <;> cases hb <;> first | (unfold Digits; decide) | (unfold Blank; decide)
  simp only [List.forall_mem_cons, LaxParam.Ok]
  refine ⟨⟨?_, .plus ?_ (by decide)⟩, trivial, ⟨?_, .plain ?_ (by decide)⟩, trivial, ⟨?_, ?_, by decide, by decide⟩, by simp⟩ <;>
    (try simp only [Blank, Solid, Numeral, Digits]) <;> decide

/-- No beginning of the file is a header. -/
def Headless (isHead : List UInt8 → Prop) (file : List UInt8) : Prop := ∀ head, head <+: file → ¬ isHead head

theorem pgm_headless {b : UInt8} {l : List UInt8} (hb : ¬ Blank [b]) : Headless (fun h => ∃ W H v, PgmHead W H v h) (cs "P5" ++ b :: l) := by
  rintro head hp ⟨W, H, v, h⟩
  cases h with
  | @mk s0 _ _ _ _ _ _ _ _ h0 h1 =>
    obtain ⟨t, ht⟩ := hp
    cases s0 with
    | nil => exact h1 rfl
    | cons c s0 =>
      have : c = b := Option.some.inj (congrArg (fun l => l[2]?) ht)
      subst this
      exact hb (fun x hx => h0 x (by simp only [List.mem_singleton] at hx; simp [hx]))

theorem pfm_headless {f b : UInt8} {l : List UInt8} (hb : ¬ Blank [b]) :
    Headless (fun h => ∃ W H colour little, PfmHead W H colour little h) (ch 'P' :: f :: b :: l) := by
  rintro head hp ⟨W, H, c, e, h⟩
  cases h with
  | @mk s0 _ _ _ _ _ _ _ _ h0 h1 =>
    obtain ⟨t, ht⟩ := hp
    cases s0 with
    | nil => exact h1 rfl
    | cons c s0 =>
      have : c = b := Option.some.inj (congrArg (fun l => l[2]?) ht)
      subst this
      exact hb (fun x hx => h0 x (by simp only [List.mem_singleton] at hx; simp [hx]))

theorem y4m_headless {b : UInt8} {l : List UInt8} (hb : ¬ Digits [b]) :
    Headless (fun h => ∃ W H name, Y4mHead W H name h) (cs "YUV4MPEG2 W" ++ b :: l) := by
  rintro head hp ⟨W, H, n, h⟩
  cases h with
  | @mk ps h0 =>
    obtain ⟨t, ht⟩ := hp
    rw [show cs "YUV4MPEG2 W" = cs "YUV4MPEG2" ++ [ch ' ', ch 'W'] by decide, List.append_assoc, List.append_assoc] at ht
    replace ht := List.append_cancel_left ht
    cases ps with
    | nil => exact absurd (List.cons.inj ht).1 (by decide)
    | cons p ps =>
      replace ht := (List.cons.inj ht).2
      change (p.bytes ++ _) ++ _ = ch 'W' :: b :: l at ht
      simp only [List.append_assoc] at ht
      have hk := h0 p (by simp)
      cases p with
      | width v text =>
        obtain ⟨h1, h2, _⟩ := hk
        cases text with
        | nil => exact h1 rfl
        | cons d text =>
          simp only [Param.bytes, List.cons_append, List.cons.injEq, true_and] at ht
          exact hb (fun x hx => h2 x (by simp only [List.mem_singleton] at hx; simp [hx, ht.1]))
      | height v text =>
        simp only [Param.bytes, List.cons_append, List.cons.injEq] at ht
        exact absurd ht.1 (by decide)
      | layout name =>
        simp only [Param.bytes, List.cons_append, List.cons.injEq] at ht
        exact absurd ht.1 (by decide)
      | other tag text =>
        simp only [Param.bytes, List.cons_append, List.cons.injEq] at ht
        exact hk.1 ht.1

/-- **C59** (negation) Files that have no header of the format, and are opened all the same as 2 by 1 pixels. -/
theorem C59_fails :
    (Headless (fun h => ∃ W H v, PgmHead W H v h) joinedPgm ∧
      ∃ o w', Demo.openAs "pgm" joinedPgm true Demo.w0 = some (o, w') ∧ o.error = RDEOK ∧ o.width = 2 ∧ o.height = 1) ∧
    (Headless (fun h => ∃ W H colour little, PfmHead W H colour little h) joinedPfm ∧
      ∃ o w', Demo.openAs "pfm" joinedPfm true Demo.w0 = some (o, w') ∧ o.error = RDEOK ∧ o.width = 2 ∧ o.height = 1) ∧
    (Headless (fun h => ∃ W H name, Y4mHead W H name h) signedY4m ∧
      ∃ o w', Demo.openAs "y4m" signedY4m true Demo.w0 = some (o, w') ∧ o.error = RDEOK ∧ o.width = 2 ∧ o.height = 1) := by
  have get : ∀ (ext : String) (f : List UInt8), (Demo.openAs ext f true Demo.w0).map (fun r => (r.1.error, r.1.width, r.1.height)) = some (RDEOK, 2, 1) →
      ∃ o w', Demo.openAs ext f true Demo.w0 = some (o, w') ∧ o.error = RDEOK ∧ o.width = 2 ∧ o.height = 1 := by
    intro ext f h
    obtain ⟨⟨o, w'⟩, h1, h2⟩ := Option.map_eq_some_iff.mp h
    simp only [Prod.mk.injEq] at h2
    exact ⟨o, w', h1, h2⟩
  exact ⟨⟨pgm_headless (by unfold Blank; decide), get _ _ (by decide +kernel)⟩,
    ⟨pfm_headless (by unfold Blank; decide), get _ _ (by decide +kernel)⟩,
    ⟨y4m_headless (l := cs "2 H1 Cmono\n") (b := ch '+') (by unfold Digits; decide), get _ _ (by decide +kernel)⟩⟩

example : ∃ m, Uses Demo.sys (Demo.disk joinedPfm true) (cs "a.pfm") (cs "pfm") m ∧ (Demo.disk joinedPfm true).fs.Holds (cs "a.pfm") (joinedPfm, true) :=
  ⟨_, Demo.uses_as (ext := "pfm") (by simp) joinedPfm true, Demo.disk_holds (by decide)⟩

end Verif.Props
