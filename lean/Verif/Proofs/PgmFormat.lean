import Verif.Proofs.Scan

/-! The PGM reader on PGM files. -/

namespace Verif

open Spec

theorem pgmHeader_eq {c : Cfg} {W H m : ℕ} {head rest : List UInt8} {k : Kind} (h : PgmHead W H m head) (hW : W ≤ c.sizeMax)
    (hH : H ≤ c.sizeMax) : ∃ p, pgmHeader c ⟨head ++ rest, 0, k⟩ = some (some (W, H, m), ⟨rest, p, k⟩) := by
  cases h with
  | @mk s0 s1 nW s2 nH s3 nM lines sp h0 h0' hl h1 hnW h2 h2' hnH h3 h3' hnM hm1 hm2 hsp =>
    simp only [List.append_assoc, List.singleton_append]
    set R := nW ++ (s2 ++ (nH ++ (s3 ++ (nM ++ (sp :: rest))))) with hR
    have ns := numeral_stops (r := s2 ++ (nH ++ (s3 ++ (nM ++ (sp :: rest))))) hnW
    obtain ⟨s1', q, hb, hq, hpre⟩ := preamble (p := 2) (k := k) h0 hl h1 ns.1 ns.2 (by simp [hnW.1])
    have hmagic : pgmMagic ⟨cs "P5" ++ (s0 ++ (comments lines ++ (s1 ++ R))), 0, k⟩ =
        (false, (⟨s0 ++ (comments lines ++ (s1 ++ R)), 2, k⟩ : Stream).skipSpace) := by
      have e : cs "P5" = [ch 'P', ch '5'] := by decide
      rw [e]
      simp [pgmMagic, Stream.scanChar, Stream.advance]
    have hnum : ∃ p, pgmNumbers c ⟨s1' ++ R, q, k⟩ = some (some (W, H, m), ⟨sp :: rest, p, k⟩) := by
      unfold pgmNumbers
      rw [hR, scanUnsigned_eq hb hnW hW (blank_stops h2 h2').1]
      simp only [Option.bind_eq_bind, Option.bind_some]
      rw [skipSpace_eq h2 (numeral_stops hnH).1]
      have := scanUnsigned_eq (a := []) (p := q + s1'.length + nW.length + s2.length) (k := k) (wide := true) (by simp [Blank]) hnH hH
        (blank_stops (r := nM ++ (sp :: rest)) h3 h3').1
      simp only [List.nil_append] at this
      rw [this]
      simp only [Option.bind_some]
      rw [skipSpace_eq h3 (numeral_stops hnM).1]
      have hst : Stops isdigit (sp :: rest) := stops_cons.mpr (space_not_digit (hsp.isspace sp (by simp)))
      have := scanUnsigned_eq (a := []) (p := q + s1'.length + nW.length + s2.length + ([] : List UInt8).length + nH.length + s3.length) (k := k)
        (wide := false) (m := 65535) (by simp [Blank]) hnM (by omega) hst
      simp only [List.nil_append] at this
      rw [this]
      exact ⟨_, rfl⟩
    obtain ⟨p', hnum⟩ := hnum
    refine ⟨p' + 1, ?_⟩
    unfold pgmHeader
    rw [hmagic]
    simp only [Bool.false_eq_true, if_false]
    rw [hpre]
    simp only [Bool.not_true, Bool.false_eq_true, if_false]
    rw [hnum]
    simp only [Option.bind_eq_bind, Option.bind_some]
    rw [spaceNext_eq hsp]
    simp only [Bool.not_true, Bool.false_or]
    rw [if_neg (by simp; omega)]
    rfl

/-- A PGM context with one frame to come, or none. -/
def PgmR (W H m : ℕ) (raster : List UInt8) (x : Ctx) (frames : List (List Fl)) (_ops : List IOp) : Prop :=
  ∃ st eof, x = .pgm ⟨0, ⟨none, st⟩, eof, m⟩ ∧ raster.length = W * H ∧
    ((eof = true ∧ frames = []) ∨ (eof = false ∧ frames = [raster.map (pgmSample m)] ∧ ∃ tail, st.rest = raster ++ tail))

theorem pgm_sim {s : Sys} {W H m : ℕ} {raster : List UInt8} : Sim s W H (PgmR W H m raster) := by
  constructor
  · rintro x ops ⟨st, eof, rfl, hl, ⟨rfl, _⟩ | ⟨_, h, _⟩⟩
    · exact ⟨_, rfl, st, true, rfl, hl, Or.inl ⟨rfl, rfl⟩⟩
    · cases h
  · rintro x f fs ops ⟨st, eof, rfl, hl, ⟨_, h⟩ | ⟨rfl, h, tail, ht⟩⟩
    · cases h
    · cases h
      refine ⟨.pgm ⟨0, ⟨none, st.advance (W * H)⟩, true, m⟩, ?_, _, true, rfl, hl, Or.inl ⟨rfl, rfl⟩⟩
      simp only [Ctx.step, Bool.false_eq_true, if_false, ht]
      rw [if_pos (by simp [hl]), ← hl]
      simp
  · rintro x fs k ops ⟨st, eof, rfl, hl, ⟨rfl, rfl⟩ | ⟨rfl, rfl, tail, ht⟩⟩
    · refine ⟨.pgm ⟨0, ⟨none, st⟩, true, m⟩, ?_, st, true, rfl, hl, Or.inl ⟨rfl, by simp⟩⟩
      simp only [Ctx.skip, singleSeek]
      cases k <;> simp
    · rcases k with _ | _ | k
      · exact ⟨_, rfl, st, false, rfl, hl, Or.inr ⟨rfl, rfl, tail, ht⟩⟩
      · exact ⟨.pgm ⟨0, ⟨none, st⟩, true, m⟩, rfl, st, true, rfl, hl, Or.inl ⟨rfl, rfl⟩⟩
      · refine ⟨.pgm ⟨0, ⟨none, st⟩, true, m⟩, ?_, st, true, rfl, hl, Or.inl ⟨rfl, rfl⟩⟩
        simp [Ctx.skip, singleSeek]

theorem Within.le_size {c : Cfg} {w h : ℕ} (hw : Within c w h) : w ≤ c.sizeMax ∧ h ≤ c.sizeMax := by
  obtain ⟨h1, h2, _, h4⟩ := hw
  have := Nat.le_mul_of_pos_right w h2
  have := Nat.le_mul_of_pos_left h h1
  omega

theorem pgm_plays {s : Sys} {io : Io} {name file raster : List UInt8} {k : Kind} {W H maxval : ℕ} {m : M Opened}
    (hu : Uses s io name (cs "pgm") m) (ho : io.omitPgm = false) (hh : io.fs.Holds name (file, k)) (hf : PgmFile W H maxval raster file)
    (hw : Within s.cfg W H) : Plays m W H [raster.map (fun b => normal maxval b.toNat)] (fun _ => True) := by
  rw [uses_pgm hu ho]
  obtain ⟨hW, hH⟩ := Within.le_size hw
  cases hf with
  | @mk head tail hp hl =>
    obtain ⟨hm1, hm2⟩ : 1 ≤ maxval ∧ maxval ≤ 255 := by cases hp; exact ⟨by assumption, by assumption⟩
    obtain ⟨p, hp⟩ := pgmHeader_eq (k := k) (rest := raster ++ tail) hp hW hH
    have hd := (pgm_determined (s := s) name).1 _ k hh
    rw [hp] at hd
    simp only at hd
    refine Builtin.plays Builtin.pgm (pgm_sim (m := maxval) (raster := raster)) hd hw (fun ops _ => ?_)
    refine ⟨_, false, rfl, hl, Or.inr ⟨rfl, ?_, tail, rfl⟩⟩
    congr 1
    refine List.map_congr_left (fun b _ => ?_)
    have := b.toNat_lt
    exact (quotient_eq (by omega) (by omega) (by omega)).symm

theorem skipComments_other {b : UInt8} {l : List UInt8} {p n : ℕ} {k : Kind} (hb : b ≠ ch '#') :
    skipComments (n + 1) ⟨b :: l, p, k⟩ = (true, ⟨b :: l, p, k⟩) := by
  unfold skipComments
  simp [Stream.fgetc, Stream.advance, hb, Stream.ungetc]

theorem scanUnsigned_other {b : UInt8} {l : List UInt8} {p m : ℕ} {k : Kind} {wide : Bool} (h1 : isspace b = false) (h2 : isdigit b = false) (h3 : b ≠ ch '+')
    (h4 : b ≠ ch '-') : (⟨b :: l, p, k⟩ : Stream).scanUnsigned m wide = some (.mismatch, ⟨b :: l, p, k⟩) := by
  unfold Stream.scanUnsigned
  rw [skipSpace_none (stops_cons.mpr h1)]
  simp [h2, h3, h4, Stream.advance]

/-- A file in which no number comes after the magic number, or none without it. -/
theorem pgmHeader_other {c : Cfg} {b : UInt8} {l : List UInt8} {k : Kind} (h1 : isspace b = false) (h2 : isdigit b = false) (h3 : b ≠ ch '+')
    (h4 : b ≠ ch '-') (h5 : b ≠ ch '#') {file : List UInt8} (hf : (file = b :: l ∧ b ≠ ch 'P') ∨ (file = ch 'P' :: b :: l ∧ b ≠ ch '5')) :
    ∃ st, pgmHeader c ⟨file, 0, k⟩ = some (none, st) := by
  have hm : ∃ p, pgmMagic ⟨file, 0, k⟩ = (false, ⟨b :: l, p, k⟩) := by
    rcases hf with ⟨rfl, hb⟩ | ⟨rfl, hb⟩
    · exact ⟨0, by simp [pgmMagic, Stream.scanChar, hb]⟩
    · exact ⟨1, by simp [pgmMagic, Stream.scanChar, hb, Stream.advance]⟩
  obtain ⟨p, hm⟩ := hm
  refine ⟨⟨b :: l, p, k⟩, ?_⟩
  unfold pgmHeader
  rw [hm]
  simp only [Bool.false_eq_true, if_false]
  rw [skipComments_other h5]
  simp only [Bool.not_true, Bool.false_eq_true, if_false]
  unfold pgmNumbers
  rw [scanUnsigned_other h1 h2 h3 h4]
  rfl

theorem pgmHeader_short {c : Cfg} {k : Kind} {file : List UInt8} (hf : file = [] ∨ file = [ch 'P']) :
    ∃ st, pgmHeader c ⟨file, 0, k⟩ = some (none, st) := by
  rcases hf with rfl | rfl
  · exact ⟨_, rfl⟩
  · exact ⟨⟨[], 1, k⟩, by simp [pgmHeader, pgmMagic, Stream.scanChar, Stream.advance]⟩

end Verif
