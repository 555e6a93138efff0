import Verif.Spec.Demo
import Verif.Spec.Reader
import Verif.Spec.Formats

/-! # A file system for the examples -/

namespace Verif.Demo

/-- A 2 by 1 PGM. -/
def pgmBytes : List UInt8 := cs "P5\n# c\n2 1 255\n" ++ [0, 255]

/-- A 2 by 1 mono Y4M with two frames. -/
def y4mBytes : List UInt8 := cs "YUV4MPEG2 W2 H1 Cmono\nFRAME\n" ++ [0, 255] ++ cs "FRAME\n" ++ [255, 0]

/-- The same with the second frame cut short. -/
def cutBytes : List UInt8 := cs "YUV4MPEG2 W2 H1 Cmono\nFRAME\n" ++ [0, 255] ++ cs "FRAME\n" ++ [255]

/-- A file system with a few files; anything else gives errno 2. -/
def fs : Fs where
  fopen name :=
    if name = cs "a.pgm" ∨ name = cs "a.PGM" then .inr (pgmBytes, true)
    else if name = cs "a.y4m" then .inr (y4mBytes, true)
    else if name = cs "cut.y4m" then .inr (cutBytes, true)
    else .inl 1
  stdin := (pgmBytes, false)

/-- Only the built-in readers. -/
def io : Io := ⟨fs, false, false, false, none, none, none, none⟩

theorem io_contract (c : Cfg) : io.Contract c := by
  intro r h
  rcases h with h | h | h | h <;> cases h

theorem io_plain : io.Plain := ⟨rfl, rfl, rfl, rfl⟩

open Spec

/-- Opening a.pgm by its name. -/
def openPgm : M Opened := resdetOpenImage sys io (some (cs "a.pgm")) none true true true

/-- Opening a.y4m by its name. -/
def openY4m : M Opened := resdetOpenImage sys io (some (cs "a.y4m")) none true true true

theorem uses_pgm : Uses sys io (cs "a.pgm") (cs "pgm") openPgm :=
  .byType (ext := cs "pgm") (.suffix (cs "a") (cs "pgm") (by decide) (by decide)) (Or.inr (by decide)) rfl

theorem uses_y4m : Uses sys io (cs "a.y4m") (cs "y4m") openY4m :=
  .byType (ext := cs "y4m") (.suffix (cs "a") (cs "y4m") (by decide) (by decide)) (Or.inr (by decide)) rfl

theorem native_pgm : Native sys io (cs "a.pgm") openPgm 1 := .pgm rfl uses_pgm

theorem native_y4m : Native sys io (cs "a.y4m") openY4m 1 := .y4m rfl uses_y4m

theorem holds_pgm : io.fs.Holds (cs "a.pgm") (pgmBytes, true) := Or.inr ⟨by decide, by decide +kernel⟩

theorem holds_y4m : io.fs.Holds (cs "a.y4m") (y4mBytes, true) := Or.inr ⟨by decide, by decide +kernel⟩

theorem pgm_head : PgmHead 2 1 255 (cs "P5\n# c\n2 1 255\n") := by
  refine PgmHead.mk (s0 := cs "\n") (s1 := []) (nW := cs "2") (s2 := cs " ") (nH := cs "1") (s3 := cs " ") (nM := cs "255") (lines := [cs " c"])
    (sp := ch '\n') ?_ ?_ ?_ ?_ ?_ ?_ ?_ ?_ ?_ ?_ ?_ ?_ ?_ ?_ <;> (try simp only [Blank, Numeral, Digits, OneLine]) <;> decide

theorem pgm_file : PgmFile 2 1 255 [0, 255] pgmBytes := PgmFile.mk (tail := []) pgm_head rfl

end Verif.Demo
