import Verif.Model.CliOutput
import Verif.Spec.Demo
import Verif.Model.JsObjects
import Verif.Model.Getopt
import Verif.Model.CliText

/-!
# The files of the project's tests

The bytes of the small files in test/files, and a file system that holds them.  Nothing else in the development uses this directory: the examples here
replay the project's own tests on the model, to check the model and not the properties.
-/

namespace Verif.Tests

/-- test/files/checkerboard.pfm and test/files/checkerboard -/
def pfm : List UInt8 :=
  cs "Pf\n2 2\n1.0\n" ++ [0, 0, 0, 0, 63, 128, 0, 0, 63, 128, 0, 0, 0, 0, 0, 0] ++ cs "Pf\n2 2\n1.0\n" ++ [63, 128, 0, 0, 0, 0, 0, 0, 0, 0, 0, 0, 63, 128, 0, 0]

/-- test/files/checkerboard.pgm -/
def pgm : List UInt8 :=
  cs "P5\n2 2\n255\n" ++ [255, 0, 0, 255]

/-- test/files/checkerboard.y4m -/
def y4m : List UInt8 :=
  cs "YUV4MPEG2 W2 H2 F100:1 Ip A0:0 Cmono XCOLORRANGE=FULL\nFRAME\n" ++ [255, 0, 0, 255] ++ cs "FRAME\n" ++ [0, 255, 255, 0]

/-- test/files/checkerboard_16_bit.y4m -/
def y4m16 : List UInt8 :=
  cs "YUV4MPEG2 W2 H2 F100:1 Ip A0:0 Cmono16 XCOLORRANGE=FULL\nFRAME\n" ++ [255, 255, 0, 0, 0, 0, 255, 255] ++ cs "FRAME\n" ++ [0, 0, 255, 255, 255, 255, 0, 0]

/-- test/files/corrupt_header.pfm -/
def corruptPfm : List UInt8 :=
  cs "Pf\n2 2\n\n" ++ [0, 0, 0, 0, 63, 128, 0, 0, 63, 128, 0, 0, 0, 0, 0, 0] ++ cs "Pf\n2 2\n1.0\n" ++ [63, 128, 0, 0, 0, 0, 0, 0, 0, 0, 0, 0, 63, 128, 0, 0]

/-- test/files/corrupt_header.pgm -/
def corruptPgm : List UInt8 :=
  cs "P5\n2 \n" ++ [255, 0, 0, 255]

/-- test/files/corrupt_header.y4m -/
def corruptY4m : List UInt8 :=
  cs "YUV4MPEG2 W2 H F100:1 Ip A0:0 Cmono XCOLORRANGE=FULL\nFRAME\n" ++ [255, 0, 0, 255] ++ cs "FRAME\n" ++ [0, 255, 255, 0]

/-- test/files/partial_data.pfm -/
def partialPfm : List UInt8 :=
  cs "Pf\n2 2\n1.0\n" ++ [0, 0, 0, 0, 63, 128, 0, 0, 63, 128, 0, 0, 0]

/-- test/files/partial_data.pgm -/
def partialPgm : List UInt8 :=
  cs "P5\n2 2\n255\n" ++ [255, 0]

/-- test/files/partial_data.y4m -/
def partialY4m : List UInt8 :=
  cs "YUV4MPEG2 W2 H2 F100:1 Ip A0:0 Cmono XCOLORRANGE=FULL\nFRAME\n" ++ [255, 0]

/-- test/files/with_comment.pfm -/
def commentPfm : List UInt8 :=
  cs "Pf\n#comment\n2 2\n1.0\n" ++ [0, 0, 0, 0, 63, 128, 0, 0, 63, 128, 0, 0, 0, 0, 0, 0] ++ cs "Pf\n2 2\n1.0\n" ++ [63, 128, 0, 0, 0, 0, 0, 0, 0, 0, 0, 0, 63, 128, 0, 0]

/-- test/files/with_comment.pgm -/
def commentPgm : List UInt8 :=
  cs "P5\n#comment\n2 2\n255\n" ++ [255, 0, 0, 255]

/-- The names relative to test/files, and errno 2 for any other. -/
def fs : Fs where
  fopen name :=
    if name = cs "checkerboard" then .inr (pfm, true)
    else if name = cs "checkerboard.pfm" then .inr (pfm, true)
    else if name = cs "checkerboard.pgm" then .inr (pgm, true)
    else if name = cs "checkerboard.y4m" then .inr (y4m, true)
    else if name = cs "checkerboard_16_bit.y4m" then .inr (y4m16, true)
    else if name = cs "corrupt_header.pfm" then .inr (corruptPfm, true)
    else if name = cs "corrupt_header.pgm" then .inr (corruptPgm, true)
    else if name = cs "corrupt_header.y4m" then .inr (corruptY4m, true)
    else if name = cs "partial_data.pfm" then .inr (partialPfm, true)
    else if name = cs "partial_data.pgm" then .inr (partialPgm, true)
    else if name = cs "partial_data.y4m" then .inr (partialY4m, true)
    else if name = cs "with_comment.pfm" then .inr (commentPfm, true)
    else if name = cs "with_comment.pgm" then .inr (commentPgm, true)
    else .inl 1
  stdin := (pfm, false)

/-- The built-in readers. -/
def io : Io := ⟨fs, false, false, false, none, none, none, none⟩

end Verif.Tests
