import Verif.Spec.Demo

/-! # A concrete platform for the bundled transform, used in a witness -/

namespace Verif.Demo

open Spec

/-- A pair of floats from two rationals. -/
def cf (r i : ℚ) : Cpx Fl := ⟨.fin (decide (r < 0)) r, .fin (decide (i < 0)) i⟩

/-- `cos` and `sin` of `-2*pi*k/7`, rounded to single precision. -/
def tw7 : List (Cpx Fl) := [cf 1 0, cf (10460423/16777216) (-3279239/4194304), cf (-14933127/67108864) (-511143/524288),
  cf (-15115749/16777216) (-7279361/16777216), cf (-15115749/16777216) (7279361/16777216),
  cf (-14933127/67108864) (511143/524288), cf (10460423/16777216) (3279239/4194304)]

/-- `cos` and `sin` of `-pi*((i+1)/7+1/2)`, rounded to single precision. -/
def stw7 : List (Cpx Fl) := [cf (-7279361/16777216) (-15115749/16777216), cf (-3279239/4194304) (-10460423/16777216),
  cf (-511143/524288) (-14933127/67108864)]

/-- `cos` and `sin` of `-pi*i/14`, rounded to single precision. -/
def sh7 : List (Cpx Fl) := [cf 1 0, cf (511143/524288) (-14933127/67108864), cf (15115749/16777216) (-7279361/16777216),
  cf (3279239/4194304) (-10460423/16777216), cf (10460423/16777216) (-3279239/4194304),
  cf (7279361/16777216) (-15115749/16777216), cf (14933127/67108864) (-511143/524288)]

/-- A platform with the correct tables for the lengths 1 and 7. -/
def env7 : Env where
  fftw := env.fftw
  fftw_length := env.fftw_length
  fftwPlans := env.fftwPlans
  twiddle := fun n k => if n = 7 then (tw7[k]?).getD (cf 0 0) else cf 1 0
  superTwiddle := fun n k => if n = 7 then (stw7[k]?).getD (cf 0 0) else cf 0 (-1)
  shift := fun n k => if n = 7 then (sh7[k]?).getD (cf 0 0) else cf 1 0
  frexpJunk := env.frexpJunk
  junk := env.junk
  seekErrno := 28
  sorter := env.sorter
  sorter_perm := env.sorter_perm
  sorter_sorted := env.sorter_sorted

/-- The default build with KISS FFT on that platform. -/
def sys7 : Sys := ⟨lp64 .kiss, env7⟩

/-- The analysis a 7 by 1 `resdet_create_analysis` returns in `w0`. -/
def an7 : Analysis :=
  match createAnalysis sys7 none 7 1 (some params) w0 with
  | some ((some a, _), _) => a
  | _ => analysis

/-- A 7 by 1 frame. -/
def im7 : List Fl := [9, 1, 5, 3, 8, 7, 2].map (fun q : ℚ => .fin false q)

/-- Memory with blocks 0 to 19 in use in which every allocation succeeds. -/
def wGood : World := ⟨List.range 20, [], 20, fun _ => true⟩

/-- Memory with blocks 0 to 19 in use in which every allocation fails. -/
def wBad : World := ⟨List.range 20, [], 20, fun _ => false⟩

/-- `an7` after `im7` was analysed in the given memory. -/
def an7' (w : World) : Analysis :=
  match step sys7 an7 ⟨.analyze (some im7), w⟩ with
  | some (_, a) => a
  | _ => analysis

/-- A 4 by 1 frame that is a 2 by 1 frame with its columns doubled. -/
def im4 : List Fl := [1, 1, 0, 0].map (fun q : ℚ => .fin false q)

/-- A platform whose FFTW has large errors: the coefficients of `im4` are 8, 5.22..., 0, -2.16... -/
def env4 : Env where
  fftw := fun _ _ l => if l = im4 then [8, 5, 0, -2].map (fun q : ℚ => .fin (decide (q < 0)) q) else l
  fftw_length := by
    intro _ _ l
    split
    · rename_i h; rw [h]; rfl
    · rfl
  fftwPlans := env.fftwPlans
  twiddle := env.twiddle
  superTwiddle := env.superTwiddle
  shift := env.shift
  frexpJunk := env.frexpJunk
  junk := env.junk
  seekErrno := 28
  sorter := env.sorter
  sorter_perm := env.sorter_perm
  sorter_sorted := env.sorter_sorted

/-- The default build with that FFTW. -/
def sys4 : Sys := ⟨lp64 .fftw, env4⟩

end Verif.Demo
