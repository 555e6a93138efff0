import Verif.Spec.Accuracy
import Verif.Spec.DemoTransform

/-! # A platform whose tables are accurate for every length -/

namespace Verif.Demo

open Spec

/-- A real number rounded to a multiple of `2^-25`. -/
noncomputable def near (x : ℝ) : Fl := .fin (decide ((round (x * 2 ^ 25) : ℚ) / 2 ^ 25 < 0)) ((round (x * 2 ^ 25) : ℚ) / 2 ^ 25)

/-- The default build with KISS FFT and such tables. -/
noncomputable def sysN : Sys := ⟨lp64 .kiss, { env7 with
  twiddle := fun n k => ⟨near (exact.twiddle n k).r, near (exact.twiddle n k).i⟩
  superTwiddle := fun n k => ⟨near (exact.superTwiddle n k).r, near (exact.superTwiddle n k).i⟩
  shift := fun n k => ⟨near (exact.shift n k).r, near (exact.shift n k).i⟩ }⟩

theorem near_tabulated (x : ℝ) : Tabulated (2 ^ (-24 : ℤ)) (near x) x := by
  refine ⟨_, _, rfl, fun _ => rfl, ?_⟩
  have h := abs_sub_round (x * 2 ^ 25)
  push_cast
  have e : (round (x * 2 ^ 25) : ℝ) / 2 ^ 25 - x = -(x * 2 ^ 25 - round (x * 2 ^ 25)) / 2 ^ 25 := by field_simp; ring
  rw [e, abs_div, abs_neg, abs_of_pos (by positivity : (0 : ℝ) < 2 ^ 25)]
  calc |x * 2 ^ 25 - round (x * 2 ^ 25)| / 2 ^ 25 ≤ 1 / 2 / 2 ^ 25 := by gcongr
    _ ≤ 2 ^ (-24 : ℤ) := by norm_num

theorem sysN_accurate : Accurate sysN (2 ^ (-24 : ℤ)) := by
  refine ⟨by constructor <;> decide +kernel, by decide +kernel, ?_, fun n k _ => ⟨near_tabulated _, near_tabulated _⟩,
    fun n k _ => ⟨near_tabulated _, near_tabulated _⟩, fun n k _ => ⟨near_tabulated _, near_tabulated _⟩⟩
  have : pow2 (-(sysN.cfg.kiss.p : ℤ)) = 1 / 2 ^ 24 := by
    show pow2 (-((lp64 .kiss).kiss.p : ℤ)) = _
    decide +kernel
  rw [this]
  norm_num

end Verif.Demo
