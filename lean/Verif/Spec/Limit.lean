import Verif.Spec.Wrappers

/-!
# The same build with another size limit

`configure --pixel-max` sets `PIXEL_MAX`, which also chooses the types `rdint_index` and `rdint_storage`
(resdet_internal.h:32-44).
-/

namespace Verif.Spec

/-- The system `s` built with `PIXEL_MAX` set to `P`, and with types that hold numbers up to `I` and `S` for `rdint_index` and
`rdint_storage`. -/
def relimit (s : Sys) (P I S : ℕ) : Sys := ⟨{ s.cfg with pixelMax := P, idxMax := I, storMax := S }, s.env⟩

/-- The default build where pointers, `size_t`, `int` and `long` have 32 bits, such as WebAssembly; `sizeof(RDResolution)` is 8 and
`sizeof(struct kiss_fftr_state)` 12. -/
def ilp32 (b : Backend) : Cfg where
  sizeMax := 2 ^ 32 - 1
  intMax := 2 ^ 31 - 1
  longMax := 2 ^ 31 - 1
  pixelMax := 2 ^ 32 - 1
  idxMax := 2 ^ 32 - 1
  storMax := 2 ^ 32 - 1
  defaultRange := 12
  coeff := binary32
  inter := binary64
  szCoeff := 4
  szInter := 8
  szRes := 8
  szKiss := 4
  szFft := 272
  szFftr := 12
  kiss := binary32
  backend := b
  littleEndian := true
  charSigned := true

end Verif.Spec

namespace Verif.Demo

open Spec

/-- WebAssembly with FFTW. -/
def wasm : Sys := ⟨ilp32 .fftw, env⟩

/-- Conversion of numbers to 32 bits: the fraction is dropped, and the rest taken modulo `2 ^ 32`. -/
def conv32 : JsConv where
  size := fun x => match x with
    | .fin _ q => ((q.num / q.den) % 2 ^ 32).toNat
    | _ => 0
  float := binary32.conv
  byte := fun x => match x with
    | .fin _ q => (q.num / q.den).toNat
    | _ => 0

theorem conv32_size (x : Fl) : conv32.size x ≤ 2 ^ 32 - 1 := by
  cases x with
  | fin s q =>
    simp only [conv32]
    omega
  | inf s => exact Nat.zero_le _
  | nan s => exact Nat.zero_le _

theorem ilp32_wf (b : Backend) : (ilp32 b).WF where
  pixel_pos := by simp [ilp32]
  pixel_le := by simp [ilp32]
  pixel_idx := by simp [ilp32]
  pixel_stor := by simp [ilp32]
  range_pos := by simp [ilp32]
  range_le := by simp [ilp32]
  coeff_wf := by constructor <;> simp [ilp32, binary32]
  inter_wf := by constructor <;> simp [ilp32, binary64]
  szCoeff_two := by simp [ilp32]
  szInter_pos := by simp [ilp32]
  szRes_pos := by simp [ilp32]
  szKiss_pos := by simp [ilp32]
  int_pos := by simp [ilp32]
  int_long := by simp [ilp32]

/-- Where everything has 32 bits, a limit of 200 million pixels leaves room for all byte counts. -/
theorem ilp32_build (b : Backend) (e : Env) {P I S : ℕ} (h0 : 0 < P) (hP : P ≤ 200000000) (hI : P ≤ I) (hS : P ≤ S) :
    Build (relimit ⟨ilp32 b, e⟩ P I S) where
  wf :=
    { pixel_pos := h0
      pixel_le := le_trans hP (by simp [relimit, ilp32])
      pixel_idx := hI
      pixel_stor := hS
      range_pos := (ilp32_wf b).range_pos
      range_le := (ilp32_wf b).range_le
      coeff_wf := (ilp32_wf b).coeff_wf
      inter_wf := (ilp32_wf b).inter_wf
      szCoeff_two := (ilp32_wf b).szCoeff_two
      szInter_pos := (ilp32_wf b).szInter_pos
      szRes_pos := (ilp32_wf b).szRes_pos
      szKiss_pos := (ilp32_wf b).szKiss_pos
      int_pos := (ilp32_wf b).int_pos
      int_long := (ilp32_wf b).int_long }
  kiss := by
    intro _
    refine ⟨by norm_num [relimit, ilp32], ?_, ?_⟩
    · intro n _ h1
      have h1 : n ≤ P := h1
      show 2 * 4 * (n + 1) ≤ 4294967295
      omega
    · intro n _ h1
      have h1 : n ≤ P := h1
      show 12 + (272 + 2 * 4 * (n - 1)) + 2 * 4 * (n * 3 / 2) ≤ 4294967295
      omega
  results := by
    intro n _ h1
    have h1 : n ≤ P := h1
    show (n + 1) * 8 ≤ 4294967295
    omega

end Verif.Demo
