import Verif.Spec.History
import Mathlib.Data.List.Sort

/-!
# Concrete systems for examples

Used only in the `example`s beside the theorems, to show that hypotheses can be met.  The "transform" of the FFTW variant
is the identity, which is allowed by `Env` and makes inputs easy to read.
-/

namespace Verif.Demo

open Spec

/-- Insertion sort with `sortres`. -/
def sorter (l : List Res) : List Res :=
  (l.attach.insertionSort (fun a b => sortres a.1 b.1 ≤ 0)).map Subtype.val

theorem sorter_perm (l : List Res) : (sorter l).Perm l := by
  unfold sorter
  refine ((List.perm_insertionSort _ _).map _).trans ?_
  rw [List.attach_map_subtype_val]

theorem sorter_sorted (l : List Res) (h : Consistent sortres l) :
    (sorter l).Pairwise (fun a b => sortres a b ≤ 0) := by
  unfold sorter
  rw [List.pairwise_map]
  have : Std.Total (fun a b : {x // x ∈ l} => sortres a.1 b.1 ≤ 0) := ⟨by
    intro a b
    have := h.anti a.1 a.2 b.1 b.2
    by_contra hc
    push Not at hc
    rw [Int.sign_eq_one_of_pos hc.1, Int.sign_eq_one_of_pos hc.2] at this
    omega⟩
  have : IsTrans {x // x ∈ l} (fun a b => sortres a.1 b.1 ≤ 0) :=
    ⟨fun a b c h1 h2 => h.trans a.1 a.2 b.1 b.2 c.1 c.2 h1 h2⟩
  exact List.pairwise_insertionSort _ _

/-- A platform whose FFTW is the identity and whose trigonometric tables are zero. -/
def env : Env where
  fftw := fun _ _ l => l
  fftw_length := fun _ _ _ => rfl
  fftwPlans := fun _ _ => true
  twiddle := fun _ _ => ⟨.fin false 0, .fin false 0⟩
  superTwiddle := fun _ _ => ⟨.fin false 0, .fin false 0⟩
  shift := fun _ _ => ⟨.fin false 0, .fin false 0⟩
  frexpJunk := fun _ => 0
  junk := .fin false 0
  seekErrno := 28
  sorter := sorter
  sorter_perm := fun l _ => sorter_perm l
  sorter_sorted := sorter_sorted

/-- The default build with FFTW on LP64. -/
def sys : Sys := ⟨lp64 .fftw, env⟩

/-- The default build with KISS FFT on LP64. -/
def sysK : Sys := ⟨lp64 .kiss, env⟩

theorem lp64_wf (b : Backend) : (lp64 b).WF where
  pixel_pos := by simp [lp64]
  pixel_le := by simp [lp64]
  pixel_idx := by simp [lp64]
  pixel_stor := by simp [lp64]
  range_pos := by simp [lp64]
  range_le := by simp [lp64]
  coeff_wf := by constructor <;> simp [lp64, binary32]
  inter_wf := by constructor <;> simp [lp64, binary64]
  szCoeff_two := by simp [lp64]
  szInter_pos := by simp [lp64]
  szRes_pos := by simp [lp64]
  szKiss_pos := by simp [lp64]
  int_pos := by simp [lp64]
  int_long := by simp [lp64]

theorem lp64_build (b : Backend) (e : Env) : Build ⟨lp64 b, e⟩ where
  wf := lp64_wf b
  kiss := by
    intro _
    refine ⟨by norm_num [lp64], ?_, ?_⟩
    · intro n h1 _
      have h1 : n ≤ 2147483647 / 3 := h1
      show 2 * 4 * (n + 1) ≤ 18446744073709551615
      omega
    · intro n h1 _
      have h1 : n ≤ 2147483647 / 3 := h1
      show 24 + (272 + 2 * 4 * (n - 1)) + 2 * 4 * (n * 3 / 2) ≤ 18446744073709551615
      omega
  results := by
    intro n h1 _
    have h1 : n ≤ 2147483647 := h1
    show (n + 1) * 16 ≤ 18446744073709551615
    omega

theorem sys_build : Build sys := lp64_build _ _

theorem sysK_build : Build sysK := lp64_build _ _

/-- Memory with nothing allocated in which every allocation succeeds. -/
def w0 : World := ⟨[], [], 0, fun _ => true⟩

theorem w0_wf : w0.WF := ⟨by simp [w0], by simp [w0], by simp [w0], by simp [w0]⟩

/-- Memory with blocks 0 to 9 in use. -/
def w1 : World := ⟨List.range 10, [], 10, fun _ => true⟩

theorem w1_wf : w1.WF := ⟨by simp [w1], by simp [w1], by simp [w1, List.nodup_range], by simp [w1]⟩

/-- Range 1, threshold 0, no filter. -/
def params : Params := ⟨1, .fin false 0, 0⟩

theorem params_valid : ValidParams? sys.cfg (some params) := by
  rintro q h; cases h
  exact ⟨by simp [params], by simp [params, sys, lp64], Or.inr ⟨false, 0, rfl, by norm_num, by norm_num⟩,
    by simp [params]⟩

theorem none_valid (c : Cfg) : ValidParams? c none := by rintro q h; cases h

theorem none_method : ValidMethod? none := by rintro q h; cases h

/-- A 4 by 2 frame. -/
def image : List Fl := [1, -1, 2, 3, -1, 1, -2, 1].map (fun q : ℚ => .fin (decide (q < 0)) q)

/-- The analysis a 4 by 2 `resdet_create_analysis` returns in `w0`. -/
def analysis : Analysis where
  block := 0
  method := ⟨"sign", .sign, binary32.deliver false (55 / 100)⟩
  width := 4
  height := 2
  nimages := 0
  params := params
  f := some ⟨1, List.replicate 8 (.fin false 0)⟩
  p := some (.fftw 2 (some 3) 4 2)
  xresult := some ⟨4, [.fin false 0, .fin false 0]⟩
  yresult := none
  xbound := some (1, 3)
  ybound := none

/-- The same after `image` was analysed. -/
def analysis1 : Analysis :=
  { analysis with nimages := 1, f := some ⟨1, image⟩, xresult := some ⟨4, [.fin false 0, .fin false (1/2)]⟩ }

theorem created : (createAnalysis sys none 4 2 (some params) w0).map Prod.fst = some (some analysis, RDEOK) := by
  decide +kernel

/-- Analyse `image`. -/
def callA : Call := ⟨.analyze (some image), w1⟩

/-- Collect both lists. -/
def callR : Call := ⟨.results .all, w1⟩

theorem stepA : step sys analysis callA = some (.analyzed RDEOK, analysis1) := by decide +kernel

/-- The lists `callR` returns. -/
def listX : List Res := [⟨2, .fin false (1/2)⟩, ⟨1, .fin false 0⟩, ⟨4, .fin true (-1)⟩]

theorem stepR : step sys analysis1 callR =
    some (.results RDEOK (some listX) 3 (some [⟨2, .fin true (-1)⟩]) 1, analysis1) := by
  decide +kernel

theorem legalA : Legal analysis callA :=
  ⟨w1_wf, by decide, show analysis.width * analysis.height ≤ image.length by decide⟩

theorem legalR : Legal analysis1 callR := ⟨w1_wf, by decide, trivial⟩

theorem reach0 : Reach sys none 4 2 (some params) [] analysis := by
  have h := created
  cases h' : createAnalysis sys none 4 2 (some params) w0 with
  | none => rw [h'] at h; cases h
  | some v =>
    obtain ⟨⟨a, e⟩, w⟩ := v
    rw [h'] at h
    cases h
    exact Reach.create w0_wf h'

theorem reach1 : Reach sys none 4 2 (some params) [(callA, .analyzed RDEOK)] analysis1 :=
  Reach.call (ev := []) reach0 legalA stepA

/-- Range 1, threshold 1/2, no filter. -/
def paramsHalf : Params := ⟨1, .fin false (1 / 2), 0⟩

theorem paramsHalf_valid : ValidParams? sys.cfg (some paramsHalf) := by
  rintro q h; cases h
  exact ⟨by simp [paramsHalf], by simp [paramsHalf, sys, lp64], Or.inr ⟨false, 1 / 2, rfl, by norm_num, by norm_num⟩,
    by simp [paramsHalf]⟩

theorem reach1_half : Reach sys none 4 2 (some paramsHalf) [(callA, .analyzed RDEOK)]
    { analysis1 with params := paramsHalf } := by
  have h : (createAnalysis sys none 4 2 (some paramsHalf) w0).map Prod.fst =
      some (some { analysis with params := paramsHalf }, RDEOK) := by decide +kernel
  cases h' : createAnalysis sys none 4 2 (some paramsHalf) w0 with
  | none => rw [h'] at h; cases h
  | some v =>
    obtain ⟨⟨a, e⟩, w⟩ := v
    rw [h'] at h
    cases h
    exact Reach.call (ev := []) (Reach.create w0_wf h')
      ⟨w1_wf, by decide, show analysis.width * analysis.height ≤ image.length by decide⟩ (by decide +kernel)

end Verif.Demo
