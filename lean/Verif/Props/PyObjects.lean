import Verif.Proofs.PyObjects
import Verif.Spec.DemoImage

/-! # Programs that use the objects of the Python binding (C73) -/

namespace Verif.Props

open Spec

variable {s : Sys} {io : Io} {fuel : ℕ} {w : World}

/-- **C73** A program that uses buffers, images and analyses carefully never breaks memory, whichever allocations fail and whichever
exceptions are raised and caught: every statement has a defined outcome, the only blocks on the heap that were not there before are those
the objects keep, and closing all objects, in any order and as often as one likes, leaves the heap and the open files as they were.
What is missing: the binding does not enforce the care (C73_closed_fails, C73_reopen_fails, C73_small_fails). -/
theorem C73_programs_partial (hs : Build s) (hio : io.Contract s.cfg) (hw : w.WF) {ops : List PyOp} (hf : fairly s io fuel {} ops w = true) :
    ∃ obs st w1, pyRun s io fuel {} ops w = some ((obs, st), w1) ∧ (∀ b, b ∈ w1.live ↔ b ∈ w.live ∨ b ∈ PyState.held st) ∧
      ∀ fin, ClosesAll st fin → ∃ obs' st' w2, pyRun s io fuel st fin w1 = some ((obs', st'), w2) ∧ Unchanged w w2 := by
  obtain ⟨obs, st, w1, e1, h1⟩ := runs hio hs ops (Holds.init hw) hf
  refine ⟨obs, st, w1, e1, h1.held, ?_⟩
  intro fin hc
  obtain ⟨obs', st', w2, e2, h2, h3⟩ := runs_closing (fuel := fuel) hio hs fin h1 hc.1
  refine ⟨obs', st', w2, e2, ?_, ?_⟩
  · intro b
    rw [h2.own.live b, (h3.nothing hc).1]
    simp
  · intro f
    rw [h2.own.files f, (h3.nothing hc).2]
    simp

/-- Reading two frames of a video into a buffer, analysing them and trying to read a third one, then from the closed image. -/
def pyDemo : List PyOp := [.buffer, .image (cs "a.y4m") none none (some 0), .analysis 2 1 none {}, .readFrame 0 0, .analyze 0 0, .readFrame 0 0,
  .analyze 0 0, .results 0, .item 0 (.tuple [0, 1]), .readFrame 0 0, .seek 0 1 false, .closeImage 0, .readFrame 0 0]

example : fairly Demo.sys Demo.io 10 {} pyDemo Demo.w0 = true ∧ Demo.io.Contract Demo.sys.cfg ∧
    (pyRun Demo.sys Demo.io 10 {} pyDemo Demo.w0).map (fun r => r.1.1) = some [.ok .unit, .ok .unit, .ok .unit, .ok (.bool true), .ok .unit,
      .ok (.bool true), .ok .unit, .ok (.lists [⟨2, .fin true (-1)⟩] [⟨1, .fin true (-1)⟩]), .ok (.float (.fin false 0)), .ok (.bool false),
      .ok (.bool false), .ok .unit, .raised (some RDEPARAM)] :=
  ⟨by decide +kernel, Demo.io_contract _, by decide +kernel⟩

/-- **C73** Reading a frame into a buffer that was closed writes to freed memory, although closing it is what `with` does: `close` makes
`data` NULL, but the pointer that is passed to the library stays as it was. -/
theorem C73_closed_fails : ∃ (s : Sys) (io : Io) (w : World) (ops : List PyOp) (k j : ℕ), Build s ∧ io.Contract s.cfg ∧ w.WF ∧
    fairly s io 10 {} (ops ++ [.closeBuffer j]) w = true ∧ (pyRun s io 10 {} (ops ++ [.closeBuffer j]) w).isSome ∧
    pyRun s io 10 {} (ops ++ [.closeBuffer j, .readFrame k j]) w = none :=
  ⟨Demo.sys, Demo.io, Demo.w0, [.buffer, .image (cs "a.y4m") none none (some 0), .readFrame 0 0], 0, 0, Demo.sys_build, Demo.io_contract _, Demo.w0_wf,
    by decide +kernel, by decide +kernel, by decide +kernel⟩

/-- **C73** Opening a second file with the same buffer loses the samples of the first one: they are still allocated when all objects are
closed. -/
theorem C73_reopen_fails : ∃ (s : Sys) (io : Io) (w : World) (ops fin : List PyOp), Build s ∧ io.Contract s.cfg ∧ w.WF ∧
    ∃ obs st w1 obs' st' w2, pyRun s io 10 {} ops w = some ((obs, st), w1) ∧ (∀ o ∈ obs, o = .ok .unit) ∧ ClosesAll st fin ∧
      pyRun s io 10 st fin w1 = some ((obs', st'), w2) ∧ ¬ Unchanged w w2 := by
  let ops : List PyOp := [.buffer, .image (cs "a.pgm") none none (some 0), .image (cs "a.pgm") none none (some 0)]
  let fin : List PyOp := [.closeBuffer 0, .closeImage 0, .closeImage 1]
  refine ⟨Demo.sys, Demo.io, Demo.w0, ops, fin, Demo.sys_build, Demo.io_contract _, Demo.w0_wf, ?_⟩
  have h : (match pyRun Demo.sys Demo.io 10 {} ops Demo.w0 with
      | none => false
      | some ((obs, st), w1) => decide (obs = [.ok .unit, .ok .unit, .ok .unit]) && decide (st.bufs.length = 1) && decide (st.images.length = 2) &&
          decide (st.analyses.length = 0) &&
          match pyRun Demo.sys Demo.io 10 st fin w1 with
          | none => false
          | some (_, w2) => decide (3 ∈ w2.live)) = true := by decide +kernel
  split at h
  · cases h
  · rename_i obs st w1 e1
    simp only [Bool.and_eq_true, decide_eq_true_eq] at h
    obtain ⟨⟨⟨⟨h1, h2⟩, h3⟩, h4⟩, h5⟩ := h
    split at h5
    · cases h5
    · rename_i r w2 e2
      refine ⟨obs, st, w1, r.1, r.2, w2, e1, by simp [h1], ⟨by decide, ?_, ?_, ?_⟩, e2, ?_⟩
      · intro j hj
        obtain rfl : j = 0 := by omega
        simp [fin]
      · intro j hj
        obtain rfl | rfl : j = 0 ∨ j = 1 := by omega
        · simp [fin]
        · simp [fin]
      · intro j hj; omega
      · intro hu
        have := (hu.1 3).mp (by simpa using h5)
        exact absurd this (by decide)

/-- **C73** The size of a buffer is not compared with the size of the image: a frame is written past the end of a smaller one. -/
theorem C73_small_fails : ∃ (s : Sys) (io : Io) (w : World) (ops : List PyOp) (k j : ℕ), Build s ∧ io.Contract s.cfg ∧ w.WF ∧
    fairly s io 10 {} ops w = true ∧ (pyRun s io 10 {} ops w).isSome ∧ pyRun s io 10 {} (ops ++ [.readFrame k j]) w = none :=
  ⟨Demo.sys, Demo.io, Demo.w0, [.dimensions 1 1 1, .image (cs "a.y4m") none none none], 0, 0, Demo.sys_build, Demo.io_contract _, Demo.w0_wf,
    by decide +kernel, by decide +kernel, by decide +kernel⟩

/-- **C73** A buffer made for several images has memory for one only, but an index is compared with the number of images. -/
theorem C73_images_fails : ∃ (s : Sys) (io : Io) (w : World) (i : PyIndex), Build s ∧ io.Contract s.cfg ∧ w.WF ∧
    (pyRun s io 10 {} [.dimensions 2 2 3] w).isSome ∧ pyRun s io 10 {} [.dimensions 2 2 3, .item 0 i] w = none :=
  ⟨Demo.sys, Demo.io, Demo.w0, .tuple [1, 0, 0], Demo.sys_build, Demo.io_contract _, Demo.w0_wf, by decide +kernel, by decide +kernel⟩

end Verif.Props
