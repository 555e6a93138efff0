import Verif.Proofs.PyAmply
import Verif.Props.AnyMethod
import Verif.Spec.DemoImage

/-! # What programs that use the objects of the Python binding get (C90) -/

namespace Verif.Props

open Spec

variable {s : Sys} {io : Io} {film : Films} {fuel : ℕ} {w : World} {m : Option Method} {p : Option Params} {W H : ℕ} {frames : List (List Fl)}
  {o o' : Raises PyVal}

theorem Agrees.init : Agrees s {} {} := ⟨.nil, .nil, .nil⟩

/-- **C90** In a careful program for which memory suffices, every statement returns or raises what is due by the statements before it on the objects that it
uses, whatever else the program does with other objects: an image of a file gives the frames of the file in order, a buffer gives the samples that were
read to it, an analysis accepts the frames of its size that are finite, and gives the results for the frames that it accepted. -/
theorem C90_program (hs : Build s) (hio : io.Contract s.cfg) (hfilm : film.Shown s io) (hw : w.WF) {ops : List PyOp} (hf : fairly s io fuel {} ops w = true)
    (hmem : Amply s io fuel {} ops w) :
    ∃ obs st w', pyRun s io fuel {} ops w = some ((obs, st), w') ∧ fulfils s film fuel {} ops obs :=
  right_run hio hs hfilm ops (Holds.init hw) Agrees.init hf hmem

/-- **C90** There is memory for all statements if there is at the start, and all statements but the last one are of those that leave as much as
there was. -/
theorem C90_memory (hs : Build s) (hio : io.Contract s.cfg) (hfilm : film.Shown s io) (hw : w.WF) {ops : List PyOp} (hf : fairly s io fuel {} ops w = true)
    (hpl : Plenty w) {obs : List (Raises PyVal)} {st : PyState} {w' : World} (hrun : pyRun s io fuel {} ops w = some ((obs, st), w'))
    (hst : steadily s film {} ops obs = true) : fulfils s film fuel {} ops obs := by
  obtain ⟨obs', st', w2, e, h⟩ := C90_program hs hio hfilm hw hf (amply_of hio hs hfilm ops (Holds.init hw) Agrees.init hf hpl hrun hst)
  rw [hrun] at e
  cases e
  exact h

/-- The one file whose frames are known. -/
def Demo.films : Films := fun fn ft rn => if fn = cs "a.y4m" ∧ ft = none ∧ rn = none then some ⟨2, 1, lumas 8 [[0, 255], [255, 0]]⟩ else none

theorem Demo.films_shown : Demo.films.Shown Demo.sys Demo.io := by
  intro fn ft rn f h
  unfold Demo.films at h
  split_ifs at h with h1
  obtain ⟨rfl, rfl, rfl⟩ := h1
  cases h
  exact Demo.movie_presents

/-- Two images of one file, read in turns; one frame of the first one is analysed, together with numbers of which one is not finite, and the results are asked
for. -/
def pyWeave : List PyOp := [.buffer, .image (cs "a.y4m") none none (some 0), .buffer, .image (cs "a.y4m") none none (some 1), .readFrame 1 1, .readFrame 0 0,
  .readFrame 1 1, .analysis 2 1 none {}, .results 0, .analyze 0 0, .item 1 (.tuple [0, 0]), .analyzeList 0 [.fin false 1, .inf false],
  .analyzeList 0 [.fin false 1, .fin false 0], .results 0, .readFrame 1 1, .resdetectFile (cs "a.y4m") none none {}]

def pyWeft : List (Raises PyVal) := [.ok .unit, .ok .unit, .ok .unit, .ok .unit, .ok (.bool true), .ok (.bool true), .ok (.bool true), .ok .unit,
  .raised (some RDENOIMG), .ok .unit, .ok (.float (.fin false 1)), .raised (some RDEINVAL), .ok .unit, .ok (.lists [⟨2, .fin true (-1)⟩] [⟨1, .fin true (-1)⟩]),
  .ok (.bool false), .ok (.lists [⟨2, .fin true (-1)⟩] [⟨1, .fin true (-1)⟩])]

example : fairly Demo.sys Demo.io 10 {} pyWeave Demo.w0 = true ∧ Demo.films.Shown Demo.sys Demo.io ∧ Demo.io.Contract Demo.sys.cfg ∧ Plenty Demo.w0 ∧
    (pyRun Demo.sys Demo.io 10 {} pyWeave Demo.w0).map (fun r => r.1.1) = some pyWeft ∧ steadily Demo.sys Demo.films {} pyWeave pyWeft = true ∧
    (learned Demo.sys Demo.films {} pyWeave pyWeft).analyses.map (fun u => u.map (fun u => u.frames)) =
      [some [[.fin false 0, .fin false 1], [.fin false 1, .fin false 0]]] :=
  ⟨by decide +kernel, Demo.films_shown, Demo.io_contract _, fun _ => rfl, by decide +kernel, by decide +kernel, by decide +kernel⟩

/-- **C90** The frames that were accepted are all that results depend on: two analyses of the same frames, in the same program or in different ones,
give the same, and the same as `resdetect` and `resdetect_file` give for them. -/
theorem C90_same (hs : Build s) (hm : ValidMethod? m) (hp : ValidParams? s.cfg p) (h : Answers s m p W H frames o) :
    (Answers s m p W H frames o' → o = o') ∧
    (expected s W H = RDEOK → frameError W H frames = RDEOK → Detects s m p W H frames o' → o = o') :=
  ⟨fun h' => h.unique hs hm hp h', fun h1 h2 h' => (Detects.done h1 h2 h).unique hs hm hp h'⟩

example : Answers Demo.sys none none 2 1 [] (.raised (some RDENOIMG)) ∧ ValidMethod? none ∧ ValidParams? Demo.sys.cfg none ∧ expected Demo.sys 2 1 = RDEOK ∧
    frameError 2 1 [] = RDEOK :=
  ⟨.empty rfl, (fun _ h => by cases h), (fun _ h => by cases h), by decide +kernel, by unfold frameError; rw [if_pos (by simp)]⟩

/-- **C90** The results that programs get, against exact arithmetic: like those of the library (C89). -/
theorem C90_exact {u B e A : ℝ} {pics : List (ℕ → ℕ → ℝ)} (h : Suits s m p W H u B e A) (hne : frames ≠ []) (hpics : List.Forall₂ (Depicts B e W H) frames pics)
    (hexact : Exact s.cfg frames.length) (hlen : frames.length ≤ s.cfg.sizeMax) :
    (Answers s m p W H frames o → ∃ l1 l2, o = .ok (.lists l1 l2) ∧ WidthsBy s m p W H (totalError u B e W H) A pics l1 ∧
      HeightsBy s m p W H (totalError u B e W H) A pics l2) ∧
    (expected s W H = RDEOK → Detects s m p W H frames o → ∃ l1 l2, o = .ok (.lists l1 l2) ∧ WidthsBy s m p W H (totalError u B e W H) A pics l1 ∧
      HeightsBy s m p W H (totalError u B e W H) A pics l2) := by
  have key : Answers s m p W H frames o → ∃ l1 l2, o = .ok (.lists l1 l2) ∧ WidthsBy s m p W H (totalError u B e W H) A pics l1 ∧
      HeightsBy s m p W H (totalError u B e W H) A pics l2 := by
    intro ha
    cases ha with
    | empty h1 => exact absurd h1 hne
    | lists _ g1 g2 g3 g4 =>
      obtain ⟨E1, E2⟩ := C89_analysis h g1 g2 g3 g4 hpics hexact hlen
      exact ⟨_, _, rfl, E1 _ rfl, E2 _ rfl⟩
  refine ⟨key, fun hsize hd => ?_⟩
  cases hd with
  | size h1 => exact absurd hsize h1
  | frame _ h2 => exact absurd (depicts_finite (expected_pos hsize).1 hpics) h2
  | done _ _ ha => exact key ha

/-- **C90** A type or a reader with an empty name is like none. -/
theorem C90_text {st : PyState} {fn : List UInt8} {ft rn : Option (List UInt8)} {buf : Option ℕ} {mn : Option String} {d : PyDict} :
    pyStep s io fuel st (.image fn (some []) rn buf) = pyStep s io fuel st (.image fn none rn buf) ∧
    pyStep s io fuel st (.image fn ft (some []) buf) = pyStep s io fuel st (.image fn ft none buf) ∧
    pyStep s io fuel st (.readImage fn (some [])) = pyStep s io fuel st (.readImage fn none) ∧
    pyStep s io fuel st (.resdetectFile fn (some []) mn d) = pyStep s io fuel st (.resdetectFile fn none mn d) :=
  ⟨rfl, rfl, rfl, rfl⟩

/-- It would not be like none for the library. -/
example : (pyRun Demo.sys Demo.io 10 {} [.buffer, .image (cs "a.y4m") (some []) (some []) (some 0)] Demo.w0).map (fun r => r.1.1) = some [.ok .unit, .ok .unit] ∧
    (resdetOpenImage Demo.sys Demo.io (some (cs "a.y4m")) (some []) true true true Demo.w0).map (fun r => r.1.error) = some RDEUNSUPP := by
  decide +kernel

/-- **C90** Offsets for `seek_frame` are passed on as they are; those that do not fit 64 bits are taken modulo 2^64, without an exception. -/
theorem C90_seek {st : PyState} {k : ℕ} {n : ℤ} {n' : ℕ} {pr : Bool} (hn : n' < 2 ^ 64) (hc : ∃ q : ℤ, n = n' + q * 2 ^ 64) {i : Option RDImage}
    (hk : st.images[k]? = some i) {r : Bool} {err : RDError} {calls : List ℕ} {i' : Option RDImage} {w' : World}
    (hrun : seekFrame i n' pr w = some ((r, err, calls, i'), w')) :
    pyStep s io fuel st (.seek k n pr) w = some ((raising err (.bool r), { st with images := st.images.set k i' }), w') := by
  have e : pyOffset n = n' := by
    obtain ⟨q, rfl⟩ := hc
    unfold pyOffset
    rw [Int.add_mul_emod_self_right, Int.emod_eq_of_lt (by omega) (by exact_mod_cast hn)]
    rfl
  show pySeek st k n pr w = _
  unfold pySeek
  rw [hk, e]
  simp only
  rw [M.bind_some hrun]
  unfold raising
  by_cases h : err = RDEOK
  · subst h; rfl
  · simp only [if_neg h]
    rw [if_pos (by exact h)]
    rfl

/-- Going to frame -1 is going to a frame that is not there, and to frame 2^64 + 1 is going to frame 1. -/
example : (pyRun Demo.sys Demo.io 10 {} [.buffer, .image (cs "a.y4m") none none (some 0), .seek 0 (2 ^ 64 + 1) true, .readFrame 0 0, .readFrame 0 0, .seek 0 (-1) true]
    Demo.w0).map (fun r => r.1.1) = some [.ok .unit, .ok .unit, .ok (.bool true), .ok (.bool true), .ok (.bool false), .ok (.bool false)] := by decide +kernel

/-- **C90** `resdetect` of a list of numbers analyses the numbers rounded to `float`. -/
theorem C90_list (hs : Build s) (hm : ValidMethod? m) {d : PyDict} (hd : Stands s.cfg d p) {n : ℕ} {image : List Fl} (hn : n ≠ 0) (hsize : moderate s W H)
    (hn' : n ≤ s.cfg.sizeMax) (himg : image.length ≤ s.cfg.sizeMax) (hlen : n * (W * H) ≤ image.length) (hw : w.WF) (hpl : Plenty w) :
    ∃ r w', pyResdetectList s image n W H m d w = some (r, w') ∧
      Detects s m p W H (framesOf (image.map binary32.conv) W H n) (r.to (fun r => .lists r.1 r.2)) ∧ Unchanged w w' := by
  obtain ⟨_, _, m3, m4, _⟩ := id hsize
  obtain ⟨r, w', k1, k2, k3⟩ := pyResdetect_outcome hs hm hd.1 hn hn' (image := image.map binary32.conv) (W := W) (H := H) (by exact_mod_cast m3) (by exact_mod_cast m4)
    (by simpa using himg) (by simpa using hlen) hw hpl (moderate_huge hsize)
  refine ⟨r, w', k1, ?_, k3⟩
  rw [stands_eff hs hd]
  exact detects_of_outcome k2

example : Build Demo.sys ∧ Stands Demo.sys.cfg {} none ∧ moderate Demo.sys 2 1 ∧ Plenty Demo.w0 ∧
    (pyResdetectList Demo.sys [.fin false 1, .fin false 0] 1 2 1 none {} Demo.w0).map (fun r => r.1) = some (.ok ([⟨2, .fin true (-1)⟩], [⟨1, .fin true (-1)⟩])) :=
  ⟨Demo.sys_build, ⟨rfl, by constructor <;> (intro _ h; cases h), Or.inl ⟨rfl, rfl⟩⟩, by decide +kernel, fun _ => rfl, by decide +kernel⟩

end Verif.Props
