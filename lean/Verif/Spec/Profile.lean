import Verif.Spec.Tools
import Verif.Props.Bulk

/-! # Notions used to state the properties of profile -/

namespace Verif.Spec

open Props

/-- Detection in these frames fails even if there is memory: the size is refused, or there are no frames, or one of them is invalid. -/
def Failing (s : Sys) (W H : ℕ) (frames : List (List Fl)) : Prop := expected s W H ≠ RDEOK ∨ frames = [] ∨ frameError W H frames ≠ RDEOK

/-- The error detection in these frames ends with; memory may run out only if `F`. -/
def DetectError (s : Sys) (F : Prop) (W H : ℕ) (frames : List (List Fl)) (e : RDError) : Prop :=
  e ≠ RDEOK ∧ (e = RDENOMEM ∧ F ∨ e = expected s W H ∨ e = RDENOIMG ∧ frames = [] ∨ e = frameError W H frames)

/-- The figures of method `m` for an image: those of both dimensions together, for the lists detection in its frames returns; none if
detection fails, which may be for lack of memory only if `F`. -/
def Figure (s : Sys) (F : Prop) (known : List ℕ × List ℕ) (W H : ℕ) (frames : List (List Fl)) (m : Method) : Option (ℕ × ℕ) → Prop
  | none => F ∨ Failing s W H frames
  | some (plus, minus) => ∃ ev a l1 x1 l2 x2, Fed frames RDEOK ev ∧
      Returned s (some m) W H none ev a (some (l1 ++ [x1])) (l1.length + 1) (some (l2 ++ [x2])) (l2.length + 1) ∧
      ∃ p1 q1 p2 q2, Tallied known.1 (l1.map Res.index) p1 q1 ∧ Tallied known.2 (l2.map Res.index) p2 q2 ∧
        plus = (p1 + p2) % (s.cfg.sizeMax + 1) ∧ minus = (q1 + q2) % (s.cfg.sizeMax + 1)

/-- An entry of the dictionary: the name of a file, and the sizes known. -/
structure DictEntry where
  name : List UInt8
  widths : List ℕ
  heights : List ℕ
deriving DecidableEq, Repr

/-- The lines of a dictionary: each entry in three lines, and empty lines between entries. -/
inductive Dict : List DictEntry → List (List UInt8) → Prop where
  | nil : Dict [] []
  | blank (es : List DictEntry) (ls : List (List UInt8)) : Dict es ls → Dict es ([ch '\n'] :: ls)
  | entry (e : DictEntry) (t1 t2 : List UInt8) (es : List DictEntry) (ls : List (List UInt8)) : e.name ≠ [] → (∀ b ∈ e.name, b ≠ 0 ∧ b ≠ ch '\n') →
      SizeLine e.widths t1 → SizeLine e.heights t2 → Dict es ls →
      Dict (e :: es) ((e.name ++ [ch '\n']) :: (t1 ++ [ch '\n']) :: (t2 ++ [ch '\n']) :: ls)

/-- What there is to be read under a name: frames of some size and the error after them, or an error instead. -/
inductive Content where
  | frames (W H : ℕ) (frames : List (List Fl)) (e : RDError)
  | rejected (e : RDError)

/-- This is in the file. -/
def Contains (s : Sys) (io : Io) (name : List UInt8) : Content → Prop
  | .frames W H frames e => Yields (resdetOpenImage s io (some name) none true true true) W H frames e
  | .rejected e => e ≠ RDEOK ∧ Rejects (resdetOpenImage s io (some name) none true true true) e

/-- The error. -/
def Content.error : Content → RDError
  | .frames _ _ _ e => e
  | .rejected e => e

/-- The frames, if all can be read into one array. -/
def Content.whole (s : Sys) : Content → Option (ℕ × ℕ × List (List Fl))
  | .frames W H fs e => if e = RDEOK ∧ W * H * (fs.length + 1) ≤ s.cfg.pixelMax ∧ W * H * (fs.length + 1) * 4 ≤ s.cfg.sizeMax then some (W, H, fs) else none
  | .rejected _ => none

/-- The error of reading the file into one array; memory may run out only if `F`. -/
def Unread (s : Sys) (F : Prop) (c : Content) (e : RDError) : Prop :=
  e ≠ RDEOK ∧ (e = c.error ∨ e = RDETOOBIG ∧ c.whole s = none ∨ e = RDENOMEM ∧ F)

/-- What profile finds out about the entries, and whether it gives up: files that cannot be read are skipped, and it stops after the first
image in which a method fails.  Memory may run out only if `F`. -/
inductive Profiled (s : Sys) (F : Prop) : List (DictEntry × Content) → List (List (Option (ℕ × ℕ))) → Bool → Prop where
  | nil : Profiled s F [] [] false
  | skipped (e : DictEntry) (c : Content) (rest : List (DictEntry × Content)) (l : List (List (Option (ℕ × ℕ)))) (b : Bool) :
      c.whole s = none ∨ F → Profiled s F rest l b → Profiled s F ((e, c) :: rest) l b
  | lost (e : DictEntry) (c : Content) (rest : List (DictEntry × Content)) : F → Profiled s F ((e, c) :: rest) [] true
  | counted (e : DictEntry) (c : Content) (rest : List (DictEntry × Content)) (l : List (List (Option (ℕ × ℕ)))) (b : Bool) (W H : ℕ)
      (frames : List (List Fl)) (figs : List (Option (ℕ × ℕ))) : c.whole s = some (W, H, frames) →
      List.Forall₂ (Figure s F (e.widths, e.heights) W H frames) methods figs → none ∉ figs → Profiled s F rest l b →
      Profiled s F ((e, c) :: rest) (figs :: l) b
  | failed (e : DictEntry) (c : Content) (rest : List (DictEntry × Content)) (W H : ℕ) (frames : List (List Fl)) (figs : List (Option (ℕ × ℕ))) :
      c.whole s = some (W, H, frames) → List.Forall₂ (Figure s F (e.widths, e.heights) W H frames) methods figs → none ∈ figs →
      Profiled s F ((e, c) :: rest) [figs] true

/-- The end of a dictionary that breaks off in an entry: after the name or after the first list; or one of the lists has no digit in it,
which matters only if the file can be read. -/
inductive Torn (s : Sys) (name : List UInt8) (c : Content) : List (List UInt8) → Prop where
  | name : Torn s name c [name ++ [ch '\n']]
  | first (l : List UInt8) : Torn s name c [name ++ [ch '\n'], l]
  | bad (t1 t2 : List UInt8) (b1 b2 : UInt8) : c.whole s ≠ none → (∀ b ∈ t1, isdigit b = false) ∨ (∀ b ∈ t2, isdigit b = false) →
      Torn s name c [name ++ [ch '\n'], t1 ++ [b1], t2 ++ [b2]]

/-- The sum over all images of one of the figures of method number `k`. -/
def figureSum (images : List (List (Option (ℕ × ℕ)))) (k : ℕ) (f : ℕ × ℕ → ℕ) : ℕ :=
  (images.map (fun figs => match figs[k]? with
    | some (some x) => f x
    | _ => 0)).sum

end Verif.Spec
