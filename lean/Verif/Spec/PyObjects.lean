import Verif.Model.PyObjects
import Verif.Spec.DemoFiles
import Verif.Spec.Image

/-! # Careful use of the objects of the Python binding -/

namespace Verif.Spec

/-- Failing to make an analysis of this size loses no memory (C20). -/
def keeps (s : Sys) (w h : ℤ) : Bool := decide (s.cfg.backend = .fftw) || decide (pySize s.cfg w = pySize s.cfg h)

/-- A statement that respects what the binding does not check.  For a file this includes that the functions of the readers have a
defined outcome of their own (C22 to C34 and C59 to C67 say when). -/
def fair (s : Sys) (io : Io) (fuel : ℕ) (st : PyState) (op : PyOp) (w : World) : Bool :=
  match op with
  | .dimensions wd ht n => decide (0 ≤ wd ∧ 0 ≤ ht ∧ 0 ≤ n ∧ n ≤ 1 ∧ wd * ht * 4 ≤ s.cfg.sizeMax)
  | .readImage fn ft => (readImage s io (some fn) (pyText ft) true true w).isSome
  -- only into a buffer that holds nothing
  | .image fn ft rn buf => (pyOpen s io fn ft rn buf.isSome w).isSome &&
      match buf with
      | none => true
      | some k =>
        match st.bufs[k]? with
        | none => true
        | some b => b.data.isNone
  -- only into a buffer that was not closed before and is large enough
  | .readFrame k j =>
    match st.images[k]?, st.bufs[j]? with
    | some (some i), some b =>
      match b.pointer with
      | none => true
      | some p => b.param.isNone && decide (i.width * i.height ≤ p.data.length) &&
          match i.reader, i.ctx with
          | some r, some x => (r.read x p.data i.width i.height w).isSome
          | _, _ => true
    | _, _ => true
  | .seek k n p =>
    match st.images[k]? with
    | some (some i) =>
      match i.reader, i.ctx with
      | some r, some x => (r.seek x (pyOffset n) p i.width i.height w).isSome
      | _, _ => true
    | _ => true
  -- no negative index
  | .item j i =>
    match st.bufs[j]? with
    | none => true
    | some b =>
      match b.size with
      | none => true
      | some (wd, ht, n) =>
        match pyIndex ⟨0, wd, ht, n⟩ i with
        | none => true
        | some k => decide (0 ≤ k)
  | .analysis wd ht _ _ => keeps s wd ht
  -- only images that are large enough
  | .analyze k j =>
    match st.analyses[k]?, st.bufs[j]? with
    | some (some a), some b =>
      match b.data with
      | none => true
      | some p => decide (a.width * a.height ≤ p.data.length)
    | _, _ => true
  | .analyzeList k l =>
    match st.analyses[k]? with
    | some (some a) => decide (a.width * a.height ≤ l.length)
    | _ => true
  | .resdetect j _ _ =>
    match st.bufs[j]? with
    | none => true
    | some b =>
      match b.size with
      | none => true
      | some (wd, ht, _) => keeps s wd ht
  | .resdetectFile fn ft m d => decide (s.cfg.backend = .fftw) &&
      match pyParameters s.cfg d w with
      | some (.ok q, w1) => (resdetectFile s io fuel (some fn) (pyText ft) .all (pyMethod m) (q.map Prod.snd) w1).isSome
      | _ => true
  | _ => true

/-- All statements of a program are fair when their turn comes. -/
def fairly (s : Sys) (io : Io) (fuel : ℕ) : PyState → List PyOp → World → Bool
  | _, [], _ => true
  | st, op :: ops, w => fair s io fuel st op w &&
      match pyStep s io fuel st op w with
      | none => true
      | some ((_, st'), w') => fairly s io fuel st' ops w'

/-- The blocks the objects keep. -/
def PyState.held (st : PyState) : List ℕ :=
  st.bufs.flatMap (fun b => (b.data.map Buf.id).toList) ++
    st.images.flatMap (fun i => match i with
      | none => []
      | some i => i.block :: (match i.ctx with
        | none => []
        | some x => x.blocks)) ++
    st.analyses.flatMap (fun a => match a with
      | none => []
      | some a => owned a)

/-- Closing or destroying an object, which is also what its finaliser does. -/
def closes : PyOp → Bool
  | .closeImage _ => true
  | .closeBuffer _ => true
  | .destroy _ => true
  | _ => false

/-- All objects are closed, in any order, each at least once. -/
def ClosesAll (st : PyState) (ops : List PyOp) : Prop :=
  (∀ op ∈ ops, closes op = true) ∧ (∀ j < st.bufs.length, PyOp.closeBuffer j ∈ ops) ∧ (∀ k < st.images.length, PyOp.closeImage k ∈ ops) ∧
    ∀ k < st.analyses.length, PyOp.destroy k ∈ ops

end Verif.Spec
