import Verif.Spec.Bindings
import Verif.Spec.Presents
import Verif.Spec.PyObjects
import Verif.Spec.Sequential

/-!
# What the statements of a Python program return

What can be known of the objects of a program from its statements, and what the statements have to return because of that.
-/

namespace Verif.Spec

/-- A file as pictures: the size, and the frames that are left. -/
structure Film where
  width : ℕ
  height : ℕ
  frames : List (List Fl)

/-- Opening a file from Python: with the reader named, else as the type named, else by its name.  An empty name is like none. -/
def pyOpening (s : Sys) (io : Io) (fn : List UInt8) (type reader : Option (List UInt8)) : M Opened :=
  match reader, type with
  | some (b :: r), _ => resdetOpenImageWithReader s io (some fn) (some (b :: r)) true true true
  | _, some (b :: t) => resdetOpenImage s io (some fn) (some (b :: t)) true true true
  | _, _ => resdetOpenImage s io (some fn) none true true true

/-- The pictures in some of the files, by the filename, the type and the reader given. -/
def Films : Type := List UInt8 → Option (List UInt8) → Option (List UInt8) → Option Film

/-- The files are in one of the formats modelled and show these pictures. -/
def Films.Shown (s : Sys) (io : Io) (film : Films) : Prop :=
  ∀ fn ft rn f, film fn ft rn = some f → Presents s io (pyOpening s io fn ft rn) 0 f.width f.height f.frames

/-- What is known of a buffer: nothing; that it holds nothing and was never closed; or that it is of this size, for one image, and
maybe the samples in it. -/
inductive Slot where
  | unknown
  | empty
  | full (width height : ℕ) (samples : Option (List Fl))

/-- What an analysis was made with, and the frames it accepted. -/
structure Used where
  width : ℕ
  height : ℕ
  method : Option String
  dict : PyDict
  frames : List (List Fl)

/-- What is known of the objects of a program; `none` is nothing. -/
structure Known where
  bufs : List Slot := []
  images : List (Option Film) := []
  analyses : List (Option Used) := []

/-- A size for which scores fit in memory. -/
def moderate (s : Sys) (w h : ℤ) : Prop :=
  0 ≤ w ∧ 0 ≤ h ∧ w ≤ s.cfg.sizeMax ∧ h ≤ s.cfg.sizeMax ∧ w * s.cfg.szInter ≤ s.cfg.sizeMax ∧ h * s.cfg.szInter ≤ s.cfg.sizeMax

instance (s : Sys) (w h : ℤ) : Decidable (moderate s w h) := by unfold moderate; infer_instance

/-- A frame was accepted. -/
def Known.accept (kn : Known) (k : ℕ) (f : Option (List Fl)) : Known :=
  { kn with analyses := kn.analyses.set k (match kn.analyses[k]?, f with
    | some (some u), some f => some { u with frames := u.frames ++ [f] }
    | _, _ => none) }

/-- A frame was read. -/
def Known.fill (kn : Known) (k j : ℕ) : Known :=
  match kn.images[k]?, kn.bufs[j]? with
  | some (some ⟨width, height, f :: fs⟩), some (.full w h _) =>
    if w * h = width * height then { kn with images := kn.images.set k (some ⟨width, height, fs⟩), bufs := kn.bufs.set j (.full w h (some f)) }
    else { kn with images := kn.images.set k none, bufs := kn.bufs.set j .unknown }
  | _, _ => { kn with images := kn.images.set k none, bufs := kn.bufs.set j .unknown }

/-- What is known after a statement that returned or raised `o`. -/
def learn (s : Sys) (film : Films) (kn : Known) (op : PyOp) (o : Raises PyVal) : Known :=
  match op, o with
  | .buffer, _ => { kn with bufs := kn.bufs ++ [.empty] }
  | .dimensions w h n, _ => { kn with bufs := kn.bufs ++ [if n = 1 then .full w.toNat h.toNat none else .unknown] }
  | .readImage _ _, .ok _ => { kn with bufs := kn.bufs ++ [.unknown] }
  | .image _ _ _ none, .ok _ => { kn with images := kn.images ++ [none] }
  | .image fn ft rn (some j), .ok _ => { kn with
      images := kn.images ++ [film fn ft rn]
      bufs := kn.bufs.set j (match kn.bufs[j]?, film fn ft rn with
        | some .empty, some f => .full f.width f.height none
        | _, _ => .unknown) }
  | .image _ _ _ (some j), .raised _ => { kn with bufs := kn.bufs.set j .unknown }
  | .readFrame k j, .ok (.bool true) => kn.fill k j
  | .readFrame k j, _ => { kn with images := kn.images.set k none, bufs := kn.bufs.set j .unknown }
  | .seek k _ _, _ => { kn with images := kn.images.set k none }
  | .closeImage k, _ => { kn with images := kn.images.set k none }
  | .closeBuffer j, _ => { kn with bufs := kn.bufs.set j .unknown }
  | .analysis w h m d, .ok _ => { kn with
      analyses := kn.analyses ++ [if moderate s w h then some ⟨w.toNat, h.toNat, m, d, []⟩ else none] }
  | .analyze k j, .ok _ => kn.accept k (match kn.bufs[j]? with
      | some (.full _ _ x) => x
      | _ => none)
  | .analyzeList k l, .ok _ => kn.accept k (some (l.map binary32.conv))
  | .destroy k, _ => { kn with analyses := kn.analyses.set k none }
  | _, _ => kn

/-- What is known after a program whose statements returned `obs`. -/
def learned (s : Sys) (film : Films) : Known → List PyOp → List (Raises PyVal) → Known
  | kn, op :: ops, o :: obs => learned s film (learn s film kn op o) ops obs
  | kn, _, _ => kn

/-- The results of an analysis that accepted these frames: RDENOIMG if there are none, else the candidates that the library finds for them.
C84 says that the frames alone decide which those are, C89 which those are in exact arithmetic. -/
inductive Answers (s : Sys) (m : Option Method) (p : Option Params) (W H : ℕ) (frames : List (List Fl)) : Raises PyVal → Prop where
  | empty : frames = [] → Answers s m p W H frames (.raised (some RDENOIMG))
  | lists {ev : List (Call × Obs)} {a : Analysis} {l1 l2 : List Res} {c1 c2 : ℕ} : frames ≠ [] →
      Returned s m W H p ev a (some l1) c1 (some l2) c2 → NoOom ev → (analysed ev).map (fun x => x.1.op) = frames.map (fun f => Op.analyze (some f)) →
      (∀ x ∈ analysed ev, Plenty x.1.world) → Answers s m p W H frames (.ok (.lists l1 l2))

/-- The results of making an analysis, giving it frames and asking for the results, all in one. -/
inductive Detects (s : Sys) (m : Option Method) (p : Option Params) (W H : ℕ) (frames : List (List Fl)) : Raises PyVal → Prop where
  | size : expected s W H ≠ RDEOK → Detects s m p W H frames (.raised (some (expected s W H)))
  | frame : expected s W H = RDEOK → frameError W H frames ≠ RDEOK → Detects s m p W H frames (.raised (some (frameError W H frames)))
  | done {o : Raises PyVal} : expected s W H = RDEOK → frameError W H frames = RDEOK → Answers s m p W H frames o → Detects s m p W H frames o

/-- An error code as an exception. -/
def raising (e : RDError) (v : PyVal) : Raises PyVal := if e = RDEOK then .ok v else .raised (some e)

/-- A dictionary of sane values stands for these parameters. -/
def Stands (c : Cfg) (d : PyDict) (p : Option Params) : Prop := d.unknown = false ∧ Sane c d ∧ PyMeans c d p

/-- The method of a name; the default one if there is no name, or if it names none. -/
def methodNamed (name : Option String) : Option Method := name.bind (fun n => resdetGetMethod (some n))

/-- What a statement must return or raise when this is known. -/
def expects (s : Sys) (film : Films) (fuel : ℕ) (kn : Known) (op : PyOp) (o : Raises PyVal) : Prop :=
  match op with
  | .buffer => o = .ok .unit
  | .dimensions _ _ _ => o = .ok .unit
  | .image fn ft rn (some j) => ∀ f, film fn ft rn = some f → j < kn.bufs.length → o = .ok .unit
  | .readFrame k j => ∀ f W H x, kn.images[k]? = some (some f) → kn.bufs[j]? = some (.full W H x) → W * H = f.width * f.height →
      o = .ok (.bool (!f.frames.isEmpty))
  | .item j i => ∀ W H l, kn.bufs[j]? = some (.full W H (some l)) →
      (∀ n v, i = .int (n : ℕ) → l[n]? = some v → o = .ok (.float v)) ∧
      (∀ y x v, i = .tuple [(y : ℕ), (x : ℕ)] → y < H → x < W → l[y * W + x]? = some v → o = .ok (.float v)) ∧
      (∀ y x, i = .tuple [(y : ℕ), (x : ℕ)] → H ≤ y ∨ W ≤ x → o = .raised none)
  | .analysis w h _ d => (d.unknown = true → o = .raised none) ∧ (d.unknown = false → moderate s w h → o = raising (expected s w.toNat h.toNat) .unit)
  | .analyze k j => ∀ u W H l, kn.analyses[k]? = some (some u) → kn.bufs[j]? = some (.full W H (some l)) →
      o = raising (frameError u.width u.height [l]) .unit
  | .analyzeList k l => ∀ u, kn.analyses[k]? = some (some u) → o = raising (frameError u.width u.height [l.map binary32.conv]) .unit
  | .results k => ∀ u p, kn.analyses[k]? = some (some u) → Stands s.cfg u.dict p → u.frames.length ≤ s.cfg.sizeMax →
      Answers s (methodNamed u.method) p u.width u.height u.frames o
  | .resdetect j m d => ∀ W H l p, kn.bufs[j]? = some (.full W H (some l)) → Stands s.cfg d p → moderate s W H → Detects s (methodNamed m) p W H [l] o
  | .resdetectFile fn ft m d => ∀ f p, film fn ft none = some f → Stands s.cfg d p → moderate s f.width f.height → f.frames.length < fuel →
      f.frames.length ≤ s.cfg.sizeMax → Detects s (methodNamed m) p f.width f.height f.frames o
  | .closeImage k => k < kn.images.length → o = .ok .unit
  | .closeBuffer j => j < kn.bufs.length → o = .ok .unit
  | .destroy k => k < kn.analyses.length → o = .ok .unit
  | _ => True

/-- Every statement of a program returns what it must, by what is known before it. -/
def fulfils (s : Sys) (film : Films) (fuel : ℕ) : Known → List PyOp → List (Raises PyVal) → Prop
  | kn, op :: ops, o :: obs => expects s film fuel kn op o ∧ fulfils s film fuel (learn s film kn op o) ops obs
  | _, [], [] => True
  | _, _, _ => False

/-- There is memory whenever a statement starts. -/
def Amply (s : Sys) (io : Io) (fuel : ℕ) : PyState → List PyOp → World → Prop
  | _, [], _ => True
  | st, op :: ops, w => Plenty w ∧ ∀ o st' w', pyStep s io fuel st op w = some ((o, st'), w') → Amply s io fuel st' ops w'

/-- Statements that leave as much memory as there was: where memory runs out for other reasons is not known for the others. -/
def settled (s : Sys) (film : Films) (kn : Known) : PyOp → Bool
  | .buffer | .dimensions _ _ _ | .item _ _ => true
  | .image fn ft rn (some _) => (film fn ft rn).isSome
  | .readFrame k j => match kn.images[k]?, kn.bufs[j]? with
    | some (some f), some (.full W H _) => W * H = f.width * f.height
    | _, _ => false
  | .analysis w h _ d => d.unknown || decide (moderate s w h)
  | .analyze k _ | .analyzeList k _ | .results k => match kn.analyses[k]? with
    | some (some _) => true
    | _ => false
  | _ => false

/-- All statements but the last one do. -/
def steadily (s : Sys) (film : Films) : Known → List PyOp → List (Raises PyVal) → Bool
  | kn, op :: ops, o :: obs => ops.isEmpty || (settled s film kn op && steadily s film (learn s film kn op o) ops obs)
  | _, _, _ => true

end Verif.Spec
