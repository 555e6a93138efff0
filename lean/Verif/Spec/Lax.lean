import Verif.Spec.FloatText

/-!
# What the built-in readers take for a header

Grammars of the texts the readers accept beyond the formats they are for: the magic number of a PGM may be cut or missing, a
number may have a sign, a negative number counts down from the greatest, white space may be missing in front of a sign, and so on.
-/

namespace Verif.Spec

/-- `l` is a number from 0 to `max`, possibly with a sign; a negative one counts down from `max`. -/
inductive Signed (max n : ℕ) : List UInt8 → Prop where
  | plain {ds : List UInt8} : Numeral n ds → n ≤ max → Signed max n ds
  | plus {ds : List UInt8} : Numeral n ds → n ≤ max → Signed max n (ch '+' :: ds)
  | zero {ds : List UInt8} : Numeral 0 ds → n = 0 → Signed max n (ch '-' :: ds)
  | minus {v : ℕ} {ds : List UInt8} : Numeral v ds → 1 ≤ v → v ≤ max → n = max + 1 - v → Signed max n (ch '-' :: ds)

/-- Two numbers side by side can be told apart: there is white space between them or the second has a sign. -/
def Apart (sp l : List UInt8) : Prop := sp ≠ [] ∨ (∃ t, l = ch '+' :: t) ∨ ∃ t, l = ch '-' :: t

/-- What the PGM reader takes for a header. -/
inductive LaxPgm (max W H maxval : ℕ) : List UInt8 → Prop where
  | mk {magic s0 s1 nW s2 nH s3 nM : List UInt8} {lines : List (List UInt8)} {sp : UInt8} :
    (magic = cs "P5" ∨ magic = cs "P" ∧ s0 = [] ∧ (comments lines ++ (s1 ++ nW)).head? ≠ some (ch '5') ∨ magic = [] ∧ s0 = []) →
    Blank s0 → (∀ t ∈ lines, OneLine t) → Blank s1 → Signed max W nW → Blank s2 → Apart s2 nH → Signed max H nH → Blank s3 → Apart s3 nM → Signed 65535 maxval nM → maxval ≤ 255 →
    (∀ t, nM = ch '-' :: t → maxval = 0) → Blank [sp] →
    LaxPgm max W H maxval (magic ++ (s0 ++ (comments lines ++ (s1 ++ (nW ++ (s2 ++ (nH ++ (s3 ++ (nM ++ [sp])))))))))

/-- What the PFM reader takes for a header: the scale is anything `%f` reads, and the data is little endian if it is below zero. -/
inductive LaxPfm (max W H : ℕ) (colour little : Bool) : List UInt8 → Prop where
  | mk {s0 s1 nW s2 nH s3 nS : List UInt8} {lines : List (List UInt8)} {sp : UInt8} {scale : Fl} :
    Blank s0 → (∀ t ∈ lines, OneLine t) → Blank s1 → Signed max W nW → Blank s2 → Apart s2 nH → Signed max H nH → Blank s3 →
    FloatText scale nS → (s3 = [] → ∀ b, nS.head? = some b → ¬ Digits [b]) → little = scale.lt (.fin false 0) → Blank [sp] →
    LaxPfm max W H colour little (ch 'P' :: (if colour then ch 'F' else ch 'f') ::
      (s0 ++ (comments lines ++ (s1 ++ (nW ++ (s2 ++ (nH ++ (s3 ++ (nS ++ [sp])))))))))

/-- What the Y4M reader takes for a parameter, or a space between them. -/
inductive LaxParam where
  | width (n : ℕ) (sp text : List UInt8)
  | height (n : ℕ) (sp text : List UInt8)
  | layout (sp name : List UInt8)
  | other (tag : UInt8) (sp text : List UInt8)
  | space

namespace LaxParam

/-- What it looks like. -/
def bytes : LaxParam → List UInt8
  | width _ sp t => ch 'W' :: (sp ++ t)
  | height _ sp t => ch 'H' :: (sp ++ t)
  | layout sp name => ch 'C' :: (sp ++ name)
  | other tag sp t => tag :: (sp ++ t)
  | space => [ch ' ']

/-- It is accepted: white space may come between the letter and the value. -/
def Ok (max : ℕ) : LaxParam → Prop
  | width n sp t => Blank sp ∧ Signed max n t
  | height n sp t => Blank sp ∧ Signed max n t
  | layout sp name => Blank sp ∧ Solid name ∧ name ≠ [] ∧ name.length ≤ 9
  | other tag sp t => tag ∉ cs "WHC \n" ∧ Blank sp ∧ Solid t ∧ t ≠ []
  | space => True

/-- The width it gives. -/
def width? : LaxParam → Option ℕ
  | width n _ _ => some n
  | _ => none

/-- The height it gives. -/
def height? : LaxParam → Option ℕ
  | height n _ _ => some n
  | _ => none

/-- The layout it names. -/
def layout? : LaxParam → Option (List UInt8)
  | layout _ name => some name
  | _ => none

end LaxParam

/-- What comes after a parameter cannot be taken for more of it: no digit after a number, white space after a name unless it has as
many characters as are read at most. -/
def LaxParam.Ends (r : List UInt8) : LaxParam → Prop
  | width _ _ _ => ∀ b, r.head? = some b → ¬ Digits [b]
  | height _ _ _ => ∀ b, r.head? = some b → ¬ Digits [b]
  | layout _ name => name.length = 9 ∨ ∀ b, r.head? = some b → Blank [b]
  | other _ _ _ => ∀ b, r.head? = some b → Blank [b]
  | space => True

/-- Every parameter can be told from the next. -/
def Parted : List LaxParam → Prop
  | [] => True
  | p :: ps => p.Ends ((ps.map LaxParam.bytes).flatten ++ [ch '\n']) ∧ Parted ps

/-- What the Y4M reader takes for a first line: the last width, height and layout count. -/
inductive LaxY4m (max W H : ℕ) (name : List UInt8) : List UInt8 → Prop where
  | mk {ps : List LaxParam} : (∀ p ∈ ps, p.Ok max) → Parted ps → (ps.filterMap LaxParam.width?).getLast? = some W →
    (ps.filterMap LaxParam.height?).getLast? = some H → name = ((ps.filterMap LaxParam.layout?).getLast?).getD (cs "420jpeg") →
    LaxY4m max W H name (cs "YUV4MPEG2 " ++ ((ps.map LaxParam.bytes).flatten ++ [ch '\n']))

/-- What the Y4M reader takes for a depth: the digits at the front, 8 if there are none. -/
inductive LaxDepth : List UInt8 → ℕ → Prop where
  | digits {n : ℕ} {ds r : List UInt8} : Numeral n ds → (∀ b, r.head? = some b → ¬ Digits [b]) → LaxDepth (ds ++ r) n
  | none {r : List UInt8} : (∀ b, r.head? = some b → ¬ Digits [b]) → LaxDepth r 8

/-- What the Y4M reader takes the name of a layout for: only its start counts, with a depth at the fifth place. -/
inductive LaxLayout : List UInt8 → Sampling → ℕ → Prop where
  | mono {t : List UInt8} {d : ℕ} : LaxDepth t d → LaxLayout (cs "mono" ++ t) .mono d
  | plain {p : String} {x : Sampling} {t : List UInt8} : (p, x) ∈ [("420", .s420), ("411", .s420), ("422", .s422), ("444", Sampling.s444)] →
    t.head? ≠ some (ch 'p') → LaxLayout (cs p ++ t) x 8
  | deep {p : String} {x : Sampling} {t : List UInt8} {d : ℕ} : (p, x) ∈ [("420", .s420), ("411", .s420), ("422", .s422), ("444", Sampling.s444)] →
    LaxDepth t d → LaxLayout (cs p ++ ch 'p' :: t) x d

end Verif.Spec
