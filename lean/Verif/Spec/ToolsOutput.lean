import Verif.Spec.Profile
import Verif.Spec.CliText
import Verif.Model.ToolsOutput

/-! # Notions used to state what stat, imgread and profile write -/

namespace Verif.Spec

/-- A time in microseconds. -/
def micros (t : Timeval) : ℤ := t.sec * 1000000 + t.usec

/-- Whole seconds, and less than a second in microseconds. -/
def NormalTime (t : Timeval) : Prop := 0 ≤ t.sec ∧ 0 ≤ t.usec ∧ t.usec < 1000000

/-- What `getrusage` reports never goes back. -/
def Clock (clock : ℕ → Timeval) : Prop := (∀ i, NormalTime (clock i)) ∧ ∀ i, micros (clock i) ≤ micros (clock (i + 1))

/-- The first column of the table: the name of the method, filled up to the length of the longest name. -/
def NameCell (m : Method) (t : List UInt8) : Prop :=
  ∃ n, (∀ x ∈ methods, (cs x.name).length ≤ n) ∧ (∃ x ∈ methods, (cs x.name).length = n) ∧ t = cs m.name ++ blanks (n - (cs m.name).length)

/-- What is printed for a time: the seconds, a point, and the microseconds in nine digits. -/
def TimeCell (t : Timeval) (text : List UInt8) : Prop :=
  ∃ d, text = blanks (12 - d.length) ++ d ∧ Decimal 9 ((t.sec : ℚ) + (t.usec : ℚ) / 10 ^ 9) d

/-- A row of the table: the name, the time, and how many sizes are there too many and too few. -/
def FigureRow (m : Method) (t : Timeval) (plus minus : ℕ) (text : List UInt8) : Prop :=
  ∃ a b c d, text = a ++ blanks 3 ++ b ++ cs "   (+" ++ c ++ cs " -" ++ d ++ cs ")\n" ∧ NameCell m a ∧ TimeCell t b ∧ Numeral plus c ∧ Numeral minus d

/-- What is reported of the methods for one image, `k` readings of the clock having been taken before and `k'` after: for each method a row on
standard output with the time between two readings, or the reason on standard error why detection failed. -/
inductive MethodsTold (s : Sys) (F : Prop) (v : CliEnv) (clock : ℕ → Timeval) (known : List ℕ × List ℕ) (W H : ℕ) (frames : List (List Fl)) :
    ℕ → List Method → List Timed → List UInt8 → List UInt8 → ℕ → Prop where
  | nil (k : ℕ) : MethodsTold s F v clock known W H frames k [] [] [] [] k
  | counted (k k' : ℕ) (m : Method) (ms : List Method) (l : List Timed) (t : Timeval) (plus minus : ℕ) (row out err : List UInt8) :
      Figure s F known W H frames m (some (plus, minus)) → micros t = micros (clock (k + 1)) - micros (clock k) → (Clock clock → NormalTime t) →
      (NormalTime t → FigureRow m t plus minus row) → MethodsTold s F v clock known W H frames (k + 2) ms l out err k' →
      MethodsTold s F v clock known W H frames k (m :: ms) (some (t, plus, minus) :: l) (row ++ out) err k'
  | failed (k k' : ℕ) (m : Method) (ms : List Method) (l : List Timed) (e : RDError) (msg : String) (out err : List UInt8) :
      DetectError s F W H frames e → resdetErrorStr s.cfg v.strerror e = some (some msg) → MethodsTold s F v clock known W H frames (k + 1) ms l out err k' →
      MethodsTold s F v clock known W H frames k (m :: ms) (none :: l) out (cs "Error during detection: " ++ cs msg ++ cs "\n" ++ err) k'

/-- What is reported of the entries: for each its name, and then the methods, or the reason on standard error why the file could not be read. -/
inductive EntriesTold (s : Sys) (F : Prop) (v : CliEnv) (clock : ℕ → Timeval) :
    ℕ → List (DictEntry × Content) → List (List Timed) → Bool → List UInt8 → List UInt8 → Prop where
  | nil (k : ℕ) : EntriesTold s F v clock k [] [] false [] []
  | skipped (k : ℕ) (x : DictEntry) (c : Content) (rest : List (DictEntry × Content)) (l : List (List Timed)) (b : Bool) (e : RDError) (msg : String)
      (out err : List UInt8) : Unread s F c e → resdetErrorStr s.cfg v.strerror e = some (some msg) → EntriesTold s F v clock k rest l b out err →
      EntriesTold s F v clock k ((x, c) :: rest) l b (x.name ++ cs "\n" ++ out) (cs "Error reading " ++ x.name ++ cs ": " ++ cs msg ++ cs "\n" ++ err)
  | lost (k : ℕ) (x : DictEntry) (c : Content) (rest : List (DictEntry × Content)) : F → EntriesTold s F v clock k ((x, c) :: rest) [] true (x.name ++ cs "\n") []
  | counted (k k' : ℕ) (x : DictEntry) (c : Content) (rest : List (DictEntry × Content)) (l : List (List Timed)) (b : Bool) (W H : ℕ)
      (frames : List (List Fl)) (figs : List Timed) (rows said out err : List UInt8) : c.whole s = some (W, H, frames) →
      MethodsTold s F v clock (x.widths, x.heights) W H frames k methods figs rows said k' → none ∉ figs → EntriesTold s F v clock k' rest l b out err →
      EntriesTold s F v clock k ((x, c) :: rest) (figs :: l) b (x.name ++ cs "\n" ++ rows ++ out) (said ++ err)
  | failed (k k' : ℕ) (x : DictEntry) (c : Content) (rest : List (DictEntry × Content)) (W H : ℕ) (frames : List (List Fl)) (figs : List Timed)
      (rows said : List UInt8) : c.whole s = some (W, H, frames) →
      MethodsTold s F v clock (x.widths, x.heights) W H frames k methods figs rows said k' → none ∈ figs →
      EntriesTold s F v clock k ((x, c) :: rest) [figs] true (x.name ++ cs "\n" ++ rows) said

/-- What profile says of an entry that breaks off: the name, and if the file could not be read, why.  It does not say that the dictionary
is at fault. -/
inductive TornTold (s : Sys) (F : Prop) (v : CliEnv) (name : List UInt8) (c : Content) : List UInt8 → List UInt8 → Prop where
  | read : c.whole s ≠ none → TornTold s F v name c (name ++ cs "\n") []
  | unread {e : RDError} {msg : String} : Unread s F c e → resdetErrorStr s.cfg v.strerror e = some (some msg) →
      TornTold s F v name c (name ++ cs "\n") (cs "Error reading " ++ name ++ cs ": " ++ cs msg ++ cs "\n")

/-- The sum over all images of the times of method number `k`, in microseconds. -/
def timeSum (images : List (List Timed)) (k : ℕ) : ℤ :=
  (images.map (fun figs => match figs[k]? with
    | some (some (t, _)) => micros t
    | _ => 0)).sum

/-- A percentage as stat prints it: two digits after the point, off by at most half a unit of the last and `float` rounding. -/
def Percent (x : Fl) (t : List UInt8) : Prop :=
  ∃ b, t = blanks (5 - b.length) ++ b ++ cs "%" ∧ ch '%' ∉ b ∧ ∀ s v, x = .fin s v → |v| ≤ 16 → Gives 2 (1 / 2 / 10 ^ 2 + 1 / 10 ^ 4) (100 * v) b

/-- A line of stat's table: size, confidence, and how far it is from the median on the way to certainty. -/
def StatRow (median : Fl) (r : Res) (t : List UInt8) : Prop :=
  ∃ a b c, t = cs "\t" ++ (blanks (4 - a.length) ++ a) ++ cs " (" ++ b ++ cs ") - " ++ c ++ cs "\n" ∧ Numeral r.index a ∧ Percent r.confidence b ∧
    Percent (binary32.div (binary32.sub r.confidence median) (binary32.sub (binary32.ofNat 1) median)) c

/-- What stat prints for one dimension: median and fences, then the outliers, one in a line. -/
def StatTable (st : Stat) (t : List UInt8) : Prop :=
  ∃ a b c mild extreme, t = cs "median: " ++ a ++ cs "   inner fence: " ++ b ++ cs "   outer fence: " ++ c ++ cs "\nmild outliers:\n" ++ mild.flatten ++
      cs "extreme outliers:\n" ++ extreme.flatten ∧ Percent st.median a ∧ Percent st.inner b ∧ Percent st.outer c ∧
    List.Forall₂ (StatRow st.median) st.mild mild ∧ List.Forall₂ (StatRow st.median) st.extreme extreme

end Verif.Spec
