import Verif.Spec.Basic

/-! # What a result list is -/

namespace Verif.Spec

/-- Mean score: accumulated score over number of frames, in the intermediate type. -/
def mean (c : Cfg) (r : Fl) (nimages : ℕ) : Fl := c.inter.div r (c.inter.ofNat nimages)

/-- The mean score reaches the threshold. -/
def reaches (c : Cfg) (t : Fl) (r : Fl) (nimages : ℕ) : Bool := (mean c r nimages).ge (c.inter.conv t)

/-- Is the candidate at offset `i` discarded by the compression filter with value `v`?  This is the rule the code
implements: offsets that are not (rounded) multiples of `2^v` are discarded. -/
def filteredOut (length v i : ℕ) : Bool :=
  if v = 0 then false
  else
    let fi := binary32.div (binary32.ofNat length) (binary32.ofNat (2 ^ v))
    fi.truthy && filterMiss length fi i

/-- The candidates of one dimension in increasing order: every position `range + i` whose accumulated score `data[i]`
reaches the threshold on average (and which the filter does not discard), with the mean rounded to `float`. -/
def candidates (c : Cfg) (p : Params) (nimages length : ℕ) (data : List Fl) : List Res :=
  ((List.range data.length).filter (fun i =>
      reaches c p.threshold (data[i]?.getD (.nan false)) nimages && !filteredOut length p.compressionFilter i)).map
    (fun i => ⟨p.range + i, binary32.conv (mean c (data[i]?.getD (.nan false)) nimages)⟩)

/-- The entry for the input size. -/
def sentinel (length : ℕ) : Res := ⟨length, .fin true (-1)⟩

/-- The scores of a dimension, empty if the dimension is too small. -/
def scores (r : Option (Buf Fl)) : List Fl := (r.map Buf.data).getD []

/-- Confidences never increase along the list. -/
def Descending (l : List Res) : Prop := l.Pairwise (fun a b => a.confidence.ge b.confidence = true)

end Verif.Spec
