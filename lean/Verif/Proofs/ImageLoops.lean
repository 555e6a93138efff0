import Verif.Proofs.Own
import Verif.Proofs.CreateLemmas

/-! What the sample loops of the built-in readers write. -/

namespace Verif

/-- An array with the elements from `i` on overwritten. -/
def fill {α : Type} (l : List α) (i : ℕ) (v : List α) : List α := l.take i ++ v ++ l.drop (i + v.length)

theorem fill_nil {α : Type} (l : List α) (i : ℕ) : fill l i [] = l := by simp [fill]

theorem fill_length {α : Type} {l v : List α} {i : ℕ} (h : i + v.length ≤ l.length) : (fill l i v).length = l.length := by
  simp only [fill, List.length_append, List.length_take, List.length_drop]; omega

theorem fill_zero {α : Type} {l v : List α} (h : v.length = l.length) : fill l 0 v = v := by
  simp [fill, h]

theorem fill_set {α : Type} {l v : List α} {i : ℕ} {a : α} (h : i < l.length) : fill (l.set i a) (i + 1) v = fill l i (a :: v) := by
  have h1 : (l.set i a).take (i + 1) = l.take i ++ [a] := by
    rw [List.take_add_one, List.take_set_of_le (le_refl i)]
    simp [h]
  have h2 : (l.set i a).drop (i + 1 + v.length) = l.drop (i + (v.length + 1)) := by
    rw [List.drop_set_of_lt (by omega)]
    congr 1; omega
  unfold fill
  rw [h1, h2]; simp

theorem fill_drop {α : Type} {l v : List α} {i n : ℕ} (h : i + v.length ≤ n) (hn : n ≤ l.length) : (fill l i v).drop n = l.drop n := by
  unfold fill
  rw [List.drop_append, List.drop_eq_nil_of_le (by simp; omega), List.nil_append, List.drop_drop]
  congr 1
  simp; omega

theorem wr_some {α : Type} {l : List α} {i : ℕ} {a : α} (h : i < l.length) : wr l i a = some (l.set i a) := by
  unfold wr; rw [if_pos h]

/-- The PGM sample value. -/
def pgmSample (depth : ℕ) (b : UInt8) : Fl := binary32.div (binary32.ofNat b.toNat) (binary32.ofNat depth)

theorem pgmLoop_eq {depth todo i : ℕ} {st : Stream} {img : List Fl} (h : i + todo ≤ img.length) :
    pgmLoop depth todo i st img = some (decide (todo ≤ st.rest.length), st.advance (min todo st.rest.length),
      fill img i ((st.rest.take todo).map (pgmSample depth))) := by
  induction todo generalizing i st img with
  | zero => simp [pgmLoop, Stream.advance, fill_nil]
  | succ n ih =>
    obtain ⟨rest, pos, k⟩ := st
    cases rest with
    | nil => simp [pgmLoop, Stream.fgetc, Stream.advance, fill_nil]
    | cons b rest =>
      unfold pgmLoop
      simp only [Stream.fgetc]
      rw [wr_some (by omega)]
      simp only [Option.bind_eq_bind, Option.bind_some]
      rw [ih (by rw [List.length_set]; omega), fill_set (by omega)]
      simp only [Stream.advance, List.drop_succ_cons, List.drop_zero, List.length_cons, Nat.add_le_add_iff_right,
        Nat.add_min_add_right, List.take_succ_cons, List.map_cons, pgmSample]
      congr 4
      omega

/-- The luma samples of a Y4M plane. -/
def y4mValue (c : Cfg) (depth : ℕ) (buf : List UInt8) (i : ℕ) : ℕ :=
  if depth > 8 then
    let a := buf.getD (2 * i) 0
    let b := buf.getD (2 * i + 1) 0
    if c.littleEndian then a.toNat + 256 * b.toNat else 256 * a.toNat + b.toNat
  else (buf.getD i 0).toNat

/-- What it becomes. -/
def y4mPixel (c : Cfg) (depth : ℕ) (buf : List UInt8) (i : ℕ) : Fl :=
  binary32.div (binary32.ofNat (y4mValue c depth buf i)) (binary32.ofNat (2 ^ depth - 1))

theorem y4mSample_eq {c : Cfg} {depth i : ℕ} {buf : List UInt8} (h : (i + 1) * ((depth + 7) / 8) ≤ buf.length)
    (hd : 8 ≤ depth) (hd' : depth ≤ 16) (hs : buf.length ≤ c.sizeMax) : y4mSample c depth buf i = some (y4mValue c depth buf i) := by
  unfold y4mSample y4mValue rd
  by_cases h8 : depth > 8
  · have h2 : (depth + 7) / 8 = 2 := by omega
    rw [h2] at h
    have e : c.sz (i * 2) = 2 * i := by unfold Cfg.sz; rw [Nat.mod_eq_of_lt (by omega)]; omega
    rw [if_pos h8, if_pos h8, e]
    have h1 : 2 * i < buf.length := by omega
    have h1' : 2 * i + 1 < buf.length := by omega
    simp [h1, h1']
  · have h2 : (depth + 7) / 8 = 1 := by omega
    rw [h2] at h
    have h1 : i < buf.length := by omega
    rw [if_neg h8, if_neg h8]
    simp [h1]

theorem y4mLoop_eq {c : Cfg} {depth todo i : ℕ} {buf : List UInt8} {img : List Fl} (h : i + todo ≤ img.length)
    (hb : (i + todo) * ((depth + 7) / 8) ≤ buf.length) (hd : 8 ≤ depth) (hd' : depth ≤ 16) (hs : buf.length ≤ c.sizeMax) :
    y4mLoop c depth buf todo i img = some (fill img i ((List.range' i todo).map (y4mPixel c depth buf))) := by
  induction todo generalizing i img with
  | zero => simp [y4mLoop, fill_nil]
  | succ n ih =>
    unfold y4mLoop
    have : (i + 1) * ((depth + 7) / 8) ≤ buf.length := le_trans (Nat.mul_le_mul_right _ (by omega)) hb
    rw [y4mSample_eq this hd hd' hs]
    simp only [Option.bind_eq_bind, Option.bind_some]
    rw [wr_some (by omega)]
    simp only [Option.bind_some]
    rw [ih (by rw [List.length_set]; omega) (by rw [Nat.add_right_comm]; exact hb), fill_set (by omega), List.range'_succ, List.map_cons]
    rfl

/-! ## PFM -/

theorem chunks4_length : ∀ {n : ℕ} {l : List UInt8}, l.length = 4 * n → (chunks4 l).length = n
  | 0, l, h => by
    have : l = [] := List.length_eq_zero_iff.mp (by omega)
    subst this; rfl
  | n + 1, l, h => by
    match l, h with
    | a :: b :: c :: d :: l, h =>
      simp only [chunks4, List.length_cons] at h ⊢
      rw [chunks4_length (n := n) (by omega)]

theorem storeFloats_some {img v : List Fl} {off : ℕ} (h : off + v.length ≤ img.length) : storeFloats img off v = some (fill img off v) := by
  unfold storeFloats fill; rw [if_pos h]

/-- The value of the pixel stored in `4*n` bytes. -/
def pfmVal (c : Cfg) (swap : Bool) (n : ℕ) (l : List UInt8) : Fl :=
  (pfmValue ((chunks4 (l.take (4 * n))).map (fun b => nativeFloat c (if swap then b.reverse else b)))).getD (.fin false 0)

/-- The values of `k` consecutive pixels. -/
def pfmVals (c : Cfg) (swap : Bool) (n : ℕ) : (k : ℕ) → List UInt8 → List Fl
  | 0, _ => []
  | k + 1, l => pfmVal c swap n l :: pfmVals c swap n k (l.drop (4 * n))

/-- The image stored in `todo` rows: the first row is the bottom one. -/
def pfmFrame (c : Cfg) (swap : Bool) (n width : ℕ) : (todo : ℕ) → List UInt8 → List Fl
  | 0, _ => []
  | todo + 1, l => pfmFrame c swap n width todo (l.drop (4 * n * width)) ++ pfmVals c swap n width l

theorem pfmVals_length (c : Cfg) (swap : Bool) (n k : ℕ) (l : List UInt8) : (pfmVals c swap n k l).length = k := by
  induction k generalizing l with
  | zero => rfl
  | succ k ih => simp [pfmVals, ih]

theorem pfmFrame_length (c : Cfg) (swap : Bool) (n width todo : ℕ) (l : List UInt8) :
    (pfmFrame c swap n width todo l).length = todo * width := by
  induction todo generalizing l with
  | zero => simp [pfmFrame]
  | succ k ih => simp [pfmFrame, ih, pfmVals_length, Nat.add_mul]

theorem pfmVals_take {c : Cfg} {swap : Bool} {n k m : ℕ} {l : List UInt8} (h : 4 * n * k ≤ m) :
    pfmVals c swap n k (l.take m) = pfmVals c swap n k l := by
  induction k generalizing l m with
  | zero => rfl
  | succ k ih =>
    have h4 : 4 * n * (k + 1) = 4 * n * k + 4 * n := by ring
    simp only [pfmVals]
    rw [List.drop_take, ih (by omega)]
    simp only [pfmVal, List.take_take]
    rw [Nat.min_eq_left (by omega)]

theorem pfmFrame_take {c : Cfg} {swap : Bool} {n w k m : ℕ} {l : List UInt8} (h : 4 * n * w * k ≤ m) :
    pfmFrame c swap n w k (l.take m) = pfmFrame c swap n w k l := by
  induction k generalizing l m with
  | zero => rfl
  | succ k ih =>
    have h4 : 4 * n * w * (k + 1) = 4 * n * w * k + 4 * n * w := by ring
    simp only [pfmFrame]
    rw [List.drop_take, ih (by omega), pfmVals_take (by omega)]

theorem pfmValue_some {c : Cfg} {swap : Bool} {n : ℕ} {l : List UInt8} (hn : n = 1 ∨ n = 3) (h : 4 * n ≤ l.length) :
    pfmValue ((chunks4 (l.take (4 * n))).map (fun b => nativeFloat c (if swap then b.reverse else b))) = some (pfmVal c swap n l) := by
  have hl : (chunks4 (l.take (4 * n))).length = n := chunks4_length (by simp; omega)
  unfold pfmVal
  generalize chunks4 (l.take (4 * n)) = q at hl
  rcases hn with rfl | rfl
  · match q, hl with
    | [a], _ => rfl
  · match q, hl with
    | [a, b, c], _ => rfl

theorem fread_eq (st : Stream) (n : ℕ) : st.fread n = (st.rest.take n, st.advance (min n st.rest.length)) := rfl

theorem pfmPixel_none {c : Cfg} {swap : Bool} {n : ℕ} {st : Stream} (h : ¬ 4 * n ≤ st.rest.length) :
    pfmPixel c swap n st = (none, st.advance st.rest.length) := by
  unfold pfmPixel
  rw [fread_eq]
  simp only
  rw [if_pos (by rw [List.length_take]; omega), Nat.min_eq_right (by omega)]

theorem pfmPixel_some {c : Cfg} {swap : Bool} {n : ℕ} {st : Stream} (h : 4 * n ≤ st.rest.length) :
    pfmPixel c swap n st = (some ((chunks4 (st.rest.take (4 * n))).map (fun b => nativeFloat c (if swap then b.reverse else b))),
      st.advance (4 * n)) := by
  unfold pfmPixel
  rw [fread_eq]
  simp only
  rw [if_neg (by rw [List.length_take]; omega), Nat.min_eq_left h]

theorem pfmRow_eq {c : Cfg} {swap : Bool} {n width height j todo i : ℕ} {st : Stream} {img : List Fl} (hn : n = 1 ∨ n = 3)
    (hj : j < height) (hi : i + todo ≤ width) (hl : width * height ≤ img.length) (hs : width * height ≤ c.sizeMax) :
    pfmRow c swap n width height j todo i st img = some (decide (4 * n * todo ≤ st.rest.length),
      st.advance (min (4 * n * todo) st.rest.length),
      fill img ((height - j - 1) * width + i) (pfmVals c swap n (min todo (st.rest.length / (4 * n))) st.rest)) := by
  have hn4 : 0 < 4 * n := by omega
  have hoff : (height - j - 1) * width + width ≤ width * height := by
    have : (height - j - 1 + 1) * width ≤ height * width := Nat.mul_le_mul_right _ (by omega)
    rw [Nat.add_mul, Nat.one_mul] at this
    rw [Nat.mul_comm width height]; exact this
  induction todo generalizing i st img with
  | zero => simp [pfmRow, Stream.advance, pfmVals, fill_nil]
  | succ t ih =>
    unfold pfmRow
    have e4 : 4 * n * (t + 1) = 4 * n * t + 4 * n := by ring
    by_cases hlen : 4 * n ≤ st.rest.length
    · rw [pfmPixel_some hlen]
      simp only
      rw [pfmValue_some hn hlen]
      simp only [Option.bind_eq_bind, Option.bind_some]
      have e1 : c.sz (c.sz ((height - j - 1) * width) + i) = (height - j - 1) * width + i := by
        unfold Cfg.sz
        rw [Nat.mod_eq_of_lt (a := (height - j - 1) * width) (by omega), Nat.mod_eq_of_lt (by omega)]
      rw [e1, wr_some (by omega)]
      simp only [Option.bind_some]
      have hq : st.rest.length / (4 * n) = (st.rest.length - 4 * n) / (4 * n) + 1 := by
        rw [Nat.div_eq_sub_div hn4 hlen]
      rw [ih (by omega) (by rw [List.length_set]; exact hl), Nat.add_assoc ((height - j - 1) * width) i 1 |>.symm,
        fill_set (by omega)]
      simp only [Stream.advance, List.length_drop]
      rw [hq, Nat.add_min_add_right]
      simp only [pfmVals, List.drop_drop]
      have : st.pos + 4 * n + min (4 * n * t) (st.rest.length - 4 * n) = st.pos + min (4 * n * (t + 1)) st.rest.length := by omega
      rw [this]
      have : 4 * n + min (4 * n * t) (st.rest.length - 4 * n) = min (4 * n * (t + 1)) st.rest.length := by omega
      rw [this]
      have : (4 * n * t ≤ st.rest.length - 4 * n) = (4 * n * (t + 1) ≤ st.rest.length) := by
        apply propext; omega
      simp only [this]
    · rw [pfmPixel_none hlen]
      have hq : st.rest.length / (4 * n) = 0 := Nat.div_eq_of_lt (by omega)
      simp only
      rw [hq, Nat.min_zero, pfmVals, fill_nil, Nat.min_eq_right (by omega), decide_eq_false (by omega)]

theorem fill_fill {l a b : List Fl} {i : ℕ} (hb : b.length = i) (hl : i + a.length ≤ l.length) :
    fill (fill l i a) 0 b = fill l 0 (b ++ a) := by
  unfold fill
  simp only [List.take_zero, List.nil_append, Nat.zero_add, List.length_append]
  rw [List.append_assoc b a]
  congr 1
  rw [hb, List.append_assoc, List.drop_append, List.drop_eq_nil_of_le (by simp), List.nil_append]
  simp only [List.length_take]
  rw [Nat.min_eq_left (by omega), Nat.sub_self, List.drop_zero]

theorem pfmRows_eq {c : Cfg} {swap : Bool} {n width height todo j : ℕ} {st : Stream} {img : List Fl} (hn : n = 1 ∨ n = 3)
    (hj : todo + j = height) (hl : width * height ≤ img.length) (hs : width * height ≤ c.sizeMax) :
    ∃ img', pfmRows c swap n width height todo j st img = some (decide (4 * n * width * todo ≤ st.rest.length),
      st.advance (min (4 * n * width * todo) st.rest.length), img') ∧
      if 4 * n * width * todo ≤ st.rest.length then img' = fill img 0 (pfmFrame c swap n width todo st.rest)
      else Spoilt img img' (width * height) := by
  induction todo generalizing j st img with
  | zero => exact ⟨img, by simp [pfmRows, Stream.advance], by simp [pfmFrame, fill_nil]⟩
  | succ t ih =>
    have e4 : 4 * n * width * (t + 1) = 4 * n * width * t + 4 * n * width := by ring
    have hoff : (height - j - 1) * width = t * width := by congr 1; omega
    have htw : t * width + width ≤ width * height := by
      have : (t + 1) * width ≤ height * width := Nat.mul_le_mul_right _ (by omega)
      rw [Nat.add_mul, Nat.one_mul] at this
      rw [Nat.mul_comm width height]; exact this
    unfold pfmRows
    rw [pfmRow_eq hn (by omega) (by omega) hl hs, hoff]
    simp only [Option.bind_eq_bind, Option.bind_some, Nat.add_zero]
    by_cases hr : 4 * n * width ≤ st.rest.length
    · have hq : min width (st.rest.length / (4 * n)) = width := by
        apply Nat.min_eq_left
        rw [Nat.le_div_iff_mul_le (by omega)]
        rw [Nat.mul_comm]; exact hr
      rw [decide_eq_true hr, hq]
      simp only [if_true]
      have hfl : (fill img (t * width) (pfmVals c swap n width st.rest)).length = img.length :=
        fill_length (by rw [pfmVals_length]; omega)
      obtain ⟨img', e, h⟩ := ih (j := j + 1) (st := st.advance (min (4 * n * width) st.rest.length))
        (img := fill img (t * width) (pfmVals c swap n width st.rest)) (by omega) (by rw [hfl]; exact hl)
      refine ⟨img', ?_, ?_⟩
      · rw [e]
        simp only [Stream.advance, List.length_drop, List.drop_drop]
        have h1 : st.pos + min (4 * n * width) st.rest.length + min (4 * n * width * t) (st.rest.length - min (4 * n * width) st.rest.length)
            = st.pos + min (4 * n * width * (t + 1)) st.rest.length := by omega
        have h2 : min (4 * n * width) st.rest.length + min (4 * n * width * t) (st.rest.length - min (4 * n * width) st.rest.length)
            = min (4 * n * width * (t + 1)) st.rest.length := by omega
        have h3 : (4 * n * width * t ≤ st.rest.length - min (4 * n * width) st.rest.length) = (4 * n * width * (t + 1) ≤ st.rest.length) := by
          apply propext; omega
        rw [h1, h2]; simp only [h3]
      · simp only [Stream.advance, List.length_drop] at h
        by_cases hall : 4 * n * width * (t + 1) ≤ st.rest.length
        · rw [if_pos (by omega)] at h
          rw [if_pos hall, h, Nat.min_eq_left hr, pfmFrame, fill_fill (pfmFrame_length ..) (by rw [pfmVals_length]; omega)]
        · rw [if_neg (by omega)] at h
          rw [if_neg hall]
          exact ⟨h.1.trans hfl, h.2.trans (fill_drop (by rw [pfmVals_length]; omega) hl)⟩
    · rw [decide_eq_false hr]
      have hv : (pfmVals c swap n (min width (st.rest.length / (4 * n))) st.rest).length ≤ width := by
        rw [pfmVals_length]; exact Nat.min_le_left _ _
      refine ⟨fill img (t * width) (pfmVals c swap n (min width (st.rest.length / (4 * n))) st.rest), ?_, ?_⟩
      · rw [decide_eq_false (by omega), Nat.min_eq_right (a := 4 * n * width) (by omega),
          Nat.min_eq_right (a := 4 * n * width * (t + 1)) (by omega)]; rfl
      · rw [if_neg (by omega)]
        exact ⟨fill_length (by omega), fill_drop (by omega) hl⟩

theorem chunks4_cons {l : List UInt8} (h : 4 ≤ l.length) : chunks4 l = l.take 4 :: chunks4 (l.drop 4) := by
  match l, h with
  | a :: b :: c :: d :: l, _ => rfl

theorem chunks_vals {c : Cfg} {k : ℕ} {l : List UInt8} (h : 4 * k ≤ l.length) :
    (chunks4 (l.take (4 * k))).map (nativeFloat c) = pfmVals c false 1 k l := by
  induction k generalizing l with
  | zero => simp [chunks4, pfmVals]
  | succ k ih =>
    rw [chunks4_cons (by simp; omega), List.map_cons, List.take_take, List.drop_take]
    have h1 : 4 * (k + 1) - 4 = 4 * k := by omega
    rw [h1, ih (by simp; omega), Nat.min_eq_left (by omega)]
    simp only [pfmVals, Nat.mul_one]
    congr 1
    have := pfmValue_some (c := c) (swap := false) (n := 1) (l := l) (Or.inl rfl) (by omega)
    rw [Nat.mul_one, chunks4_cons (by simp; omega)] at this
    rw [List.take_take, Nat.min_self, List.drop_take, Nat.sub_self, List.take_zero] at this
    simpa [chunks4, pfmValue] using this

theorem pfmGrayRows_eq {s : Sys} {width height todo j : ℕ} {st : Stream} {img : List Fl} (hj : todo + j = height)
    (hl : width * height ≤ img.length) (hs : width * height ≤ s.cfg.sizeMax) :
    ∃ img', pfmGrayRows s width height todo j st img = some (decide (4 * 1 * width * todo ≤ st.rest.length),
      st.advance (min (4 * 1 * width * todo) st.rest.length), img') ∧
      if 4 * 1 * width * todo ≤ st.rest.length then img' = fill img 0 (pfmFrame s.cfg false 1 width todo st.rest)
      else Spoilt img img' (width * height) := by
  induction todo generalizing j st img with
  | zero => exact ⟨img, by simp [pfmGrayRows, Stream.advance], by simp [pfmFrame, fill_nil]⟩
  | succ t ih =>
    have e4 : 4 * 1 * width * (t + 1) = 4 * 1 * width * t + 4 * width := by ring
    have e5 : 4 * 1 * width = 4 * width := by ring
    have htw : t * width + width ≤ width * height := by
      have : (t + 1) * width ≤ height * width := Nat.mul_le_mul_right _ (by omega)
      rw [Nat.add_mul, Nat.one_mul] at this
      rw [Nat.mul_comm width height]; exact this
    have hoff : s.cfg.sz ((height - j - 1) * width) = t * width := by
      have : height - j - 1 = t := by omega
      rw [this]; unfold Cfg.sz; rw [Nat.mod_eq_of_lt (by omega)]
    unfold pfmGrayRows
    rw [hoff, fread_eq]
    simp only
    by_cases hr : 4 * width ≤ st.rest.length
    · rw [if_neg (by rw [List.length_take]; omega), chunks_vals hr, storeFloats_some (by rw [pfmVals_length]; omega)]
      simp only [Option.bind_eq_bind, Option.bind_some]
      have hfl : (fill img (t * width) (pfmVals s.cfg false 1 width st.rest)).length = img.length :=
        fill_length (by rw [pfmVals_length]; omega)
      obtain ⟨img', e, h⟩ := ih (j := j + 1) (st := st.advance (min (4 * width) st.rest.length))
        (img := fill img (t * width) (pfmVals s.cfg false 1 width st.rest)) (by omega) (by rw [hfl]; exact hl)
      refine ⟨img', ?_, ?_⟩
      · rw [e]
        simp only [Stream.advance, List.length_drop, List.drop_drop]
        have h1 : st.pos + min (4 * width) st.rest.length + min (4 * 1 * width * t) (st.rest.length - min (4 * width) st.rest.length)
            = st.pos + min (4 * 1 * width * (t + 1)) st.rest.length := by omega
        have h2 : min (4 * width) st.rest.length + min (4 * 1 * width * t) (st.rest.length - min (4 * width) st.rest.length)
            = min (4 * 1 * width * (t + 1)) st.rest.length := by omega
        have h3 : (4 * 1 * width * t ≤ st.rest.length - min (4 * width) st.rest.length) = (4 * 1 * width * (t + 1) ≤ st.rest.length) := by
          apply propext; omega
        rw [h1, h2]; simp only [h3]
      · simp only [Stream.advance, List.length_drop] at h
        by_cases hall : 4 * 1 * width * (t + 1) ≤ st.rest.length
        · rw [if_pos (by omega)] at h
          rw [if_pos hall, h, Nat.min_eq_left hr, pfmFrame, fill_fill (pfmFrame_length ..) (by rw [pfmVals_length]; omega), e5]
        · rw [if_neg (by omega)] at h
          rw [if_neg hall]
          exact ⟨h.1.trans hfl, h.2.trans (fill_drop (by rw [pfmVals_length]; omega) hl)⟩
    · rw [if_pos (by rw [List.length_take]; omega), storeFloats_some (by rw [List.length_replicate]; omega)]
      refine ⟨fill img (t * width) (List.replicate width s.env.junk), ?_, ?_⟩
      · rw [decide_eq_false (by omega), Nat.min_eq_right (by omega), Nat.min_eq_right (by omega)]; rfl
      · rw [if_neg (by omega)]
        exact ⟨fill_length (by simp; omega), fill_drop (by simp; omega) hl⟩

/-- Samples per pixel. -/
def pfmComps (format : UInt8) : ℕ := if format = ch 'f' then 1 else 3

theorem pfmPlane_eq {s : Sys} {width height : ℕ} {st : Stream} {img : List Fl} {scale : Fl} {format : UInt8}
    (hl : width * height ≤ img.length) (hs : width * height ≤ s.cfg.sizeMax) :
    ∃ img', pfmPlane s st img width height scale format = some (decide (4 * pfmComps format * width * height ≤ st.rest.length),
      st.advance (min (4 * pfmComps format * width * height) st.rest.length), img') ∧
      if 4 * pfmComps format * width * height ≤ st.rest.length then
        img' = fill img 0 (pfmFrame s.cfg (!sameOrder s.cfg scale) (pfmComps format) width height st.rest)
      else Spoilt img img' (width * height) := by
  unfold pfmPlane pfmComps
  by_cases hf : format = ch 'f'
  · rw [if_pos hf, if_pos hf]
    by_cases ho : sameOrder s.cfg scale = true
    · rw [if_pos ho, ho]; exact pfmGrayRows_eq (by omega) hl hs
    · rw [if_neg ho]
      have : sameOrder s.cfg scale = false := by simpa using ho
      rw [this]; exact pfmRows_eq (Or.inl rfl) (by omega) hl hs
  · rw [if_neg hf, if_neg hf]; exact pfmRows_eq (Or.inr rfl) (by omega) hl hs

end Verif
