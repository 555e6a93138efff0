import Verif.Proofs.PngInterlace
import Verif.Proofs.PngPlay
import Verif.Spec.PngRow

/-! The PNG reader: interlaced images of one row. -/

namespace Verif
open Spec

variable {U F : Prop} {L S : List ℕ} {lib : Png} {fs : Fs} {s : Sys}

theorem pngCombine_get {p : ℕ → Bool} {bytes : ℕ → UInt8} {todo i : ℕ} {buf : List (Option UInt8)} (h : i + todo ≤ buf.length) :
    ∃ buf', pngCombine p bytes 0 todo i buf = some buf' ∧ buf'.length = buf.length ∧
      ∀ j, buf'[j]? = if (i ≤ j ∧ j < i + todo) ∧ p j = true then some (some (bytes j)) else buf[j]? := by
  induction todo generalizing i buf with
  | zero => exact ⟨buf, rfl, rfl, fun j => by rw [if_neg (by omega)]⟩
  | succ n ih =>
    unfold pngCombine
    cases hp : p i with
    | false =>
      rw [if_neg (by simp)]
      obtain ⟨buf', h1, h2, h3⟩ := ih (i := i + 1) (buf := buf) (by omega)
      refine ⟨buf', h1, h2, fun j => ?_⟩
      rw [h3]
      by_cases hj : j = i
      · subst hj
        rw [if_neg (by omega), if_neg (by simp [hp])]
      · congr 1
        exact propext (by constructor <;> rintro ⟨⟨a, b⟩, c⟩ <;> exact ⟨⟨by omega, by omega⟩, c⟩)
    | true =>
      rw [if_pos rfl, wr_some (by omega)]
      obtain ⟨buf', h1, h2, h3⟩ := ih (i := i + 1) (buf := buf.set (0 + i) (some (bytes i))) (by simp; omega)
      refine ⟨buf', h1, by simpa using h2, fun j => ?_⟩
      rw [h3]
      by_cases hj : j = i
      · subst hj
        rw [if_neg (by omega), if_pos ⟨⟨Nat.le_refl _, by omega⟩, hp⟩, Nat.zero_add, List.getElem?_set_self (by omega)]
      · rw [Nat.zero_add, List.getElem?_set_ne (fun h => hj h.symm)]
        congr 1
        exact propext (by constructor <;> rintro ⟨⟨a, b⟩, c⟩ <;> exact ⟨⟨by omega, by omega⟩, c⟩)

/-- A context at the beginning of a pass over the only row. -/
structure PngCtx.At (x : PngCtx) (w c p : ℕ) : Prop where
  depth : x.depth = 8
  color : x.color = c
  width : x.width = w
  interlaced : x.interlaced = true
  numRows : x.numRows = 1
  row : x.row = 0
  pass : x.pass = p

/-- The pixels in `P` have been stored. -/
def Stored (ways n : ℕ) (ok : ℕ → UInt8 → Prop) (P : ℕ → Prop) (buf : List (Option UInt8)) : Prop :=
  buf.length = n ∧ ∀ j < n, P (j / ways) → ∃ b, buf[j]? = some (some b) ∧ ok j b

theorem PngCtx.At.next {x : PngCtx} {w c p : ℕ} (h : x.At w c p) (st : ℕ) : ({ x with state := st } : PngCtx).next.At w c (p + 1) ∧
    ({ x with state := st } : PngCtx).next.state = st := by
  have e : ({ x with state := st } : PngCtx).next = { x with state := st, row := 0, pass := x.pass + 1 } := by
    unfold PngCtx.next
    rw [if_neg (by simp only [h.row, h.numRows]; omega), if_pos h.interlaced]
  rw [e]
  exact ⟨⟨h.depth, h.color, h.width, h.interlaced, h.numRows, rfl, by simp only [h.pass]⟩, rfl⟩

theorem pngPasses_row {step todo : ℕ} {x : PngCtx} {buf : List (Option UInt8)} : pngPasses lib step 1 (todo + 1) x buf =
    (pngReadRow lib x buf 0).bind (fun r => match r with
      | .exit => some .exit
      | .ret (buf, ctx) => pngPasses lib step 1 todo ctx buf) := by
  rw [pngPasses, pngRows]
  simp only [Option.bind_eq_bind]
  cases pngReadRow lib x buf 0 with
  | none => rfl
  | some r =>
    cases r with
    | exit => rfl
    | ret r => rfl

/-- A pass in which the row has no pixels. -/
theorem pass_none {w c p todo step : ℕ} {x : PngCtx} (hx : x.At w c p) (hs : pngSkips w p 0 = true) (buf : List (Option UInt8)) :
    ∃ x', x'.At w c (p + 1) ∧ x'.state = x.state ∧ pngPasses lib step 1 (todo + 1) x buf = pngPasses lib step 1 todo x' buf := by
  refine ⟨_, (hx.next x.state).1, (hx.next x.state).2, ?_⟩
  rw [pngPasses_row]
  unfold pngReadRow
  rw [if_pos (by rw [hx.interlaced, hx.width, hx.pass, hx.row, hs]; rfl)]
  rfl

/-- One pass over the row. -/
theorem pass_step {w c p todo step : ℕ} (hc : c = 0 ∨ c = 2) (hp : p < 7) {x : PngCtx} (hx : x.At w c p) {ok : ℕ → UInt8 → Prop} {P : ℕ → Prop}
    {buf : List (Option UInt8)} (hb : Stored (pngWays c) (w * pngWays c) ok P buf) :
    (pngSkips w p 0 = true → ∃ x', x'.At w c (p + 1) ∧ x'.state = x.state ∧ pngPasses lib step 1 (todo + 1) x buf = pngPasses lib step 1 todo x' buf) ∧
    (pngSkips w p 0 = false → lib.row x.state = .exit → pngPasses lib step 1 (todo + 1) x buf = some .exit) ∧
    ∀ f st, pngSkips w p 0 = false → lib.row x.state = .ret (f, st) → (∀ j < w * pngWays c, pngInPass p (j / pngWays c) = true → ok j (f j)) →
      ∃ x' buf', x'.At w c (p + 1) ∧ x'.state = st ∧ pngPasses lib step 1 (todo + 1) x buf = pngPasses lib step 1 todo x' buf' ∧
        Stored (pngWays c) (w * pngWays c) ok (fun y => P y ∨ pngInPass p y = true) buf' := by
  have hrow : pngRowBytes x.color x.depth x.width = w * pngWays c := by rw [hx.depth, hx.color, hx.width, pngRowBytes_eq hc]
  have hpix : max 1 (pngChannels x.color * x.depth / 8) = pngWays c := by
    rw [hx.depth, hx.color]
    rcases hc with rfl | rfl <;> decide
  refine ⟨fun hs => ?_, fun hs hr => ?_, fun f st hs hr hf => ?_⟩
  · exact pass_none hx hs buf
  · rw [pngPasses_row]
    unfold pngReadRow
    rw [if_neg (by rw [hx.width, hx.pass, hx.row, hs]; simp), if_neg (by rw [hx.pass]; omega)]
    simp only [hr]
    rfl
  · obtain ⟨buf', h1, h2, h3⟩ := pngCombine_get (p := fun i => !x.interlaced || pngInPass x.pass (i / pngWays c)) (bytes := f) (todo := w * pngWays c) (i := 0)
      (buf := buf) (by rw [hb.1]; omega)
    refine ⟨_, buf', (hx.next st).1, (hx.next st).2, ?_, h2.trans hb.1, ?_⟩
    · rw [pngPasses_row]
      unfold pngReadRow
      rw [if_neg (by rw [hx.width, hx.pass, hx.row, hs]; simp), if_neg (by rw [hx.pass]; omega)]
      simp only [hr, hrow, hpix, h1]
      rfl
    · intro j hj hP
      rw [h3]
      by_cases hq : pngInPass p (j / pngWays c) = true
      · rw [if_pos ⟨⟨Nat.zero_le _, by omega⟩, by rw [hx.pass, hq]; simp⟩]
        exact ⟨_, rfl, hf j hj hq⟩
      · rw [if_neg (by rw [hx.interlaced, hx.pass]; simp [hq])]
        exact hb.2 j hj (hP.resolve_right hq)

/-- The passes from number `p` on: all pixels of the row get stored, or libpng gives up. -/
theorem passes_defined {w c step : ℕ} (hc : c = 0 ∨ c = 2) (todo : ℕ) {p : ℕ} (hp : p + todo = 7) {x : PngCtx} (hx : x.At w c p) {P : ℕ → Prop}
    {buf : List (Option UInt8)} (hb : Stored (pngWays c) (w * pngWays c) (fun _ _ => True) P buf) :
    pngPasses lib step 1 todo x buf = some .exit ∨ ∃ buf' x', pngPasses lib step 1 todo x buf = some (.ret (buf', x')) ∧
      Stored (pngWays c) (w * pngWays c) (fun _ _ => True) (fun y => P y ∨ ∃ q, p ≤ q ∧ q < 7 ∧ pngSkips w q 0 = false ∧ pngInPass q y = true) buf' := by
  induction todo generalizing p x P buf with
  | zero =>
    refine Or.inr ⟨buf, x, rfl, hb.1, fun j hj h => hb.2 j hj (h.resolve_right ?_)⟩
    rintro ⟨q, h1, h2, _⟩
    omega
  | succ n ih =>
    obtain ⟨h1, h2, h3⟩ := pass_step (lib := lib) (todo := n) (step := step) hc (by omega) hx hb
    cases hs : pngSkips w p 0 with
    | true =>
      obtain ⟨x', g1, _, g3⟩ := h1 hs
      rw [g3]
      rcases ih (by omega) g1 hb with g | ⟨buf', x'', g4, g5, g6⟩
      · exact Or.inl g
      · refine Or.inr ⟨buf', x'', g4, g5, fun j hj h => g6 j hj (h.imp id ?_)⟩
        rintro ⟨q, k1, k2, k3, k4⟩
        rcases Nat.lt_or_ge p q with k | k
        · exact ⟨q, k, k2, k3, k4⟩
        · obtain rfl : p = q := by omega
          rw [hs] at k3; cases k3
    | false =>
      cases hr : lib.row x.state with
      | exit => exact Or.inl (h2 hs hr)
      | ret v =>
        obtain ⟨x', buf1, g1, _, g3, g4⟩ := h3 v.1 v.2 hs hr (fun _ _ _ => trivial)
        rw [g3]
        rcases ih (by omega) g1 g4 with g | ⟨buf', x'', g5, g6, g7⟩
        · exact Or.inl g
        · refine Or.inr ⟨buf', x'', g5, g6, fun j hj h => g7 j hj ?_⟩
          rcases h with h | ⟨q, k1, k2, k3, k4⟩
          · exact Or.inl (Or.inl h)
          · rcases Nat.lt_or_ge p q with k | k
            · exact Or.inr ⟨q, k, k2, k3, k4⟩
            · obtain rfl : p = q := by omega
              exact Or.inl (Or.inr k4)

theorem all_some {buf : List (Option UInt8)} (h : ∀ j < buf.length, ∃ b, buf[j]? = some (some b)) : ∃ bytes : List UInt8, buf = bytes.map some := by
  induction buf with
  | nil => exact ⟨[], rfl⟩
  | cons a l ih =>
    obtain ⟨b, hb⟩ := h 0 (by simp)
    obtain ⟨bs, hbs⟩ := ih (fun j hj => by simpa using h (j + 1) (by simpa using hj))
    simp only [List.getElem?_cons_zero, Option.some.injEq] at hb
    exact ⟨b :: bs, by rw [hb, hbs]; rfl⟩

theorem column_pass {w y : ℕ} (h : y < w) : ∃ q, 0 ≤ q ∧ q < 7 ∧ pngSkips w q 0 = false ∧ pngInPass q y = true := by
  by_cases h0 : y % 8 = 0
  · exact ⟨0, by omega, by omega, rfl, by simp [pngInPass, h0]⟩
  by_cases h1 : y % 8 = 4
  · exact ⟨1, by omega, by omega, by simp [pngSkips]; omega, by simp [pngInPass, h1]⟩
  by_cases h2 : y % 4 = 2
  · exact ⟨3, by omega, by omega, by simp [pngSkips]; omega, by simp [pngInPass, h2]⟩
  · exact ⟨5, by omega, by omega, by simp [pngSkips]; omega, by simp [pngInPass]; omega⟩

/-- Reading the only row: everything is stored, or libpng gives up. -/
theorem passes_row {w c step : ℕ} (hc : c = 0 ∨ c = 2) {x : PngCtx} (hx : x.At w c 0) :
    pngPasses lib step 1 7 x (List.replicate (w * pngWays c) none) = some .exit ∨
    ∃ (bytes : List UInt8) (x' : PngCtx), pngPasses lib step 1 7 x (List.replicate (w * pngWays c) none) = some (.ret (bytes.map some, x')) ∧ bytes.length = w * pngWays c := by
  have hpos : 0 < pngWays c := by rcases hc with rfl | rfl <;> decide
  rcases passes_defined (lib := lib) (step := step) hc 7 rfl hx (P := fun _ => False)
    (buf := List.replicate (w * pngWays c) none) ⟨by simp, fun _ _ h => h.elim⟩ with h | ⟨buf', x', h1, h2, h3⟩
  · exact Or.inl h
  · obtain ⟨bytes, rfl⟩ := all_some (buf := buf') (fun j hj => by
      rw [h2] at hj
      obtain ⟨b, hb, _⟩ := h3 j hj (Or.inr (column_pass (Nat.div_lt_of_lt_mul (by rw [Nat.mul_comm]; exact hj))))
      exact ⟨b, hb⟩)
    exact Or.inr ⟨bytes, x', h1, by simpa using h2⟩

/-- A pass that belongs to the row, by the order in the file. -/
theorem pass_weaves {w c p todo step : ℕ} (hc : c = 0 ∨ c = 2) (hp : p < 7) {x : PngCtx} (hx : x.At w c p) {row : List UInt8} {P q : ℕ → Prop}
    {ps : List (ℕ → Prop)} {buf : List (Option UInt8)} (hl : row.length = w * pngWays c)
    (hb : Stored (pngWays c) (w * pngWays c) (fun j b => row[j]? = some b) P buf) (hq : ∀ y, q y ↔ pngInPass p y = true)
    (hs : pngSkips w p 0 = true ↔ ∀ y < w, ¬ q y) (h : lib.Weaves w (pngWays c) row x.state (q :: ps)) :
    ∃ x' buf', x'.At w c (p + 1) ∧ lib.Weaves w (pngWays c) row x'.state ps ∧ pngPasses lib step 1 (todo + 1) x buf = pngPasses lib step 1 todo x' buf' ∧
      Stored (pngWays c) (w * pngWays c) (fun j b => row[j]? = some b) (fun y => P y ∨ q y) buf' := by
  have hpos : 0 < pngWays c := by rcases hc with rfl | rfl <;> decide
  obtain ⟨h1, h2, h3⟩ := pass_step (lib := lib) (todo := todo) (step := step) hc hp hx hb
  cases h with
  | empty k1 k2 =>
    obtain ⟨x', g1, g2, g3⟩ := h1 (hs.mpr k1)
    refine ⟨x', buf, g1, by rw [g2]; exact k2, g3, hb.1, fun j hj hP => hb.2 j hj (hP.resolve_right (k1 _ ?_))⟩
    exact Nat.div_lt_of_lt_mul (by rw [Nat.mul_comm]; exact hj)
  | more k1 k2 k3 k4 k5 =>
    have hs' : pngSkips w p 0 = false := by
      cases h : pngSkips w p 0 with
      | false => rfl
      | true => exact absurd k2 (hs.mp h _ k1)
    obtain ⟨x', buf', g1, g2, g3, g4, g5⟩ := h3 _ _ hs' k3 (fun j hj hin => by
      rw [k4 j (by omega) ((hq _).mpr hin)]
      exact List.getElem?_eq_getElem _)
    refine ⟨x', buf', g1, by rw [g2]; exact k5, g3, g4, fun j hj hP => g5 j hj (hP.imp id (hq _).mp)⟩

theorem passes_weaves {w c step : ℕ} (hc : c = 0 ∨ c = 2) {x : PngCtx} (hx : x.At w c 0) {row : List UInt8} (hl : row.length = w * pngWays c) (hw : 0 < w)
    (h : lib.Weaves w (pngWays c) row x.state rowPasses) :
    ∃ x', pngPasses lib step 1 7 x (List.replicate (w * pngWays c) none) = some (.ret (row.map some, x')) := by
  have hpos : 0 < pngWays c := by rcases hc with rfl | rfl <;> decide
  have s0 : Stored (pngWays c) (w * pngWays c) (fun j b => row[j]? = some b) (fun _ => False) (List.replicate (w * pngWays c) none) :=
    ⟨by simp, fun _ _ h => h.elim⟩
  unfold rowPasses at h
  obtain ⟨x1, b1, a1, w1, e1, s1⟩ := pass_weaves (step := step) (todo := 6) hc (by omega) hx hl s0 (by simp [pngInPass])
    (by constructor
        · intro h; simp [pngSkips] at h
        · intro h; exact absurd rfl (h 0 hw)) h
  obtain ⟨x2, b2, a2, w2, e2, s2⟩ := pass_weaves (step := step) (todo := 5) hc (by omega) a1 hl s1 (by simp [pngInPass])
    (by constructor
        · intro h y hy; simp [pngSkips] at h; omega
        · intro h; simp only [pngSkips]; by_contra hn; simp at hn; exact h 4 (by omega) rfl) w1
  obtain ⟨x3, a3, t3, e3⟩ := pass_none (lib := lib) (step := step) (todo := 4) a2 rfl b2
  rw [← t3] at w2
  obtain ⟨x4, b4, a4, w4, e4, s4⟩ := pass_weaves (step := step) (todo := 3) hc (by omega) a3 hl s2 (by simp [pngInPass])
    (by constructor
        · intro h y hy; simp [pngSkips] at h; omega
        · intro h; simp only [pngSkips]; by_contra hn; simp at hn; exact h 2 (by omega) rfl) w2
  obtain ⟨x5, a5, t5, e5⟩ := pass_none (lib := lib) (step := step) (todo := 2) a4 rfl b4
  rw [← t5] at w4
  obtain ⟨x6, b6, a6, w6, e6, s6⟩ := pass_weaves (step := step) (todo := 1) hc (by omega) a5 hl s4 (by simp [pngInPass])
    (by constructor
        · intro h y hy; simp [pngSkips] at h; omega
        · intro h; simp only [pngSkips]; by_contra hn; simp at hn; exact h 1 (by omega) rfl) w4
  obtain ⟨x7, a7, t7, e7⟩ := pass_none (lib := lib) (step := step) (todo := 0) a6 rfl b6
  refine ⟨x7, ?_⟩
  rw [e1, e2, e3, e4, e5, e6, e7]
  have : b6 = row.map some := by
    refine List.ext_getElem? (fun j => ?_)
    rcases Nat.lt_or_ge j (w * pngWays c) with hj | hj
    · obtain ⟨b, h1, h2⟩ := s6.2 j hj (by omega)
      rw [h1, List.getElem?_map, h2]
      rfl
    · rw [List.getElem?_eq_none (by rw [s6.1]; exact hj), List.getElem?_eq_none (by rw [List.length_map, hl]; exact hj)]
  rw [this]
  rfl

theorem PngCtx.Woven.at {x : PngCtx} {w : ℕ} (h : x.Woven w 1) : x.At w x.color 0 := ⟨h.depth, rfl, h.width, h.interlaced, h.numRows, h.row, h.pass⟩

theorem pngRead_row {x : PngCtx} {img : List Fl} {w : ℕ} (hw : Within s.cfg w 1) (hx : x.Woven w 1) (heof : x.eof = false) (hl : w * 1 ≤ img.length) :
    Act False F ((Ctx.png x).blocks ++ L) S (pngRead s lib x img w 1) (fun a L' S' => x.Ended a.2.2.2 ∧
      L' = (Ctx.png x).blocks ++ L ∧ S' = S ∧
      ((a.1 = false ∧ a.2.1 = RDENOMEM ∧ F) ∨
       (a.1 = false ∧ a.2.1 = RDEINVAL ∧ ((∀ row : List UInt8, row.length = w * pngWays x.color → ¬ lib.Weaves w (pngWays x.color) row x.state rowPasses) ∨
          lib.end' = .exit)) ∨
       (∃ dots : List Dot, a.1 = true ∧ a.2.1 = RDEOK ∧ a.2.2.1 = fill img 0 (dots.map Dot.sample) ∧
         dots.length = w ∧ (∀ d ∈ dots, d.isColour = decide (x.color = 2)) ∧
         ∀ row : List UInt8, row.length = w * pngWays x.color → lib.Weaves w (pngWays x.color) row x.state rowPasses → row = (dots.map Dot.bytes).flatten))) := by
  unfold pngRead
  refine Act.skip (Act.touch (by simp [Ctx.blocks])) ?_
  rw [if_neg (by simp [heof])]
  obtain ⟨p, hp⟩ := Option.isSome_iff_exists.mp hx.png
  refine Act.bind (Act.need (Q := fun a l s' => a = p ∧ l = (Ctx.png x).blocks ++ L ∧ s' = S) hp ⟨rfl, rfl, rfl⟩) ?_
  rintro _ _ S1 ⟨rfl, rfl, e1⟩
  subst S1
  refine Act.skip (Act.touch (by simp [Ctx.blocks, hp])) ?_
  refine Act.bind Act.malloc ?_
  rintro r L1 S1 ⟨hS1, ⟨rfl, rfl, hF⟩ | ⟨b, rfl, rfl⟩⟩ <;> subst S1
  · exact Act.pure ⟨⟨⟨rfl, rfl, rfl, rfl, rfl, rfl, rfl, rfl, rfl⟩, rfl⟩, rfl, rfl, Or.inl ⟨rfl, rfl, hF⟩⟩
  have hways : (if x.color &&& maskColor ≠ 0 then 3 else 1) = pngWays x.color := rfl
  have h3 : pngWays x.color ≤ 3 := by unfold pngWays; split <;> omega
  simp only [hx.interlaced, if_true, hways]
  rw [hw.pixels, (hw.row h3).1, (hw.row h3).2, Nat.mul_one]
  have hrow := passes_row (lib := lib) (step := w * pngWays x.color) hx.color hx.at
  have hweave : ∀ row : List UInt8, row.length = w * pngWays x.color → lib.Weaves w (pngWays x.color) row x.state rowPasses →
      ∃ x', pngPasses lib (w * pngWays x.color) 1 7 x (List.replicate (w * pngWays x.color) none) = some (.ret (row.map some, x')) :=
    fun row h1 h2 => passes_weaves hx.color hx.at h1 hw.1 h2
  rcases hrow with e1 | ⟨bytes, x', e1, e2⟩
  · have hno : ∀ row : List UInt8, row.length = w * pngWays x.color → ¬ lib.Weaves w (pngWays x.color) row x.state rowPasses := by
      intro row h1 h2
      obtain ⟨x', h⟩ := hweave row h1 h2
      rw [e1] at h; cases h
    rw [e1]
    refine Act.bind (Act.lift (Q := fun a l s' => a = .exit ∧ l = b :: ((Ctx.png x).blocks ++ L) ∧ s' = S) (by simp)
      (fun a ha => ⟨(Option.some.inj ha).symm, rfl, rfl⟩)) ?_
    rintro _ _ _ ⟨rfl, rfl, rfl⟩
    refine Act.bind (Act.free (List.Perm.refl _)) ?_
    rintro _ _ _ ⟨rfl, rfl⟩
    exact Act.pure ⟨⟨⟨rfl, rfl, rfl, rfl, rfl, rfl, rfl, hx.interlaced.symm, rfl⟩, rfl⟩, rfl, rfl, Or.inr (Or.inl ⟨rfl, rfl, Or.inl hno⟩)⟩
  · have hsame := pngPasses_same e1
    have hend : x.Ended { x' with eof := true } :=
      ⟨⟨hsame.block, hsame.f, hsame.png, hsame.info, hsame.width, hsame.color, hsame.depth, hsame.interlaced, hsame.numRows⟩, rfl⟩
    rw [e1]
    refine Act.bind (Act.lift (Q := fun a l s' => a = .ret (bytes.map some, x') ∧ l = b :: ((Ctx.png x).blocks ++ L) ∧ s' = S) (by simp)
      (fun a ha => ⟨(Option.some.inj ha).symm, rfl, rfl⟩)) ?_
    rintro _ _ S1 ⟨rfl, rfl, e5⟩
    subst S1
    simp only
    cases hend' : lib.end' with
    | exit =>
      refine Act.bind (Act.free (List.Perm.refl _)) ?_
      rintro _ _ _ ⟨rfl, rfl⟩
      exact Act.pure ⟨hend, rfl, rfl, Or.inr (Or.inl ⟨rfl, rfl, Or.inr rfl⟩)⟩
    | ret u =>
      simp only
      obtain ⟨dots, h1, h2, h3⟩ := dots_of hx.color e2
      have hconv := pngConvert_eq hx.color h3 (pre := []) (i := 0) (by simp) (img := img) (by omega)
      simp only [List.nil_append, h2] at hconv
      rw [h1, hconv]
      refine Act.bind (Act.lift (Q := fun a l s' => a = fill img 0 (dots.map Dot.sample) ∧ l = b :: ((Ctx.png x).blocks ++ L) ∧ s' = S) (by simp)
        (fun a ha => ⟨(Option.some.inj ha).symm, rfl, rfl⟩)) ?_
      rintro _ _ _ ⟨rfl, rfl, rfl⟩
      refine Act.bind (Act.free (List.Perm.refl _)) ?_
      rintro _ _ _ ⟨rfl, rfl⟩
      refine Act.pure ⟨hend, rfl, rfl, Or.inr (Or.inr ⟨dots, rfl, rfl, rfl, h2, h3, fun row g1 g2 => ?_⟩)⟩
      obtain ⟨x'', g⟩ := hweave row g1 g2
      rw [e1] at g
      simp only [Option.some.injEq, PRet.ret.injEq, Prod.mk.injEq] at g
      rw [← h1]
      exact (List.map_injective_iff.mpr (Option.some_injective _) g.1).symm

/-- A context with this row still to come, or at the end. -/
def RowShows (lib : Png) (W : ℕ) (dots : List Dot) (x : Ctx) (frames : List (List Fl)) : Prop :=
  ∃ y, x = .png y ∧ frames = (if y.eof then [] else [dots.map Dot.sample]) ∧ dots.length = W ∧
    (y.eof = false → y.Woven W 1 ∧ lib.end' = .ret () ∧ (∀ d ∈ dots, d.isColour = decide (y.color = 2)) ∧
      (dots.map Dot.bytes).flatten.length = W * pngWays y.color ∧ lib.Weaves W (pngWays y.color) (dots.map Dot.bytes).flatten y.state rowPasses)

theorem row_player {W : ℕ} {dots : List Dot} (hw : Within s.cfg W 1) : Player (pngReader s fs lib) W 1 IsPng (RowShows lib W dots) where
  length := by
    rintro x f fs' ⟨y, rfl, hf, hl, _⟩
    cases he : y.eof with
    | true => rw [he] at hf; cases hf
    | false =>
      rw [he] at hf
      cases hf
      rw [List.length_map, hl, Nat.mul_one]
  read := by
    rintro x frames img L S ⟨y, rfl, hf, hd, hy⟩ hok hl
    cases he : y.eof with
    | true =>
      rw [he] at hf
      simp only [if_true] at hf
      subst hf
      show Act _ _ _ _ (pngRead s lib y img W 1 >>= _) _
      have h1 : Act False False ((Ctx.png y).blocks ++ L) ((Ctx.png y).files ++ S) (pngRead s lib y img W 1)
          (fun a L' S' => a = (false, RDEOK, img, y) ∧ L' = (Ctx.png y).blocks ++ L ∧ S' = (Ctx.png y).files ++ S) := by
        unfold pngRead
        refine Act.skip (Act.touch (by simp [Ctx.blocks])) ?_
        rw [if_pos he]
        exact Act.pure ⟨rfl, rfl, rfl⟩
      refine Act.bind h1 ?_
      rintro _ _ _ ⟨rfl, rfl, rfl⟩
      exact Act.pure ⟨.png y, rfl, ⟨y, rfl, by simp [he], hd, by simp [he]⟩, hok, rfl, rfl⟩
    | false =>
      obtain ⟨h1, h2, h3, h4, h5⟩ := hy he
      rw [he] at hf
      simp only [Bool.false_eq_true, if_false] at hf
      subst hf
      refine Act.bind (pngRead_row hw h1 he hl.ge) ?_
      rintro ⟨r, e, img', x'⟩ _ _ ⟨hend, rfl, rfl, ⟨_, _, h⟩ | ⟨_, _, h | h⟩ | ⟨dots', rfl, rfl, rfl, g1, g2, g3⟩⟩
      · exact h.elim
      · exact absurd h5 (h _ h4)
      · rw [h2] at h; cases h
      · have e2 : dots = dots' := Dot.flatten_inj h3 g2 (g3 _ h4 h5)
        subst e2
        simp only at hend ⊢
        refine Act.pure ⟨.png x', ?_, ⟨x', rfl, by simp [hend.eof], hd, by simp [hend.eof]⟩, ?_, ?_, ?_⟩
        · rw [fill_zero (l := img) (by rw [List.length_map, hd, hl, Nat.mul_one])]; rfl
        · show x'.png = none → x'.info = none
          rw [hend.png, hend.info]; exact hok
        · simp only [Ctx.blocks, hend.block, hend.png, hend.info]
        · simp only [Ctx.files, hend.f]
  seek := by
    rintro x frames L S k ⟨y, rfl, hf, hd, hy⟩ hok
    have h1 : Act False False ((Ctx.png y).blocks ++ L) ((Ctx.png y).files ++ S) (pngSeek y k true)
        (fun a L' S' => a = ((singleSeek y.eof k true).1, RDEOK, (singleSeek y.eof k true).2.1, { y with eof := (singleSeek y.eof k true).2.2 }) ∧
          L' = (Ctx.png y).blocks ++ L ∧ S' = (Ctx.png y).files ++ S) := by
      unfold pngSeek
      refine Act.skip (Act.touch (by simp [Ctx.blocks])) ?_
      exact Act.pure ⟨rfl, rfl, rfl⟩
    refine Act.bind h1 ?_
    rintro _ _ _ ⟨rfl, rfl, rfl⟩
    obtain ⟨e1, e2⟩ := singleSeek_eq (eof := y.eof) (k := k) (dots.map Dot.sample)
    subst hf
    rw [e1, e2]
    refine Act.pure ⟨_, rfl, ⟨_, rfl, rfl, hd, ?_⟩, hok, rfl, rfl⟩
    intro h
    simp only [Bool.or_eq_false_iff] at h
    obtain ⟨h1, h2⟩ := hy h.1
    exact ⟨⟨h1.png, h1.depth, h1.color, h1.width, h1.interlaced, h1.numRows, h1.row, h1.pass⟩, h2⟩

/-- Opening a file with one interlaced row. -/
theorem row_open {name file : List UInt8} {k : Kind} {i : PngInfo} {row : List Dot} (hh : fs.Holds name (file, k)) (hd : lib.DecodesRow file i row) (L S : List ℕ) :
    Act False False L S ((pngReader s fs lib).open' name) (fun a _ _ => ∃ x, a = (some x, i.width, 1, RDEOK) ∧
      RowShows lib i.width row x [row.map Dot.sample]) := by
  obtain ⟨st, h1, h2, h3⟩ := hd.startup
  refine Act.mono (png_open hh h1 L S) ?_
  rintro a _ _ ⟨y, rfl, y1, y2, y3, y4, y5, y6, y7, y8, y9⟩
  have hr := png_woven hd.legal hd.interlaced y9 y2 y3 y4 y5 y6 y7
  rw [hd.height] at hr ⊢
  have hc : (y.color = 2) = (i.color ∈ [2, 3, 6]) := by
    rw [png_transformed hd.legal, Prod.mk.injEq] at y3
    rw [y3.1]
    split <;> simp_all
  have hkind : ∀ d ∈ row, d.isColour = decide (y.color = 2) := by simpa only [hc] using hd.kind
  have hways : (if i.color ∈ [2, 3, 6] then 3 else 1) = pngWays y.color := by
    simp only [← hc]
    rcases hr.color with h | h <;> rw [h] <;> rfl
  rw [hways] at h2
  refine ⟨_, rfl, y, rfl, by rw [y8]; rfl, hd.width, fun _ => ⟨hr, h3, hkind, ?_, by rw [y1]; exact h2⟩⟩
  have hb : ∀ d ∈ row.map Dot.bytes, d.length = pngWays y.color := by
    intro d hd1
    obtain ⟨d', hd2, rfl⟩ := List.mem_map.mp hd1
    have := hkind d' hd2
    rcases hr.color with h | h <;> rw [h] at this ⊢ <;> cases d' <;> first | rfl | cases this
  rw [flatten_length_eq hb, List.length_map, hd.width]

/-- Contexts that are safe to read, with interlaced rows. -/
def RowSafe : Ctx → ℕ → ℕ → Prop
  | .png x, w, h => x.eof = false → x.Ready w h ∨ h = 1 ∧ x.Woven w 1
  | _, _, _ => False

theorem row_defined {name d : List UInt8} {k : Kind} {wantBuf : Bool} (hh : fs.Holds name (d, k))
    (hs : ∀ i st, lib.startup d = some (i, st) → i.Legal ∧ (i.interlaced = true → i.height = 1)) :
    Defined (openImage s (some (pngReader s fs lib)) name wantBuf) := by
  refine defined_of (png_sound s fs lib True) (G := RowSafe) ?_ ?_ ?_
  · intro L S x img w h hx hg hw hl
    cases x with
    | png x =>
      cases he : x.eof with
      | true =>
        refine Act.bind (P := fun a _ _ => a.2.2.2 = x) ?_ ?_
        · unfold pngRead
          refine Act.skip (Act.touch (by simp [Ctx.blocks])) ?_
          rw [if_pos he]
          exact Act.pure rfl
        · rintro ⟨r, e, img', x'⟩ _ _ rfl
          exact Act.pure hg
      | false =>
        rcases hg he with hr | ⟨rfl, hr⟩
        · refine Act.bind (pngRead_ready hw hr he hl) ?_
          rintro ⟨r, e, img', x'⟩ _ _ ⟨hend, _⟩
          refine Act.pure ?_
          intro h
          simp only at h hend
          rw [hend.eof] at h; cases h
        · refine Act.bind (pngRead_row hw hr he hl) ?_
          rintro ⟨r, e, img', x'⟩ _ _ ⟨hend, _⟩
          refine Act.pure ?_
          intro h
          simp only at h hend
          rw [hend.eof] at h; cases h
    | _ => exact hx.elim
  · intro L S x k p w h hx hg hw
    cases x with
    | png x =>
      refine Act.bind (P := fun a _ _ => ∃ e, a.2.2.2 = { x with eof := x.eof || e }) ?_ ?_
      · unfold pngSeek
        refine Act.skip (Act.touch (by simp [Ctx.blocks])) ?_
        have e1 : (singleSeek x.eof k p).2.2 = (x.eof || decide (0 < k)) := by
          unfold singleSeek
          cases x.eof <;> cases k <;> simp
        refine Act.pure ⟨decide (0 < k), ?_⟩
        show ({ x with eof := (singleSeek x.eof k p).2.2 } : PngCtx) = _
        rw [e1]
      · rintro ⟨r, e, calls, x'⟩ _ _ ⟨e', rfl⟩
        refine Act.pure ?_
        intro h
        simp only [Bool.or_eq_false_iff] at h
        rcases hg h.1 with h1 | ⟨h0, h1⟩
        · exact Or.inl ⟨h1.png, h1.depth, h1.color, h1.width, h1.interlaced, h1.numRows, h1.row, h1.pass⟩
        · exact Or.inr ⟨h0, h1.png, h1.depth, h1.color, h1.width, h1.interlaced, h1.numRows, h1.row, h1.pass⟩
    | _ => exact hx.elim
  · intro L S
    refine Act.bind pngOpen_act ?_
    rintro ⟨o, W', H', e⟩ L' S' (⟨h0, x, d', k', i', rfl, h1, h2, h3, h4, h5, h6, h7, h8, h9, h10, h11, h12, rfl, rfl⟩ | ⟨_, rfl, _⟩)
    · cases hh.unique h1
      refine Act.pure ?_
      intro x' hx'
      simp only [Option.map_some, Option.some.injEq] at hx'
      subst hx'
      intro _
      simp only at h3 h4
      obtain ⟨g1, g2⟩ := hs _ _ h2
      simp only [h3, h4]
      cases hi : i'.interlaced with
      | false => exact Or.inl (png_ready g1 hi h12 h5 h6 h7 h8 h9 h10)
      | true =>
        have := png_woven g1 hi h12 h5 h6 h7 h8 h9 h10
        rw [g2 hi] at this ⊢
        exact Or.inr ⟨rfl, this⟩
    · refine Act.pure ?_
      intro x hx
      cases hx

end Verif
