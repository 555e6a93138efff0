import Verif.Proofs.PngPlay

/-! The PNG reader: reading an interlaced image.  libpng has been told of the interlace handling after it had prepared for the
rows (libpng.c:97, 126), and so goes through the seven passes with the number of rows of the first one. -/

namespace Verif
open Spec

variable {U F : Prop} {L S : List ℕ} {lib : Png} {fs : Fs} {s : Sys}

/-- The calls of `png_read_row` behind a context. -/
def PngCtx.pos (x : PngCtx) : ℕ := x.pass * x.numRows + x.row

theorem PngCtx.next_pos {x : PngCtx} (hi : x.interlaced = true) (hr : x.row < x.numRows) : x.next.pos = x.pos + 1 ∧ x.next.row < x.next.numRows := by
  unfold PngCtx.next PngCtx.pos
  simp only [hi, if_true]
  split
  · exact ⟨rfl, by simpa using ‹_›⟩
  · have h : x.row + 1 = x.numRows := by omega
    refine ⟨?_, by simp only; omega⟩
    simp only
    rw [Nat.succ_mul, Nat.add_zero, Nat.add_assoc, h]

theorem PngCtx.pos_unique {x : PngCtx} {p r : ℕ} (hr : x.row < x.numRows) (h : x.pos = p * x.numRows + r) (hr' : r < x.numRows) : x.pass = p ∧ x.row = r := by
  unfold PngCtx.pos at h
  have e1 : (x.pass * x.numRows + x.row) % x.numRows = (p * x.numRows + r) % x.numRows := by rw [h]
  rw [Nat.mul_comm x.pass, Nat.mul_comm p, Nat.mul_add_mod, Nat.mul_add_mod, Nat.mod_eq_of_lt hr, Nat.mod_eq_of_lt hr'] at e1
  rw [e1] at h
  exact ⟨Nat.eq_of_mul_eq_mul_right (by omega) (Nat.add_right_cancel h), e1⟩

theorem pngReadRow_pos {x x' : PngCtx} {buf buf' : List (Option UInt8)} {it : ℕ} (hi : x.interlaced = true) (hr : x.row < x.numRows)
    (hn : 2 ≤ x.numRows) (h : pngReadRow lib x buf it = some (.ret (buf', x'))) :
    x'.pos = x.pos + 1 ∧ x'.row < x'.numRows ∧ x.pos ≠ 7 * x.numRows + 1 := by
  unfold pngReadRow at h
  have hne : x.pos = 7 * x.numRows + 1 → ¬ pngSkips x.width x.pass x.row = true ∧ 7 ≤ x.pass := by
    intro h1
    obtain ⟨h2, h3⟩ := PngCtx.pos_unique hr h1 (by omega)
    rw [h2, h3]
    simp [pngSkips]
  split at h
  · rename_i h1
    cases h
    obtain ⟨h2, h3⟩ := PngCtx.next_pos hi hr
    exact ⟨h2, h3, fun h4 => (hne h4).1 (by simpa [hi] using h1)⟩
  · split at h
    · cases h
    · split at h
      · cases h
      · rename_i bytes st _
        simp only [Option.bind_eq_bind, Option.bind_eq_some_iff] at h
        obtain ⟨_, _, h⟩ := h
        cases h
        obtain ⟨h2, h3⟩ := PngCtx.next_pos (x := { x with state := st }) hi hr
        exact ⟨h2, h3, fun h4 => absurd (hne h4).2 ‹_›⟩

theorem pngRows_pos {step todo it : ℕ} {x x' : PngCtx} {buf buf' : List (Option UInt8)} (hi : x.interlaced = true) (hr : x.row < x.numRows)
    (hn : 2 ≤ x.numRows) (h : pngRows lib step todo it x buf = some (.ret (buf', x'))) :
    x'.pos = x.pos + todo ∧ x'.row < x'.numRows ∧ ¬ (x.pos ≤ 7 * x.numRows + 1 ∧ 7 * x.numRows + 1 < x.pos + todo) := by
  induction todo generalizing it x buf with
  | zero => cases h; exact ⟨rfl, hr, by omega⟩
  | succ n ih =>
    unfold pngRows at h
    simp only [Option.bind_eq_bind, Option.bind_eq_some_iff] at h
    obtain ⟨r, h1, h2⟩ := h
    cases r with
    | exit => cases h2
    | ret r =>
      obtain ⟨b, y⟩ := r
      simp only at h2
      have hs := pngReadRow_same h1
      obtain ⟨h3, h4, h5⟩ := pngReadRow_pos hi hr hn h1
      obtain ⟨h6, h7, h8⟩ := ih (hs.interlaced.trans hi) h4 (by rw [hs.numRows]; exact hn) h2
      rw [hs.numRows] at h8
      exact ⟨by omega, h7, by omega⟩

theorem pngPasses_pos {step height todo : ℕ} {x x' : PngCtx} {buf buf' : List (Option UInt8)} (hi : x.interlaced = true) (hr : x.row < x.numRows)
    (hn : 2 ≤ x.numRows) (h : pngPasses lib step height todo x buf = some (.ret (buf', x'))) :
    ¬ (x.pos ≤ 7 * x.numRows + 1 ∧ 7 * x.numRows + 1 < x.pos + todo * height) := by
  induction todo generalizing x buf with
  | zero => omega
  | succ n ih =>
    unfold pngPasses at h
    simp only [Option.bind_eq_bind, Option.bind_eq_some_iff] at h
    obtain ⟨r, h1, h2⟩ := h
    cases r with
    | exit => cases h2
    | ret r =>
      obtain ⟨b, y⟩ := r
      simp only at h2
      have hs := pngRows_same h1
      obtain ⟨h3, h4, h5⟩ := pngRows_pos hi hr hn h1
      have h6 := ih (hs.interlaced.trans hi) h4 (by rw [hs.numRows]; exact hn) h2
      rw [hs.numRows, h3] at h6
      have e1 : (n + 1) * height = n * height + height := Nat.succ_mul n height
      omega

/-! ## The rows stay within the buffer -/

theorem pngCombine_fits {p : ℕ → Bool} {bytes : ℕ → UInt8} {it todo i : ℕ} {buf : List (Option UInt8)} (h : it + (i + todo) ≤ buf.length) :
    ∃ buf', pngCombine p bytes it todo i buf = some buf' ∧ buf'.length = buf.length := by
  induction todo generalizing i buf with
  | zero => exact ⟨buf, rfl, rfl⟩
  | succ n ih =>
    unfold pngCombine
    split
    · rw [wr_some (by omega)]
      obtain ⟨b, h1, h2⟩ := ih (i := i + 1) (buf := buf.set (it + i) (some (bytes i))) (by simp; omega)
      exact ⟨b, by simpa using h1, by simpa using h2⟩
    · obtain ⟨b, h1, h2⟩ := ih (i := i + 1) (buf := buf) (by omega)
      exact ⟨b, by simpa using h1, h2⟩

theorem pngReadRow_fits {x : PngCtx} {it : ℕ} {buf : List (Option UInt8)} (h : it + pngRowBytes x.color x.depth x.width ≤ buf.length) :
    pngReadRow lib x buf it = some .exit ∨ ∃ buf' x', pngReadRow lib x buf it = some (.ret (buf', x')) ∧ buf'.length = buf.length := by
  unfold pngReadRow
  split
  · exact Or.inr ⟨_, _, rfl, rfl⟩
  · split
    · exact Or.inl rfl
    · split
      · exact Or.inl rfl
      · rename_i bytes st _
        obtain ⟨b, h1, h2⟩ := pngCombine_fits (p := fun i => !x.interlaced || pngInPass x.pass (i / max 1 (pngChannels x.color * x.depth / 8)))
          (bytes := bytes) (it := it) (todo := pngRowBytes x.color x.depth x.width) (i := 0) (buf := buf) (by omega)
        exact Or.inr ⟨b, ({ x with state := st } : PngCtx).next, by simp only [h1]; rfl, h2⟩

theorem pngRows_fits {step todo it : ℕ} {x : PngCtx} {buf : List (Option UInt8)} (hs : pngRowBytes x.color x.depth x.width = step)
    (h : it + todo * step ≤ buf.length) :
    pngRows lib step todo it x buf = some .exit ∨ ∃ buf' x', pngRows lib step todo it x buf = some (.ret (buf', x')) ∧ buf'.length = buf.length := by
  induction todo generalizing it x buf with
  | zero => exact Or.inr ⟨_, _, rfl, rfl⟩
  | succ n ih =>
    rw [Nat.succ_mul] at h
    unfold pngRows
    rcases pngReadRow_fits (lib := lib) (x := x) (it := it) (buf := buf) (by omega) with h1 | ⟨b, y, h1, h2⟩
    · left; rw [h1]; rfl
    · have hy := pngReadRow_same h1
      rw [h1]
      simp only [Option.bind_eq_bind, Option.bind_some]
      rw [← h2]
      exact ih (by rw [hy.color, hy.depth, hy.width]; exact hs) (by omega)

theorem pngPasses_fits {step height todo : ℕ} {x : PngCtx} {buf : List (Option UInt8)} (hs : pngRowBytes x.color x.depth x.width = step)
    (h : height * step ≤ buf.length) :
    pngPasses lib step height todo x buf = some .exit ∨
      ∃ buf' x', pngPasses lib step height todo x buf = some (.ret (buf', x')) ∧ buf'.length = buf.length := by
  induction todo generalizing x buf with
  | zero => exact Or.inr ⟨_, _, rfl, rfl⟩
  | succ n ih =>
    unfold pngPasses
    rcases pngRows_fits (lib := lib) (x := x) (it := 0) (todo := height) (buf := buf) hs (by omega) with h1 | ⟨b, y, h1, h2⟩
    · left; rw [h1]; rfl
    · have hy := pngRows_same h1
      rw [h1]
      simp only [Option.bind_eq_bind, Option.bind_some]
      rw [← h2]
      exact ih (by rw [hy.color, hy.depth, hy.width]; exact hs) (by omega)

/-! ## One row per pass -/

theorem pngCombine_keep {p : ℕ → Bool} {bytes : ℕ → UInt8} {it todo i j : ℕ} {buf buf' : List (Option UInt8)}
    (h : pngCombine p bytes it todo i buf = some buf') (hj : ∀ k, i ≤ k → k < i + todo → p k = true → it + k ≠ j) : buf'[j]? = buf[j]? := by
  induction todo generalizing i buf with
  | zero => cases h; rfl
  | succ n ih =>
    have hrest : ∀ k, i + 1 ≤ k → k < i + 1 + n → p k = true → it + k ≠ j := fun k h3 h4 h5 => hj k (by omega) (by omega) h5
    unfold pngCombine at h
    simp only [Option.bind_eq_bind] at h
    split at h
    · rename_i hp
      have hne := hj i (le_refl _) (by omega) hp
      obtain ⟨b, h1, h2⟩ := Option.bind_eq_some_iff.mp h
      rw [ih h2 hrest]
      unfold wr at h1
      split at h1
      · cases h1
        rw [List.getElem?_set_ne hne]
      · cases h1
    · exact ih h hrest

/-- The start of the second row of the image is never written. -/
theorem pngReadRow_keep {x x' : PngCtx} {step y : ℕ} {buf buf' : List (Option UInt8)} (hi : x.interlaced = true) (hn : x.numRows = 1) (hr : x.row = 0)
    (hb : pngRowBytes x.color x.depth x.width = step) (hy : 1 ≤ y → 1 ≤ x.pass)
    (h : pngReadRow lib x buf (y * step) = some (.ret (buf', x'))) : buf'[step]? = buf[step]? ∧ x'.pass = x.pass + 1 ∧ x'.row = 0 := by
  have hnext : ∀ st, ({ x with state := st } : PngCtx).next.pass = x.pass + 1 ∧ ({ x with state := st } : PngCtx).next.row = 0 := by
    intro st
    unfold PngCtx.next
    rw [if_neg (by simp only; omega), if_pos hi]
    exact ⟨rfl, rfl⟩
  unfold pngReadRow at h
  split at h
  · cases h
    exact ⟨rfl, hnext x.state⟩
  · rename_i hskip
    split at h
    · cases h
    · split at h
      · cases h
      · rename_i hpass _ bytes st _
        simp only [Option.bind_eq_bind, Option.bind_eq_some_iff] at h
        obtain ⟨b, h1, h⟩ := h
        cases h
        refine ⟨pngCombine_keep h1 ?_, hnext st⟩
        intro k h2 h3 h4 h5
        rw [hb] at h3
        have hy1 : y = 1 := by
          rcases Nat.lt_trichotomy y 1 with h6 | h6 | h6
          · rw [show y = 0 by omega] at h5; omega
          · exact h6
          · have := Nat.mul_le_mul_right step h6; omega
        subst hy1
        have hk : k = 0 := by omega
        subst hk
        have hp1 := hy (le_refl _)
        simp only [hi, hr, Bool.not_true, Bool.false_or, Nat.zero_div] at h4 hskip
        generalize x.pass = p at *
        match p, hp1, hpass with
        | 1, _, _ => simp [pngInPass] at h4
        | 2, _, _ => simp [pngSkips] at hskip
        | 3, _, _ => simp [pngInPass] at h4
        | 4, _, _ => simp [pngSkips] at hskip
        | 5, _, _ => simp [pngInPass] at h4
        | 6, _, _ => simp [pngSkips] at hskip
        | p + 7, _, h => omega

theorem pngRows_keep {x x' : PngCtx} {step todo y : ℕ} {buf buf' : List (Option UInt8)} (hi : x.interlaced = true) (hn : x.numRows = 1) (hr : x.row = 0)
    (hb : pngRowBytes x.color x.depth x.width = step) (hy : 1 ≤ y → 1 ≤ x.pass)
    (h : pngRows lib step todo (y * step) x buf = some (.ret (buf', x'))) : buf'[step]? = buf[step]? ∧ x'.row = 0 := by
  induction todo generalizing y x buf with
  | zero => cases h; exact ⟨rfl, hr⟩
  | succ n ih =>
    unfold pngRows at h
    simp only [Option.bind_eq_bind, Option.bind_eq_some_iff] at h
    obtain ⟨r, h1, h2⟩ := h
    cases r with
    | exit => cases h2
    | ret r =>
      obtain ⟨b, z⟩ := r
      simp only at h2
      have hz := pngReadRow_same h1
      obtain ⟨h3, h4, h5⟩ := pngReadRow_keep hi hn hr hb hy h1
      rw [show y * step + step = (y + 1) * step by ring] at h2
      obtain ⟨h6, h7⟩ := ih (hz.interlaced.trans hi) (hz.numRows.trans hn) h5 (by rw [hz.color, hz.depth, hz.width]; exact hb) (fun _ => by omega) h2
      exact ⟨h6.trans h3, h7⟩

theorem pngPasses_keep {x x' : PngCtx} {step height todo : ℕ} {buf buf' : List (Option UInt8)} (hi : x.interlaced = true) (hn : x.numRows = 1)
    (hr : x.row = 0) (hb : pngRowBytes x.color x.depth x.width = step)
    (h : pngPasses lib step height todo x buf = some (.ret (buf', x'))) : buf'[step]? = buf[step]? := by
  induction todo generalizing x buf with
  | zero => cases h; rfl
  | succ n ih =>
    unfold pngPasses at h
    simp only [Option.bind_eq_bind, Option.bind_eq_some_iff] at h
    obtain ⟨r, h1, h2⟩ := h
    cases r with
    | exit => cases h2
    | ret r =>
      obtain ⟨b, z⟩ := r
      simp only at h2
      have hz := pngRows_same h1
      obtain ⟨h3, h4⟩ := pngRows_keep (y := 0) hi hn hr hb (by omega) (by simpa using h1)
      exact (ih (hz.interlaced.trans hi) (hz.numRows.trans hn) h4 (by rw [hz.color, hz.depth, hz.width]; exact hb) h2).trans h3

theorem pngConvert_none {buf : List (Option UInt8)} {ch todo i j : ℕ} {img : List Fl} (h : i ≤ j) (hj : j < i + todo)
    (hs : pngSum buf (j * ch) ch 0 (binary32.ofNat 0) = none) : pngConvert buf ch todo i img = none := by
  induction todo generalizing i img with
  | zero => omega
  | succ n ih =>
    unfold pngConvert
    by_cases hij : i = j
    · rw [hij, hs]; rfl
    · simp only [Option.bind_eq_bind, Option.bind_eq_none_iff]
      intro v _ img' _
      exact ih (by omega) (by omega)

/-! ## Reading -/

structure PngCtx.Woven (x : PngCtx) (w h : ℕ) : Prop where
  png : x.png.isSome
  depth : x.depth = 8
  color : x.color = 0 ∨ x.color = 2
  width : x.width = w
  interlaced : x.interlaced = true
  numRows : x.numRows = (h + 7) / 8
  row : x.row = 0
  pass : x.pass = 0

theorem png_woven {i : PngInfo} (hi : i.Legal) (hn : i.interlaced = true) {x : PngCtx} (hp : x.png.isSome) (h1 : x.width = i.width)
    (h2 : (x.color, x.depth) = pngTransformed i (pngRequests i)) (h3 : x.interlaced = i.interlaced) (h4 : x.numRows = pngNumRows i)
    (h5 : x.pass = 0) (h6 : x.row = 0) : x.Woven i.width i.height := by
  rw [png_transformed hi, Prod.mk.injEq] at h2
  refine ⟨hp, h2.2, ?_, h1, h3.trans hn, ?_, h6, h5⟩
  · rw [h2.1]; split <;> simp
  · rw [h4, pngNumRows, hn]; simp

theorem pngRead_woven {x : PngCtx} {img : List Fl} {w h : ℕ} (hw : Within s.cfg w h) (hx : x.Woven w h) (heof : x.eof = false) (hh : 2 ≤ h) :
    Act (h ≤ 8) F ((Ctx.png x).blocks ++ L) S (pngRead s lib x img w h) (fun a _ _ =>
      (a.1 = false ∧ a.2.2.1 = img) ∧ (a.2.1 = RDEINVAL ∨ a.2.1 = RDENOMEM ∧ F)) := by
  have hp := hw.pixels
  have hways := pngWays_cases hx.color
  have hle : pngWays x.color ≤ 3 := by rcases hways with ⟨_, h⟩ | ⟨_, h⟩ <;> omega
  have hpos : 0 < pngWays x.color := by rcases hways with ⟨_, h⟩ | ⟨_, h⟩ <;> omega
  have hrow := hw.row hle
  have hb : pngRowBytes x.color x.depth x.width = w * pngWays x.color := by rw [hx.depth, pngRowBytes_eq hx.color, hx.width]
  have hw0 : 0 < w := hw.1
  unfold pngRead
  refine Act.skip (Act.touch (by simp [Ctx.blocks])) ?_
  rw [if_neg (by simp [heof])]
  obtain ⟨p, hpng⟩ := Option.isSome_iff_exists.mp hx.png
  refine Act.bind (Act.need (Q := fun a l s' => a = p ∧ l = (Ctx.png x).blocks ++ L ∧ s' = S) hpng ⟨rfl, rfl, rfl⟩) ?_
  rintro _ _ S1 ⟨rfl, rfl, e1⟩
  subst S1
  refine Act.skip (Act.touch (by simp [Ctx.blocks, hpng])) ?_
  refine Act.bind Act.malloc ?_
  rintro r L1 S1 ⟨hS1, ⟨rfl, rfl, hF⟩ | ⟨b, rfl, rfl⟩⟩ <;> subst S1
  · exact Act.pure ⟨⟨rfl, rfl⟩, Or.inr ⟨rfl, hF⟩⟩
  · have hw' : (if x.color &&& maskColor ≠ 0 then 3 else 1) = pngWays x.color := rfl
    simp only [hx.interlaced, if_true, hw']
    rw [hp, hrow.1, hrow.2]
    have hfits := pngPasses_fits (lib := lib) (x := x) (step := w * pngWays x.color) (height := h) (todo := 7)
      (buf := List.replicate (w * h * pngWays x.color) none) hb
      (by simp only [List.length_replicate]; rw [Nat.mul_comm w h, Nat.mul_assoc])
    rcases hfits with h1 | ⟨buf', x', h1, hlen⟩
    · rw [h1]
      refine Act.bind (Act.lift (Q := fun a l s' => a = .exit ∧ l = b :: ((Ctx.png x).blocks ++ L) ∧ s' = S) (by simp)
        (fun a ha => ⟨(Option.some.inj ha).symm, rfl, rfl⟩)) ?_
      rintro _ _ _ ⟨rfl, rfl, rfl⟩
      refine Act.bind (Act.free (List.Perm.refl _)) ?_
      intro _ L3 S3 _
      exact Act.pure ⟨⟨rfl, rfl⟩, Or.inl rfl⟩
    · rw [h1]
      refine Act.bind (Act.lift (Q := fun a l s' => a = .ret (buf', x') ∧ l = b :: ((Ctx.png x).blocks ++ L) ∧ s' = S) (by simp)
        (fun a ha => ⟨(Option.some.inj ha).symm, rfl, rfl⟩)) ?_
      rintro _ _ _ ⟨rfl, rfl, rfl⟩
      simp only
      have hsmall : h ≤ 8 := by
        by_contra hc
        refine pngPasses_pos hx.interlaced (by rw [hx.row, hx.numRows]; omega) (by rw [hx.numRows]; omega) h1 ?_
        unfold PngCtx.pos
        rw [hx.pass, hx.row, hx.numRows]
        omega
      have hkeep := pngPasses_keep hx.interlaced (by rw [hx.numRows]; omega) hx.row hb h1
      have hone : w * pngWays x.color < w * h * pngWays x.color := by
        refine Nat.mul_lt_mul_of_pos_right ?_ hpos
        calc w < w * 2 := by omega
          _ ≤ w * h := Nat.mul_le_mul_left _ hh
      rw [List.getElem?_replicate, if_pos hone] at hkeep
      have hsum : pngSum buf' (w * pngWays x.color) (pngWays x.color) 0 (binary32.ofNat 0) = none := by
        obtain ⟨n, hn⟩ : ∃ n, pngWays x.color = n + 1 := ⟨pngWays x.color - 1, by omega⟩
        rw [hn]
        rw [hn] at hkeep
        unfold pngSum rd
        rw [Nat.add_zero, hkeep]
        rfl
      have hconv : pngConvert buf' (pngWays x.color) (w * h) 0 img = none := by
        refine pngConvert_none (j := w) (Nat.zero_le _) ?_ hsum
        have : w * 2 ≤ w * h := Nat.mul_le_mul_left _ hh
        omega
      cases hend : lib.end' with
      | exit =>
        simp only
        refine Act.bind (Act.free (List.Perm.refl _)) ?_
        intro _ L3 S3 _
        exact Act.pure ⟨⟨rfl, rfl⟩, Or.inl rfl⟩
      | ret v =>
        simp only
        rw [hconv]
        intro w0 w1 _
        exact Or.inl ⟨rfl, hsmall⟩

end Verif
