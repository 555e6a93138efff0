import Verif.Proofs.JpegDead
import Verif.Proofs.Scan

/-! Playing back a JPEG. -/

namespace Verif
open Spec

variable {lib : Jpeg} {fs : Fs} {s : Sys}

theorem byteSample_eq (b : UInt8) : byteSample b = normal 255 b.toNat := by
  unfold byteSample
  exact quotient_eq (by have := b.toNat_lt; omega) (by norm_num) (by norm_num)

/-- Seeking in a file with one frame. -/
theorem singleSeek_eq {eof : Bool} {k : ℕ} (pic : List Fl) :
    singleSeek eof k true = (decide (k ≤ (if eof then [] else [pic]).length),
      (List.range (min k (if eof then [] else [pic]).length)).map (· + 1), eof || decide (0 < k)) ∧
    (if eof then [] else [pic]).drop k = if (eof || decide (0 < k)) then [] else [pic] := by
  unfold singleSeek
  cases eof with
  | true => cases k <;> simp
  | false =>
    rcases k with _ | _ | k
    · simp
    · simp [List.range_succ]
    · have h1 : min (k + 1 + 1) 1 = 1 := by omega
      simp [List.range_succ]

/-- A JPEG context with `pic` still to come, or at the end. -/
def JpegShows (lib : Jpeg) (W H : ℕ) (rows : List (List UInt8)) (x : Ctx) (frames : List (List Fl)) : Prop :=
  ∃ y, x = .jpeg y ∧ y.width = W ∧ y.height = H ∧ frames = (if y.eof then [] else [rows.flatten.map byteSample]) ∧
    (y.eof = false → y.line = 0 ∧ lib.Delivers y.recRows y.state rows ∧ y.recRows ≤ 2)

theorem jpeg_player {W H : ℕ} {rows : List (List UInt8)} (hw : Within s.cfg W H) (hW : ∀ r ∈ rows, r.length = W) (hH : rows.length = H) :
    Player (jpegReader s fs lib) W H IsJpeg (JpegShows lib W H rows) where
  length := by
    rintro x f fs' ⟨y, rfl, rfl, rfl, hf, _⟩
    cases he : y.eof with
    | true => rw [he] at hf; cases hf
    | false =>
      rw [he] at hf
      cases hf
      rw [List.length_map, flatten_length_eq hW, hH, Nat.mul_comm]
  read := by
    rintro x frames img L S ⟨y, rfl, rfl, rfl, hf, hy⟩ _ hl
    cases he : y.eof with
    | true =>
      rw [he] at hf
      simp only [if_true] at hf
      subst hf
      show Act _ _ _ _ (jpegRead s lib y img y.width y.height >>= _) _
      have h1 : Act False False ((Ctx.jpeg y).blocks ++ L) ((Ctx.jpeg y).files ++ S) (jpegRead s lib y img y.width y.height)
          (fun a L' S' => a = (false, RDEOK, img, y) ∧ L' = (Ctx.jpeg y).blocks ++ L ∧ S' = (Ctx.jpeg y).files ++ S) := by
        unfold jpegRead
        refine Act.skip (Act.touch (by simp [Ctx.blocks])) ?_
        rw [if_pos he]
        exact Act.pure ⟨rfl, rfl, rfl⟩
      refine Act.bind h1 ?_
      rintro _ _ _ ⟨rfl, rfl, rfl⟩
      exact Act.pure ⟨.jpeg y, rfl, ⟨y, rfl, rfl, rfl, by simp [he], by simp [he]⟩, trivial, rfl, rfl⟩
    | false =>
      obtain ⟨h1, h2, h3⟩ := hy he
      rw [he] at hf
      simp only [Bool.false_eq_true, if_false] at hf
      subst hf
      refine Act.bind (jpegRead_delivers hw he h1 h2 h3 hW hH hl) ?_
      rintro _ _ _ ⟨⟨line, st, rfl⟩, rfl, rfl⟩
      exact Act.pure ⟨_, rfl, ⟨_, rfl, rfl, rfl, rfl, by simp⟩, trivial, rfl, rfl⟩
  seek := by
    rintro x frames L S k ⟨y, rfl, rfl, rfl, hf, hy⟩ _
    have h1 : Act False False ((Ctx.jpeg y).blocks ++ L) ((Ctx.jpeg y).files ++ S) (jpegSeek y k true)
        (fun a L' S' => a = ((singleSeek y.eof k true).1, RDEOK, (singleSeek y.eof k true).2.1, { y with eof := (singleSeek y.eof k true).2.2 }) ∧
          L' = (Ctx.jpeg y).blocks ++ L ∧ S' = (Ctx.jpeg y).files ++ S) := by
      unfold jpegSeek
      refine Act.skip (Act.touch (by simp [Ctx.blocks])) ?_
      exact Act.pure ⟨rfl, rfl, rfl⟩
    refine Act.bind h1 ?_
    rintro _ _ _ ⟨rfl, rfl, rfl⟩
    obtain ⟨e1, e2⟩ := singleSeek_eq (eof := y.eof) (k := k) (rows.flatten.map byteSample)
    subst hf
    rw [e1, e2]
    refine Act.pure ⟨_, rfl, ⟨_, rfl, rfl, rfl, rfl, ?_⟩, trivial, rfl, rfl⟩
    intro h
    simp only [Bool.or_eq_false_iff] at h
    exact hy h.1

theorem Fs.Holds.opens {name : List UInt8} {a : List UInt8 × Kind} {e : ℕ} (h1 : fs.Holds name a) (hn : name ≠ cs "-")
    (he : fs.fopen name = .inl e) : False := by
  rcases h1 with ⟨h, _⟩ | ⟨_, h⟩
  · exact hn h
  · rw [he] at h; cases h

theorem jpeg_open {name d : List UInt8} {k : Kind} {st W H rec' : ℕ} (hh : fs.Holds name (d, k)) (hs : lib.startup d = some (st, W, H, rec'))
    (L S : List ℕ) : Act False False L S ((jpegReader s fs lib).open' name) (fun a _ _ => ∃ y : JpegCtx, a = (some (.jpeg y), W, H, RDEOK) ∧
      y.width = W ∧ y.height = H ∧ y.line = 0 ∧ y.eof = false ∧ y.recRows = rec' ∧ y.state = st) := by
  refine Act.bind (jpegOpen_act.weaken ?_ Iff.rfl) ?_
  · rintro ⟨_, d', k', h1, h2⟩
    cases hh.unique h1
    rw [hs] at h2; cases h2
  · rintro ⟨o, W', H', e⟩ L' S' (⟨h0, x, d', k', rfl, h1, h2, h3, h4, h5, h6, rfl, rfl⟩ | ⟨_, _, _, _, ⟨_, h⟩ | ⟨_, _, hn, h⟩ | ⟨_, d', k', h1, h2⟩⟩)
    · cases hh.unique h1
      rw [hs] at h2
      simp only [Option.some.injEq, Prod.mk.injEq] at h2
      obtain ⟨rfl, rfl, rfl, rfl⟩ := h2
      simp only at h0 h3 h4
      subst h0
      exact Act.pure ⟨x, rfl, h3, h4, h5, h6, rfl, rfl⟩
    · exact h.elim
    · exact (hh.opens hn h).elim
    · cases hh.unique h1
      rw [hs] at h2; cases h2

theorem jpeg_refuses {name d : List UInt8} {k : Kind} (hl : lib.literalEnds = false) (hh : fs.Holds name (d, k)) (hs : lib.startup d = none)
    (L S : List ℕ) : Act False False L S ((jpegReader s fs lib).open' name) (fun a _ _ => a.1 = none ∧ a.2.2.2 = RDEINVAL) := by
  refine Act.bind (jpegOpen_act.weaken ?_ Iff.rfl) ?_
  · rintro ⟨h, _⟩
    rw [hl] at h; cases h
  · rintro ⟨o, W', H', e⟩ L' S' (⟨h0, x, d', k', rfl, h1, h2, _⟩ | ⟨_, rfl, _, _, ⟨_, h⟩ | ⟨_, _, hn, h⟩ | ⟨rfl, d', k', h1, h2⟩⟩)
    · cases hh.unique h1
      rw [hs] at h2; cases h2
    · exact h.elim
    · exact (hh.opens hn h).elim
    · exact Act.pure ⟨rfl, rfl⟩

end Verif
