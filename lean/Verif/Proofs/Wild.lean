import Verif.Proofs.FloatText
import Mathlib.Data.List.TakeWhile

/-! Files on which the readers have undefined behaviour. -/

namespace Verif

open Spec Verif.Stream

variable {c : Cfg} {st st' : Stream}

theorem After.suffix (h : After st st') : st'.rest <:+ st.rest := by
  obtain ⟨n, _, rfl⟩ := h
  exact List.drop_suffix _ _

theorem huge_mono {n : ℕ} {l m : List UInt8} (h : l <:+: m) (hh : Huge n l) : Huge n m := by
  obtain ⟨ds, h1, h2⟩ := hh
  exact ⟨ds, h1.trans h, h2⟩

theorem negative_mono {l m : List UInt8} (h : l <:+: m) (hh : Negative l) : Negative m := by
  obtain ⟨ds, h1, h2⟩ := hh
  exact ⟨ds, h1.trans h, h2⟩

theorem overflowing_mono {l m : List UInt8} (h : l <:+: m) (hh : Overflowing l) : Overflowing m := by
  obtain ⟨v, t, h1, h2⟩ := hh
  exact ⟨v, t, h1.trans h, h2⟩

theorem digits_take (l : List UInt8) : Digits (l.takeWhile isdigit) := fun b hb => (isdigit_iff b).mp (List.mem_takeWhile_imp hb)

theorem scanUnsigned_none {m : ℕ} {wide : Bool} (h : st.scanUnsigned m wide = none) : Huge m st.rest ∨ wide = false ∧ Negative st.rest := by
  have hs := (After.skipSpace st).suffix
  unfold Stream.scanUnsigned at h
  generalize st.skipSpace = s1 at hs h
  simp only at h
  split at h
  · cases h
  · rename_i b l hr
    have h1 : ∀ s2 : Stream, s2 = (if (b == ch '-' || b == ch '+') = true then s1.advance 1 else s1) → s2.rest <:+ s1.rest := by
      rintro s2 rfl
      split
      · exact List.drop_suffix _ _
      · exact List.suffix_refl _
    generalize hg : (if (b == ch '-' || b == ch '+') = true then s1.advance 1 else s1) = s2 at h
    have h2 := h1 s2 hg.symm
    split at h
    · cases h
    · rw [decimal_eq] at h
      split at h
      · rename_i hm
        exact Or.inl ⟨_, (List.takeWhile_prefix _).isInfix.trans (h2.trans hs).isInfix, digits_take _, hm⟩
      · split at h
        · rename_i hn
          split at h
          · cases h
          · rename_i hv
            split at h
            · cases h
            · rename_i hw
              refine Or.inr ⟨by simpa using hw, s2.rest.takeWhile isdigit, ?_, digits_take _, by omega⟩
              rw [if_pos (by simp [hn])] at hg
              have hb : b = ch '-' := by simpa using hn
              have hl : s2.rest = l := by rw [← hg]; simp [Stream.advance, hr]
              rw [hl, ← hb]
              refine List.IsInfix.trans ?_ hs.isInfix
              rw [hr]
              exact (List.cons_prefix_cons.mpr ⟨rfl, List.takeWhile_prefix _⟩).isInfix
        · cases h

/-! ## Numbers with a point -/

theorem scanFloat_none (h : st.scanFloat = none) : Overflowing st.rest := by
  have hs := (After.skipSpace st).suffix
  unfold scanFloat at h
  generalize st.skipSpace = s1 at hs h
  simp only at h
  split at h
  · cases h
  · rename_i b l hr
    obtain ⟨j, _, _, h3⟩ := readAll_start.run (l := s1.rest) (n := 0)
    rcases hrun : floatRun s1.rest .start ⟨false, 0, 0, false, 0, false⟩ 0 with ⟨s', a, n⟩
    rw [hrun] at h h3
    rw [List.nil_append] at h3
    simp only at h h3
    split at h
    · cases h
    · rename_i v hv
      split at h
      · rename_i hbad
        simp only [Bool.and_eq_true, Bool.not_eq_eq_eq_not, Bool.not_true] at hbad
        obtain ⟨neg, sg, t, q, h4, h5, h6, h7⟩ := h3.number hbad.1
        rw [h7] at hv
        cases hv
        refine ⟨q, t, ?_, h6, ?_⟩
        · exact List.IsInfix.trans ⟨sg, [], by rw [List.append_nil, h5]⟩ ((List.take_prefix j s1.rest).isInfix.trans hs.isInfix)
        · by_contra hc
          rw [deliver_finite h6.nonneg (not_lt.mp hc)] at hbad
          exact absurd hbad.2 (by simp)
      · cases h

/-! ## Headers -/

theorem pgmHeader_none (h : pgmHeader c st = none) : Huge c.sizeMax st.rest ∨ Huge 65535 st.rest ∨ Negative st.rest := by
  unfold pgmHeader at h
  rcases hm : pgmMagic st with ⟨bad, s1⟩
  have a1 : After st s1 := by
    unfold pgmMagic at hm
    split at hm
    · rename_i h1; cases hm; exact After.scanChar h1
    · rename_i h1; cases hm; exact After.scanChar h1
    · rename_i h1
      split at hm
      · rename_i h2; cases hm; exact (After.scanChar h1).trans (After.scanChar h2)
      · rename_i h2; cases hm; exact (After.scanChar h1).trans (After.scanChar h2)
      · rename_i h2; cases hm; exact (After.scanChar h1).trans ((After.scanChar h2).trans (After.skipSpace _))
  rw [hm] at h
  simp only at h
  split at h
  · cases h
  rcases hk : skipComments (s1.rest.length + 1) s1 with ⟨ok, s2⟩
  have a2 := a1.trans (After.skipComments hk)
  rw [hk] at h
  simp only at h
  split at h
  · cases h
  have hn : pgmNumbers c s2 = none := by
    cases hn : pgmNumbers c s2 with
    | none => rfl
    | some v =>
      obtain ⟨r, s3⟩ := v
      rw [hn] at h
      simp only [Option.bind_eq_bind, Option.bind_some] at h
      split at h
      · cases h
      · rcases hsp : spaceNext s3 with ⟨sp, s4⟩
        rw [hsp] at h
        simp only at h
        split at h <;> cases h
  clear h
  unfold pgmNumbers at hn
  simp only [Option.bind_eq_bind] at hn
  cases h1 : s2.scanUnsigned c.sizeMax true with
  | none =>
    rcases scanUnsigned_none h1 with g | ⟨g, _⟩
    · exact Or.inl (huge_mono a2.suffix.isInfix g)
    · cases g
  | some v =>
    obtain ⟨o, s3⟩ := v
    have a3 := (a2.trans (After.scanUnsigned h1)).trans (After.skipSpace _)
    rw [h1, Option.bind_some] at hn
    cases o with
    | mismatch => cases hn
    | eof => cases hn
    | ok width =>
      simp only at hn
      cases h2 : s3.skipSpace.scanUnsigned c.sizeMax true with
      | none =>
        rcases scanUnsigned_none h2 with g | ⟨g, _⟩
        · exact Or.inl (huge_mono a3.suffix.isInfix g)
        · cases g
      | some v =>
        obtain ⟨o, s4⟩ := v
        have a4 := (a3.trans (After.scanUnsigned h2)).trans (After.skipSpace _)
        rw [h2, Option.bind_some] at hn
        cases o with
        | mismatch => cases hn
        | eof => cases hn
        | ok height =>
          simp only at hn
          cases h3 : s4.skipSpace.scanUnsigned 65535 false with
          | none =>
            rcases scanUnsigned_none h3 with g | ⟨_, g⟩
            · exact Or.inr (Or.inl (huge_mono a4.suffix.isInfix g))
            · exact Or.inr (Or.inr (negative_mono a4.suffix.isInfix g))
          | some v =>
            obtain ⟨o, s5⟩ := v
            rw [h3, Option.bind_some] at hn
            cases o <;> cases hn

/-- What the text of a PFM header must contain for its parsing to be undefined. -/
def PfmWild (c : Cfg) (l : List UInt8) : Prop := Huge c.sizeMax l ∨ Overflowing l

theorem pfmWild_mono {l m : List UInt8} (h : l <:+: m) (hh : PfmWild c l) : PfmWild c m := by
  rcases hh with g | g
  · exact Or.inl (huge_mono h g)
  · exact Or.inr (overflowing_mono h g)

theorem pfmFields_none (h : pfmFields c st = none) : PfmWild c st.rest := by
  unfold pfmFields at h
  rcases ha : st.scanAny with ⟨o, s0⟩
  have a0 := After.scanAny ha
  rw [ha] at h
  cases o with
  | mismatch => cases h
  | eof => cases h
  | ok format =>
    simp only at h
    split at h
    · cases h
    rcases hk : skipComments (s0.skipSpace.rest.length + 1) s0.skipSpace with ⟨ok, s2⟩
    have a2 := (a0.trans (After.skipSpace _)).trans (After.skipComments hk)
    rw [hk] at h
    simp only at h
    split at h
    · cases h
    have hn : pfmNumbers c s2 = none := by
      cases hn : pfmNumbers c s2 with
      | none => rfl
      | some v =>
        obtain ⟨r, s3⟩ := v
        rw [hn] at h
        simp only [Option.bind_eq_bind, Option.bind_some] at h
        split at h
        · cases h
        · rcases hsp : spaceNext s3 with ⟨sp, s4⟩
          rw [hsp] at h
          simp only at h
          split at h <;> cases h
    clear h
    refine pfmWild_mono a2.suffix.isInfix ?_
    unfold pfmNumbers at hn
    simp only [Option.bind_eq_bind] at hn
    cases h1 : s2.scanUnsigned c.sizeMax true with
    | none =>
      rcases scanUnsigned_none h1 with g | ⟨g, _⟩
      · exact Or.inl g
      · cases g
    | some v =>
      obtain ⟨o, s3⟩ := v
      have a3 := (After.scanUnsigned h1).trans (After.skipSpace _)
      rw [h1, Option.bind_some] at hn
      cases o with
      | mismatch => cases hn
      | eof => cases hn
      | ok width =>
        simp only at hn
        cases h2 : s3.skipSpace.scanUnsigned c.sizeMax true with
        | none =>
          rcases scanUnsigned_none h2 with g | ⟨g, _⟩
          · exact Or.inl (huge_mono a3.suffix.isInfix g)
          · cases g
        | some v =>
          obtain ⟨o, s4⟩ := v
          have a4 := (a3.trans (After.scanUnsigned h2)).trans (After.skipSpace _)
          rw [h2, Option.bind_some] at hn
          cases o with
          | mismatch => cases hn
          | eof => cases hn
          | ok height =>
            simp only at hn
            cases h3 : s4.skipSpace.scanFloat with
            | none => exact pfmWild_mono a4.suffix.isInfix (Or.inr (scanFloat_none h3))
            | some v =>
              obtain ⟨o, s5⟩ := v
              rw [h3, Option.bind_some] at hn
              cases o <;> cases hn

theorem pfmHeader_none (h : pfmHeader c st = none) : PfmWild c st.rest := by
  unfold pfmHeader at h
  split at h
  · rename_i h1
    exact pfmWild_mono (After.scanChar h1).suffix.isInfix (pfmFields_none h)
  · cases h

theorem pfmReadHeader_none {x : PfmCtx} {w h : ℕ} (hh : pfmReadHeader c x w h = none) : PfmWild c x.f.st.rest := by
  unfold pfmReadHeader at hh
  split at hh
  · cases hh
  · split at hh
    · cases hh
    · rename_i b s1 hg
      split at hh
      · cases hh
      · cases hf : pfmFields c s1 with
        | none => exact pfmWild_mono (After.fgetc hg).suffix.isInfix (pfmFields_none hf)
        | some v =>
          obtain ⟨r, s2⟩ := v
          rw [hf] at hh
          simp only [Option.bind_eq_bind, Option.bind_some] at hh
          split at hh
          · cases hh
          · split at hh <;> cases hh

theorem y4mParams_none {n : ℕ} : ∀ {P : Y4mParams} {st : Stream}, y4mParams c n P st = none → Huge c.sizeMax st.rest := by
  induction n with
  | zero => intro P st h; cases h
  | succ n ih =>
    intro P st h
    unfold y4mParams at h
    rcases hg : st.fgetc with ⟨_ | b, s1⟩
    · rw [hg] at h; cases h
    · have a1 := After.fgetc hg
      rw [hg] at h
      simp only at h
      have num : ∀ f : ℕ → Y4mParams, (do
          match ← s1.scanUnsigned c.sizeMax true with
          | (.ok v, st) => y4mParams c n (f v) st
          | (_, st) => some (none, st)) = none → Huge c.sizeMax st.rest := by
        intro f hh
        simp only [Option.bind_eq_bind] at hh
        cases h1 : s1.scanUnsigned c.sizeMax true with
        | none =>
          rcases scanUnsigned_none h1 with g | ⟨g, _⟩
          · exact huge_mono a1.suffix.isInfix g
          · cases g
        | some v =>
          obtain ⟨o, s2⟩ := v
          rw [h1, Option.bind_some] at hh
          cases o with
          | ok v => exact huge_mono (a1.trans (After.scanUnsigned h1)).suffix.isInfix (ih hh)
          | mismatch => cases hh
          | eof => cases hh
      split at h
      · cases h
      split at h
      · exact num _ h
      split at h
      · exact num _ h
      split at h
      · rcases hw : s1.scanWord (some 9) with ⟨o, s2⟩
        rw [hw] at h
        cases o with
        | ok v => exact huge_mono (a1.trans (After.scanWord hw)).suffix.isInfix (ih h)
        | mismatch => cases h
        | eof => cases h
      split at h
      · exact huge_mono a1.suffix.isInfix (ih h)
      · rcases hw : s1.scanWord none with ⟨o, s2⟩
        rw [hw] at h
        cases o with
        | ok v => exact huge_mono (a1.trans (After.scanWord hw)).suffix.isInfix (ih h)
        | mismatch => exact huge_mono (a1.trans (After.scanWord hw)).suffix.isInfix (ih h)
        | eof => cases h

theorem fread_after (st : Stream) (n : ℕ) : After st (st.fread n).2 := by
  rw [fread_eq]
  exact After.advance (by omega)

theorem y4mHeader_none (h : y4mHeader c st = none) : Huge c.sizeMax st.rest := by
  unfold y4mHeader at h
  have a := fread_after st 10
  generalize st.fread 10 = v at a h
  obtain ⟨magic, s1⟩ := v
  simp only at h
  split at h
  · cases h
  · exact huge_mono a.suffix.isInfix (y4mParams_none h)

/-- The name of the layout is as long as its array, and made of bytes of the file. -/
def CspOk (file csp : List UInt8) : Prop := csp.length = 10 ∧ ∀ b ∈ csp, b ∈ file ∨ b.toNat < 128

theorem scanWord_mem {m : Option ℕ} {v : List UInt8} (h : st.scanWord m = (.ok v, st')) : (∀ b ∈ v, b ∈ st.rest) ∧ ∀ n, m = some n → v.length ≤ n := by
  have hs := (After.skipSpace st).suffix
  unfold scanWord at h
  generalize st.skipSpace = s1 at hs h
  simp only at h
  split at h
  · cases h
  · cases m with
    | none =>
      simp only at h
      cases h
      exact ⟨fun b hb => hs.subset ((List.takeWhile_prefix _).subset hb), by simp⟩
    | some n =>
      simp only at h
      cases h
      refine ⟨fun b hb => hs.subset ((List.takeWhile_prefix _).subset ((List.take_prefix _ _).subset hb)), ?_⟩
      intro n' hn
      cases hn
      exact List.length_take_le _ _

theorem y4mParams_csp {n : ℕ} {file : List UInt8} : ∀ {P Q : Y4mParams} {st st' : Stream}, y4mParams c n P st = some (some Q, st') → CspOk file P.csp →
    (∀ b ∈ st.rest, b ∈ file) → CspOk file Q.csp := by
  induction n with
  | zero => intro P Q st st' h; cases h
  | succ n ih =>
    intro P Q st st' h hc hf
    unfold y4mParams at h
    rcases hg : st.fgetc with ⟨_ | b, s1⟩
    · rw [hg] at h; cases h
    · have a1 := After.fgetc hg
      have hf1 : ∀ b ∈ s1.rest, b ∈ file := fun b hb => hf b (a1.suffix.subset hb)
      rw [hg] at h
      simp only at h
      split at h
      · cases h; exact hc
      split at h
      · simp only [Option.bind_eq_bind, Option.bind_eq_some_iff] at h
        obtain ⟨⟨o, s2⟩, h1, h2⟩ := h
        cases o with
        | ok v => exact ih h2 hc (fun b hb => hf1 b ((After.scanUnsigned h1).suffix.subset hb))
        | mismatch => cases h2
        | eof => cases h2
      split at h
      · simp only [Option.bind_eq_bind, Option.bind_eq_some_iff] at h
        obtain ⟨⟨o, s2⟩, h1, h2⟩ := h
        cases o with
        | ok v => exact ih h2 hc (fun b hb => hf1 b ((After.scanUnsigned h1).suffix.subset hb))
        | mismatch => cases h2
        | eof => cases h2
      split at h
      · rcases hw : s1.scanWord (some 9) with ⟨o, s2⟩
        rw [hw] at h
        cases o with
        | ok v =>
          obtain ⟨hv1, hv2⟩ := scanWord_mem hw
          have hl := hv2 9 rfl
          refine ih h ⟨?_, ?_⟩ (fun b hb => hf1 b ((After.scanWord hw).suffix.subset hb))
          · simp only [store, List.length_append, List.length_cons, List.length_nil, List.length_drop, hc.1]; omega
          · intro b hb
            simp only [store, List.mem_append, List.mem_singleton] at hb
            rcases hb with (hb | rfl) | hb
            · exact Or.inl (hf1 b (hv1 b hb))
            · exact Or.inr (by decide)
            · exact hc.2 b (List.mem_of_mem_drop hb)
        | mismatch => cases h
        | eof => cases h
      split at h
      · exact ih h hc hf1
      · rcases hw : s1.scanWord none with ⟨o, s2⟩
        rw [hw] at h
        have hf2 : ∀ b ∈ s2.rest, b ∈ file := fun b hb => hf1 b ((After.scanWord hw).suffix.subset hb)
        cases o with
        | ok v => exact ih h hc hf2
        | mismatch => exact ih h hc hf2
        | eof => cases h

theorem y4mHeader_csp {Q : Y4mParams} (h : y4mHeader c st = some (some Q, st')) : CspOk st.rest Q.csp := by
  unfold y4mHeader at h
  have a := fread_after st 10
  generalize st.fread 10 = v at a h
  obtain ⟨magic, s1⟩ := v
  simp only at h
  split at h
  · cases h
  · refine y4mParams_csp h ⟨by decide, fun b hb => Or.inr ?_⟩ (fun b hb => a.suffix.subset hb)
    revert b
    decide

theorem y4mDigits_none {file csp : List UInt8} (hc : CspOk file csp) (h : y4mDigits c csp = none) :
    c.charSigned = true ∧ ∃ b ∈ file, 128 ≤ b.toNat ∧ b.toNat < 255 := by
  unfold y4mDigits at h
  obtain ⟨b, hb⟩ : ∃ b, rd csp 4 = some b := ⟨csp[4]'(by rw [hc.1]; omega), by simp [rd, hc.1]⟩
  rw [hb] at h
  simp only [Option.bind_eq_bind, Option.bind_some] at h
  split at h
  · cases h
  · rename_i hok
    simp only [ctypeOk, Bool.not_eq_true', Bool.and_eq_true, Bool.not_eq_false, decide_eq_true_eq] at hok
    obtain ⟨⟨h1, h2⟩, h3⟩ := hok
    have h2' : 128 ≤ b.toNat := by simpa [UInt8.le_iff_toNat_le] using h2
    have h3' : b.toNat < 255 := by simpa [UInt8.lt_iff_toNat_lt] using h3
    have hm : b ∈ csp := List.mem_of_getElem? hb
    rcases hc.2 b hm with g | g
    · exact ⟨h1, b, g, h2', h3'⟩
    · omega

theorem y4mSizes_none {file : List UInt8} {P : Y4mParams} (hc : CspOk file P.csp) (h : y4mSizes c P = none) :
    c.charSigned = true ∧ ∃ b ∈ file, 128 ≤ b.toNat ∧ b.toNat < 255 := by
  unfold y4mSizes at h
  split at h
  · cases h
  split at h
  · cases h
  simp only [Option.bind_eq_bind] at h
  cases hl : y4mLayout c P.width P.height P.csp with
  | some v =>
    rw [hl, Option.bind_some] at h
    rcases v with _ | ⟨uv, d⟩
    · cases h
    · simp only at h
      split at h
      · cases h
      · split at h <;> cases h
  | none =>
    unfold y4mLayout at hl
    split at hl
    · cases hd : y4mDigits c P.csp with
      | none => exact y4mDigits_none hc hd
      | some d => rw [hd] at hl; cases hl
    · simp only at hl
      split at hl
      · cases hl
      · obtain ⟨b, hb⟩ : ∃ b, rd P.csp 3 = some b := ⟨P.csp[3]'(by rw [hc.1]; omega), by simp [rd, hc.1]⟩
        rw [hb] at hl
        simp only [Option.bind_eq_bind, Option.bind_some] at hl
        split at hl
        · cases hd : y4mDigits c P.csp with
          | none => exact y4mDigits_none hc hd
          | some d => rw [hd] at hl; cases hl
        · cases hl

theorem y4mOutcome_none {d : List UInt8} {k : Kind} (h : y4mOutcome c d k = none) :
    Huge c.sizeMax d ∨ c.charSigned = true ∧ ∃ b ∈ d, 128 ≤ b.toNat ∧ b.toNat < 255 := by
  unfold y4mOutcome at h
  cases hh : y4mHeader c ⟨d, 0, k⟩ with
  | none => exact Or.inl (y4mHeader_none hh)
  | some v =>
    obtain ⟨o, s1⟩ := v
    rw [hh] at h
    cases o with
    | none => cases h
    | some P =>
      simp only at h
      cases hs : y4mSizes c P with
      | none => exact Or.inr (y4mSizes_none (y4mHeader_csp hh) hs)
      | some r =>
        rw [hs] at h
        rcases r with e | ⟨y, uv, dd⟩ <;> cases h

/-! ## Opening and calls -/

/-- Opening is undefined exactly if parsing the header is. -/
theorem Builtin.undefined {s : Sys} {r : Reader} {Ok : Ctx → ℕ → ℕ → Prop} {io : Io} (hb : Builtin s io.fs r Ok) {name : List UInt8}
    {a : Option (Option Ctx × ℕ × ℕ × RDError)} (hd : Determined r name a) {w : World} (hw : w.WF) (hm : openImage s (some r) name true w = none) :
    a = none := by
  rcases hb.det_act hd (F := ∃ j, w.sched j = false) (wantBuf := true) (L := []) (S := []) w w (Own.init hw (fun j h => ⟨j, h⟩)) with
    ⟨_, h5⟩ | ⟨op, w', L', S', h4, _⟩
  · exact h5
  · rw [hm] at h4; cases h4

theorem fskip_none {s : Sys} {n : ℕ} {buf : Option (List UInt8)} (h : fskip s st n buf = none) :
    (∃ b, buf = some b ∧ b.length < n) ∨ (buf = none ∧ s.cfg.longMax < n) := by
  cases buf with
  | some b =>
    simp only [fskip] at h
    split at h
    · rename_i hl; exact Or.inl ⟨b, rfl, hl⟩
    · cases h
  | none =>
    simp only [fskip, Option.bind_eq_bind] at h
    refine Or.inr ⟨rfl, ?_⟩
    by_contra hc
    unfold Stream.fseek at h
    rw [if_neg hc] at h
    split at h <;> cases h

theorem fskip_suffix {s : Sys} {n : ℕ} {buf buf' : Option (List UInt8)} {e : RDError} (h : fskip s st n buf = some (e, st', buf')) :
    st'.rest <:+ st.rest ∧ (buf = none ↔ buf' = none) ∧ ∀ b b', buf = some b → buf' = some b' → b.length ≤ b'.length := by
  cases buf with
  | some b =>
    simp only [fskip] at h
    split at h
    · cases h
    · rw [fread_eq] at h
      cases h
      refine ⟨List.drop_suffix _ _, by simp, ?_⟩
      intro b1 b2 h1 h2
      cases h1
      cases h2
      simp only [store, List.length_append, List.length_drop]
      omega
  | none =>
    simp only [fskip, Option.bind_eq_bind, Option.bind_eq_some_iff] at h
    obtain ⟨⟨ok, s1⟩, h1, h2⟩ := h
    unfold Stream.fseek at h1
    split at h1
    · cases h1
    · split at h1
      · cases h1; cases h2; exact ⟨List.drop_suffix _ _, by simp, by simp⟩
      · cases h1; cases h2; exact ⟨List.suffix_refl _, by simp, by simp⟩

theorem pfmSkip_none {s : Sys} {w h n : ℕ} {p : Bool} (todo : ℕ) : ∀ {i : ℕ} {x : PfmCtx} {buf : Option (List UInt8)} {calls : List ℕ},
    (buf = none → n ≤ s.cfg.longMax) → (∀ b, buf = some b → n ≤ b.length) → pfmSkip s w h n p todo i x buf calls = none →
    PfmWild s.cfg x.f.st.rest := by
  induction todo with
  | zero => intro i x buf calls _ _ hh; cases hh
  | succ m ih =>
    intro i x buf calls h1 h2 hh
    unfold pfmSkip at hh
    simp only [Option.bind_eq_bind] at hh
    cases hr : pfmReadHeader s.cfg x w h with
    | none => exact pfmReadHeader_none hr
    | some v =>
      obtain ⟨ok, e, x1⟩ := v
      have a1 := (pfmReadHeader_after hr).suffix
      rw [hr, Option.bind_some] at hh
      simp only at hh
      split at hh
      · cases hh
      · cases hk : fskip s x1.f.st n buf with
        | none =>
          rcases fskip_none hk with ⟨b, g1, g2⟩ | ⟨g1, g2⟩
          · have := h2 b g1; omega
          · have := h1 g1; omega
        | some v =>
          obtain ⟨e2, s2, buf2⟩ := v
          obtain ⟨k1, k2, k3⟩ := fskip_suffix hk
          rw [hk, Option.bind_some] at hh
          simp only at hh
          split at hh
          · cases hh
          · refine pfmWild_mono (k1.trans a1).isInfix (ih (fun g => h1 (k2.mpr g)) ?_ hh)
            intro b' hb'
            cases buf with
            | none => rw [k2.mp rfl] at hb'; cases hb'
            | some b => exact le_trans (h2 b rfl) (k3 b b' rfl hb')

theorem pfmSkip_suffix {s : Sys} {w h n : ℕ} {p : Bool} (todo : ℕ) : ∀ {i : ℕ} {x x' : PfmCtx} {buf : Option (List UInt8)} {calls calls' : List ℕ}
    {ret : Bool} {e : RDError}, pfmSkip s w h n p todo i x buf calls = some (ret, e, calls', x') → x'.f.st.rest <:+ x.f.st.rest := by
  induction todo with
  | zero => intro i x x' buf calls calls' ret e hh; simp only [pfmSkip] at hh; cases hh; exact List.suffix_refl _
  | succ m ih =>
    intro i x x' buf calls calls' ret e hh
    unfold pfmSkip at hh
    simp only [Option.bind_eq_bind, Option.bind_eq_some_iff] at hh
    obtain ⟨⟨ok, e1, x1⟩, hr, hh⟩ := hh
    have a1 := (pfmReadHeader_after hr).suffix
    simp only at hh
    split at hh
    · cases hh; exact a1
    · simp only [Option.bind_eq_some_iff] at hh
      obtain ⟨⟨e2, s2, buf2⟩, hk, hh⟩ := hh
      have k1 := (fskip_suffix hk).1
      simp only at hh
      split at hh
      · cases hh; exact k1.trans a1
      · exact (ih hh).trans (k1.trans a1)

theorem breaks_pfm {s : Sys} {w h : ℕ} {ops : List IOp} : ∀ {x : PfmCtx}, Breaks s w h (.pfm x) ops → PfmWild s.cfg x.f.st.rest := by
  induction ops with
  | nil => intro x h; cases h
  | cons op ops ih =>
    intro x hb
    cases hb with
    | read h1 =>
      simp only [Ctx.step] at h1
      split at h1
      · rename_i hr; exact pfmReadHeader_none hr
      · split at h1
        · split at h1 <;> cases h1
        · cases h1
    | readLater h1 h2 =>
      simp only [Ctx.step] at h1
      split at h1
      · cases h1
      · rename_i ok e1 x1 hr
        have a1 := (pfmReadHeader_after hr).suffix
        split at h1
        · split at h1
          · cases h1; exact pfmWild_mono ((List.drop_suffix _ _).trans a1).isInfix (ih h2)
          · cases h1; exact pfmWild_mono ((List.drop_suffix _ _).trans a1).isInfix (ih h2)
        · cases h1; exact pfmWild_mono a1.isInfix (ih h2)
    | seek h1 =>
      simp only [Ctx.skip, Option.map_eq_none_iff] at h1
      refine pfmSkip_none _ ?_ ?_ h1
      · unfold pfmSkipBuf
        split
        · rename_i hs
          unfold seekMode at hs
          simp only [Bool.and_eq_true, decide_eq_true_eq] at hs
          exact fun _ => hs.1
        · simp
      · unfold pfmSkipBuf
        split
        · simp
        · intro b hb
          cases hb
          simp
    | seekLater h1 h2 =>
      simp only [Ctx.skip, Option.map_eq_some_iff] at h1
      obtain ⟨⟨r1, e1, c1, x1⟩, h3, h4⟩ := h1
      cases h4
      have h5 := ih h2
      exact pfmWild_mono (pfmSkip_suffix _ h3).isInfix h5
    | oom h2 => exact ih h2

end Verif
