import Verif.Model.Image.Pfm
import Verif.Model.Image.Pgm
import Verif.Model.Image.Y4m

/-! Streams move forward. -/

namespace Verif

theorem Stream.advance_advance (s : Stream) (m n : ℕ) : (s.advance m).advance n = s.advance (m + n) := by
  simp [Stream.advance, List.drop_drop, Nat.add_assoc]

theorem Stream.advance_zero (s : Stream) : s.advance 0 = s := by simp [Stream.advance]

/-- `t` is what remains of `s` after reading some bytes. -/
def After (s t : Stream) : Prop := ∃ n, n ≤ s.rest.length ∧ t = s.advance n

theorem After.refl (s : Stream) : After s s := ⟨0, Nat.zero_le _, s.advance_zero.symm⟩

theorem After.trans {s t u : Stream} (h : After s t) (h' : After t u) : After s u := by
  obtain ⟨m, hm, rfl⟩ := h
  obtain ⟨n, hn, rfl⟩ := h'
  refine ⟨m + n, ?_, s.advance_advance m n⟩
  simp only [Stream.advance, List.length_drop] at hn
  omega

theorem After.advance {s : Stream} {n : ℕ} (h : n ≤ s.rest.length) : After s (s.advance n) := ⟨n, h, rfl⟩

theorem After.le {s t : Stream} (h : After s t) : t.rest.length ≤ s.rest.length := by
  obtain ⟨n, _, rfl⟩ := h; simp [Stream.advance]

theorem After.seekable {s t : Stream} (h : After s t) : t.seekable = s.seekable := by obtain ⟨n, _, rfl⟩ := h; rfl

theorem After.skipSpace (s : Stream) : After s s.skipSpace := After.advance (List.takeWhile_prefix _).length_le

theorem After.fgetc {s t : Stream} {o : Option UInt8} (h : s.fgetc = (o, t)) : After s t := by
  unfold Stream.fgetc at h
  split at h
  · cases h; exact After.refl _
  · rename_i hr; cases h; exact After.advance (by rw [hr]; simp)

theorem fgetc_ungetc {s t : Stream} {b : UInt8} (h : s.fgetc = (some b, t)) : t.ungetc b = s := by
  unfold Stream.fgetc at h
  split at h
  · cases h
  · rename_i hr; cases h
    obtain ⟨rest, pos, k⟩ := s
    simp only at hr
    subst hr
    simp [Stream.ungetc, Stream.advance]

theorem After.scanChar {s t : Stream} {b : UInt8} {o : Conv Unit} (h : s.scanChar b = (o, t)) : After s t := by
  unfold Stream.scanChar at h
  split at h
  · cases h; exact After.refl _
  · rename_i hr
    split at h
    · cases h; exact After.advance (by rw [hr]; simp)
    · cases h; exact After.refl _

theorem After.scanAny {s t : Stream} {o : Conv UInt8} (h : s.scanAny = (o, t)) : After s t := by
  unfold Stream.scanAny at h
  split at h
  · cases h; exact After.refl _
  · rename_i hr; cases h; exact After.advance (by rw [hr]; simp)

theorem After.skipComments {s t : Stream} {n : ℕ} {b : Bool} (h : skipComments n s = (b, t)) : After s t := by
  induction n generalizing s with
  | zero => unfold Verif.skipComments at h; cases h; exact After.refl _
  | succ n ih =>
    unfold Verif.skipComments at h
    rcases hg : s.fgetc with ⟨_ | c, s1⟩
    · rw [hg] at h; simp only at h; cases h; exact After.fgetc hg
    · rw [hg] at h; simp only at h
      split at h
      · split at h
        · rename_i hk
          exact (After.fgetc hg).trans ((After.advance hk).trans (ih h))
        · cases h
          exact (After.fgetc hg).trans (After.advance (List.takeWhile_prefix _).length_le)
      · cases h; rw [fgetc_ungetc hg]; exact After.refl _

theorem After.spaceNext {s t : Stream} {b : Bool} (h : spaceNext s = (b, t)) : After s t := by
  unfold Verif.spaceNext at h
  rcases hg : s.fgetc with ⟨_ | c, s1⟩ <;> rw [hg] at h <;> simp only at h <;> cases h <;> exact After.fgetc hg

theorem After.scanUnsigned {s t : Stream} {m : ℕ} {wide : Bool} {o : Conv ℕ} (h : s.scanUnsigned m wide = some (o, t)) : After s t := by
  unfold Stream.scanUnsigned at h
  simp only at h
  refine (After.skipSpace s).trans ?_
  generalize s.skipSpace = s1 at h
  split at h
  · cases h; exact After.refl _
  · rename_i b l hr
    generalize hs2 : (if (b == ch '-' || b == ch '+') = true then s1.advance 1 else s1) = s2 at h
    have a2 : After s1 s2 := by
      rw [← hs2]; split
      · exact After.advance (by rw [hr]; simp)
      · exact After.refl _
    have a3 : After s2 (s2.advance (s2.rest.takeWhile isdigit).length) := After.advance (List.takeWhile_prefix _).length_le
    refine a2.trans ?_
    repeat' split at h
    all_goals first | cases h; exact a3 | cases h

theorem After.scanWord {s t : Stream} {m : Option ℕ} {o : Conv (List UInt8)} (h : s.scanWord m = (o, t)) : After s t := by
  unfold Stream.scanWord at h
  simp only at h
  refine (After.skipSpace s).trans ?_
  generalize s.skipSpace = s1 at h
  split at h
  · cases h; exact After.refl _
  · cases h
    refine After.advance ?_
    cases m with
    | none => exact (List.takeWhile_prefix _).length_le
    | some n =>
      simp only
      exact le_trans (List.length_take_le' _ _) (List.takeWhile_prefix _).length_le

theorem floatRun_le {l : List UInt8} {st : Stream.FloatState} {a : Stream.FloatAcc} {n : ℕ} :
    (Stream.floatRun l st a n).2.2 ≤ n + l.length := by
  induction l generalizing st a n with
  | nil => unfold Stream.floatRun; simp
  | cons b l ih =>
    unfold Stream.floatRun
    split
    · simp
    · refine le_trans ih ?_; simp; omega

theorem After.scanFloat {s t : Stream} {o : Conv Fl} (h : s.scanFloat = some (o, t)) : After s t := by
  unfold Stream.scanFloat at h
  simp only at h
  refine (After.skipSpace s).trans ?_
  generalize s.skipSpace = s1 at h
  split at h
  · cases h; exact After.refl _
  · have hl := floatRun_le (l := s1.rest) (st := .start) (a := ⟨false, 0, 0, false, 0, false⟩) (n := 0)
    rcases hf : Stream.floatRun s1.rest .start ⟨false, 0, 0, false, 0, false⟩ 0 with ⟨st, a, n⟩
    rw [hf] at h hl
    simp only at h
    have a3 : After s1 (s1.advance n) := After.advance (by simpa using hl)
    split at h
    · cases h; exact a3
    · split at h
      · cases h
      · cases h; exact a3

theorem After.pfmNumbers {c : Cfg} {s t : Stream} {o : Option (ℕ × ℕ × Fl)} (h : pfmNumbers c s = some (o, t)) : After s t := by
  unfold Verif.pfmNumbers at h
  simp only [Option.bind_eq_bind, Option.bind_eq_some_iff] at h
  obtain ⟨⟨r1, s1⟩, h1, h⟩ := h
  have a1 := After.scanUnsigned h1
  cases r1 with
  | ok v =>
    simp only [Option.bind_eq_some_iff] at h
    obtain ⟨⟨r2, s2⟩, h2, h⟩ := h
    have a2 := (After.skipSpace s1).trans (After.scanUnsigned h2)
    cases r2 with
    | ok v2 =>
      simp only [Option.bind_eq_some_iff] at h
      obtain ⟨⟨r3, s3⟩, h3, h⟩ := h
      have a3 := (After.skipSpace s2).trans (After.scanFloat h3)
      have : After s s3 := a1.trans (a2.trans a3)
      cases r3 <;> cases h <;> exact this
    | _ => cases h; exact a1.trans a2
  | _ => cases h; exact a1

theorem After.pfmFields {c : Cfg} {s t : Stream} {o : Option (UInt8 × ℕ × ℕ × Fl)} (h : pfmFields c s = some (o, t)) : After s t := by
  unfold Verif.pfmFields at h
  rcases h1 : s.scanAny with ⟨r1, s1⟩
  have a1 := After.scanAny h1
  rw [h1] at h
  cases r1 with
  | ok format =>
    simp only at h
    split at h
    · cases h; exact a1
    · rcases h2 : Verif.skipComments (s1.skipSpace.rest.length + 1) s1.skipSpace with ⟨ok, s2⟩
      have a2 := a1.trans ((After.skipSpace s1).trans (After.skipComments h2))
      rw [h2] at h
      simp only at h
      split at h
      · cases h; exact a2
      · simp only [Option.bind_eq_bind, Option.bind_eq_some_iff] at h
        obtain ⟨⟨r3, s3⟩, h3, h⟩ := h
        have a3 := a2.trans (After.pfmNumbers h3)
        cases r3 with
        | none => cases h; exact a3
        | some v =>
          obtain ⟨v1, v2, v3⟩ := v
          simp only at h
          rcases h4 : Verif.spaceNext s3 with ⟨sp, s4⟩
          rw [h4] at h
          simp only at h
          have a4 := a3.trans (After.spaceNext h4)
          split at h <;> cases h <;> exact a4
  | _ => cases h; exact a1

theorem After.pgmNumbers {c : Cfg} {s t : Stream} {o : Option (ℕ × ℕ × ℕ)} (h : pgmNumbers c s = some (o, t)) : After s t := by
  unfold Verif.pgmNumbers at h
  simp only [Option.bind_eq_bind, Option.bind_eq_some_iff] at h
  obtain ⟨⟨r1, s1⟩, h1, h⟩ := h
  have a1 := After.scanUnsigned h1
  cases r1 with
  | ok v =>
    simp only [Option.bind_eq_some_iff] at h
    obtain ⟨⟨r2, s2⟩, h2, h⟩ := h
    have a2 := (After.skipSpace s1).trans (After.scanUnsigned h2)
    cases r2 with
    | ok v2 =>
      simp only [Option.bind_eq_some_iff] at h
      obtain ⟨⟨r3, s3⟩, h3, h⟩ := h
      have a3 := (After.skipSpace s2).trans (After.scanUnsigned h3)
      have : After s s3 := a1.trans (a2.trans a3)
      cases r3 <;> cases h <;> exact this
    | _ => cases h; exact a1.trans a2
  | _ => cases h; exact a1

theorem After.pgmMagic {s t : Stream} {b : Bool} (h : pgmMagic s = (b, t)) : After s t := by
  unfold Verif.pgmMagic at h
  rcases h1 : s.scanChar (ch 'P') with ⟨r1, s1⟩
  have a1 := After.scanChar h1
  rw [h1] at h
  cases r1 with
  | ok v =>
    simp only at h
    rcases h2 : s1.scanChar (ch '5') with ⟨r2, s2⟩
    have a2 := a1.trans (After.scanChar h2)
    rw [h2] at h
    cases r2 with
    | ok v2 => cases h; exact a2.trans (After.skipSpace s2)
    | _ => cases h; exact a2
  | _ => cases h; exact a1

theorem After.pgmHeader {c : Cfg} {s t : Stream} {o : Option (ℕ × ℕ × ℕ)} (h : pgmHeader c s = some (o, t)) : After s t := by
  unfold Verif.pgmHeader at h
  rcases h1 : Verif.pgmMagic s with ⟨bad, s1⟩
  have a1 := After.pgmMagic h1
  rw [h1] at h
  simp only at h
  split at h
  · cases h; exact a1
  · rcases h2 : Verif.skipComments (s1.rest.length + 1) s1 with ⟨ok, s2⟩
    have a2 := a1.trans (After.skipComments h2)
    rw [h2] at h
    simp only at h
    split at h
    · cases h; exact a2
    · simp only [Option.bind_eq_bind, Option.bind_eq_some_iff] at h
      obtain ⟨⟨r3, s3⟩, h3, h⟩ := h
      have a3 := a2.trans (After.pgmNumbers h3)
      cases r3 with
      | none => cases h; exact a3
      | some v =>
        obtain ⟨v1, v2, v3⟩ := v
        simp only at h
        rcases h4 : Verif.spaceNext s3 with ⟨sp, s4⟩
        rw [h4] at h
        simp only at h
        have a4 := a3.trans (After.spaceNext h4)
        split at h <;> cases h <;> exact a4

theorem After.y4mFrameHeader (s : Stream) : After s (y4mFrameHeader s).2.2 ∧
    ((y4mFrameHeader s).1 = true → (y4mFrameHeader s).2.2.rest.length + 6 ≤ s.rest.length ∧ (y4mFrameHeader s).2.1 = 0) := by
  unfold Verif.y4mFrameHeader
  have e0 : s.fread 5 = (s.rest.take 5, s.advance (min 5 s.rest.length)) := rfl
  rw [e0]
  simp only
  have a1 : After s (s.advance (min 5 s.rest.length)) := After.advance (by omega)
  split
  · exact ⟨a1, by simp⟩
  · rename_i h5
    rw [List.length_take] at h5
    have e : min 5 s.rest.length = 5 := by omega
    rw [e] at a1 ⊢
    split
    · exact ⟨a1, by simp⟩
    · split
      · rename_i hk
        refine ⟨a1.trans (After.advance hk), fun _ => ⟨?_, rfl⟩⟩
        simp only [Stream.advance, List.length_drop] at hk ⊢
        omega
      · exact ⟨a1.trans (After.advance (List.takeWhile_prefix _).length_le), by simp⟩

end Verif
