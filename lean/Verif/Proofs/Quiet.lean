import Verif.Proofs.Seek

/-! Seeking without a progress callback differs from seeking with one only in the calls. -/

namespace Verif

open Spec

variable {s : Sys} {fs : Fs} {r : Reader} {Ok : Ctx → ℕ → ℕ → Prop} {U F : Prop} {L S : List ℕ} {w h W H : ℕ} {i : RDImage} {x : Ctx}

theorem pfmSkip_quiet {bytes k j : ℕ} {x : PfmCtx} {buf : Option (List UInt8)} {c c' : List ℕ} :
    pfmSkip s w h bytes false k j x buf c = (pfmSkip s w h bytes true k j x buf c').map (fun v => (v.1, v.2.1, c, v.2.2.2)) := by
  induction k generalizing j x buf c' with
  | zero => rfl
  | succ n ih =>
    unfold pfmSkip
    rcases pfmReadHeader s.cfg x w h with _ | ⟨ok, e, x1⟩
    · rfl
    · simp only [Option.bind_eq_bind, Option.bind_some]
      cases ok with
      | false => rfl
      | true =>
        simp only [Bool.not_true, Bool.false_eq_true, if_false]
        rcases fskip s x1.f.st bytes buf with _ | ⟨e2, st2, buf2⟩
        · rfl
        · simp only [Option.bind_some]
          by_cases he : e2 ≠ 0
          · rw [if_pos he, if_pos he]; rfl
          · rw [if_neg he, if_neg he]
            exact ih

theorem y4mSkip_quiet {k j : ℕ} {x : Y4mCtx} {st : Stream} {c c' : List ℕ} :
    y4mSkip s x false k j st c = (y4mSkip s x true k j st c').map (fun v => (v.1, v.2.1, c, v.2.2.2)) := by
  induction k generalizing j st c' with
  | zero => rfl
  | succ n ih =>
    unfold y4mSkip
    rcases y4mFrameHeader st with ⟨ok, e, st1⟩
    simp only
    cases ok with
    | false => rfl
    | true =>
      simp only [Bool.not_true, Bool.false_eq_true, if_false]
      rcases fskip s st1 x.ySize x.skipBuf with _ | ⟨e2, st2, b2⟩
      · rfl
      · simp only [Option.bind_eq_bind, Option.bind_some]
        by_cases he : e2 ≠ 0
        · rw [if_pos he, if_pos he]; rfl
        · rw [if_neg he, if_neg he]
          rcases fskip s st2 x.uvSize x.skipBuf with _ | ⟨e3, st3, b3⟩
          · rfl
          · simp only [Option.bind_some]
            by_cases he : e3 ≠ 0
            · rw [if_pos he, if_pos he]; rfl
            · rw [if_neg he, if_neg he]
              exact ih

theorem lift_map {α β : Type} (o : Option α) (f : α → β) : (M.lift (o.map f) : M β) = (M.lift o >>= fun v => pure (f v)) := by
  funext w
  cases o <;> rfl

/-- Forget the calls of the progress callback. -/
def hush (v : Bool × RDError × List ℕ × Ctx) : Bool × RDError × List ℕ × Ctx := (v.1, v.2.1, [], v.2.2.2)

theorem Builtin.seek_quiet (hb : Builtin s fs r Ok) {k : ℕ} : r.seek x k false w h = (r.seek x k true w h >>= fun v => pure (hush v)) := by
  cases hb with
  | pgm =>
    cases x with
    | pgm x =>
      show (pgmSeek x k false >>= _) = _
      show _ = ((pgmSeek x k true >>= _) >>= _)
      unfold pgmSeek singleSeek
      simp only [bind_assoc, pure_bind]
      congr 1
      funext _
      split <;> rfl
    | _ => rfl
  | pfm =>
    cases x with
    | pfm x =>
      show (pfmSeek s x k false w h >>= _) = _
      show _ = ((pfmSeek s x k true w h >>= _) >>= _)
      unfold pfmSeek
      simp only [bind_assoc, pure_bind]
      congr 1
      funext _
      congr 1
      funext _
      congr 1
      funext v
      cases v.1 with
      | true =>
        simp only [if_true, bind_assoc, pure_bind]
        rw [pfmSkip_quiet (c' := []), lift_map, bind_assoc]
        congr 1
      | false =>
        simp only [Bool.false_eq_true, if_false, bind_assoc]
        congr 1
        funext o
        cases o with
        | none => rfl
        | some b =>
          simp only [bind_assoc, pure_bind]
          rw [pfmSkip_quiet (c' := []), lift_map, bind_assoc]
          congr 1
    | _ => rfl
  | y4m =>
    cases x with
    | y4m x =>
      show (y4mSeek s x k false >>= _) = _
      show _ = ((y4mSeek s x k true >>= _) >>= _)
      unfold y4mSeek
      rw [y4mSkip_quiet (c' := []), lift_map]
      simp only [bind_assoc, pure_bind]
      rfl
    | _ => rfl

/-- Seeking through the API, with or without a callback. -/
theorem Builtin.skip_any (hb : Builtin s fs r Ok) (hi : Handle s r Ok W H i x) {b : Option (Buf Fl)} {k : ℕ} {pr : Bool} :
    Act (x.skip s W H k = none) F (heldOpt b i x L) (x.files ++ S) (seekFrame (some i) k pr) (fun a L' S' =>
      ∃ x' calls', (a = (false, RDENOMEM, calls', some { i with ctx := some x' }) ∧ F ∧ x' = x ∧ x.greedy ∧ (pr = true → calls' = []) ∨
          ∃ ret e calls, x.skip s W H k = some (ret, e, calls, x') ∧ a = (ret, e, calls', some { i with ctx := some x' }) ∧ (pr = true → calls' = calls)) ∧
        Handle s r Ok W H { i with ctx := some x' } x' ∧ L' = heldOpt b i x' L ∧ S' = x'.files ++ S) := by
  cases pr with
  | true =>
    refine Act.mono (hb.skip_act hi) ?_
    rintro a L' S' ⟨x', ⟨h1, h2⟩ | ⟨ret, e, calls, h1, h2⟩, h3⟩
    · exact ⟨x', _, Or.inl ⟨h1, h2.1, h2.2.1, h2.2.2, fun _ => rfl⟩, h3⟩
    · exact ⟨x', _, Or.inr ⟨ret, e, calls, h1, h2, fun _ => rfl⟩, h3⟩
  | false =>
    have e1 : seekFrame (some i) k false = (seekFrame (some i) k true >>= fun v => pure (v.1, v.2.1, [], v.2.2.2)) := by
      unfold seekFrame
      simp only [bind_assoc, pure_bind, hi.reader, hi.ctx]
      congr 1
      funext _
      have n1 : (need (some r) : M Reader) = pure r := rfl
      have n2 : (need (some x) : M Ctx) = pure x := rfl
      simp only [n1, n2, pure_bind, hb.seek_quiet, bind_assoc]
      rfl
    rw [e1]
    refine Act.bind (hb.skip_act hi) ?_
    rintro a L' S' ⟨x', ⟨rfl, h2⟩ | ⟨ret, e, calls, h1, rfl⟩, h3⟩
    · exact Act.pure ⟨x', _, Or.inl ⟨rfl, h2.1, h2.2.1, h2.2.2, fun h => by cases h⟩, h3⟩
    · exact Act.pure ⟨x', _, Or.inr ⟨ret, e, calls, h1, rfl, fun h => by cases h⟩, h3⟩

end Verif
