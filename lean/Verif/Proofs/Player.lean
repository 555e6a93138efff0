import Verif.Proofs.Seek
import Verif.Spec.External

/-! Playing back an image through any reader whose contexts show a list of frames. -/

namespace Verif
open Spec

/-- The contexts `x` with `R x frames` show `frames`, one after the other. -/
structure Player (r : Reader) (W H : ℕ) (Ok : Ctx → ℕ → ℕ → Prop) (R : Ctx → List (List Fl) → Prop) : Prop where
  length : ∀ {x f fs}, R x (f :: fs) → f.length = W * H
  read : ∀ {x frames img} L S, R x frames → Ok x W H → img.length = W * H →
    Act False False (x.blocks ++ L) (x.files ++ S) (r.read x img W H) (fun a L' S' => ∃ x',
      a = (!frames.isEmpty, RDEOK, frames.headD img, x') ∧ R x' frames.tail ∧ Ok x' W H ∧ L' = x'.blocks ++ L ∧ S' = x'.files ++ S)
  seek : ∀ {x frames} L S k, R x frames → Ok x W H →
    Act False False (x.blocks ++ L) (x.files ++ S) (r.seek x k true W H) (fun a L' S' => ∃ x',
      a = (decide (k ≤ frames.length), RDEOK, (List.range (min k frames.length)).map (· + 1), x') ∧ R x' (frames.drop k) ∧
      Ok x' W H ∧ L' = x'.blocks ++ L ∧ S' = x'.files ++ S)

variable {s : Sys} {r : Reader} {W H : ℕ} {Ok : Ctx → ℕ → ℕ → Prop} {R : Ctx → List (List Fl) → Prop} {i : RDImage} {x : Ctx}
  {L S : List ℕ}

theorem Player.session_act (hp : Player r W H Ok R) (ops : List IOp) {frames : List (List Fl)} (hi : Handle s r Ok W H i x)
    {buf : Buf Fl} (hl : buf.data.length = W * H) (hx : R x frames) :
    Act False False (heldOpt (some buf) i x L) (x.files ++ S) (session ops (some i) (some buf)) (fun a L' S' =>
      ∃ i' buf' x', a = (playback ops frames buf.data, some i', some buf') ∧ Handle s r Ok W H i' x' ∧
        L' = heldOpt (some buf') i' x' L ∧ S' = x'.files ++ S) := by
  induction ops generalizing frames i x buf with
  | nil => exact Act.pure ⟨i, buf, x, by cases frames <;> rfl, hi, rfl, rfl⟩
  | cons op ops ih =>
    unfold session
    cases op with
    | read =>
      have h1 := (hp.read (img := buf.data.drop 0) (buf.id :: i.block :: L) S hx hi.ok (by simpa using hl)).of_perm
        (heldOpt_perm (some buf) i x L) (List.Perm.refl _)
      have e1 : r.read x (buf.data.drop 0) W H = r.read x (buf.data.drop 0) i.width i.height := by rw [hi.width, hi.height]
      rw [e1] at h1
      simp only [istep, bind_assoc, pure_bind]
      refine Act.bind (readFrame_act h1 hi.reader hi.ctx (by simp [heldOpt]) (by simp [heldOpt]) (Nat.zero_le _)) ?_
      rintro a L1 S1 ⟨v, ⟨x', rfl, hR, hok, rfl, rfl⟩, rfl⟩
      simp only [List.take_zero, List.nil_append, List.drop_zero, Option.map_some, Option.getD_some]
      refine Act.of_perm (L1 := heldOpt (some ⟨buf.id, frames.headD buf.data⟩) { i with ctx := some x' } x' L) ?_
        (heldOpt_perm (some buf) i x' L).symm (List.Perm.refl _)
      refine Act.bind (ih (i := { i with ctx := some x' }) (hi.move hok) (buf := ⟨buf.id, frames.headD buf.data⟩) ?_ hR) ?_
      · cases frames with
        | nil => exact hl
        | cons f fs => exact hp.length hx
      · rintro _ _ _ ⟨i', buf', x'', rfl, h2, rfl, rfl⟩
        refine Act.pure ⟨i', buf', x'', ?_, h2, rfl, rfl⟩
        cases frames <;> rfl
    | seek k =>
      have h1 := (hp.seek (buf.id :: i.block :: L) S k hx hi.ok).of_perm (heldOpt_perm (some buf) i x L) (List.Perm.refl _)
      have e1 : r.seek x k true W H = r.seek x k true i.width i.height := by rw [hi.width, hi.height]
      rw [e1] at h1
      simp only [istep, bind_assoc, pure_bind]
      refine Act.bind (seekFrame_act h1 hi.reader hi.ctx (by simp [heldOpt])) ?_
      rintro a L1 S1 ⟨v, ⟨x', rfl, hR, hok, rfl, rfl⟩, rfl⟩
      refine Act.of_perm (L1 := heldOpt (some buf) { i with ctx := some x' } x' L) ?_
        (heldOpt_perm (some buf) i x' L).symm (List.Perm.refl _)
      refine Act.bind (ih (i := { i with ctx := some x' }) (hi.move hok) hl hR) ?_
      rintro _ _ _ ⟨i', buf', x'', rfl, h2, rfl, rfl⟩
      exact Act.pure ⟨i', buf', x'', rfl, h2, rfl, rfl⟩

/-- What the client sees. -/
theorem Player.plays (hp : Player r W H Ok R) (hs : r.Sound s.cfg (fun _ => True) True False Ok) {name : List UInt8}
    {frames : List (List Fl)} (hw : Within s.cfg W H)
    (hopen : ∀ L S, Act False False L S (r.open' name) (fun a _ _ => ∃ x, a = (some x, W, H, RDEOK) ∧ R x frames)) :
    Plays (openImage s (some r) name true) W H frames (fun _ => True) := by
  intro w hwf hpl
  have hF : ∀ j, w.sched j = false → False := fun j h => by rw [hpl j] at h; cases h
  rcases openImage_act hs (wantBuf := true) hopen (L := []) (S := []) w w (Own.init hwf hF) with ⟨_, h5⟩ | ⟨op, w', L', S', h4, ow, h5⟩
  · exact h5.elim
  · rcases h5 with ⟨i, x, ho, ⟨x1, e1, hx⟩, hp1, rfl⟩ | ⟨_, _, _, ⟨_, h⟩ | ⟨_, _, _, _, _, h, _⟩ | ⟨_, _, _, _, ⟨_, h, _⟩, hn⟩⟩
    · obtain ⟨b, hbuf⟩ := ho.buffer
      simp only [Option.some.injEq, Prod.mk.injEq] at e1
      obtain ⟨rfl, hW, hH, _⟩ := e1
      obtain ⟨oi, ow', oh, ob, oe⟩ := op
      simp only at hW hH hbuf
      subst hW hH
      have e1 : oi = some i := ho.image
      have e2 : oe = 0 := ho.error
      subst e1 e2 hbuf
      refine ⟨i, _, w', h4, by simp, fun ops _ => ?_⟩
      rcases hp.session_act ops ho.handle (buf := ⟨b, List.replicate (ow' * oh) s.env.junk⟩) (L := []) (S := []) (by simp) hx w w'
        (ow.perm hp1 (List.Perm.refl _)) with ⟨_, h⟩ | ⟨a, w2, L2, S2, h6, ow2, i', buf', x', rfl, hi', rfl, rfl⟩
      · exact h.elim
      · refine ⟨some i', buf', w2, h6, ?_⟩
        rcases release_act hs hi' (b := some buf') (L := []) (S := []) w w2 ow2 with ⟨_, h⟩ | ⟨_, w3, L3, S3, h7, ow3, rfl, rfl⟩
        · exact h.elim
        · exact ⟨w3, h7, ow3.same⟩
    · exact h.elim
    · cases h
    · cases h; exact absurd hw hn

/-- Rejecting a file. -/
theorem rejects_of {e : RDError} {name : List UInt8} (hs : r.Sound s.cfg (fun _ => True) True False Ok) (he : e ≠ 0)
    (ho : ∀ L S, Act False False L S (r.open' name) (fun a _ _ => a.1 = none ∧ a.2.2.2 = e)) :
    Rejects (openImage s (some r) name true) e := by
  intro w hwf hpl
  have hF : ∀ j, w.sched j = false → False := fun j h => by rw [hpl j] at h; cases h
  rcases openImage_act hs (wantBuf := true) ho (L := []) (S := []) w w (Own.init hwf hF) with ⟨_, h5⟩ | ⟨op, w', L', S', h4, ow, h5⟩
  · exact h5.elim
  · rcases h5 with ⟨_, _, _, ⟨h, _⟩, _⟩ | ⟨h1, rfl, rfl, ⟨_, h⟩ | ⟨_, _, _, _, _, h⟩ | ⟨_, _, _, _, ⟨_, h⟩, _⟩⟩
    · cases h
    · exact h.elim
    · simp only at h
      rw [h1] at h4
      refine ⟨w', ?_, ow.same⟩
      rw [h4]; rw [← h]; rfl
    · simp only at h; exact absurd h.symm he

/-- Refusing a file whose size is out of bounds. -/
theorem toobig_of {name : List UInt8} (hs : r.Sound s.cfg (fun _ => True) True False Ok) (hw : ¬ Within s.cfg W H)
    (ho : ∀ L S, Act False False L S (r.open' name) (fun a _ _ => a.2 = (W, H, RDEOK))) :
    Rejects (openImage s (some r) name true) RDETOOBIG := by
  intro w hwf hpl
  have hF : ∀ j, w.sched j = false → False := fun j h => by rw [hpl j] at h; cases h
  rcases openImage_act hs (wantBuf := true) ho (L := []) (S := []) w w (Own.init hwf hF) with ⟨_, h5⟩ | ⟨op, w', L', S', h4, ow, h5⟩
  · exact h5.elim
  · rcases h5 with ⟨i, x, hi, h, _⟩ | ⟨h1, rfl, rfl, ⟨_, h⟩ | ⟨h0, _, _, _, h⟩ | ⟨h2, _⟩⟩
    · cases h; exact absurd hi.within hw
    · exact h.elim
    · simp only [Prod.mk.injEq] at h; exact absurd h.2.2 h0
    · rw [h1] at h4
      refine ⟨w', ?_, ow.same⟩
      rw [h4, h2]; rfl

/-- Two facts about the same run. -/
theorem Act.strengthen {α : Type} {U V F : Prop} {m : M α} {Q : α → List ℕ → List ℕ → Prop} {P : α → Prop} (h1 : Act U F L S m Q)
    (h2 : Act V F L S m (fun a _ _ => P a)) : Act V F L S m (fun a L' S' => Q a L' S' ∧ P a) := by
  intro base w hw
  rcases h2 base w hw with ⟨e1, e2⟩ | ⟨a, w', _, _, e1, _, e3⟩
  · exact Or.inl ⟨e1, e2⟩
  · rcases h1 base w hw with ⟨e4, _⟩ | ⟨a', w'', L'', S'', e4, e5, e6⟩
    · rw [e4] at e1; cases e1
    · rw [e1] at e4; cases e4
      exact Or.inr ⟨a, w', L'', S'', e1, e5, e6, e3⟩

/-- A reader whose contexts with `G` are safe to use. -/
theorem defined_of {G : Ctx → ℕ → ℕ → Prop} {name : List UInt8} {wantBuf : Bool} (hs : r.Sound s.cfg (fun _ => True) True True Ok)
    (hread : ∀ L S x img w h, Ok x w h → G x w h → Within s.cfg w h → w * h ≤ img.length →
      Act False True (x.blocks ++ L) (x.files ++ S) (r.read x img w h) (fun a _ _ => G a.2.2.2 w h))
    (hseek : ∀ L S x k p w h, Ok x w h → G x w h → Within s.cfg w h →
      Act False True (x.blocks ++ L) (x.files ++ S) (r.seek x k p w h) (fun a _ _ => G a.2.2.2 w h))
    (hopen : ∀ L S, Act False True L S (r.open' name) (fun a _ _ => ∀ x, a.1 = some x → G x a.2.1 a.2.2.1)) :
    Defined (openImage s (some r) name wantBuf) := by
  have hst : r.Steps s.cfg False True (fun x w h => Ok x w h ∧ G x w h) := by
    refine ⟨fun L S x img w h hx hw hl => ?_, fun L S x k p w h hx hw => ?_⟩
    · refine Act.mono ((hs.reads L S x img w h hx.1 hw hl).strengthen (hread L S x img w h hx.1 hx.2 hw hl)) ?_
      rintro a L' S' ⟨⟨h1, h2, h3, h4, h5, h6⟩, h7⟩
      exact ⟨h1, h2, h3, ⟨h4, h7⟩, h5, h6⟩
    · refine Act.mono ((hs.seeks L S x k p w h hx.1 hw).strengthen (hseek L S x k p w h hx.1 hx.2 hw)) ?_
      rintro a L' S' ⟨⟨h1, h2, h3, h4, h5⟩, h7⟩
      exact ⟨h1, h2, ⟨h3, h7⟩, h4, h5⟩
  intro w hwf
  rcases openImage_act hs (wantBuf := wantBuf) hopen (L := []) (S := []) w w (Own.init hwf (fun _ _ => trivial)) with ⟨_, h⟩ | ⟨o, w', L', S', h1, ow, h2⟩
  · exact h.elim
  · refine ⟨o, w', h1, fun h0 ops => ?_⟩
    rcases h2 with ⟨i, x, ho, hG, hp, rfl⟩ | ⟨h3, _, _, ⟨h4, _⟩ | ⟨h4, _⟩ | ⟨h4, _⟩⟩
    · have hi : Handle s r (fun x w h => Ok x w h ∧ G x w h) o.width o.height i x :=
        ⟨ho.reader, ho.ctx, ho.width, ho.height, ⟨ho.ok, hG x rfl⟩, ho.within⟩
      have hbuf : ∀ buf, o.buf = some buf → buf.data.length = o.width * o.height := by
        intro buf hb
        have := ho.buf
        cases wantBuf with
        | true =>
          simp only [if_true] at this
          obtain ⟨b, h⟩ := this
          rw [hb] at h
          cases h
          simp
        | false =>
          simp only [Bool.false_eq_true, if_false] at this
          rw [hb] at this; cases this
      rw [ho.image]
      rcases session_steps hst ops hi (b := o.buf) (L := []) (S := []) hbuf w w' (ow.perm hp (List.Perm.refl _)) with ⟨_, h⟩ | ⟨a, w2, _, _, h6, _⟩
      · exact h.elim
      · exact ⟨_, h6⟩
    · rw [h0] at h4; cases h4
    · exact absurd h0 h4
    · rw [h0] at h4; cases h4

/-- The first call after opening. -/
theorem first_read {U : Prop} {G : Ctx → Prop} {P : Bool → RDError → List Fl → List Fl → Prop} {name : List UInt8}
    (hs : r.Sound s.cfg (fun _ => True) True False Ok) (hw : Within s.cfg W H)
    (hopen : ∀ L S, Act False False L S (r.open' name) (fun a _ _ => ∃ x, a = (some x, W, H, RDEOK) ∧ G x))
    (hread : ∀ L S x img, Ok x W H → G x → img.length = W * H →
      Act U False (x.blocks ++ L) (x.files ++ S) (r.read x img W H) (fun a _ _ => P a.1 a.2.1 img a.2.2.1))
    {w : World} (hwf : w.WF) (hpl : Plenty w) : ∃ i buf w1, openImage s (some r) name true w = some (⟨some i, W, H, some buf, RDEOK⟩, w1) ∧
      ((session [.read] (some i) (some buf) w1 = none ∧ U) ∨
        ∃ b e data i' buf' w2, session [.read] (some i) (some buf) w1 = some (([.read b e data], i', buf'), w2) ∧ P b e buf.data data) := by
  have hF : ∀ j, w.sched j = false → False := fun j h => by rw [hpl j] at h; cases h
  rcases openImage_act hs (wantBuf := true) hopen (L := []) (S := []) w w (Own.init hwf hF) with ⟨_, h5⟩ | ⟨op, w', L', S', h4, ow, h5⟩
  · exact h5.elim
  · rcases h5 with ⟨i, x, ho, ⟨x1, e1, hx⟩, hp1, rfl⟩ | ⟨_, _, _, ⟨_, h⟩ | ⟨_, _, _, _, _, h, _⟩ | ⟨_, _, _, _, ⟨_, h, _⟩, hn⟩⟩
    · obtain ⟨b, hbuf⟩ := ho.buffer
      simp only [Option.some.injEq, Prod.mk.injEq] at e1
      obtain ⟨rfl, hW, hH, _⟩ := e1
      obtain ⟨oi, ow', oh, ob, oe⟩ := op
      simp only at hW hH hbuf
      subst hW hH
      have e1 : oi = some i := ho.image
      have e2 : oe = 0 := ho.error
      subst e1 e2 hbuf
      refine ⟨i, _, w', h4, ?_⟩
      have hi := ho.handle
      simp only at hi
      have hr := (hread (b :: i.block :: []) [] x ((List.replicate (ow' * oh) s.env.junk).drop 0) ho.ok hx (by simp)).of_perm
        (heldOpt_perm (some ⟨b, List.replicate (ow' * oh) s.env.junk⟩) i x []) (List.Perm.refl _)
      have e1 : r.read x ((List.replicate (ow' * oh) s.env.junk).drop 0) ow' oh =
          r.read x ((List.replicate (ow' * oh) s.env.junk).drop 0) i.width i.height := by rw [hi.width, hi.height]
      rw [e1] at hr
      have hact : Act U False (heldOpt (some ⟨b, List.replicate (ow' * oh) s.env.junk⟩) i x []) (x.files ++ [])
          (session [.read] (some i) (some ⟨b, List.replicate (ow' * oh) s.env.junk⟩)) (fun a _ _ => ∃ b' e data i' buf',
            a = ([.read b' e data], i', buf') ∧ P b' e (List.replicate (ow' * oh) s.env.junk) data) := by
        unfold session
        simp only [istep, bind_assoc, pure_bind]
        refine Act.bind (readFrame_act (buf := ⟨b, List.replicate (ow' * oh) s.env.junk⟩) hr hi.reader hi.ctx (by simp [heldOpt]) (by simp [heldOpt]) (Nat.zero_le _)) ?_
        rintro a L1 S1 ⟨v, hv, rfl⟩
        unfold session
        simp only [pure_bind]
        exact Act.pure ⟨_, _, _, _, _, rfl, by simpa using hv⟩
      rcases hact w w' (ow.perm hp1 (List.Perm.refl _)) with ⟨h6, h7⟩ | ⟨a, w2, L2, S2, h6, _, b', e, data, i', buf', rfl, h7⟩
      · exact Or.inl ⟨h6, h7⟩
      · exact Or.inr ⟨b', e, data, i', buf', w2, h6, h7⟩
    · exact h.elim
    · cases h
    · cases h; exact absurd hw hn

end Verif
