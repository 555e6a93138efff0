import Verif.Proofs.BulkLemmas

/-! Seeking in the built-in readers, and simulation of a list of frames. -/

namespace Verif

open Spec

variable {s : Sys} {fs : Fs} {r : Reader} {Ok : Ctx → ℕ → ℕ → Prop} {U F : Prop} {L S : List ℕ} {w h W H : ℕ} {i : RDImage} {x : Ctx}

/-- The buffer the PFM reader skips with. -/
def pfmSkipBuf (c : Cfg) (x : PfmCtx) (w h : ℕ) : Option (List UInt8) :=
  if seekMode c x.f.st (pfmBytes c x w h) then none else some (List.replicate (pfmBytes c x w h) 0)

/-- The effect of seeking: result, error, progress, context afterwards; `none` is undefined. -/
def Ctx.skip (s : Sys) (w h k : ℕ) : Ctx → Option (Bool × RDError × List ℕ × Ctx)
  | .pgm x => some ((singleSeek x.eof k true).1, RDEOK, (singleSeek x.eof k true).2.1, .pgm { x with eof := (singleSeek x.eof k true).2.2 })
  | .pfm x => (pfmSkip s w h (pfmBytes s.cfg x w h) true k 0 x (pfmSkipBuf s.cfg x w h) []).map
      (fun v => (v.1, v.2.1, v.2.2.1, .pfm { v.2.2.2 with headerConsumed := false }))
  | .y4m x => some ((y4mSkips s x true k 0 x.f.st []).1, (y4mSkips s x true k 0 x.f.st []).2.1, (y4mSkips s x true k 0 x.f.st []).2.2.1,
      .y4m { x with f := { x.f with st := (y4mSkips s x true k 0 x.f.st []).2.2.2 } })
  | _ => none

/-- Whether seeking may need memory. -/
def Ctx.greedy : Ctx → Prop
  | .pfm _ => True
  | _ => False

theorem Builtin.seek_act (hb : Builtin s fs r Ok) (hx : Ok x w h) {k : ℕ} :
    Act (x.skip s w h k = none) F (x.blocks ++ L) (x.files ++ S) (r.seek x k true w h) (fun a L' S' =>
      Ok a.2.2.2 w h ∧ L' = a.2.2.2.blocks ++ L ∧ S' = a.2.2.2.files ++ S ∧
      ((a = (false, RDENOMEM, [], x) ∧ F ∧ x.greedy) ∨ x.skip s w h k = some a)) := by
  cases hb with
  | pgm =>
    cases x with
    | pgm x =>
      refine Act.bind (P := fun a L' S' => L' = x.block :: L ∧ S' = x.f.owned ++ S ∧ a = ((singleSeek x.eof k true).1, RDEOK,
        (singleSeek x.eof k true).2.1, { x with eof := (singleSeek x.eof k true).2.2 })) ?_ ?_
      · unfold pgmSeek
        refine Act.skip (Act.touch (by simp [Ctx.blocks])) ?_
        exact Act.pure ⟨rfl, rfl, rfl⟩
      · rintro _ _ _ ⟨rfl, rfl, rfl⟩
        exact Act.pure ⟨trivial, rfl, rfl, Or.inr rfl⟩
    | _ => exact hx.elim
  | pfm =>
    cases x with
    | pfm x =>
      refine Act.bind (Act.weaken pfmSeek_act (fun h => by simp only [Ctx.skip, pfmSkipBuf, h, Option.map_none]) Iff.rfl) ?_
      rintro a L' S' ⟨rfl, rfl, ⟨rfl, hF⟩ | ⟨ret, e, calls, x1, h1, rfl⟩⟩
      · exact Act.pure ⟨trivial, rfl, rfl, Or.inl ⟨rfl, hF, trivial⟩⟩
      · have k1 := pfmSkip_keeps h1
        refine Act.pure ⟨trivial, ?_, ?_, Or.inr ?_⟩
        · simp only [Ctx.blocks, k1.1]; rfl
        · simp only [Ctx.files]; simp only [File.owned, k1.2.1]
        · simp only [Ctx.skip, pfmSkipBuf, h1]; rfl
    | _ => exact hx.elim
  | y4m =>
    cases x with
    | y4m x =>
      refine Act.bind (y4mSeek_act hx) ?_
      rintro a L' S' ⟨rfl, rfl, rfl⟩
      have hx' : Y4mOk s.cfg x w h := hx
      exact Act.pure ⟨Y4mOk.move hx' _, rfl, rfl, Or.inr rfl⟩
    | _ => exact hx.elim

theorem pfmSkip_erase {bytes k i b : ℕ} {p : Bool} (x : PfmCtx) (id : Option ℕ) (buf : Option (List UInt8)) (calls : List ℕ) :
    pfmSkip s w h bytes p k i { x with block := b, f := { x.f with id := id } } buf calls =
      (pfmSkip s w h bytes p k i x buf calls).map (fun v => (v.1, v.2.1, v.2.2.1, { v.2.2.2 with block := b, f := { v.2.2.2.f with id := id } })) := by
  induction k generalizing i x buf calls with
  | zero => rfl
  | succ n ih =>
    unfold pfmSkip
    rw [pfmReadHeader_erase]
    rcases pfmReadHeader s.cfg x w h with _ | ⟨ok, e, x1⟩
    · rfl
    · simp only [Option.map_some, Option.bind_eq_bind, Option.bind_some]
      cases ok with
      | false => rfl
      | true =>
        simp only [Bool.not_true, Bool.false_eq_true, if_false]
        rcases fskip s x1.f.st bytes buf with _ | ⟨e2, st2, buf2⟩
        · rfl
        · simp only [Option.bind_some]
          by_cases he : e2 ≠ 0
          · rw [if_pos he, if_pos he]; rfl
          · rw [if_neg he, if_neg he]
            exact ih { x1 with headerConsumed := false, f := { x1.f with st := st2 } } _ _

theorem y4mSkips_erase {p : Bool} {k i : ℕ} {st : Stream} {calls : List ℕ} (x : Y4mCtx) (b : ℕ) (f : File) (buf : Option (Buf UInt8)) :
    y4mSkips s { x with block := b, f := f, buf := buf } p k i st calls = y4mSkips s x p k i st calls := by
  induction k generalizing i st calls with
  | zero => rfl
  | succ n ih => unfold y4mSkips; simp only [ih]

/-- Seeking does not depend on the identities. -/
theorem Ctx.skip_erase (x : Ctx) (k : ℕ) : x.erase.skip s w h k = (x.skip s w h k).map (fun v => (v.1, v.2.1, v.2.2.1, v.2.2.2.erase)) := by
  cases x with
  | pgm x => rfl
  | pfm x =>
    simp only [Ctx.erase, Ctx.skip]
    rw [pfmSkip_erase, Option.map_map, Option.map_map]
    rfl
  | y4m x => simp only [Ctx.erase, Ctx.skip, y4mSkips_erase, Option.map_some]
  | _ => rfl

/-- Seeking through the API. -/
theorem Builtin.skip_act (hb : Builtin s fs r Ok) (hi : Handle s r Ok W H i x) {b : Option (Buf Fl)} {k : ℕ} :
    Act (x.skip s W H k = none) F (heldOpt b i x L) (x.files ++ S) (seekFrame (some i) k true) (fun a L' S' =>
      ∃ x', (a = (false, RDENOMEM, [], some { i with ctx := some x' }) ∧ F ∧ x' = x ∧ x.greedy ∨
          ∃ ret e calls, x.skip s W H k = some (ret, e, calls, x') ∧ a = (ret, e, calls, some { i with ctx := some x' })) ∧
        Handle s r Ok W H { i with ctx := some x' } x' ∧ L' = heldOpt b i x' L ∧ S' = x'.files ++ S) := by
  have h1 := (hb.seek_act (F := F) (L := (b.map Buf.id).toList ++ i.block :: L) (S := S) hi.ok (k := k)).of_perm (heldOpt_perm b i x L) (List.Perm.refl _)
  have e1 : r.seek x k true W H = r.seek x k true i.width i.height := by rw [hi.width, hi.height]
  rw [e1] at h1
  refine (seekFrame_act h1 hi.reader hi.ctx (by simp [heldOpt])).toPerm ?_
  rintro a L' S' ⟨⟨ret, e, calls, x'⟩, ⟨hx', rfl, rfl, h2⟩, rfl⟩
  refine ⟨_, (heldOpt_perm b i x' L).symm, x', ?_, hi.move hx', rfl, rfl⟩
  rcases h2 with ⟨h2, hF, hg⟩ | h2
  · cases h2; exact Or.inl ⟨rfl, hF, rfl, hg⟩
  · exact Or.inr ⟨ret, e, calls, h2, rfl⟩

/-- `R x frames ops`: context `x` behaves on the calls `ops` as if `frames` were to come. -/
structure Sim (s : Sys) (w h : ℕ) (R : Ctx → List (List Fl) → List IOp → Prop) : Prop where
  stop : ∀ {x ops}, R x [] (.read :: ops) → ∃ x', x.step s w h = some (none, RDEOK, x') ∧ R x' [] ops
  next : ∀ {x f fs ops}, R x (f :: fs) (.read :: ops) → ∃ x', x.step s w h = some (some f, RDEOK, x') ∧ R x' fs ops
  seek : ∀ {x fs k ops}, R x fs (.seek k :: ops) →
    ∃ x', x.skip s w h k = some (decide (k ≤ fs.length), RDEOK, (List.range (min k fs.length)).map (· + 1), x') ∧ R x' (fs.drop k) ops

theorem Builtin.session_sim (hb : Builtin s fs r Ok) {R : Ctx → List (List Fl) → List IOp → Prop} (hR : Sim s W H R) (ops : List IOp)
    {frames : List (List Fl)} (hi : Handle s r Ok W H i x) {buf : Buf Fl} (hl : buf.data.length = W * H) (hx : R x.erase frames ops) :
    Act False False (heldOpt (some buf) i x L) (x.files ++ S) (session ops (some i) (some buf)) (fun a L' S' =>
      ∃ i' buf' x', a = (playback ops frames buf.data, some i', some buf') ∧ Handle s r Ok W H i' x' ∧
        L' = heldOpt (some buf') i' x' L ∧ S' = x'.files ++ S) := by
  induction ops generalizing frames i x buf with
  | nil => exact Act.pure ⟨i, buf, x, by cases frames <;> rfl, hi, rfl, rfl⟩
  | cons op ops ih =>
    unfold session
    cases op with
    | read =>
      have hst : ∃ o e x1, x.step s W H = some (o, e, x1) ∧ e = RDEOK ∧ ((frames = [] ∧ o = none ∧ R x1.erase [] ops) ∨
          ∃ f fs, frames = f :: fs ∧ o = some f ∧ R x1.erase fs ops) := by
        cases frames with
        | nil =>
          obtain ⟨x1, h1, h2⟩ := hR.stop hx
          rw [Ctx.step_erase, Option.map_eq_some_iff] at h1
          obtain ⟨⟨o, e, x2⟩, h3, h4⟩ := h1
          cases h4
          exact ⟨_, _, _, h3, rfl, Or.inl ⟨rfl, rfl, h2⟩⟩
        | cons f fs =>
          obtain ⟨x1, h1, h2⟩ := hR.next hx
          rw [Ctx.step_erase, Option.map_eq_some_iff] at h1
          obtain ⟨⟨o, e, x2⟩, h3, h4⟩ := h1
          cases h4
          exact ⟨_, _, _, h3, rfl, Or.inr ⟨f, fs, rfl, rfl, h2⟩⟩
      obtain ⟨o, e, x1, hst, rfl, hcase⟩ := hst
      simp only [istep, bind_assoc, pure_bind]
      have ha := hb.frame_act (F := False) (L := L) (S := S) hi (buf := buf) (off := 0) (by omega)
      refine Act.bind (ha.weaken (by rw [hst]; simp) Iff.rfl) ?_
      rintro a _ _ ⟨o', e', x', data, h1, rfl, hsp, hfr, hsame, hi', rfl, rfl⟩
      rw [hst] at h1
      cases h1
      simp only [List.take_zero, List.nil_append, Option.map_some, Option.getD_some]
      rcases hcase with ⟨rfl, rfl, hx1⟩ | ⟨f, fs, rfl, rfl, hx1⟩
      · have hd := hsame rfl rfl
        simp only [List.drop_zero] at hd
        subst hd
        refine Act.bind (ih (i := { i with ctx := some x1 }) hi' (buf := ⟨buf.id, buf.data⟩) hl hx1) ?_
        rintro _ _ _ ⟨i', buf', x', rfl, h2, rfl, rfl⟩
        exact Act.pure ⟨i', buf', x', rfl, h2, rfl, rfl⟩
      · obtain ⟨hf1, hf2, _⟩ := hfr f rfl
        have hd' : data = f := by
          rw [hf1]
          simp only [List.drop_zero]
          exact fill_zero (by rw [hf2, hl])
        subst hd'
        refine Act.bind (ih (i := { i with ctx := some x1 }) hi' (buf := ⟨buf.id, data⟩) hf2 hx1) ?_
        rintro _ _ _ ⟨i', buf', x', rfl, h2, rfl, rfl⟩
        exact Act.pure ⟨i', buf', x', rfl, h2, rfl, rfl⟩
    | seek k =>
      obtain ⟨x1, h1, h2⟩ := hR.seek hx
      rw [Ctx.skip_erase, Option.map_eq_some_iff] at h1
      obtain ⟨⟨ret, e, calls, x2⟩, h3, h4⟩ := h1
      cases h4
      simp only [istep, bind_assoc, pure_bind]
      refine Act.bind ((hb.skip_act (F := False) hi (b := some buf)).weaken (by rw [h3]; simp) Iff.rfl) ?_
      rintro a _ _ ⟨x', ⟨_, h4, _⟩ | ⟨ret, e, calls, h4, rfl⟩, hi', rfl, rfl⟩
      · exact h4.elim
      · rw [h3] at h4
        simp only [Option.some.injEq, Prod.mk.injEq] at h4
        obtain ⟨rfl, rfl, rfl, rfl⟩ := h4
        refine Act.bind (ih hi' hl h2) ?_
        rintro _ _ _ ⟨i', buf', x', rfl, h2, rfl, rfl⟩
        exact Act.pure ⟨i', buf', x', rfl, h2, rfl, rfl⟩

/-- From a simulation to what the client sees. -/
theorem Builtin.plays {io : Io} (hb : Builtin s io.fs r Ok) {R : Ctx → List (List Fl) → List IOp → Prop} (hR : Sim s W H R) {name : List UInt8} {x : Ctx}
    (hd : Determined r name (some (some x, W, H, RDEOK))) (hw : Within s.cfg W H) {frames : List (List Fl)} {ok : List IOp → Prop}
    (hx : ∀ ops, ok ops → R x frames ops) : Plays (openImage s (some r) name true) W H frames ok := by
  intro w hwf hp
  have hF : ∀ j, w.sched j = false → False := fun j h => by rw [hp j] at h; cases h
  rcases hb.det_act hd (F := False) (wantBuf := true) (L := []) (S := []) w w (Own.init hwf hF) with ⟨h4, h5⟩ | ⟨op, w', L', S', h4, ow, h5⟩
  · cases h5
  · rcases h5 with ⟨i, x1, ho, e1, hp1, rfl⟩ | ⟨_, h0, _, _, ⟨_, h⟩ | ⟨_, _, h⟩ | ⟨_, _, _, _, h, hn⟩⟩
    · obtain ⟨b, hbuf⟩ := ho.buffer
      simp only [Option.some.injEq, Prod.mk.injEq] at e1
      obtain ⟨rfl, hW, hH, _⟩ := e1
      obtain ⟨oi, ow', oh, ob, oe⟩ := op
      simp only at hW hH hbuf
      subst hW hH
      have e1 : oi = some i := ho.image
      have e2 : oe = 0 := ho.error
      subst e1 e2 hbuf
      refine ⟨i, _, w', h4, by simp, fun ops hok => ?_⟩
      rcases hb.session_sim hR ops ho.handle (buf := ⟨b, List.replicate (W * H) s.env.junk⟩) (L := []) (S := []) (by simp) (hx ops hok) w w'
        (ow.perm hp1 (List.Perm.refl _)) with ⟨_, h⟩ | ⟨a, w2, L2, S2, h6, ow2, i', buf', x', rfl, hi', rfl, rfl⟩
      · exact h.elim
      · refine ⟨some i', buf', w2, h6, ?_⟩
        rcases release_act (hb.sound False) hi' (b := some buf') (L := []) (S := []) w w2 ow2 with ⟨_, h⟩ | ⟨_, w3, L3, S3, h7, ow3, rfl, rfl⟩
        · exact h.elim
        · exact ⟨w3, h7, ow3.same⟩
    · exact h.elim
    · cases h
    · cases h; exact absurd hw hn

theorem playback_reads (frames : List (List Fl)) (data : List Fl) :
    ∃ last, playback (List.replicate (frames.length + 1) .read) frames data = frames.map (.read true RDEOK) ++ [.read false RDEOK last] := by
  induction frames generalizing data with
  | nil => exact ⟨data, rfl⟩
  | cons f fs ih =>
    obtain ⟨last, h⟩ := ih f
    refine ⟨last, ?_⟩
    rw [List.length_cons, List.replicate_succ]
    simp only [playback, h, List.map_cons, List.cons_append]

/-- A playback of frames yields these frames. -/
theorem Spec.Plays.yields {m : M Opened} {frames : List (List Fl)} {ok : List IOp → Prop} (h : Plays m W H frames ok)
    (hok : ok (List.replicate (frames.length + 1) .read)) : Yields m W H frames RDEOK := by
  intro w hw hp
  obtain ⟨i, buf, w1, h1, h2, h3⟩ := h w hw hp
  obtain ⟨i', buf', w2, h4, _⟩ := h3 _ hok
  obtain ⟨last, h5⟩ := playback_reads frames buf.data
  rw [h5] at h4
  exact ⟨i, buf, w1, h1, h2, last, i', some buf', w2, h4⟩

end Verif
