import Verif.Proofs.Quiet
import Verif.Proofs.Player

/-! What programs that read frames one after another need to know about an image, whatever the reader. -/

namespace Verif

open Spec

variable {s : Sys} {fs : Fs} {r : Reader} {Ok : Ctx → ℕ → ℕ → Prop} {U F : Prop} {L S : List ℕ} {W H : ℕ} {i : RDImage} {x : Ctx}
  {G : Ctx → List (List Fl) → RDError → Prop} {frames : List (List Fl)} {e : RDError}

/-- The contexts `x` with `G x frames e` show `frames`, one after the other, and then end with `e`. -/
structure Feed (s : Sys) (r : Reader) (W H : ℕ) (Ok : Ctx → ℕ → ℕ → Prop) (F : Prop) (G : Ctx → List (List Fl) → RDError → Prop) : Prop where
  sound : r.Sound s.cfg (fun _ => True) True F Ok
  read : ∀ {x frames e img} L S, G x frames e → Ok x W H → img.length = W * H →
    Act False F (x.blocks ++ L) (x.files ++ S) (r.read x img W H) (fun a L' S' => ∃ x' data,
      a = (!frames.isEmpty, if frames.isEmpty then e else RDEOK, data, x') ∧ (∀ f fs, frames = f :: fs → data = f ∧ f.length = W * H ∧ G x' fs e) ∧
        Ok x' W H ∧ L' = x'.blocks ++ L ∧ S' = x'.files ++ S)

/-- Reading a frame through the API. -/
theorem Feed.frame_act (hb : Feed s r W H Ok F G) (hi : Handle s r Ok W H i x) (hx : G x frames e) {buf : Buf Fl} (hl : buf.data.length = W * H) :
    Act False F (held buf.id i x L) (x.files ++ S) (readImageFrame (some i) (some buf) 0) (fun a L' S' => ∃ x' data,
      a = (!frames.isEmpty, if frames.isEmpty then e else RDEOK, some ⟨buf.id, data⟩, some { i with ctx := some x' }) ∧
        (∀ f fs, frames = f :: fs → data = f ∧ f.length = W * H ∧ G x' fs e) ∧
        Handle s r Ok W H { i with ctx := some x' } x' ∧ L' = held buf.id i x' L ∧ S' = x'.files ++ S) := by
  have h1 := (hb.read (img := buf.data.drop 0) (buf.id :: i.block :: L) S hx hi.ok (by simpa using hl)).of_perm (held_perm buf.id i x L) (List.Perm.refl _)
  have e1 : r.read x (buf.data.drop 0) W H = r.read x (buf.data.drop 0) i.width i.height := by rw [hi.width, hi.height]
  rw [e1] at h1
  refine (readFrame_act h1 hi.reader hi.ctx (by simp [held]) (by simp [held]) (Nat.zero_le _)).toPerm ?_
  rintro a L' S' ⟨v, ⟨x', data, rfl, hd, hx', rfl, rfl⟩, rfl⟩
  refine ⟨_, (held_perm buf.id i x' L).symm, x', data, ?_, hd, hi.move hx', rfl, rfl⟩
  rw [List.take_zero, List.nil_append]

/-- The readers that come with the library. -/
theorem Builtin.feed (hb : Builtin s fs r Ok) (hw : Within s.cfg W H) : Feed s r W H Ok F (fun x frames e => x.frames s W H = (frames, some e)) where
  sound := hb.sound F
  read := by
    intro x frames e img L S hfr hx hl
    refine Act.mono (Act.weaken (hb.read_act (F := F) hx hw (by omega)) (fun h => by rw [Ctx.frames_none h] at hfr; cases hfr) Iff.rfl) ?_
    rintro ⟨a1, a2, a3, a4⟩ L' S' ⟨o, e', x', hst, st, hx', rfl, rfl⟩
    have h1 := st.ret
    have h2 := st.error
    have h3 := st.ctx
    simp only at h1 h2 h3
    subst h1 h2 h3
    cases o with
    | none =>
      rw [Ctx.frames_stop hst] at hfr
      cases hfr
      exact ⟨_, _, rfl, fun f fs h => (by cases h), hx', rfl, rfl⟩
    | some f =>
      obtain ⟨d1, d2, d3⟩ := st.frame f rfl
      simp only at d1 d3
      subst d3
      rw [Ctx.frames_next hw.pos hst] at hfr
      simp only [Prod.mk.injEq] at hfr
      obtain ⟨rfl, hfr⟩ := hfr
      refine ⟨_, _, rfl, fun g gs h => ?_, hx', rfl, rfl⟩
      obtain ⟨rfl, rfl⟩ := List.cons.inj h
      exact ⟨by rw [d1]; exact fill_zero (by rw [d2, hl]), d2, Prod.ext rfl hfr⟩

/-- The other ones. -/
theorem Player.feed {R : Ctx → List (List Fl) → Prop} (hp : Player r W H Ok R) (hs : r.Sound s.cfg (fun _ => True) True False Ok) :
    Feed s r W H Ok False (fun x frames e => R x frames ∧ e = RDEOK) where
  sound := hs
  read := by
    rintro x frames e img L S ⟨hR, rfl⟩ hx hl
    refine Act.mono (hp.read L S hR hx hl) ?_
    rintro a L' S' ⟨x', rfl, hR', hx', rfl, rfl⟩
    refine ⟨x', frames.headD img, by rw [ite_self], ?_, hx', rfl, rfl⟩
    rintro f fs rfl
    exact ⟨rfl, hp.length hR, hR', rfl⟩

/-- Opening `op` gives an image that shows `frames` and then ends with `e`. -/
structure Fount (s : Sys) (op : M Opened) (W H : ℕ) (r : Reader) (Ok : Ctx → ℕ → ℕ → Prop) (F : Prop) (G : Ctx → List (List Fl) → RDError → Prop)
    (G0 : Ctx → Prop) : Prop where
  feed : Feed s r W H Ok F G
  opening : ∀ L S, Act False F L S op (fun o L' S' =>
    (∃ i x b, Opens s r Ok true o i x ∧ G0 x ∧ o.width = W ∧ o.height = H ∧ o.buf = some ⟨b, List.replicate (W * H) s.env.junk⟩ ∧ L' = held b i x L ∧
      S' = x.files ++ S) ∨
    (o = Failed RDENOMEM ∧ F ∧ L' = L ∧ S' = S))

theorem Player.fount {R : Ctx → List (List Fl) → Prop} (hp : Player r W H Ok R) (hs : r.Sound s.cfg (fun _ => True) True False Ok) {name : List UInt8}
    (hw : Within s.cfg W H)
    (hopen : ∀ L S, Act False False L S (r.open' name) (fun a _ _ => ∃ x, a = (some x, W, H, RDEOK) ∧ R x frames)) :
    Fount s (openImage s (some r) name true) W H r Ok False (fun x frames e => R x frames ∧ e = RDEOK) (fun x => R x frames) where
  feed := hp.feed hs
  opening := by
    intro L S
    refine (openImage_act hs (wantBuf := true) hopen).toPerm ?_
    rintro op L' S' (⟨i, x, ho, ⟨x1, e1, hx⟩, hp1, rfl⟩ | ⟨_, _, _, ⟨_, h⟩ | ⟨_, _, _, _, _, h, _⟩ | ⟨_, _, _, _, ⟨_, h, _⟩, hn⟩⟩)
    · obtain ⟨b, hbuf⟩ := ho.buffer
      simp only [Option.some.injEq, Prod.mk.injEq] at e1
      obtain ⟨rfl, hW, hH, _⟩ := e1
      refine ⟨held b i x L, ?_, Or.inl ⟨i, x, b, ho, hx, hW, hH, ?_, rfl, rfl⟩⟩
      · rw [hbuf] at hp1; exact hp1
      · rw [hbuf, hW, hH]
    · exact h.elim
    · cases h
    · cases h; exact absurd hw hn

end Verif
