import Verif.Proofs.AnyFile
import Verif.Proofs.Feed

/-! Analysing a file whose frames are known. -/

namespace Verif

open Spec

variable {s : Sys} {io : Io} {r : Reader} {Ok : Ctx → ℕ → ℕ → Prop} {U F : Prop} {L S : List ℕ} {W H : ℕ} {i : RDImage} {x : Ctx}
  {fn ft : Option (List UInt8)} {G : Ctx → List (List Fl) → RDError → Prop} {m : Option Method} {p : Option Params} {ptr : Ptrs}
  {ev : List (Call × Obs)} {a : Analysis}

theorem Feed.fileLoop_act (hs : Build s) (hb : Feed s r W H Ok F G) {L0 : List ℕ} (hL0 : ∀ b ∈ L0, b ∈ L) {frames : List (List Fl)} {e : RDError}
    (hi : Handle s r Ok W H i x) {buf : Buf Fl} (hl : buf.data.length = W * H) (hfr : G x frames e) {fuel : ℕ}
    (hfuel : frames.length < fuel) (ha : InLoop s m p W H L0 ev a) (hF : LinesTooBig s.cfg W H → F) :
    Act False F (held buf.id i x L) (x.files ++ S) (fileLoop s fuel i buf a)
      (LoopPost s r Ok m p W H L0 L S a (fun e' ev' => ∃ e1 ev1, ev' = ev ++ ev1 ∧ Fed frames e1 ev1 ∧ (e' = if e1 = 0 then e else e1) ∧ (e1 = RDENOMEM → F) ∧
        ∀ x ∈ ev1, ∀ j, x.1.world.sched j = false → F)) := by
  induction fuel generalizing i x buf a ev frames with
  | zero => omega
  | succ fuel ih =>
    unfold fileLoop
    refine Act.bind (hb.frame_act (L := L) (S := S) hi hfr (buf := buf) hl) ?_
    rintro v L1 S1 ⟨x', data, rfl, hdata, hi', rfl, rfl⟩
    simp only
    refine Act.bind (Act.need (Q := fun a l s' => a = _ ∧ l = held buf.id i x' L ∧ s' = x'.files ++ S) rfl ⟨rfl, rfl, rfl⟩) ?_
    rintro _ _ _ ⟨rfl, rfl, rfl⟩
    refine Act.bind (Act.need (Q := fun a l s' => a = _ ∧ l = held buf.id i x' L ∧ s' = x'.files ++ S) rfl ⟨rfl, rfl, rfl⟩) ?_
    rintro _ _ _ ⟨rfl, rfl, rfl⟩
    cases frames with
    | nil =>
      simp only [List.isEmpty_nil, Bool.not_true, Bool.not_false, if_true]
      exact Act.pure ⟨ev, x', ⟨0, [], by simp, Fed.done, by simp, fun h => absurd h (by decide), fun _ h => by cases h⟩, ha, rfl, hi', rfl, rfl⟩
    | cons f rest =>
      obtain ⟨rfl, hf2, hfr2⟩ := hdata f rest rfl
      simp only [List.isEmpty_cons, Bool.not_false, Bool.not_true, Bool.false_eq_true, if_false]
      refine Act.bind (analyze_world hs ha (by intro b hb; simp [held, hL0 b hb]) hf2.ge) ?_
      rintro ⟨e2, oa⟩ _ _ ⟨rfl, rfl, a', wd, rfl, hbl, hnm, ha', hwd⟩
      refine Act.bind (Act.need (Q := fun a l s' => a = a' ∧ l = held buf.id i x' L ∧ s' = x'.files ++ S) rfl ⟨rfl, rfl, rfl⟩) ?_
      rintro a1 _ _ ⟨e1, rfl, rfl⟩
      subst a1
      by_cases he : e2 ≠ 0
      · rw [if_pos he]
        exact Act.pure ⟨_, x', ⟨e2, [_], rfl, Fed.refused _ _ _ _ he, by rw [if_neg he], fun h => hnm.2 h hF, by simpa using hwd⟩, ha', hbl, hi', rfl, rfl⟩
      · rw [if_neg he]
        have he : e2 = 0 := not_not.mp he
        subst he
        have := ih (i := { i with ctx := some x' }) hi' (buf := ⟨buf.id, data⟩) hf2 hfr2
          (by simp only [List.length_cons] at hfuel; omega) ha'
        refine Act.mono this ?_
        intro v L' S' hv
        refine hv.trans hbl ?_
        rintro e3 ev3 ⟨e1, ev1, rfl, h2, h3, h4, h5⟩
        exact ⟨e1, _ :: ev1, List.append_assoc _ _ _, Fed.next _ _ _ _ _ h2, h3, h4, List.forall_mem_cons.mpr ⟨hwd, h5⟩⟩

/-- `resdetect_file` on a file that shows frames. -/
theorem Fount.file_act (hs : Build s) (hm : ValidMethod? m) (hp : ValidParams? s.cfg p) {frames : List (List Fl)} {e : RDError}
    (hx : Fount s (resdetOpenImage s io fn ft true true true) W H r Ok F G (fun x => G x frames e)) (hF : LinesTooBig s.cfg W H → F)
    (hptr : ¬ (((ptr.rw && !ptr.cw) || (ptr.rh && !ptr.ch)) = true)) {fuel : ℕ} (hfuel : frames.length < fuel) :
    Act False F L S (resdetectFile s io fuel fn ft ptr m p) (fun v L' S' => S' = S ∧ ((v = (RDENOMEM, Out.nothing) ∧ L' = L ∧ F) ∨
      FileDone s F L (fun e' ev => ∃ e1, Fed frames e1 ev ∧ (e' = if e1 = 0 then e else e1) ∧ (e1 = RDENOMEM → F) ∧
        ∀ x ∈ ev, ∀ j, x.1.world.sched j = false → F) W H ptr m p v L')) := by
  rw [resdetectFile_eq, if_neg hptr]
  refine Act.bind (hx.opening L S) ?_
  rintro o L1 S1 (⟨i, x1, b, ho, hG, hW, hH, hbuf, rfl, rfl⟩ | ⟨rfl, h2, rfl, rfl⟩)
  · rw [if_neg (by simp [ho.error])]
    have hi := ho.handle
    rw [hW, hH] at hi ⊢
    refine Act.bind (Act.need (Q := fun a l s' => a = i ∧ l = held b i x1 L ∧ s' = x1.files ++ S) ho.image ⟨rfl, rfl, rfl⟩) ?_
    rintro i1 _ _ ⟨e1, rfl, rfl⟩
    subst i1
    refine Act.bind (Act.need (Q := fun a l s' => a = _ ∧ l = held b i x1 L ∧ s' = x1.files ++ S) hbuf ⟨rfl, rfl, rfl⟩) ?_
    rintro b1 _ _ ⟨e1, rfl, rfl⟩
    subst b1
    refine Act.mono (fileTail_act hs hm hp hx.feed.sound hi (buf := ⟨b, List.replicate (W * H) s.env.junk⟩) (K := fun e' ev => ∃ e1, Fed frames e1 ev ∧ (e' = if e1 = 0 then e else e1) ∧ (e1 = RDENOMEM → F) ∧
      ∀ x ∈ ev, ∀ j, x.1.world.sched j = false → F) hF ?_) ?_
    · intro a L1 ha
      refine Act.mono (hx.feed.fileLoop_act hs (fun _ h => h) hi (by simp) hG hfuel ha hF) ?_
      intro v L' S' hv
      refine hv.trans rfl ?_
      rintro e' ev' ⟨e1, ev1, rfl, h2, h3⟩
      exact ⟨e1, h2, h3⟩
    · rintro v L' S' ⟨h1, h2⟩
      exact ⟨h1, Or.inr h2⟩
  · rw [if_pos (show (Failed RDENOMEM).error ≠ 0 by decide)]
    exact Act.pure ⟨rfl, Or.inl ⟨rfl, rfl, h2⟩⟩

/-- The readers that come with the library. -/
theorem Builtin.fount (hb : Builtin s io.fs r Ok) {name : List UInt8} (hd : Determined r name (some (some x, W, H, 0))) (hwi : Within s.cfg W H) :
    Fount s (openImage s (some r) name true) W H r Ok F (fun x frames e => x.frames s W H = (frames, some e)) (fun x' => x'.erase = x) where
  feed := hb.feed hwi
  opening := by
    intro L S
    refine ((hb.det_act hd (F := F)).weaken (by simp) Iff.rfl).toPerm ?_
    rintro o L' S' (⟨i, x', h2, h3, h4, h5⟩ | ⟨h1, h2, rfl, rfl, h3⟩)
    · obtain ⟨b, hb⟩ := h2.buffer
      simp only [Option.some.injEq, Prod.mk.injEq] at h3
      obtain ⟨h6, h7, h8, _⟩ := h3
      refine ⟨_, h4, Or.inl ⟨i, x', b, h2, h6.symm, h7.symm, h8.symm, by rw [h7, h8]; exact hb, ?_, h5⟩⟩
      rw [hb]
      rfl
    · refine ⟨_, List.Perm.refl _, Or.inr ?_⟩
      rcases h3 with ⟨h3, h4⟩ | ⟨w', h', h3⟩ | ⟨h3, x', w', h', h4, h5⟩
      · exact ⟨by rw [← h3]; exact h1, h4, rfl, rfl⟩
      · cases h3
      · cases h4
        exact absurd hwi h5

theorem Fount.mono {op : M Opened} {G0 G1 : Ctx → Prop} (h : Fount s op W H r Ok F G G0) (hG : ∀ x, G0 x → G1 x) : Fount s op W H r Ok F G G1 where
  feed := h.feed
  opening := by
    intro L S
    refine Act.mono (h.opening L S) ?_
    rintro o L' S' (⟨i, x, b, h1, h2, h3⟩ | h1)
    · exact Or.inl ⟨i, x, b, h1, hG x h2, h3⟩
    · exact Or.inr h1

theorem Source.fount {frames : List (List Fl)} {e : RDError} {name : List UInt8} (hx : Source s io fn ft W H frames e name r Ok x) :
    Fount s (resdetOpenImage s io fn ft true true true) W H r Ok F (fun x frames e => x.frames s W H = (frames, some e))
      (fun x => x.frames s W H = (frames, some e)) := by
  obtain ⟨hb, e1, hd, hwi, hfr⟩ := hx
  rw [e1]
  refine (hb.fount hd hwi).mono ?_
  rintro x' rfl
  rw [Ctx.frames_erase hwi.pos] at hfr
  exact hfr

theorem Spec.Inbuilt.usable {io : Io} {m : M Opened} (h : Inbuilt s io m) : Usable s io m := by
  rcases h with h | ⟨name, n, h⟩
  · exact Or.inl h
  · obtain ⟨r, Ok, h1, h2, _⟩ := h.builtin
    exact Or.inr ⟨name, r, Ok, h1, h2⟩

end Verif
