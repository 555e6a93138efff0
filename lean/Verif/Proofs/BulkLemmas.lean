import Verif.Proofs.OpenLemmas
import Verif.Proofs.DetectLemmas

/-! Reading a file in bulk and analysing it. -/

namespace Verif

open Spec

variable {s : Sys} {io : Io} {r : Reader} {Ok : Ctx → ℕ → ℕ → Prop} {U F : Prop} {L S : List ℕ} {W H : ℕ} {i : RDImage} {x : Ctx}
  {fn ft : Option (List UInt8)} {hasW hasH wantBuf : Bool}

theorem Builtin.det_act (hb : Builtin s io.fs r Ok) {name : List UInt8} {o : Option (Option Ctx × ℕ × ℕ × RDError)} (hd : Determined r name o) :
    Act (o = none) F L S (openImage s (some r) name wantBuf) (fun op L' S' =>
      (∃ i x, Opens s r Ok wantBuf op i x ∧ o = some (some x.erase, op.width, op.height, 0) ∧
        L'.Perm ((op.buf.map Buf.id).toList ++ i.block :: (x.blocks ++ L)) ∧ S' = x.files ++ S) ∨
      (op = Failed op.error ∧ op.error ≠ 0 ∧ L' = L ∧ S' = S ∧ ((op.error = RDENOMEM ∧ F) ∨
        ((∃ w h, o = some (none, w, h, op.error)) ∨ (op.error = RDETOOBIG ∧ ∃ x w h, o = some (x, w, h, 0) ∧ ¬ Within s.cfg w h))))) := by
  refine Act.mono (openImage_act (hb.sound F) (hd F)) ?_
  rintro op L' S' (⟨i, x, h1, h2, h3, h4⟩ | ⟨h1, h2, h3, h4⟩)
  · refine Or.inl ⟨i, x, h1, ?_, h3, h4⟩
    rcases h2 with ⟨_, h2, _⟩ | h2
    · cases h2
    · exact h2
  · refine Or.inr ⟨h1, ?_, h2, h3, ?_⟩
    · rcases h4 with ⟨h4, _⟩ | ⟨h4, _⟩ | ⟨h4, _⟩
      · rw [h4]; decide
      · exact h4
      · rw [h4]; decide
    · rcases h4 with h4 | ⟨_, _, w, h, h4⟩ | ⟨h4, x, w, h, h5, h6⟩
      · exact Or.inl h4
      · rcases h4 with ⟨h4, _, h5⟩ | h4
        · exact Or.inl ⟨h4, h5⟩
        · exact Or.inr (Or.inl ⟨w, h, h4⟩)
      · rcases h5 with ⟨h5, _⟩ | h5
        · exact absurd h5 (by simp only; decide)
        · exact Or.inr (Or.inr ⟨h4, _, w, h, h5, h6⟩)

theorem World.WF.plenty {w : World} (h : w.WF) : World.WF { w with sched := fun _ => true } :=
  ⟨h.live_lt, h.files_lt, h.nodup, h.files_nodup⟩

/-- What is known of a file that yields frames. -/
structure Source (s : Sys) (io : Io) (fn ft : Option (List UInt8)) (W H : ℕ) (frames : List (List Fl)) (e : RDError)
    (name : List UInt8) (r : Reader) (Ok : Ctx → ℕ → ℕ → Prop) (x : Ctx) : Prop where
  builtin : Builtin s io.fs r Ok
  opened : resdetOpenImage s io fn ft true true true = openImage s (some r) name true
  det : Determined r name (some (some x, W, H, 0))
  within : Within s.cfg W H
  frames : x.frames s W H = (frames, some e)

/-- The image is opened with a built-in reader. -/
def Usable (s : Sys) (io : Io) (op : M Opened) : Prop := io.Plain ∨ ∃ name r Ok, Builtin s io.fs r Ok ∧ op = openImage s (some r) name true

theorem resdetOpenImage_reader {name : List UInt8} {o : Option Reader} (hf : findReader (imageReaders s io) (extension name ft) = some o) :
    resdetOpenImage s io (some name) ft true true true = openImage s o name true := by
  unfold resdetOpenImage
  rw [if_neg (by simp)]
  simp only [hf]
  funext w
  exact M.bind_some rfl

theorem opened_with (hio : Usable s io (resdetOpenImage s io fn ft true true true)) {w : World} (hw : w.WF) {i : RDImage} {W H : ℕ} {buf : Buf Fl} {w1 : World}
    (h1 : resdetOpenImage s io fn ft true true true w = some (⟨some i, W, H, some buf, RDEOK⟩, w1)) :
    ∃ name r Ok, Builtin s io.fs r Ok ∧ resdetOpenImage s io fn ft true true true = openImage s (some r) name true := by
  rcases hio with hio | hio
  swap
  · exact hio
  cases fn with
  | none =>
    have h4 : (some ((⟨none, 0, 0, none, RDEPARAM⟩ : Opened), w)) = _ := h1
    simp at h4
  | some name =>
    cases hf : findReader (imageReaders s io) (extension name ft) with
    | none =>
      unfold resdetOpenImage at h1
      rw [if_neg (by simp)] at h1
      simp only at h1
      rw [hf] at h1; cases h1
    | some o =>
      rw [resdetOpenImage_reader hf] at h1 ⊢
      cases o with
      | none =>
        rcases openUnsupported_act (U := False) (F := True) (s := s) (name := name) (wantBuf := true) _ _
          (Own.init hw (by simp)) with ⟨_, h⟩ | ⟨o, w', _, _, h4, _, h5, _⟩
        · exact h.elim
        · rw [h1] at h4
          cases h4
          cases h5
      | some r =>
        obtain ⟨Ok, hb⟩ := hio.builtin r (findReader_mem hf)
        exact ⟨name, r, Ok, hb, rfl⟩

theorem source_of_yields (hio : Usable s io (resdetOpenImage s io fn ft true true true)) {frames : List (List Fl)} {e : RDError} (hwd : ∃ w : World, w.WF)
    (hy : Yields (resdetOpenImage s io fn ft true true true) W H frames e) : ∃ name r Ok x, Source s io fn ft W H frames e name r Ok x := by
  obtain ⟨w, hw⟩ := hwd
  obtain ⟨i, buf, w1, h1, h2, last, i', buf', w2, h3⟩ := hy _ hw.plenty (fun _ => rfl)
  obtain ⟨name, r, Ok, hb, hop⟩ := opened_with hio hw.plenty h1
  rw [hop] at h1
  obtain ⟨o, hd⟩ := hb.determined name
  rcases hb.det_act hd (F := False) (wantBuf := true) _ _ (Own.init hw.plenty (by simp)) with ⟨h4, _⟩ | ⟨op, w', L', S', h4, ow, h5⟩
  · rw [h1] at h4; cases h4
  · rw [h1] at h4
    cases h4
    rcases h5 with ⟨i2, x, ho, e1, hp, rfl⟩ | ⟨h5, _⟩
    · have := ho.image
      cases this
      simp only at e1
      have ow' := ow.perm (L' := held buf.id i x []) hp (List.Perm.refl _)
      have hfr := hb.session_frames ho.handle h2 ow' h3
      rw [← Ctx.frames_erase ho.within.pos] at hfr
      subst e1
      exact ⟨name, r, Ok, x.erase, hb, hop, hd, ho.within, hfr⟩
    · cases h5

/-- What bulk reading of such a file comes to. -/
theorem Source.readImage_act {frames : List (List Fl)} {e : RDError} {name : List UInt8} {x : Ctx} (hx : Source s io fn ft W H frames e name r Ok x) :
    Act False F L S (readImage s io fn ft true true) (fun o L' S' => S' = S ∧
      ((o.error = 0 ∧ e = 0 ∧ o.width = W ∧ o.height = H ∧ o.nimages = frames.length ∧ Roomy s.cfg (W * H) (frames.length + 1) ∧
          ∃ b, o.images = some b ∧ L' = b.id :: L ∧ b.data.length = W * H * (frames.length + 1) ∧ b.data.take (W * H * frames.length) = frames.flatten) ∨
        (o.error ≠ 0 ∧ o.images = none ∧ L' = L ∧ ((o.error = e ∧ Roomy s.cfg (W * H) (frames.length + 1)) ∨
          (o.error = RDETOOBIG ∧ ¬ Roomy s.cfg (W * H) (frames.length + 1)) ∨ (o.error = RDENOMEM ∧ F))))) := by
  obtain ⟨hb, e1, hd, hwi, hfr⟩ := hx
  unfold readImage
  rw [e1]
  refine Act.bind ((hb.det_act hd).weaken (by simp) Iff.rfl) ?_
  rintro o L1 S1 (⟨i, x1, ho, e1, hp, rfl⟩ | ⟨h1, h2, rfl, rfl, h3⟩)
  · rw [if_neg (by simp [ho.error])]
    simp only [Option.some.injEq, Prod.mk.injEq, and_true] at e1
    obtain ⟨rfl, rfl, rfl⟩ := e1
    rw [Ctx.frames_erase hwi.pos] at hfr
    obtain ⟨b, hbuf⟩ := ho.buffer
    have hp' : L1.Perm (held b i x1 L) := by rw [hbuf] at hp; exact hp
    refine Act.of_perm ?_ hp' (List.Perm.refl _)
    refine Act.bind (Act.need (Q := fun a l s' => a = i ∧ l = held b i x1 L ∧ s' = x1.files ++ S) ho.image ⟨rfl, rfl, rfl⟩) ?_
    rintro i1 _ _ ⟨e1, rfl, rfl⟩
    subst i1
    refine Act.bind (Act.need (Q := fun a l s' => a = _ ∧ l = held b i x1 L ∧ s' = x1.files ++ S) hbuf ⟨rfl, rfl, rfl⟩) ?_
    rintro b1 _ _ ⟨e1, rfl, rfl⟩
    subst b1
    refine Act.bind ((hb.readLoop_act ho.handle (buf := ⟨b, List.replicate (o.width * o.height) s.env.junk⟩) (n := 0) (L := L) (S := S) (acc := [])
      (by simp) (by simp) ho.within.roomy (by omega)).weaken (by rw [hfr]; simp) Iff.rfl) ?_
    rintro ⟨e', buf, n, i'⟩ _ _ ⟨⟨hc⟩, x', hi', rfl, rfl⟩
    simp only [hfr, Nat.zero_add, List.nil_append, Option.some.injEq] at hc
    simp only at hi' ⊢
    have hr := hb.sound F
    by_cases he : e' ≠ 0
    · rw [if_pos he]
      refine Act.bind (P := fun a l s' => a = none ∧ l = i'.block :: (x'.blocks ++ L) ∧ s' = x'.files ++ S) ?_ ?_
      · refine Act.bind (Act.free (List.Perm.refl _)) ?_
        rintro _ _ _ ⟨rfl, rfl⟩
        exact Act.pure ⟨rfl, rfl, rfl⟩
      · rintro _ _ _ ⟨rfl, rfl, rfl⟩
        refine Act.bind (closeImage_act hr hi'.reader hi'.ctx hi'.ok (List.Perm.refl _) (List.Perm.refl _)) ?_
        rintro _ _ _ ⟨rfl, rfl⟩
        refine Act.pure ⟨rfl, Or.inr ⟨he, rfl, rfl, ?_⟩⟩
        rcases hc with ⟨h1, h2, _, _, h5⟩ | h1 | h1
        · exact Or.inl ⟨h1.symm, by rw [← h2]; exact h5⟩
        · exact Or.inr (Or.inl h1)
        · exact Or.inr (Or.inr h1)
    · rw [if_neg he]
      have he : e' = 0 := not_not.mp he
      subst he
      refine Act.bind (P := fun a l s' => a = some buf ∧ l = held buf.id i' x' L ∧ s' = x'.files ++ S) (Act.pure ⟨rfl, rfl, rfl⟩) ?_
      rintro _ _ _ ⟨rfl, rfl, rfl⟩
      refine Act.bind (closeImage_act hr hi'.reader hi'.ctx hi'.ok (L := buf.id :: L) (S := S) ?_ (List.Perm.refl _)) ?_
      · exact (List.Perm.swap _ _ _).trans (List.Perm.cons _ List.perm_middle.symm)
      · rintro _ _ _ ⟨rfl, rfl⟩
        rcases hc with ⟨h1, h2, h3, h4, h5⟩ | ⟨h1, _⟩ | ⟨h1, _⟩
        · subst h2
          exact Act.pure ⟨rfl, Or.inl ⟨rfl, h1, rfl, rfl, rfl, h5, buf, rfl, rfl, h3, h4⟩⟩
        · exact absurd h1 (by decide)
        · exact absurd h1 (by decide)
  · rw [if_pos h2]
    refine Act.pure ⟨rfl, Or.inr ⟨h2, rfl, rfl, ?_⟩⟩
    rcases h3 with h3 | ⟨w, h, h3⟩ | ⟨h3, x2, w, h, h4, h5⟩
    · exact Or.inr (Or.inr h3)
    · simp at h3
    · simp only [Option.some.injEq, Prod.mk.injEq, and_true] at h4
      obtain ⟨rfl, rfl, rfl⟩ := h4
      exact absurd hwi h5

/-- What holds between the frames of `resdetect_file`. -/
structure InLoop (s : Sys) (m : Option Method) (p : Option Params) (W H : ℕ) (L : List ℕ) (ev : List (Call × Obs)) (a : Analysis) : Prop where
  reach : Reach s m W H p ev a
  good : Good s a
  width : a.width = W
  height : a.height = H
  blocks : ∀ b ∈ a.blocks, b ∈ L

variable {m : Option Method} {p : Option Params} {ev : List (Call × Obs)} {a : Analysis} {ptr : Ptrs}

/-- Analysing a frame while other blocks and streams are owned. -/
theorem analyze_world (hs : Build s) {L1 : List ℕ} (ha : InLoop s m p W H L ev a) (hL : ∀ b ∈ L, b ∈ L1) {f : List Fl} (hf : W * H ≤ f.length) :
    Act False F L1 S (analyzeImage s (some a) (some f)) (fun v L' S' => L' = L1 ∧ S' = S ∧ ∃ a' w, v.2 = some a' ∧ a'.blocks = a.blocks ∧
      ((0 ≤ v.1 ∧ Code v.1) ∧ (v.1 = RDENOMEM → (LinesTooBig s.cfg W H → F) → F)) ∧ InLoop s m p W H L (ev ++ [(⟨.analyze (some f), w⟩, .analyzed v.1)]) a' ∧
      ∀ j, w.sched j = false → F) := by
  intro base w hw
  obtain ⟨e, a', w', h1, h2, h3, h4, h5, h6⟩ := analyzeImage_rel hs ha.good hw.rel (fun b hb => hL b (ha.blocks b hb)) (image := f)
    (by rw [ha.width, ha.height]; exact hf)
  obtain ⟨hg, hb⟩ := h5.good ha.good
  have hsame := h5.same
  refine Or.inr ⟨_, w', L1, S, h1, hw.ofRel h2, rfl, rfl, a', w, rfl, hb, ⟨?_, by rw [ha.width, ha.height] at h6; exact h6⟩, ⟨Reach.call ha.reach h3 h4, hg, ?_, ?_, ?_⟩, hw.sched⟩
  · cases h5 with
    | param => exact ⟨show 0 ≤ RDEPARAM by decide, show RDEPARAM ≤ 7 by decide⟩
    | inval => exact ⟨show 0 ≤ RDEINVAL by decide, show RDEINVAL ≤ 7 by decide⟩
    | frame im fb p f w2 e a2 _ _ _ _ _ _ h =>
      cases h with
      | ok => exact ⟨show 0 ≤ RDEOK by decide, show RDEOK ≤ 7 by decide⟩
      | nomemX => exact ⟨show 0 ≤ RDENOMEM by decide, show RDENOMEM ≤ 7 by decide⟩
      | nomemY => exact ⟨show 0 ≤ RDENOMEM by decide, show RDENOMEM ≤ 7 by decide⟩
  · rw [hsame.width, ha.width]
  · rw [hsame.height, ha.height]
  · rw [hb]; exact ha.blocks

theorem analyze_act (hs : Build s) {L1 : List ℕ} (ha : InLoop s m p W H L ev a) (hL : ∀ b ∈ L, b ∈ L1) {f : List Fl} (hf : f.length = W * H) :
    Act False F L1 S (analyzeImage s (some a) (some f)) (fun v L' S' => L' = L1 ∧ S' = S ∧ ∃ a' w, v.2 = some a' ∧ a'.blocks = a.blocks ∧
      ((0 ≤ v.1 ∧ Code v.1) ∧ (v.1 = RDENOMEM → (LinesTooBig s.cfg W H → F) → F)) ∧ InLoop s m p W H L (ev ++ [(⟨.analyze (some f), w⟩, .analyzed v.1)]) a') := by
  refine Act.mono (analyze_world hs ha hL hf.ge) ?_
  rintro v _ _ ⟨h1, h2, a', w, h3, h4, h5, h6, _⟩
  exact ⟨h1, h2, a', w, h3, h4, h5, h6⟩

/-- What the frame loop leaves. -/
def LoopPost (s : Sys) (r : Reader) (Ok : Ctx → ℕ → ℕ → Prop) (m : Option Method) (p : Option Params) (W H : ℕ) (L0 L S : List ℕ) (a : Analysis)
    (K : RDError → List (Call × Obs) → Prop) (v : RDError × RDImage × Buf Fl × Analysis) (L' S' : List ℕ) : Prop :=
  ∃ ev x', K v.1 ev ∧ InLoop s m p W H L0 ev v.2.2.2 ∧ v.2.2.2.blocks = a.blocks ∧ Handle s r Ok W H v.2.1 x' ∧
    L' = held v.2.2.1.id v.2.1 x' L ∧ S' = x'.files ++ S

theorem LoopPost.trans {L0 : List ℕ} {a a' : Analysis} {K K' : RDError → List (Call × Obs) → Prop} {v : RDError × RDImage × Buf Fl × Analysis} {L' S' : List ℕ}
    (h : LoopPost s r Ok m p W H L0 L S a' K v L' S') (ha : a'.blocks = a.blocks) (hK : ∀ e ev, K e ev → K' e ev) :
    LoopPost s r Ok m p W H L0 L S a K' v L' S' := by
  obtain ⟨ev, x', h1, h2, h3, h4⟩ := h
  exact ⟨ev, x', hK _ _ h1, h2, h3.trans ha, h4⟩

theorem fileLoop_safe (hs : Build s) (hr : r.Sound s.cfg (fun _ => True) True F Ok) {L0 : List ℕ} (hL0 : ∀ b ∈ L0, b ∈ L)
    (hi : Handle s r Ok W H i x) {buf : Buf Fl} (hl : buf.data.length = W * H) {fuel : ℕ} (ha : InLoop s m p W H L0 ev a) :
    Act True F (held buf.id i x L) (x.files ++ S) (fileLoop s fuel i buf a)
      (LoopPost s r Ok m p W H L0 L S a (fun e' _ => Code e')) := by
  induction fuel generalizing i x buf a ev with
  | zero =>
    intro base w hw
    exact Or.inl ⟨rfl, trivial⟩
  | succ fuel ih =>
    unfold fileLoop
    have h1 := (hr.reads (buf.id :: i.block :: L) S x (buf.data.drop 0) W H hi.ok hi.within
      (by rw [List.length_drop]; omega)).of_perm (held_perm buf.id i x L) (List.Perm.refl _)
    have e1' : r.read x (buf.data.drop 0) W H = r.read x (buf.data.drop 0) i.width i.height := by rw [hi.width, hi.height]
    rw [e1'] at h1
    refine Act.bind ((readFrame_act h1 hi.reader hi.ctx (by simp [held]) (by simp [held]) (by omega)).toPerm
      (Q := fun a L' S' => ∃ ret e data x', a = (ret, e, some ⟨buf.id, data⟩, some { i with ctx := some x' }) ∧
        data.length = W * H ∧ Code e ∧ Handle s r Ok W H { i with ctx := some x' } x' ∧ L' = held buf.id i x' L ∧ S' = x'.files ++ S) ?_) ?_
    · rintro a L' S' ⟨v, ⟨hsp, _, hc, hx', rfl, rfl⟩, rfl⟩
      refine ⟨_, (held_perm buf.id i v.2.2.2 L).symm, v.1, v.2.1, v.2.2.1, v.2.2.2, by simp, ?_, hc, hi.move hx', rfl, rfl⟩
      rw [hsp.1, List.length_drop]; omega
    rintro v L1 S1 ⟨ret, e, data, x', rfl, hdl, hc, hi', rfl, rfl⟩
    simp only
    refine Act.bind (Act.need (Q := fun a l s' => a = _ ∧ l = held buf.id i x' L ∧ s' = x'.files ++ S) rfl ⟨rfl, rfl, rfl⟩) ?_
    rintro _ _ _ ⟨rfl, rfl, rfl⟩
    refine Act.bind (Act.need (Q := fun a l s' => a = _ ∧ l = held buf.id i x' L ∧ s' = x'.files ++ S) rfl ⟨rfl, rfl, rfl⟩) ?_
    rintro _ _ _ ⟨rfl, rfl, rfl⟩
    cases ret with
    | false =>
      simp only [Bool.not_false, if_true]
      exact Act.pure ⟨ev, x', hc, ha, rfl, hi', rfl, rfl⟩
    | true =>
      simp only [Bool.not_true, Bool.false_eq_true, if_false]
      refine Act.bind ((analyze_act hs ha (by intro b hb; simp [held, hL0 b hb]) hdl).weaken False.elim Iff.rfl) ?_
      rintro ⟨e2, oa⟩ _ _ ⟨rfl, rfl, a', wd, rfl, hbl, hc2, ha'⟩
      refine Act.bind (Act.need (Q := fun a l s' => a = a' ∧ l = held buf.id i x' L ∧ s' = x'.files ++ S) rfl ⟨rfl, rfl, rfl⟩) ?_
      rintro a1 _ _ ⟨e1, rfl, rfl⟩
      subst a1
      by_cases he : e2 ≠ 0
      · rw [if_pos he]
        exact Act.pure ⟨_, x', hc2.1.2, ha', hbl, hi', rfl, rfl⟩
      · rw [if_neg he]
        refine Act.mono (ih (i := { i with ctx := some x' }) hi' (buf := ⟨buf.id, data⟩) hdl ha') ?_
        exact fun v L' S' hv => hv.trans hbl (fun _ _ h => h)

/-- Outcomes of `resdetect_file` once the image is open. -/
inductive FileDone (s : Sys) (F : Prop) (L : List ℕ) (K : RDError → List (Call × Obs) → Prop) (w h : ℕ) (ptr : Ptrs) (m : Option Method)
    (p : Option Params) : RDError × Out → List ℕ → Prop where
  | create (e : RDError) (L' : List ℕ) : Created s F L m w h p (none, e) L' → FileDone s F L K w h ptr m p (e, Out.nothing) L'
  | stopped (ev : List (Call × Obs)) (a : Analysis) (e : RDError) : Reach s m w h p ev a → K e ev → e ≠ RDEOK →
      FileDone s F L K w h ptr m p (e, Out.nothing) L
  | results (ev : List (Call × Obs)) (a : Analysis) (c : Call) (e : RDError) (out : Out) (L' : List ℕ) :
      Reach s m w h p ev a → K RDEOK ev → Legal a c → c.op = .results ptr →
      step s a c = some (.results e (out.rw.map Buf.data) out.cw (out.rh.map Buf.data) out.ch, a) →
      (e ≠ RDEOK → out = Out.nothing) → (e = RDENOMEM → F) →
      L'.Perm ((out.rw.map Buf.id).toList ++ (out.rh.map Buf.id).toList ++ L) →
      FileDone s F L K w h ptr m p (e, out) L'

/-- `resdetect_file` after opening the image. -/
def fileTail (s : Sys) (fuel W H : ℕ) (ptr : Ptrs) (m : Option Method) (p : Option Params) (i : RDImage) (buf : Buf Fl) : M (RDError × Out) := do
  let (a, e) ← createAnalysis s m W H p
  if e ≠ 0 then
    free (some buf.id)
    destroyAnalysis a
    closeImage (some i)
    return (e, Out.nothing)
  else
    let a ← need a
    let (e, i, buf, a) ← fileLoop s fuel i buf a
    let (e, out, a) ← if e = 0 then analysisResults s (some a) ptr else pure (e, Out.nothing, some a)
    free (some buf.id)
    destroyAnalysis a
    closeImage (some i)
    return (e, out)

theorem resdetectFile_eq (s : Sys) (io : Io) (fuel : ℕ) (fn ft : Option (List UInt8)) (ptr : Ptrs) (m : Option Method) (p : Option Params) :
    resdetectFile s io fuel fn ft ptr m p =
      (if (ptr.rw && !ptr.cw) || (ptr.rh && !ptr.ch) then pure (RDEPARAM, Out.nothing)
      else (do
        let o ← resdetOpenImage s io fn ft true true true
        if o.error ≠ 0 then return (o.error, Out.nothing)
        else
          let i ← need o.image
          let buf ← need o.buf
          fileTail s fuel o.width o.height ptr m p i buf)) := rfl

/-- The states in which a function was called. -/
theorem Act.seen {α : Type} {f : M α} {Q : α → List ℕ → List ℕ → Prop} (h : Act U F L S f Q) :
    Act U F L S f (fun a L' S' => Q a L' S' ∧ ∃ w w', w.WF ∧ (∀ b ∈ L, b ∈ w.live) ∧ f w = some (a, w')) := by
  intro base w hw
  rcases h base w hw with h1 | ⟨a, w', L', S', h1, h2, h3⟩
  · exact Or.inl h1
  · exact Or.inr ⟨a, w', L', S', h1, h2, h3, w, w', hw.wf, fun b hb => (hw.live b).mpr (Or.inr hb), h1⟩

/-- Freeing the image buffer and closing the image. -/
theorem fileRelease_act {V : Prop} (hr : r.Sound s.cfg (fun _ => True) True F Ok) (hi : Handle s r Ok W H i x) {b : ℕ} {L1 : List ℕ} {oa : Option Analysis}
    (hp : L1.Perm (b :: ((oa.map Analysis.blocks).getD [] ++ (i.block :: (x.blocks ++ L))))) (v : RDError × Out) :
    Act V F L1 (x.files ++ S) (do free (some b); destroyAnalysis oa; closeImage (some i); return v) (fun v' L' S' => v' = v ∧ L' = L ∧ S' = S) := by
  refine Act.of_perm ?_ hp (List.Perm.refl _)
  refine Act.bind (Act.free (List.Perm.refl _)) ?_
  rintro _ _ _ ⟨rfl, rfl⟩
  refine Act.bind (P := fun _ L' S' => L' = i.block :: (x.blocks ++ L) ∧ S' = x.files ++ S) ?_ ?_
  · cases oa with
    | none => exact Act.pure ⟨rfl, rfl⟩
    | some a => exact Act.mono (Act.ofTri (destroyAnalysis_tri (List.Perm.refl _))) (fun _ _ _ h => ⟨h.2, h.1⟩)
  · rintro _ _ _ ⟨rfl, rfl⟩
    refine Act.bind (closeImage_act hr hi.reader hi.ctx hi.ok (List.Perm.refl _) (List.Perm.refl _)) ?_
    rintro _ _ _ ⟨rfl, rfl⟩
    exact Act.pure ⟨rfl, rfl, rfl⟩

theorem fileTail_act (hs : Build s) (hm : ValidMethod? m) (hp : ValidParams? s.cfg p) (hr : r.Sound s.cfg (fun _ => True) True F Ok)
    (hi : Handle s r Ok W H i x) {buf : Buf Fl} {fuel : ℕ} {K : RDError → List (Call × Obs) → Prop}
    (hF : LinesTooBig s.cfg W H → F)
    (hloop : ∀ (a : Analysis) (L1 : List ℕ), InLoop s m p W H L1 [] a →
      Act U F (held buf.id i x L1) (x.files ++ S) (fileLoop s fuel i buf a) (LoopPost s r Ok m p W H L1 L1 S a K)) :
    Act U F (held buf.id i x L) (x.files ++ S) (fileTail s fuel W H ptr m p i buf) (fun v L' S' => S' = S ∧ FileDone s F L K W H ptr m p v L') := by
  unfold fileTail
  refine Act.bind (Act.seen (Act.ofTri (createAnalysis_tri hs hm hp (fun h => hF h.lines)))) ?_
  rintro ⟨oa, e⟩ L1 S1 ⟨⟨rfl, hc⟩, w1, w1', hw1, _, he1⟩
  simp only
  have fail : ∀ L2 (e : RDError), L1.Perm (held buf.id i x L2) → oa = none → e ≠ 0 → Created s F L m W H p (none, e) L2 → 
      Act U F L1 (x.files ++ S) (do free (some buf.id); destroyAnalysis oa; closeImage (some i); return (e, Out.nothing))
        (fun v L' S' => S' = S ∧ FileDone s F L K W H ptr m p v L') := by
    rintro L2 e hp2 rfl he hc
    refine Act.mono (fileRelease_act hr hi (L := L2) (oa := none) hp2 _) ?_
    rintro _ _ _ ⟨rfl, rfl, rfl⟩
    exact ⟨rfl, .create _ _ hc⟩
  cases hc with
  | zero h => exact if_pos (show RDEINVAL ≠ 0 by decide) ▸ fail L RDEINVAL (List.Perm.refl _) rfl (by decide) (.zero h)
  | toobig h1 h2 h3 => exact if_pos (show RDETOOBIG ≠ 0 by decide) ▸ fail L RDETOOBIG (List.Perm.refl _) rfl (by decide) (.toobig h1 h2 h3)
  | internal h1 h2 h3 h4 h5 h6 h7 =>
    exact if_pos (show RDEINTERNAL ≠ 0 by decide) ▸ fail L RDEINTERNAL (List.Perm.refl _) rfl (by decide) (.internal h1 h2 h3 h4 h5 h6 h7)
  | nomem _ h1 h2 =>
    rw [if_pos (show RDENOMEM ≠ 0 by decide)]
    rcases h2 with rfl | ⟨h2, h3, y, rfl⟩
    · exact fail L RDENOMEM (List.Perm.refl _) rfl (by decide) (.nomem L h1 (Or.inl rfl))
    · refine fail (y :: L) RDENOMEM ?_ rfl (by decide) (.nomem _ h1 (Or.inr ⟨h2, h3, y, rfl⟩))
      unfold held
      perm_count
  | ok a _ hf hperm _ _ _ =>
    rw [if_neg (show ¬ RDEOK ≠ 0 by decide)]
    have hperm2 : L1.Perm (held buf.id i x (a.blocks ++ L)) := by
      refine hperm.trans ?_
      unfold held
      perm_count
    refine Act.of_perm ?_ hperm2 (List.Perm.refl _)
    refine Act.bind (Act.need (Q := fun b l s' => b = a ∧ l = held buf.id i x (a.blocks ++ L) ∧ s' = x.files ++ S) rfl ⟨rfl, rfl, rfl⟩) ?_
    rintro b _ _ ⟨e1, rfl, rfl⟩
    subst b
    refine Act.bind (hloop a (a.blocks ++ L) ⟨Reach.create hw1 he1, hf.good, hf.width, hf.height, fun b hb => List.mem_append_left _ hb⟩) ?_
    rintro ⟨e, i', buf', a'⟩ _ _ ⟨ev, x', hK, hin, hbl, hi', rfl, rfl⟩
    simp only at hK hin hbl hi' ⊢
    by_cases he : e = 0
    · subst he
      rw [if_pos rfl]
      have hsub : ∀ b ∈ a'.blocks, b ∈ held buf'.id i' x' (a.blocks ++ L) := by
        intro b hb
        rw [hbl] at hb
        simp [held, hb]
      refine Act.bind (Act.seen (Act.ofTri (results_tri_eq hs hin.good (ptr := ptr) hsub))) ?_
      rintro ⟨e3, out, oa3⟩ L3 S3 ⟨⟨rfl, k3⟩, w3, w3', hw3, hlive3, he3⟩
      have hoa : oa3 = some a' := by cases k3 <;> rfl
      subst hoa
      simp only
      have hleg : Legal a' ⟨.results ptr, w3⟩ := ⟨hw3, fun b hb => hlive3 b (hsub b (hin.good.owned_blocks b hb)), trivial⟩
      have hstep : step s a' ⟨.results ptr, w3⟩ =
          some (.results e3 (out.rw.map Buf.data) out.cw (out.rh.map Buf.data) out.ch, a') := by
        simp only [step, he3]
      have hperm3 : L3.Perm (buf'.id :: (a'.blocks ++ (i'.block :: (x'.blocks ++ ((out.rw.map Buf.id).toList ++ (out.rh.map Buf.id).toList ++ L))))) := by
        rw [hbl]
        cases k3 with
        | ok rw rh L' _ _ _ _ hp3 =>
          refine hp3.trans ?_
          unfold held
          perm_count
        | param => simp only [Out.nothing, held, Option.map_none, Option.toList_none, List.nil_append]; perm_count
        | noimg => simp only [Out.nothing, held, Option.map_none, Option.toList_none, List.nil_append]; perm_count
        | nomem => simp only [Out.nothing, held, Option.map_none, Option.toList_none, List.nil_append]; perm_count
      refine Act.mono (fileRelease_act hr hi' (oa := some a') hperm3 (e3, out)) ?_
      rintro _ _ _ ⟨rfl, rfl, rfl⟩
      refine ⟨rfl, .results ev a' _ e3 out _ hin.reach hK hleg rfl hstep ?_ ?_ (List.Perm.refl _)⟩
      · intro hne
        cases k3 with
        | ok => exact absurd rfl hne
        | param => rfl
        | noimg => rfl
        | nomem => rfl
      · intro hne
        cases k3 with
        | ok => simp [RDEOK, RDENOMEM] at hne
        | param => simp [RDEPARAM, RDENOMEM] at hne
        | noimg => simp [RDENOIMG, RDENOMEM] at hne
        | nomem _ _ h => exact h
    · rw [if_neg he]
      refine Act.bind (P := fun v l s' => v = (e, Out.nothing, some a') ∧ l = held buf'.id i' x' (a.blocks ++ L) ∧ s' = x'.files ++ S) (Act.pure ⟨rfl, rfl, rfl⟩) ?_
      rintro _ _ _ ⟨rfl, rfl, rfl⟩
      simp only
      refine Act.mono (fileRelease_act hr hi' (oa := some a') (L := L) ?_ (e, Out.nothing)) ?_
      · simp only [Option.map_some, Option.getD_some, hbl, held]
        perm_count
      · rintro _ _ _ ⟨rfl, rfl, rfl⟩
        exact ⟨rfl, .stopped ev a' e hin.reach hK he⟩

/-- `resdetect_file` with any readers that keep the contract. -/
theorem file_safe (hio : io.Contract s.cfg) (hs : Build s) (hm : ValidMethod? m) (hp : ValidParams? s.cfg p) (hF : F) {fuel : ℕ} :
    Act True F L S (resdetectFile s io fuel fn ft ptr m p) (fun v L' S' => S' = S ∧
      ((v = (RDEPARAM, Out.nothing) ∧ ((ptr.rw && !ptr.cw) || (ptr.rh && !ptr.ch)) = true ∧ L' = L) ∨
       (((ptr.rw && !ptr.cw) || (ptr.rh && !ptr.ch)) = false ∧ ((v.1 ≠ 0 ∧ Code v.1 ∧ v.2 = Out.nothing ∧ L' = L) ∨
        ∃ W H, FileDone s F L (fun e' _ => Code e') W H ptr m p v L')))) := by
  rw [resdetectFile_eq]
  by_cases hptr : ((ptr.rw && !ptr.cw) || (ptr.rh && !ptr.ch)) = true
  · rw [if_pos hptr]
    exact Act.pure ⟨rfl, Or.inl ⟨rfl, hptr, rfl⟩⟩
  rw [if_neg hptr]
  have hptr := Bool.eq_false_of_not_eq_true hptr
  refine Act.bind (apiOpen_act hio) ?_
  rintro o L1 S1 (⟨r, Ok, i, x, hr, ho, hp1, rfl⟩ | ⟨h1, h2, h3, rfl, rfl⟩)
  · rw [if_neg (by simp [ho.error])]
    obtain ⟨b, hbuf⟩ := ho.buffer
    have hp' : L1.Perm (held b i x L) := by rw [hbuf] at hp1; exact hp1
    refine Act.of_perm ?_ hp' (List.Perm.refl _)
    refine Act.bind (Act.need (Q := fun a l s' => a = i ∧ l = held b i x L ∧ s' = x.files ++ S) ho.image ⟨rfl, rfl, rfl⟩) ?_
    rintro i1 _ _ ⟨e1, rfl, rfl⟩
    subst i1
    refine Act.bind (Act.need (Q := fun a l s' => a = _ ∧ l = held b i x L ∧ s' = x.files ++ S) hbuf ⟨rfl, rfl, rfl⟩) ?_
    rintro b1 _ _ ⟨e1, rfl, rfl⟩
    subst b1
    refine Act.mono (fileTail_act hs hm hp hr ho.handle (buf := ⟨b, List.replicate (o.width * o.height) s.env.junk⟩) (K := fun e' _ => Code e') (fun _ => hF) ?_) ?_
    · intro a L1 ha
      exact fileLoop_safe hs hr (fun _ h => h) ho.handle (by simp) ha
    · rintro v L' S' ⟨h1, h2⟩
      exact ⟨h1, Or.inr ⟨hptr, Or.inr ⟨_, _, h2⟩⟩⟩
  · rw [if_pos h2]
    exact Act.pure ⟨rfl, Or.inr ⟨hptr, Or.inl ⟨h2, h3, rfl, rfl⟩⟩⟩

end Verif
