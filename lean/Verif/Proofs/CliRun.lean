import Verif.Proofs.CliLemmas
import Verif.Proofs.CliWants
import Verif.Proofs.Quiet

/-! Opening the image and running the command on it. -/

namespace Verif

open Spec

variable {s : Sys} {io : Io} {v : CliEnv} {r : Reader} {Ok : Ctx → ℕ → ℕ → Prop} {U F : Prop} {L S : List ℕ} {W H : ℕ} {i : RDImage} {x : Ctx}
  {opts : List CliOpt} {st : CliState} {input : List UInt8}

theorem cliOpen_eq {c : Cfg} (hr : Parsed c opts st) : cliOpen s io st input = opening s io opts input := by
  unfold cliOpen opening
  rw [hr.imageReader, hr.type]
  rfl

theorem cliOpen_act (hio : io.Contract s.cfg) : Act True F L S (cliOpen s io st input) (OpenPost s F true L S) := by
  unfold cliOpen
  split
  · exact apiOpenWith_act hio
  · exact apiOpen_act hio

/-- An image that was opened was opened by one of the readers. -/
theorem cliOpen_reader {w w' : World} {o : Opened} (hw : w.WF) (h : cliOpen s io st input w = some (o, w')) (he : o.error = 0) :
    ∃ r ∈ imageReaders s io, cliOpen s io st input = openImage s (some r) input true := by
  have none_fails : ∀ {w : World} {o : Opened}, w.WF → openImage s none input true w = some (o, w') → o.error ≠ 0 := by
    intro w o hw h
    rcases openUnsupported_act (U := False) (F := True) (s := s) (name := input) (wantBuf := true) (L := []) (S := []) _ _
      (Own.init hw (by simp)) with ⟨_, h⟩ | ⟨o', w'', _, _, h4, _, h5, _, _, h6⟩
    · exact h.elim
    · rw [h] at h4
      cases h4
      rcases h6 with h6 | ⟨h6, _⟩ <;> rw [h6] <;> decide
  unfold cliOpen at h ⊢
  cases hi : st.imageReader with
  | none =>
    rw [hi] at h
    simp only at h ⊢
    unfold resdetOpenImage at h ⊢
    rw [if_neg (by simp)] at h ⊢
    simp only at h ⊢
    cases hf : findReader (imageReaders s io) (extension input st.type) with
    | none => rw [hf] at h; cases h
    | some o' =>
      rw [hf] at h
      have h1 : openImage s o' input true w = _ := h
      cases o' with
      | none => exact absurd he (none_fails hw h1)
      | some r => exact ⟨r, findReader_mem hf, rfl⟩
  | some rn =>
    rw [hi] at h
    simp only at h ⊢
    unfold resdetOpenImageWithReader at h ⊢
    rw [if_neg (by simp)] at h ⊢
    simp only at h ⊢
    cases hf : findName s.cfg (listImageReaders io) rn 0 with
    | none => rw [hf] at h; cases h
    | some o' =>
      rw [hf] at h
      cases o' with
      | none => exact absurd he (none_fails hw h)
      | some k =>
        cases hk : rd (imageReaders s io) k with
        | none =>
          have h1 : (M.lift ((rd (imageReaders s io) k).map some) >>= fun reader => openImage s reader input true) w = _ := h
          rw [hk] at h1
          cases h1
        | some r =>
          refine ⟨r, List.mem_of_getElem? hk, ?_⟩
          funext w
          show (M.lift ((rd (imageReaders s io) k).map some) >>= fun reader => openImage s reader input true) w = _
          rw [hk]
          rfl

theorem frames_of_runs {frames : List (List Fl)} {e : RDError} {d : List Fl} {y : Ctx} (hp : 0 < W * H)
    (hr : Runs s W H F x (List.replicate (frames.length + 1) .read) (frames.map (.read true RDEOK) ++ [.read false e d]) y) :
    x.frames s W H = (frames, some e) := by
  induction frames generalizing x with
  | nil =>
    simp only [List.length_nil, Nat.zero_add, List.replicate_succ, List.replicate_zero, List.map_nil, List.nil_append] at hr
    generalize hob : [IObs.read false e d] = obs at hr
    cases hr with
    | @read _ x1 _ _ obs o e' d' h1 h2 h3 =>
      simp only [List.cons.injEq, IObs.read.injEq] at hob
      obtain ⟨⟨ho, rfl, _⟩, _⟩ := hob
      cases o with
      | none => exact Ctx.frames_stop h1
      | some f => cases ho
  | cons f frames ih =>
    simp only [List.length_cons, List.replicate_succ (n := frames.length + 1), List.map_cons, List.cons_append] at hr
    generalize hob : IObs.read true RDEOK f :: (frames.map (IObs.read true RDEOK) ++ [IObs.read false e d]) = obs at hr
    cases hr with
    | @read _ x1 _ _ obs o e' d' h1 h2 h3 =>
      simp only [List.cons.injEq, IObs.read.injEq] at hob
      obtain ⟨⟨ho, rfl, rfl⟩, rfl⟩ := hob
      cases o with
      | none => cases ho
      | some f' =>
        obtain ⟨rfl, _⟩ := h2 f' rfl
        rw [Ctx.frames_next hp h1, ih h3]

/-- What the command finds in the image, once the frames to skip are skipped. -/
structure Window (s : Sys) (io : Io) (op : M Opened) (name : List UInt8) (k W H : ℕ) (r : Reader) (Ok : Ctx → ℕ → ℕ → Prop) (x : Ctx)
    (out : Bool × RDError × Ctx) : Prop where
  builtin : Builtin s io.fs r Ok
  opened : op = openImage s (some r) name true
  det : Determined r name (some (some x, W, H, 0))
  within : Within s.cfg W H
  skip : if k = 0 then out = (true, RDEOK, x) else ∃ calls, x.skip s W H k = some (out.1, out.2.1, calls, out.2.2)

theorem cliOpen_with (hio : Usable s io (cliOpen s io st input)) {w w' : World} {o : Opened} (hw : w.WF) (h : cliOpen s io st input w = some (o, w')) (he : o.error = 0) :
    ∃ name r Ok, Builtin s io.fs r Ok ∧ cliOpen s io st input = openImage s (some r) name true := by
  rcases hio with hio | hio
  · obtain ⟨r, hr, h1⟩ := cliOpen_reader hw h he
    obtain ⟨Ok, hb⟩ := hio.builtin r hr
    exact ⟨input, r, Ok, hb, h1⟩
  · exact hio

theorem window_of_session {op : M Opened} {name : List UInt8} (hb : Builtin s io.fs r Ok) (he : op = openImage s (some r) name true) {k : ℕ} {w : World} (hw : w.WF) (hpl : Plenty w) {i : RDImage} {buf : Buf Fl} {w1 : World}
    (ho : op w = some (⟨some i, W, H, some buf, RDEOK⟩, w1))
    {ops : List IOp} {obs : List IObs} {i' : Option RDImage} {b' : Option (Buf Fl)} {w2 : World}
    (hs : session ((if k = 0 then [] else [.seek k]) ++ ops) (some i) (some buf) w1 = some ((obs, i', b'), w2)) :
    ∃ x out y o1 o2, Window s io op name k W H r Ok x out ∧ obs = o1 ++ o2 ∧
      (if k = 0 then o1 = [] else ∃ calls, o1 = [.seek out.1 out.2.1 calls]) ∧ Runs s W H False out.2.2 ops o2 y := by
  obtain ⟨o, hd⟩ := hb.determined name
  rw [he] at ho
  obtain ⟨x, e1, hok, hwi, hrun⟩ := hb.opened hd hw ho rfl
  simp only at e1 hok hwi hrun
  subst e1
  have hF : (∃ j, w.sched j = false) → False := fun ⟨j, h⟩ => by rw [hpl j] at h; cases h
  rcases hrun ((if k = 0 then [] else [.seek k]) ++ ops) with ⟨h1, _⟩ | ⟨obs', i2, b2, w3, x', h1, h2, _⟩
  · rw [hs] at h1; cases h1
  · rw [hs] at h1
    simp only [Option.some.injEq, Prod.mk.injEq] at h1
    obtain ⟨⟨rfl, _⟩, _⟩ := h1
    have h2 : Runs s W H False x.erase ((if k = 0 then [] else [.seek k]) ++ ops) obs x'.erase := by
      have : (∃ j, w.sched j = false) = False := propext ⟨hF, False.elim⟩
      rwa [this] at h2
    obtain ⟨o1, o2, x1, rfl, g1, g2⟩ := h2.append
    by_cases hk : k = 0
    · rw [if_pos hk] at g1
      cases g1
      exact ⟨x.erase, (true, RDEOK, x.erase), _, [], o2, ⟨hb, he, hd, hwi, by rw [if_pos hk]⟩, rfl, by rw [if_pos hk], g2⟩
    · rw [if_neg hk] at g1
      cases g1 with
      | @seek _ x2 _ _ _ _ ret e calls h3 h4 =>
        cases h4
        exact ⟨x.erase, (ret, e, x1), _, _, o2, ⟨hb, he, hd, hwi, by rw [if_neg hk]; exact ⟨calls, h3⟩⟩, rfl,
          by rw [if_neg hk]; exact ⟨calls, rfl⟩, g2⟩
      | oom h _ _ => exact h.elim

theorem Ctx.erase_erase (x : Ctx) : x.erase.erase = x.erase := by cases x <;> rfl

theorem RDENOMEM_printable {c : Cfg} : Printable c RDENOMEM := by
  unfold Printable
  exact ⟨by have : (0 : ℤ) ≤ RDENOMEM := (by decide); omega, by decide⟩

/-- The end of the command after an error, with an image open. -/
theorem cliFail_act (hr : r.Sound s.cfg (fun _ => True) True F Ok) (hi : Handle s r Ok W H i x) {b block : ℕ} {d : List Fl} {vb : ℤ} {e : RDError} {ret : Bool}
    (he : e ≠ 0 → Printable s.cfg e ∨ U) (hret : e = 0 → ret = true) :
    Act U F (held b i x (block :: L)) (x.files ++ S) (cliEnd s v vb block none (some i) (some ⟨b, d⟩) none none none e ret .nothing)
      (fun ex _ S' => S' = S ∧ ex = ⟨1, .nothing⟩) := by
  refine Act.mono (cliEnd_act (closeHandle_act hr hi) (L := L) ?_ he (fun h1 h2 => by rw [hret h1] at h2; cases h2)) ?_
  · simp only [held, Option.map_none, Option.map_some, Option.toList_none, Option.toList_some, Option.getD_none]
    perm_count
  · rintro ⟨code, shown⟩ _ _ ⟨_, rfl, h1, h2⟩
    simp only at h1 h2
    subst h1
    have : code = 1 := by
      rcases h2 with ⟨_, h⟩ | ⟨_, _, h⟩ | ⟨h, h', _⟩ | ⟨h, h', _⟩
      · exact h
      · exact h
      · rw [hret h] at h'; cases h'
      · rw [hret h] at h'; cases h'
    subst this
    exact ⟨rfl, rfl⟩

/-- The end of the command after an error, with no image. -/
theorem cliNoImage_act {block : ℕ} {vb : ℤ} {e : RDError} (he : Printable s.cfg e ∨ U) (h0 : e ≠ 0) :
    Act U F (block :: L) S (cliEnd s v vb block none none none none none none e false .nothing) (fun ex _ S' => S' = S ∧ ex = ⟨1, .nothing⟩) := by
  refine Act.mono (cliEnd_act (S := S) (I := []) (fun L2 => Act.pure ⟨rfl, rfl⟩) (L := L) (List.Perm.refl _) (fun _ => he) (fun h1 => absurd h1 h0)) ?_
  rintro ⟨code, shown⟩ _ _ ⟨_, rfl, h1, h2⟩
  simp only at h1 h2
  subst h1
  have : code = 1 := by
    rcases h2 with ⟨_, h⟩ | ⟨h, _⟩ | ⟨h, _⟩ | ⟨h, _⟩
    · exact h
    all_goals exact absurd h h0
  subst this
  exact ⟨rfl, rfl⟩

/-- What the command comes to, with any readers. -/
theorem cliRun_safe (hs : Build s) (hio : io.Contract s.cfg) {m : Method} {p : Params} (hm : m ∈ methods)
    (hp : ValidParams? s.cfg (some (cliAuto st.filterOpt input p))) {fuel block : ℕ} :
    Act True True (block :: L) S (cliRun s io v fuel st input m block p) (fun ex _ S' => S' = S ∧ (ex = ⟨1, .nothing⟩ ∨ ∃ W H,
      (∃ w o w', w.WF ∧ cliOpen s io st input w = some (o, w') ∧ o.error = 0 ∧ o.width = W ∧ o.height = H) ∧ CliDone s True (fun e' _ ev' => e' = 0 → ∀ o ∈ ev', o.2 = .analyzed RDEOK) W H st.verbosity (some m) (some (cliAuto st.filterOpt input p)) ex)) := by
  unfold cliRun
  refine Act.bind (Act.seen ((cliOpen_act hio).toPerm (Q := fun o L' S' =>
    (∃ r Ok i x, r.Sound s.cfg (fun _ => True) True True Ok ∧ Opens s r Ok true o i x ∧
      ∃ b, o.buf = some ⟨b, List.replicate (o.width * o.height) s.env.junk⟩ ∧ L' = held b i x (block :: L) ∧ S' = x.files ++ S) ∨
    (o = Failed o.error ∧ o.error ≠ 0 ∧ L' = block :: L ∧ S' = S)) ?_)) ?_
  · rintro o L' S' (⟨r, Ok, i, x, h1, h2, h3, h4⟩ | ⟨h1, h2, _, rfl, rfl⟩)
    · obtain ⟨b, hb⟩ := h2.buffer
      refine ⟨_, h3, Or.inl ⟨r, Ok, i, x, h1, h2, b, hb, ?_, h4⟩⟩
      rw [hb]
      rfl
    · exact ⟨_, List.Perm.refl _, Or.inr ⟨h1, h2, rfl, rfl⟩⟩
  rintro o L1 S1 ⟨⟨r, Ok, i, x, hr, ho, b, hb, rfl, rfl⟩ | ⟨h1, h2, rfl, rfl⟩, w1, w1', hw1, _, hw2⟩
  · have ha := ho.handle
    rw [if_neg (by rw [ho.error]; simp)]
    refine Act.bind (Act.need (Q := fun a l s' => a = i ∧ l = held b i x (block :: L) ∧ s' = x.files ++ S) ho.image ⟨rfl, rfl, rfl⟩) ?_
    rintro i1 _ _ ⟨e1, rfl, rfl⟩
    subst i1
    refine Act.bind (Act.need (Q := fun a l s' => a = _ ∧ l = held b i x (block :: L) ∧ s' = x.files ++ S) hb ⟨rfl, rfl, rfl⟩) ?_
    rintro _ _ _ ⟨rfl, rfl, rfl⟩
    have run : ∀ {i' : RDImage} {x' : Ctx}, Handle s r Ok o.width o.height i' x' → Act True True (held b i' x' (block :: L)) (x'.files ++ S)
        (cliAnalyze s v fuel st m block (cliAuto st.filterOpt input p) i' ⟨b, List.replicate (o.width * o.height) s.env.junk⟩ o.width o.height)
        (fun ex _ S' => S' = S ∧ (ex = ⟨1, .nothing⟩ ∨ ∃ W H,
          (∃ w o w', w.WF ∧ cliOpen s io st input w = some (o, w') ∧ o.error = 0 ∧ o.width = W ∧ o.height = H) ∧ CliDone s True (fun e' _ ev' => e' = 0 → ∀ o ∈ ev', o.2 = .analyzed RDEOK) W H
          st.verbosity (some m) (some (cliAuto st.filterOpt input p)) ex)) := by
      intro i' x' hi'
      refine Act.mono (cliAnalyze_act (L := L) (S := S) (v := v) (st := st) (block := block) (fuel := fuel)
        (buf := ⟨b, List.replicate (o.width * o.height) s.env.junk⟩) hs hm hp hr hi' (fun _ => trivial) (fun _ _ _ _ _ => Or.inr trivial) (fun a L1 ha1 =>
        cliLoop_safe hs hr (fun _ h => h) hi' (by simp) ha1 (by simp))) ?_
      exact fun ex _ S' h => ⟨h.1, Or.inr ⟨_, _, ⟨w1, o, w1', hw1, hw2, ho.error, rfl, rfl⟩, h.2⟩⟩
    by_cases h0 : st.offset = 0
    · rw [if_pos h0]
      exact run ha
    · rw [if_neg h0]
      have h1 := (hr.seeks (b :: i.block :: (block :: L)) S x st.offset st.progress o.width o.height ha.ok ha.within).of_perm
        (held_perm b i x (block :: L)) (List.Perm.refl _)
      have e1 : r.seek x st.offset st.progress o.width o.height = r.seek x st.offset st.progress i.width i.height := by rw [ha.width, ha.height]
      rw [e1] at h1
      refine Act.bind ((seekFrame_act h1 ha.reader ha.ctx (by simp [held])).toPerm
        (Q := fun a L' S' => ∃ ret e calls x', a = (ret, e, calls, some { i with ctx := some x' }) ∧
          Handle s r Ok o.width o.height { i with ctx := some x' } x' ∧ L' = held b i x' (block :: L) ∧ S' = x'.files ++ S) ?_) ?_
      · rintro a L1 S1 ⟨v, ⟨_, hc, hx', rfl, rfl⟩, rfl⟩
        exact ⟨_, (held_perm b i v.2.2.2 (block :: L)).symm, v.1, v.2.1, v.2.2.1, v.2.2.2, rfl, ha.move hx', rfl, rfl⟩
      rintro v L1 S1 ⟨ret, e, calls, x', rfl, ha', rfl, rfl⟩
      simp only
      refine Act.bind (Act.need (Q := fun a l s' => a = _ ∧ l = held b i x' (block :: L) ∧ s' = x'.files ++ S) rfl ⟨rfl, rfl, rfl⟩) ?_
      rintro _ _ _ ⟨rfl, rfl, rfl⟩
      cases ret with
      | false =>
        simp only [Bool.not_false, if_true]
        refine Act.mono (cliFail_act hr ha' (fun _ => Or.inr trivial) (by simp)) ?_
        exact fun ex _ _ h => ⟨h.1, Or.inl h.2⟩
      | true =>
        simp only [Bool.not_true, Bool.false_eq_true, if_false]
        exact run ha'
  · rw [if_pos h2, h1]
    exact Act.mono (cliNoImage_act (Or.inr trivial) h2) (fun ex _ _ h => ⟨h.1, Or.inl h.2⟩)

/-- Opening with `op` and skipping `k` frames succeeds as `good` says, with the error `e0` if not, and leaves the frames `frames` and then `e`. -/
structure Outlook (s : Sys) (op : M Opened) (k W H : ℕ) (r : Reader) (Ok : Ctx → ℕ → ℕ → Prop) (F : Prop) (G : Ctx → List (List Fl) → RDError → Prop)
    (G0 : Ctx → Prop) (frames : List (List Fl)) (e : RDError) (good : Bool) (e0 : RDError) : Prop where
  fount : Fount s op W H r Ok F G G0
  start : k = 0 → good = true ∧ ∀ x, G0 x → G x frames e
  skip : k ≠ 0 → ∀ {i : RDImage} {x : Ctx} (b : ℕ) (pr : Bool) (L S : List ℕ), G0 x → Handle s r Ok W H i x →
    Act False F (held b i x L) (x.files ++ S) (seekFrame (some i) k pr) (fun a L' S' => ∃ ret e' calls x', a = (ret, e', calls, some { i with ctx := some x' }) ∧
      (ret = false ∧ e' = RDENOMEM ∧ F ∨ ret = good ∧ (good = false → e' = e0) ∧ (good = true → G x' frames e)) ∧
      (pr = true → ∃ j, j ≤ k ∧ calls = (List.range j).map (· + 1) ∧ (ret = true ↔ j = k)) ∧ Handle s r Ok W H { i with ctx := some x' } x' ∧ L' = held b i x' L ∧ S' = x'.files ++ S)

theorem Outlook.start_good {op : M Opened} {k : ℕ} {G : Ctx → List (List Fl) → RDError → Prop} {G0 : Ctx → Prop} {frames : List (List Fl)} {e e0 e1 : RDError}
    (hx : Outlook s op k W H r Ok F G G0 frames e true e0) : Outlook s op k W H r Ok F G G0 frames e true e1 := by
  refine ⟨hx.fount, hx.start, fun h i x b pr L S hx1 hi => Act.mono (hx.skip h b pr L S hx1 hi) ?_⟩
  rintro a L' S' ⟨ret, e', calls, x', h1, h2, h3⟩
  refine ⟨ret, e', calls, x', h1, h2.imp id (fun h => ⟨h.1, fun h' => (by cases h'), h.2.2⟩), h3⟩

theorem Window.outlook {out : Bool × RDError × Ctx} {k : ℕ} {op : M Opened} {name : List UInt8} (hx : Window s io op name k W H r Ok x out) {frames : List (List Fl)} {e : RDError}
    (hfr : out.1 = true → out.2.2.frames s W H = (frames, some e)) :
    Outlook s op k W H r Ok F (fun x frames e => x.frames s W H = (frames, some e)) (fun x' => x'.erase = x) frames e out.1 out.2.1 := by
  obtain ⟨hb, ho, hd, hwi, hskip⟩ := hx
  refine ⟨by rw [ho]; exact hb.fount hd hwi, fun h0 => ?_, fun h0 i x1 b pr L S hx1 hi => ?_⟩
  · rw [if_pos h0] at hskip
    subst hskip
    refine ⟨rfl, ?_⟩
    rintro x' rfl
    have := hfr rfl
    rwa [Ctx.frames_erase hwi.pos] at this
  · rw [if_neg h0] at hskip
    obtain ⟨calls, hsk⟩ := hskip
    have hsk' := hsk
    rw [← hx1, Ctx.skip_erase, Option.map_eq_some_iff] at hsk'
    obtain ⟨⟨ret, e1, calls0, x2⟩, hs1, hs2⟩ := hsk'
    simp only [Prod.mk.injEq] at hs2
    obtain ⟨q1, q2, q3, q4⟩ := hs2
    refine Act.mono ((hb.skip_any hi (b := some ⟨b, []⟩) (F := F)).weaken (by rw [hs1]; simp) Iff.rfl) ?_
    rintro a L1 S1 ⟨x3, calls', hres, ha', rfl, rfl⟩
    rcases hres with ⟨rfl, hf, rfl, _, hc⟩ | ⟨ret', e', calls2, hs3, rfl, hc⟩
    · exact ⟨_, _, _, _, rfl, Or.inl ⟨rfl, rfl, hf⟩, fun hp => ⟨0, by omega, by rw [hc hp]; rfl, by simp; omega⟩, ha', rfl, rfl⟩
    · rw [hs1] at hs3
      simp only [Option.some.injEq, Prod.mk.injEq] at hs3
      obtain ⟨rfl, rfl, rfl, rfl⟩ := hs3
      refine ⟨_, _, _, _, rfl, Or.inr ⟨q1, fun _ => q2, fun hg => ?_⟩, fun hp => by rw [hc hp]; exact Ctx.skip_calls hs1, ha', rfl, rfl⟩
      rw [← Ctx.frames_erase hwi.pos, q4]
      exact hfr hg

/-- What the command comes to on an image whose frames are known. -/
theorem Outlook.cliRun_act (hs : Build s) {G : Ctx → List (List Fl) → RDError → Prop} {G0 : Ctx → Prop} {frames : List (List Fl)} {e e0 : RDError} {good : Bool}
    (hx : Outlook s (cliOpen s io st input) st.offset W H r Ok F G G0 frames e good e0) {m : Method} {p : Params}
    (hm : m ∈ methods) (hp : ValidParams? s.cfg (some (cliAuto st.filterOpt input p)))
    (hF : LinesTooBig s.cfg W H → F) {fuel block : ℕ} (hfuel : frames.length < fuel)
    (hlen : frames.length < s.cfg.sizeMax) (he : good = true → e ≠ 0 → Printable s.cfg e) (he' : good = false → e0 ≠ 0 → Printable s.cfg e0) :
    Act False F (block :: L) S (cliRun s io v fuel st input m block p) (fun ex _ S' => S' = S ∧ ((ex = ⟨1, .nothing⟩ ∧ (F ∨ good = false)) ∨
      (good = true ∧ CliDone s F (fun e' ct' ev => Counted F st.nframes 1 frames e e' ct' ev) W H st.verbosity (some m)
        (some (cliAuto st.filterOpt input p)) ex))) := by
  unfold cliRun
  refine Act.bind (hx.fount.opening (block :: L) S) ?_
  rintro o L1 S1 (⟨i, x', b, ho, hx', hW, hH, hbuf, rfl, rfl⟩ | ⟨rfl, h3, rfl, rfl⟩)
  · have ha := ho.handle
    rw [hW, hH] at ha
    rw [if_neg (by rw [ho.error]; simp)]
    refine Act.bind (Act.need (Q := fun a l s' => a = i ∧ l = held b i x' (block :: L) ∧ s' = x'.files ++ S) ho.image ⟨rfl, rfl, rfl⟩) ?_
    rintro i1 _ _ ⟨e1, rfl, rfl⟩
    subst i1
    refine Act.bind (Act.need (Q := fun a l s' => a = _ ∧ l = held b i x' (block :: L) ∧ s' = x'.files ++ S) hbuf ⟨rfl, rfl, rfl⟩) ?_
    rintro _ _ _ ⟨rfl, rfl, rfl⟩
    rw [hW, hH]
    have run : ∀ {i' : RDImage} {x1 : Ctx}, Handle s r Ok W H i' x1 → good = true → G x1 frames e →
        Act False F (held b i' x1 (block :: L)) (x1.files ++ S)
        (cliAnalyze s v fuel st m block (cliAuto st.filterOpt input p) i' ⟨b, List.replicate (W * H) s.env.junk⟩ W H)
        (fun ex _ S' => S' = S ∧ ((ex = ⟨1, .nothing⟩ ∧ (F ∨ good = false)) ∨
          (good = true ∧ CliDone s F (fun e' ct' ev => Counted F st.nframes 1 frames e e' ct' ev) W H
            st.verbosity (some m) (some (cliAuto st.filterOpt input p)) ex))) := by
      intro i' x1 hi' hok hfr1
      have hK : ∀ e' ct' ev, Counted F st.nframes 1 frames e e' ct' ev → e' ≠ 0 → Printable s.cfg e' ∨ False := by
        rintro e' ct' ev ⟨e1, _, h2, h3, _⟩ hne
        left
        by_cases h1 : e1 = 0
        · have := (h3 h1).2
          split at this
          · exact absurd this hne
          · rw [this]; exact he hok (this ▸ hne)
        · obtain ⟨⟨rfl, h4, h5⟩, _⟩ := h2 h1
          have h4 : (0 : ℤ) ≤ e' := h4
          exact ⟨by omega, h5⟩
      refine Act.mono (cliAnalyze_act (L := L) (S := S) (v := v) (st := st) (block := block) (fuel := fuel)
        (buf := ⟨b, List.replicate (W * H) s.env.junk⟩) hs hm hp hx.fount.feed.sound hi' hF (K := fun e' ct' ev => Counted F st.nframes 1 frames e e' ct' ev) hK (fun a L1 ha1 => ?_)) ?_
      · refine Act.mono (hx.fount.feed.cliLoop_act hs (fun _ h => h) hi' (by simp) hfr1 hfuel (by omega) (by omega) ha1 hF) ?_
        rintro v L' S' ⟨ev, x2, ⟨ev1, h1, h2⟩, h3⟩
        rw [List.nil_append] at h1
        subst h1
        exact ⟨ev, x2, h2, h3⟩
      · exact fun ex _ S' h => ⟨h.1, Or.inr ⟨hok, h.2⟩⟩
    by_cases h0 : st.offset = 0
    · rw [if_pos h0]
      exact run ha (hx.start h0).1 ((hx.start h0).2 _ hx')
    · rw [if_neg h0]
      refine Act.bind (hx.skip h0 b st.progress (block :: L) S hx' ha) ?_
      rintro a L1 S1 ⟨ret, e1, calls, x2, rfl, hres, _, ha', rfl, rfl⟩
      simp only
      refine Act.bind (Act.need (Q := fun a l s' => a = _ ∧ l = held b i x2 (block :: L) ∧ s' = x2.files ++ S) rfl ⟨rfl, rfl, rfl⟩) ?_
      rintro _ _ _ ⟨rfl, rfl, rfl⟩
      rcases hres with ⟨rfl, rfl, hf⟩ | ⟨rfl, q2, q3⟩
      · simp only [Bool.not_false, if_true]
        refine Act.mono (cliFail_act hx.fount.feed.sound ha' (fun _ => Or.inl RDENOMEM_printable) (by decide)) ?_
        exact fun ex _ _ h => ⟨h.1, Or.inl ⟨h.2, Or.inl hf⟩⟩
      · cases ret with
        | false =>
          rw [if_pos (by decide)]
          refine Act.mono (cliFail_act hx.fount.feed.sound ha' (fun h => Or.inl ?_) (by simp)) ?_
          · rw [q2 rfl]; exact he' rfl (q2 rfl ▸ h)
          · exact fun ex _ _ h => ⟨h.1, Or.inl ⟨h.2, Or.inr rfl⟩⟩
        | true =>
          rw [if_neg (by decide)]
          exact run ha' rfl (q3 rfl)
  · rw [if_pos (show (Failed RDENOMEM).error ≠ 0 by decide)]
    refine Act.mono (cliNoImage_act (Or.inl RDENOMEM_printable) (show RDENOMEM ≠ 0 by decide)) ?_
    exact fun ex _ _ h => ⟨h.1, Or.inl ⟨h.2, Or.inl h3⟩⟩

end Verif
