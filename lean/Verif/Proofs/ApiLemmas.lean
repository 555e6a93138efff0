import Verif.Proofs.ReadAll

/-! The entry points of image.c. -/

namespace Verif

open Spec

variable {s : Sys} {io : Io} {r : Reader} {Ok : Ctx → ℕ → ℕ → Prop} {U F : Prop} {L S : List ℕ} {W H : ℕ} {i : RDImage} {x : Ctx}
  {fn ft : Option (List UInt8)} {hasW hasH wantBuf : Bool}

theorem Io.Plain.contract (h : io.Plain) (c : Cfg) : io.Contract c := by
  obtain ⟨h1, h2, h3, h4⟩ := h
  intro r hr
  rcases hr with hr | hr | hr | hr
  · rw [h1] at hr; cases hr
  · rw [h2] at hr; cases hr
  · rw [h3] at hr; cases hr
  · rw [h4] at hr; cases hr

theorem Io.Plain.builtin (h : io.Plain) : ∀ r ∈ imageReaders s io, ∃ Ok, Builtin s io.fs r Ok := by
  obtain ⟨h1, h2, h3, h4⟩ := h
  intro r hr
  unfold imageReaders at hr
  simp only [h1, h2, h3, h4, Option.toList_none, List.append_nil, List.mem_append] at hr
  rcases hr with (hr | hr) | hr
  · split at hr
    · cases hr
    · rw [List.mem_singleton.mp hr]; exact ⟨_, .pgm⟩
  · split at hr
    · cases hr
    · rw [List.mem_singleton.mp hr]; exact ⟨_, .pfm⟩
  · split at hr
    · cases hr
    · rw [List.mem_singleton.mp hr]; exact ⟨_, .y4m⟩

/-- What opening an image leaves. -/
def OpenPost (s : Sys) (F : Prop) (wantBuf : Bool) (L S : List ℕ) (o : Opened) (L' S' : List ℕ) : Prop :=
  (∃ r Ok i x, r.Sound s.cfg (fun _ => True) True F Ok ∧ Opens s r Ok wantBuf o i x ∧
    L'.Perm ((o.buf.map Buf.id).toList ++ i.block :: (x.blocks ++ L)) ∧ S' = x.files ++ S) ∨
  (o = Failed o.error ∧ o.error ≠ 0 ∧ Code o.error ∧ L' = L ∧ S' = S)

theorem code_unsupp : Code RDEUNSUPP := by unfold Code; decide
theorem code_param : Code RDEPARAM := by unfold Code; decide

theorem openAny_act (hr : r.Sound s.cfg (fun _ => True) True F Ok) {name : List UInt8} :
    Act True F L S (openImage s (some r) name wantBuf) (OpenPost s F wantBuf L S) := by
  refine Act.mono (openImage_act hr (V := True) (P := fun _ => True) ?_) ?_
  · intro L S
    exact (hr.opens L S name).mono (fun _ _ _ _ => trivial)
  · rintro o L' S' (⟨i, x, h1, _, h2, h3⟩ | ⟨h1, rfl, rfl, h2⟩)
    · exact Or.inl ⟨r, Ok, i, x, hr, h1, h2, h3⟩
    · refine Or.inr ⟨h1, ?_, ?_, rfl, rfl⟩
      · rcases h2 with ⟨h2, _⟩ | ⟨h2, _⟩ | ⟨h2, _⟩
        · rw [h2]; decide
        · exact h2
        · rw [h2]; decide
      · rcases h2 with ⟨h2, _⟩ | ⟨_, h2, _⟩ | ⟨h2, _⟩
        · rw [h2]; exact code_nomem
        · exact h2
        · rw [h2]; exact code_toobig

theorem openNone_act {name : List UInt8} : Act True F L S (openImage s none name wantBuf) (OpenPost s F wantBuf L S) := by
  refine Act.mono openUnsupported_act ?_
  rintro o L' S' ⟨h1, rfl, rfl, h2 | ⟨h2, _⟩⟩
  · exact Or.inr ⟨h1, by rw [h2]; decide, by rw [h2]; exact code_unsupp, rfl, rfl⟩
  · exact Or.inr ⟨h1, by rw [h2]; decide, by rw [h2]; exact code_nomem, rfl, rfl⟩

theorem openParam_act : Act True F L S (pure ⟨none, 0, 0, none, RDEPARAM⟩) (OpenPost s F wantBuf L S) :=
  Act.pure (Or.inr ⟨rfl, by simp [RDEPARAM], code_param, rfl, rfl⟩)

theorem apiOpen_act (hio : io.Contract s.cfg) :
    Act True F L S (resdetOpenImage s io fn ft hasW hasH wantBuf) (OpenPost s F wantBuf L S) := by
  unfold resdetOpenImage
  split
  · exact openParam_act
  · cases fn with
    | none => exact openParam_act
    | some name =>
      simp only
      refine Act.bind (Act.lift (Q := fun a L' S' => findReader (imageReaders s io) (extension name ft) = some a ∧ L' = L ∧ S' = S)
        (fun _ => trivial) (fun a ha => ⟨ha, rfl, rfl⟩)) ?_
      rintro (_ | r) L1 S1 ⟨h1, e1, e2⟩ <;> subst L1 S1
      · exact openNone_act
      · obtain ⟨Ok, hr⟩ := readers_sound hio r (findReader_mem h1)
        exact openAny_act (hr F)

theorem apiOpenWith_act (hio : io.Contract s.cfg) :
    Act True F L S (resdetOpenImageWithReader s io fn ft hasW hasH wantBuf) (OpenPost s F wantBuf L S) := by
  unfold resdetOpenImageWithReader
  split
  · exact openParam_act
  · cases fn with
    | none => exact openParam_act
    | some name =>
      cases ft with
      | none => exact openParam_act
      | some rn =>
        simp only
        refine Act.bind (Act.lift (Q := fun _ L' S' => L' = L ∧ S' = S) (fun _ => trivial) (fun a ha => ⟨rfl, rfl⟩)) ?_
        rintro a L1 S1 ⟨e1, e2⟩
        subst L1 S1
        cases a with
        | none =>
          refine Act.bind (P := fun a L' S' => a = none ∧ L' = L ∧ S' = S) (Act.pure ⟨rfl, rfl, rfl⟩) ?_
          rintro _ _ _ ⟨rfl, rfl, rfl⟩
          exact openNone_act
        | some k =>
          refine Act.bind (Act.lift (Q := fun a L' S' => (∃ r ∈ imageReaders s io, a = some r) ∧ L' = L ∧ S' = S)
            (fun _ => trivial) ?_) ?_
          · intro o ho
            simp only [Option.map_eq_some_iff] at ho
            obtain ⟨r', h1, rfl⟩ := ho
            exact ⟨⟨r', List.mem_of_getElem? h1, rfl⟩, rfl, rfl⟩
          · rintro _ L1 S1 ⟨⟨r, h1, rfl⟩, e1, e2⟩
            subst L1 S1
            obtain ⟨Ok, hr⟩ := readers_sound hio r h1
            exact openAny_act (hr F)

theorem Opens.handle {o : Opened} (h : Opens s r Ok wantBuf o i x) : Handle s r Ok o.width o.height i x :=
  ⟨h.reader, h.ctx, h.width, h.height, h.ok, h.within⟩

theorem Opens.buffer {o : Opened} (h : Opens s r Ok true o i x) : ∃ b, o.buf = some ⟨b, List.replicate (o.width * o.height) s.env.junk⟩ := by
  have := h.buf; simpa using this

theorem Within.roomy {c : Cfg} (h : Within c W H) : Roomy c (W * H) 1 := by
  obtain ⟨_, _, h1, h2⟩ := h
  exact ⟨by omega, by omega⟩

/-- What is owned while an image is in use, with or without a buffer. -/
def heldOpt (b : Option (Buf Fl)) (i : RDImage) (x : Ctx) (L : List ℕ) : List ℕ := (b.map Buf.id).toList ++ i.block :: (x.blocks ++ L)

theorem heldOpt_perm (b : Option (Buf Fl)) (i : RDImage) (x : Ctx) (L : List ℕ) :
    (heldOpt b i x L).Perm (x.blocks ++ ((b.map Buf.id).toList ++ i.block :: L)) := by
  unfold heldOpt
  perm_count

/-- The part of the contract for open images. -/
structure Reader.Steps (c : Cfg) (U F : Prop) (r : Reader) (Ok : Ctx → ℕ → ℕ → Prop) : Prop where
  reads : ∀ L S x img w h, Ok x w h → Within c w h → w * h ≤ img.length →
    Act U F (x.blocks ++ L) (x.files ++ S) (r.read x img w h) (fun a L' S' =>
      Spoilt img a.2.2.1 (w * h) ∧ (a.1 = true → a.2.1 = 0) ∧ Code a.2.1 ∧ Ok a.2.2.2 w h ∧
      L' = a.2.2.2.blocks ++ L ∧ S' = a.2.2.2.files ++ S)
  seeks : ∀ L S x k p w h, Ok x w h → Within c w h →
    Act U F (x.blocks ++ L) (x.files ++ S) (r.seek x k p w h) (fun a L' S' =>
      (a.1 = true → a.2.1 = 0) ∧ Code a.2.1 ∧ Ok a.2.2.2 w h ∧ L' = a.2.2.2.blocks ++ L ∧ S' = a.2.2.2.files ++ S)

theorem Reader.Sound.steps {c : Cfg} {Uo : List UInt8 → Prop} {U : Prop} (h : r.Sound c Uo U F Ok) : r.Steps c U F Ok := ⟨h.reads, h.seeks⟩

/-- One call on an open image. -/
theorem istep_steps {U : Prop} (hr : r.Steps s.cfg U F Ok) (op : IOp) (hi : Handle s r Ok W H i x) {b : Option (Buf Fl)}
    (hl : ∀ buf, b = some buf → buf.data.length = W * H) :
    Act U F (heldOpt b i x L) (x.files ++ S) (istep op (some i) b) (fun a L' S' => ∃ i' x', a.2.1 = some i' ∧ Handle s r Ok W H i' x' ∧
      (∀ buf, a.2.2 = some buf → buf.data.length = W * H) ∧ L' = heldOpt a.2.2 i' x' L ∧ S' = x'.files ++ S) := by
  cases op with
  | read =>
    cases b with
    | none => exact Act.pure ⟨i, x, rfl, hi, by simp, rfl, rfl⟩
    | some buf =>
      have hl := hl buf rfl
      have h1 := (hr.reads (buf.id :: i.block :: L) S x (buf.data.drop 0) W H hi.ok hi.within
        (by rw [List.length_drop]; omega)).of_perm (heldOpt_perm (some buf) i x L) (List.Perm.refl _)
      have e1 : r.read x (buf.data.drop 0) W H = r.read x (buf.data.drop 0) i.width i.height := by rw [hi.width, hi.height]
      rw [e1] at h1
      unfold istep
      refine Act.bind (readFrame_act h1 hi.reader hi.ctx (by simp [heldOpt]) (by simp [heldOpt]) (Nat.zero_le _)) ?_
      rintro a L1 S1 ⟨v, ⟨hsp, _, hc, hx', rfl, rfl⟩, rfl⟩
      refine Act.of_perm (Act.pure ⟨_, v.2.2.2, rfl, hi.move hx', ?_, rfl, rfl⟩) (heldOpt_perm (some buf) i v.2.2.2 L).symm (List.Perm.refl _)
      rintro _ h
      cases h
      simp [hsp.1, hl]
  | seek k =>
    have h1 := (hr.seeks ((b.map Buf.id).toList ++ i.block :: L) S x k true W H hi.ok hi.within).of_perm (heldOpt_perm b i x L) (List.Perm.refl _)
    have e1 : r.seek x k true W H = r.seek x k true i.width i.height := by rw [hi.width, hi.height]
    rw [e1] at h1
    unfold istep
    refine Act.bind (seekFrame_act h1 hi.reader hi.ctx (by simp [heldOpt])) ?_
    rintro a L1 S1 ⟨v, ⟨_, hc, hx', rfl, rfl⟩, rfl⟩
    exact Act.of_perm (Act.pure ⟨_, v.2.2.2, rfl, hi.move hx', hl, rfl, rfl⟩) (heldOpt_perm b i v.2.2.2 L).symm (List.Perm.refl _)

theorem session_steps {U : Prop} (hr : r.Steps s.cfg U F Ok) (ops : List IOp) (hi : Handle s r Ok W H i x) {b : Option (Buf Fl)}
    (hl : ∀ buf, b = some buf → buf.data.length = W * H) :
    Act U F (heldOpt b i x L) (x.files ++ S) (session ops (some i) b) (fun a L' S' => ∃ i' x', a.2.1 = some i' ∧ Handle s r Ok W H i' x' ∧
      (∀ buf, a.2.2 = some buf → buf.data.length = W * H) ∧ L' = heldOpt a.2.2 i' x' L ∧ S' = x'.files ++ S) := by
  induction ops generalizing i x b with
  | nil => exact Act.pure ⟨i, x, rfl, hi, hl, rfl, rfl⟩
  | cons op ops ih =>
    unfold session
    refine Act.bind (istep_steps hr op hi hl) ?_
    rintro ⟨o, oi, b'⟩ _ _ ⟨i', x', rfl, hi', hl', rfl, rfl⟩
    refine Act.bind (ih hi' hl') ?_
    rintro ⟨os, oi, b''⟩ _ _ ⟨i'', x'', rfl, hi'', hl'', rfl, rfl⟩
    exact Act.pure ⟨i'', x'', rfl, hi'', hl'', rfl, rfl⟩

theorem session_act (hr : r.Sound s.cfg (fun _ => True) True F Ok) (ops : List IOp) (hi : Handle s r Ok W H i x) {b : Option (Buf Fl)}
    (hl : ∀ buf, b = some buf → buf.data.length = W * H) :
    Act True F (heldOpt b i x L) (x.files ++ S) (session ops (some i) b) (fun a L' S' => ∃ i' x', a.2.1 = some i' ∧ Handle s r Ok W H i' x' ∧
      (∀ buf, a.2.2 = some buf → buf.data.length = W * H) ∧ L' = heldOpt a.2.2 i' x' L ∧ S' = x'.files ++ S) :=
  session_steps hr.steps ops hi hl

/-- Closing an image and freeing its buffer. -/
theorem release_act (hr : r.Sound s.cfg (fun _ => True) True F Ok) (hi : Handle s r Ok W H i x) {b : Option (Buf Fl)} :
    Act False F (heldOpt b i x L) (x.files ++ S) (do closeImage (some i); free (b.map Buf.id)) (fun _ L' S' => L' = L ∧ S' = S) := by
  refine Act.bind (closeImage_act hr hi.reader hi.ctx hi.ok (L := (b.map Buf.id).toList ++ L) (S := S) ?_ (List.Perm.refl _)) ?_
  · unfold heldOpt; perm_count
  · rintro _ _ _ ⟨rfl, rfl⟩
    cases b with
    | none => exact Act.pure ⟨rfl, rfl⟩
    | some b => exact Act.free (List.Perm.refl _)

/-- What `resdet_read_image` leaves. -/
def ReadPost (s : Sys) (L S : List ℕ) (o : ReadOut) (L' S' : List ℕ) : Prop :=
  S' = S ∧ Code o.error ∧ ((o.error ≠ 0 ∧ o.images = none ∧ L' = L) ∨
    (o.error = 0 ∧ Within s.cfg o.width o.height ∧ ∃ b, o.images = some b ∧ L' = b.id :: L ∧
      b.data.length = o.width * o.height * (o.nimages + 1) ∧ Roomy s.cfg (o.width * o.height) (o.nimages + 1)))

theorem readImage_act (hio : io.Contract s.cfg) :
    Act True F L S (readImage s io fn ft hasW hasH) (ReadPost s L S) := by
  unfold readImage
  refine Act.bind (apiOpen_act hio) ?_
  rintro o L1 S1 (⟨r, Ok, i, x, hr, ho, hp, rfl⟩ | ⟨h1, h2, h3, rfl, rfl⟩)
  · rw [if_neg (by simp [ho.error])]
    obtain ⟨b, hb⟩ := ho.buffer
    have hp' : L1.Perm (held b i x L) := by rw [hb] at hp; exact hp
    refine Act.of_perm ?_ hp' (List.Perm.refl _)
    refine Act.bind (Act.need (Q := fun a l s' => a = i ∧ l = held b i x L ∧ s' = x.files ++ S) ho.image ⟨rfl, rfl, rfl⟩) ?_
    rintro i1 _ _ ⟨e1, rfl, rfl⟩
    subst i1
    refine Act.bind (Act.need (Q := fun a l s' => a = _ ∧ l = held b i x L ∧ s' = x.files ++ S) hb ⟨rfl, rfl, rfl⟩) ?_
    rintro b1 _ _ ⟨e1, rfl, rfl⟩
    subst b1
    refine Act.bind (readLoop_safe hr ho.handle (buf := ⟨b, List.replicate (o.width * o.height) s.env.junk⟩) (n := 0) (L := L) (S := S)
      (by simp) ho.within.roomy (by omega)) ?_
    rintro ⟨e, buf, n, i'⟩ _ _ ⟨hc, hz, x', hi', rfl, rfl⟩
    simp only at hc hz hi' ⊢
    by_cases he : e ≠ 0
    · rw [if_pos he]
      refine Act.bind (P := fun a l s' => a = none ∧ l = i'.block :: (x'.blocks ++ L) ∧ s' = x'.files ++ S) ?_ ?_
      · refine Act.bind (Act.free (List.Perm.refl _)) ?_
        rintro _ _ _ ⟨rfl, rfl⟩
        exact Act.pure ⟨rfl, rfl, rfl⟩
      · rintro _ _ _ ⟨rfl, rfl, rfl⟩
        refine Act.bind (closeImage_act hr hi'.reader hi'.ctx hi'.ok (List.Perm.refl _) (List.Perm.refl _)) ?_
        rintro _ _ _ ⟨rfl, rfl⟩
        exact Act.pure ⟨rfl, hc, Or.inl ⟨he, rfl, rfl⟩⟩
    · rw [if_neg he]
      have he : e = 0 := not_not.mp he
      refine Act.bind (P := fun a l s' => a = some buf ∧ l = held buf.id i' x' L ∧ s' = x'.files ++ S) (Act.pure ⟨rfl, rfl, rfl⟩) ?_
      rintro _ _ _ ⟨rfl, rfl, rfl⟩
      refine Act.bind (closeImage_act hr hi'.reader hi'.ctx hi'.ok (L := buf.id :: L) (S := S) ?_ (List.Perm.refl _)) ?_
      · exact (List.Perm.swap _ _ _).trans (List.Perm.cons _ List.perm_middle.symm)
      · rintro _ _ _ ⟨rfl, rfl⟩
        exact Act.pure ⟨rfl, hc, Or.inr ⟨he, ho.within, buf, rfl, rfl, hz he⟩⟩
  · rw [if_pos h2]
    refine Act.pure ⟨rfl, h3, Or.inl ⟨h2, rfl, rfl⟩⟩

end Verif
