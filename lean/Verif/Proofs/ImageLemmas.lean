import Verif.Proofs.ReaderSound

/-! Ownership in image.c. -/

namespace Verif

variable {c : Cfg} {Uo : List UInt8 → Prop} {U F : Prop} {r : Reader} {Ok : Ctx → ℕ → ℕ → Prop} {L S : List ℕ} {i : RDImage} {x : Ctx}

theorem Act.of_perm {α : Type} {m : M α} {Q : α → List ℕ → List ℕ → Prop} {L1 S1 : List ℕ} (hm : Act U F L1 S1 m Q) (hp : L.Perm L1)
    (hq : S.Perm S1) : Act U F L S m Q := Act.perm hp hq hm

theorem closeImage_act {V : Prop} (hr : r.Sound c Uo U F Ok) {w h : ℕ} (h1 : i.reader = some r) (h2 : i.ctx = some x) (hx : Ok x w h) {L1 S1 : List ℕ}
    (hL : L1.Perm (i.block :: (x.blocks ++ L))) (hS : S1.Perm (x.files ++ S)) :
    Act V F L1 S1 (closeImage (some i)) (fun _ L' S' => L' = L ∧ S' = S) := by
  unfold closeImage
  simp only [h1, h2]
  refine Act.skip (Act.touch (hL.mem_iff.mpr (by simp))) ?_
  refine Act.bind (((hr.closes (i.block :: L) S x w h hx).weaken False.elim Iff.rfl).of_perm (hL.trans List.perm_middle.symm) hS) ?_
  rintro _ _ _ ⟨rfl, rfl⟩
  exact Act.free (List.Perm.refl _)

theorem closeNull_act {V : Prop} (hr : r.Sound c Uo U F Ok) (h1 : i.reader = some r) (h2 : i.ctx = none) :
    Act V F (i.block :: L) S (closeImage (some i)) (fun _ L' S' => L' = L ∧ S' = S) := by
  unfold closeImage
  simp only [h1, h2]
  refine Act.skip (Act.touch (by simp)) ?_
  rw [hr.closeNull]
  exact Act.free (List.Perm.refl _)

/-- What `resdet_open_image` returns when it fails. -/
def Failed (e : RDError) : Opened := ⟨none, 0, 0, none, e⟩

/-- What it returns when it succeeds. -/
structure Opens (s : Sys) (r : Reader) (Ok : Ctx → ℕ → ℕ → Prop) (wantBuf : Bool) (o : Opened) (i : RDImage) (x : Ctx) : Prop where
  image : o.image = some i
  error : o.error = 0
  width : i.width = o.width
  height : i.height = o.height
  reader : i.reader = some r
  ctx : i.ctx = some x
  ok : Ok x o.width o.height
  within : Within s.cfg o.width o.height
  buf : if wantBuf then ∃ b, o.buf = some ⟨b, List.replicate (o.width * o.height) s.env.junk⟩ else o.buf = none

theorem openImage_act {s : Sys} (hr : r.Sound s.cfg Uo U F Ok) {name : List UInt8} {wantBuf : Bool} {P : Option Ctx × ℕ × ℕ × RDError → Prop}
    {V : Prop} (hP : ∀ L S, Act V F L S (r.open' name) (fun a _ _ => P a)) :
    Act V F L S (openImage s (some r) name wantBuf) (fun o L' S' =>
      (∃ i x, Opens s r Ok wantBuf o i x ∧ P (some x, o.width, o.height, 0) ∧
        L'.Perm ((o.buf.map Buf.id).toList ++ i.block :: (x.blocks ++ L)) ∧ S' = x.files ++ S) ∨
      (o = Failed o.error ∧ L' = L ∧ S' = S ∧ ((o.error = RDENOMEM ∧ F) ∨
        (o.error ≠ 0 ∧ Code o.error ∧ ∃ w h, P (none, w, h, o.error)) ∨
        (o.error = RDETOOBIG ∧ ∃ x w h, P (x, w, h, 0) ∧ ¬ Within s.cfg w h)))) := by
  have hopen : ∀ L S, Act V F L S (r.open' name) (fun a L' S' => P a ∧
      ((a.2.2.2 = 0 ∧ ∃ x, a.1 = some x ∧ Ok x a.2.1 a.2.2.1 ∧ L' = x.blocks ++ L ∧ S' = x.files ++ S) ∨
        (a.2.2.2 ≠ 0 ∧ Code a.2.2.2 ∧ a.1 = none ∧ L' = L ∧ S' = S) ∨
        (a.2.2.2 = 0 ∧ a.1 = none ∧ a.2.1 = 0 ∧ L' = L ∧ S' = S))) := by
    intro L S base w hw
    rcases hP L S base w hw with ⟨h1, h2⟩ | ⟨a, w', L', S', h1, h2, h3⟩
    · exact Or.inl ⟨h1, h2⟩
    · rcases hr.opens L S name base w hw with ⟨h4, _⟩ | ⟨a', w'', L'', S'', h4, h5, h6⟩
      · rw [h4] at h1; cases h1
      · rw [h1] at h4; cases h4
        exact Or.inr ⟨a, w', L'', S'', h1, h5, h3, h6⟩
  unfold openImage
  refine Act.bind Act.malloc ?_
  rintro rb L1 S1 ⟨hS1, ⟨rfl, rfl, hF⟩ | ⟨b, rfl, rfl⟩⟩ <;> subst S1
  · exact Act.pure (Or.inr ⟨rfl, rfl, rfl, Or.inl ⟨rfl, hF⟩⟩)
  simp only
  refine Act.bind (hopen _ _) ?_
  rintro ⟨ctx, w, h, e⟩ L2 S2 ⟨hp, ⟨h0, x, hx, hok, rfl, rfl⟩ | ⟨h0, hc, hx, rfl, rfl⟩ | ⟨h0, hx, hz, rfl, rfl⟩⟩
  · simp only at h0 hx hok ⊢
    subst h0 hx
    rw [if_neg (by simp)]
    by_cases hd : dimsExceedLimit s.cfg w h 1 4 = true
    · rw [if_pos hd]
      unfold openFail
      refine Act.bind (closeImage_act (L := L) (S := S) hr rfl rfl hok List.perm_middle (List.Perm.refl _)) ?_
      rintro _ _ _ ⟨rfl, rfl⟩
      refine Act.pure (Or.inr ⟨rfl, rfl, rfl, Or.inr (Or.inr ⟨rfl, some x, w, h, hp, ?_⟩)⟩)
      intro hw
      rw [within_iff.mpr hw] at hd
      cases hd
    · rw [if_neg hd]
      have hw := within_iff.mp (Bool.eq_false_of_not_eq_true hd)
      cases wantBuf with
      | false =>
        simp only [Bool.false_eq_true, if_false]
        refine Act.pure (Or.inl ⟨_, x, ⟨rfl, rfl, rfl, rfl, rfl, rfl, hok, hw, ?_⟩, hp, List.perm_middle, rfl⟩)
        simp
      | true =>
        simp only [if_true]
        refine Act.bind Act.malloc ?_
        rintro rb L1 S1 ⟨hS1, ⟨rfl, rfl, hF⟩ | ⟨b2, rfl, rfl⟩⟩ <;> subst S1
        · simp only
          unfold openFail
          refine Act.bind (closeImage_act (L := L) (S := S) hr rfl rfl hok List.perm_middle (List.Perm.refl _)) ?_
          rintro _ _ _ ⟨rfl, rfl⟩
          exact Act.pure (Or.inr ⟨rfl, rfl, rfl, Or.inl ⟨rfl, hF⟩⟩)
        · simp only
          have e1 : s.cfg.sz (s.cfg.sz (w * h) * 4) / 4 = w * h := by
            rw [sz_eq hw.le, sz_eq hw.2.2.2]; omega
          rw [e1]
          refine Act.pure (Or.inl ⟨_, x, ⟨rfl, rfl, rfl, rfl, rfl, rfl, hok, hw, ?_⟩, hp, ?_, rfl⟩)
          · simp
          · simp only [Option.map_some, Option.toList_some]
            exact List.Perm.cons _ List.perm_middle
  · simp only at h0 hx hc ⊢
    subst hx
    rw [if_pos h0]
    unfold openFail
    refine Act.bind (closeNull_act (i := ⟨b, some r, none, w, h⟩) hr rfl rfl) ?_
    rintro _ _ _ ⟨rfl, rfl⟩
    exact Act.pure (Or.inr ⟨rfl, rfl, rfl, Or.inr (Or.inl ⟨h0, hc, w, h, hp⟩)⟩)
  · simp only at h0 hx hz ⊢
    subst h0 hx hz
    have hd : dimsExceedLimit s.cfg 0 h 1 4 = true := by
      by_contra hd
      exact absurd (within_iff.mp (Bool.eq_false_of_not_eq_true hd)).1 (lt_irrefl _)
    rw [if_neg (by simp), if_pos hd]
    unfold openFail
    refine Act.bind (closeNull_act (i := ⟨b, some r, none, 0, h⟩) hr rfl rfl) ?_
    rintro _ _ _ ⟨rfl, rfl⟩
    exact Act.pure (Or.inr ⟨rfl, rfl, rfl, Or.inr (Or.inr ⟨rfl, none, 0, h, hp, fun hw => absurd hw.1 (lt_irrefl _)⟩)⟩)

theorem openUnsupported_act {s : Sys} {name : List UInt8} {wantBuf : Bool} :
    Act U F L S (openImage s none name wantBuf) (fun o L' S' => o = Failed o.error ∧ L' = L ∧ S' = S ∧
      (o.error = RDEUNSUPP ∨ (o.error = RDENOMEM ∧ F))) := by
  unfold openImage
  refine Act.bind Act.malloc ?_
  rintro rb L1 S1 ⟨hS1, ⟨rfl, rfl, hF⟩ | ⟨b, rfl, rfl⟩⟩ <;> subst S1
  · exact Act.pure ⟨rfl, rfl, rfl, Or.inr ⟨rfl, hF⟩⟩
  simp only [openFail, closeImage]
  refine Act.bind (P := fun _ L' S' => L' = L ∧ S' = S) ?_ ?_
  · refine Act.skip (Act.touch (by simp)) ?_
    exact Act.free (List.Perm.refl _)
  · rintro _ _ _ ⟨rfl, rfl⟩
    exact Act.pure ⟨rfl, rfl, rfl, Or.inl rfl⟩

/-- Reading a frame is one call of the reader. -/
theorem readFrame_act {buf : Buf Fl} {off : ℕ} {P : Bool × RDError × List Fl × Ctx → List ℕ → List ℕ → Prop}
    (hR : Act U F L S (r.read x (buf.data.drop off) i.width i.height) P) (h1 : i.reader = some r) (h2 : i.ctx = some x)
    (hb : buf.id ∈ L) (hi : i.block ∈ L) (ho : off ≤ buf.data.length) :
    Act U F L S (readImageFrame (some i) (some buf) off) (fun a L' S' => ∃ v, P v L' S' ∧
      a = (v.1, v.2.1, some { buf with data := buf.data.take off ++ v.2.2.1 }, some { i with ctx := some v.2.2.2 })) := by
  unfold readImageFrame
  simp only
  refine Act.skip (Act.touch hi) ?_
  refine Act.skip (Act.touch hb) ?_
  refine Act.bind (Act.need (Q := fun a L' S' => a = r ∧ L' = L ∧ S' = S) h1 ⟨rfl, rfl, rfl⟩) ?_
  rintro r1 L1 S1 ⟨e1, e2, e3⟩
  subst r1 L1 S1
  refine Act.bind (Act.need (Q := fun a L' S' => a = x ∧ L' = L ∧ S' = S) h2 ⟨rfl, rfl, rfl⟩) ?_
  rintro x1 L1 S1 ⟨e1, e2, e3⟩
  subst x1 L1 S1
  rw [if_neg (by omega)]
  refine Act.bind hR ?_
  rintro ⟨ret, e, data, ctx⟩ L' S' hp
  exact Act.pure ⟨_, hp, rfl⟩

theorem seekFrame_act {k : ℕ} {p : Bool} {P : Bool × RDError × List ℕ × Ctx → List ℕ → List ℕ → Prop}
    (hR : Act U F L S (r.seek x k p i.width i.height) P) (h1 : i.reader = some r) (h2 : i.ctx = some x) (hi : i.block ∈ L) :
    Act U F L S (seekFrame (some i) k p) (fun a L' S' => ∃ v, P v L' S' ∧
      a = (v.1, v.2.1, v.2.2.1, some { i with ctx := some v.2.2.2 })) := by
  unfold seekFrame
  simp only
  refine Act.skip (Act.touch hi) ?_
  refine Act.bind (Act.need (Q := fun a L' S' => a = r ∧ L' = L ∧ S' = S) h1 ⟨rfl, rfl, rfl⟩) ?_
  rintro r1 L1 S1 ⟨e1, e2, e3⟩
  subst r1 L1 S1
  refine Act.bind (Act.need (Q := fun a L' S' => a = x ∧ L' = L ∧ S' = S) h2 ⟨rfl, rfl, rfl⟩) ?_
  rintro x1 L1 S1 ⟨e1, e2, e3⟩
  subst x1 L1 S1
  refine Act.bind hR ?_
  rintro ⟨ret, e, data, ctx⟩ L' S' hp
  exact Act.pure ⟨_, hp, rfl⟩

theorem Reader.Sound.weaken {Uo' : List UInt8 → Prop} {U' : Prop} (h : r.Sound c Uo U F Ok) (h1 : ∀ n, Uo n → Uo' n) (h2 : U → U') :
    r.Sound c Uo' U' F Ok where
  opens L S name := (h.opens L S name).weaken (h1 name) Iff.rfl
  reads L S x img w h' a b d := (h.reads L S x img w h' a b d).weaken h2 Iff.rfl
  seeks L S x k p w h' a b := (h.seeks L S x k p w h' a b).weaken h2 Iff.rfl
  closes := h.closes
  closeNull := h.closeNull

/-- Every reader that can be chosen keeps the contract. -/
theorem readers_sound {s : Sys} {io : Io} (hio : io.Contract s.cfg) : ∀ r ∈ imageReaders s io,
    ∃ Ok, ∀ F, r.Sound s.cfg (fun _ => True) True F Ok := by
  intro r hr
  unfold imageReaders at hr
  simp only [List.mem_append, Option.mem_toList] at hr
  rcases hr with (((((hr | hr) | hr) | hr) | hr) | hr) | hr
  · split at hr
    · cases hr
    · rw [List.mem_singleton.mp hr]
      exact ⟨_, fun F => (pgm_sound s io.fs True F).weaken (fun _ _ => trivial) id⟩
  · split at hr
    · cases hr
    · rw [List.mem_singleton.mp hr]
      exact ⟨_, fun F => (pfm_sound s io.fs F).weaken (fun _ _ => trivial) id⟩
  · split at hr
    · cases hr
    · rw [List.mem_singleton.mp hr]
      exact ⟨_, fun F => (y4m_sound s io.fs True F).weaken (fun _ _ => trivial) id⟩
  · exact hio r (Or.inl hr)
  · exact hio r (Or.inr (Or.inl hr))
  · exact hio r (Or.inr (Or.inr (Or.inl hr)))
  · exact hio r (Or.inr (Or.inr (Or.inr hr)))

theorem findReader_mem {rs : List Reader} {ext : List UInt8} {r : Reader} (h : findReader rs ext = some (some r)) : r ∈ rs := by
  induction rs with
  | nil => cases h
  | cons a rs ih =>
    unfold findReader at h
    simp only [Option.bind_eq_bind, Option.bind_eq_some_iff] at h
    obtain ⟨b, _, h⟩ := h
    cases b with
    | true => simp only [if_true] at h; cases h; simp
    | false => exact List.mem_cons_of_mem _ (ih h)

end Verif
