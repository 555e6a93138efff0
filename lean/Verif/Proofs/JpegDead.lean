import Verif.Proofs.JpegLemmas

/-! Uses of the error manager and the `jmp_buf` after their lifetime. -/

namespace Verif
open Spec

variable {α : Type} {lib : Jpeg} {fs : Fs} {s : Sys}

/-- The call uses the error manager. -/
def JRet.Loud : JRet α → Prop
  | .ret talks _ => talks = true
  | .exit => True

theorem jcall_err {err jb : ℕ} {r : JRet α} (h : r.Loud) : Deadly err (jcall err jb r) := by
  unfold jcall
  cases r with
  | ret talks a => cases h; exact Deadly.first Deadly.touch
  | exit => exact Deadly.first Deadly.touch

theorem jcall_jb {err jb : ℕ} {r : JRet α} (h : r.value = none) : Deadly jb (jcall err jb r) := by
  unfold jcall
  cases r with
  | ret talks a => cases h
  | exit => exact Deadly.bind (Tidy.touch _) (fun _ => Deadly.first Deadly.touch)

theorem jcall_value {err jb : ℕ} {r : JRet α} {w w' : World} {a : Option α} (h : jcall err jb r w = some (a, w')) : a = r.value := by
  unfold jcall at h
  cases r with
  | ret talks a =>
    cases talks with
    | false => cases h; rfl
    | true =>
      obtain ⟨_, _, _, h⟩ := M.bind_inv h
      cases h; rfl
  | exit =>
    obtain ⟨_, _, _, h⟩ := M.bind_inv h
    obtain ⟨_, _, _, h⟩ := M.bind_inv h
    cases h; rfl

theorem jpegStart_jb {err jb : ℕ} {bytes : List UInt8} (h : lib.startup bytes = none) : Deadly jb (jpegStart lib err jb bytes) := by
  unfold jpegStart
  unfold Jpeg.startup at h
  by_cases hc : lib.create.value = none
  · exact Deadly.first (jcall_jb hc)
  refine Deadly.bind_of jcall_tidy (fun w a w' _ _ hm => jcall_value hm) ?_
  rintro _ rfl
  obtain ⟨_, hc⟩ := Option.ne_none_iff_exists'.mp hc
  rw [hc] at h ⊢
  refine Deadly.bind Tidy.enter (fun mem => ?_)
  by_cases hh : (lib.header bytes).value = none
  · exact Deadly.first (jcall_jb hh)
  refine Deadly.bind_of jcall_tidy (fun w a w' _ _ hm => jcall_value hm) ?_
  rintro _ rfl
  obtain ⟨st, hh⟩ := Option.ne_none_iff_exists'.mp hh
  rw [hh] at h ⊢
  exact Deadly.first (jcall_jb h)

theorem jpegStart_tidy {err jb : ℕ} {bytes : List UInt8} : Tidy (jpegStart lib err jb bytes) := by
  unfold jpegStart
  refine Tidy.bind jcall_tidy (fun a => ?_)
  cases a with
  | none => exact Tidy.pure _
  | some v =>
    refine Tidy.bind Tidy.enter (fun mem => Tidy.bind jcall_tidy (fun a => ?_))
    cases a with
    | none => exact Tidy.pure _
    | some st =>
      refine Tidy.bind jcall_tidy (fun a => ?_)
      cases a with
      | none => exact Tidy.pure _
      | some r => exact Tidy.pure _

theorem jpegSetjmp_dead {w w' : World} {jb : ℕ} (hw : w.WF) (hl : lib.literalEnds = true) (h : jpegSetjmp lib w = some (jb, w')) :
    Dead jb w' := by
  unfold jpegSetjmp at h
  obtain ⟨b, w1, h1, h2⟩ := M.bind_inv h
  simp only [hl, if_true] at h2
  obtain ⟨_, w2, h3, h4⟩ := M.bind_inv h2
  obtain ⟨rfl, rfl⟩ := M.pure_inv h4
  exact free_dead (Tidy.enter _ _ _ hw h1).1 h3

theorem openFile_holds {name d : List UInt8} {k : Kind} (hh : fs.Holds name (d, k)) {w w' : World} {r : RDError ⊕ File}
    (h : openFile fs name w = some (r, w')) : ∃ f, r = .inr f ∧ f.st = ⟨d, 0, k⟩ := by
  unfold openFile at h
  rcases hh with ⟨h1, h2⟩ | ⟨h1, h2⟩
  · rw [if_pos h1] at h; cases h; exact ⟨_, rfl, by simp [h2]⟩
  · rw [if_neg h1, h2] at h; cases h; exact ⟨_, rfl, rfl⟩

theorem Plenty.malloc {w : World} (hp : Plenty w) : ∃ b w', Verif.malloc w = some (some b, w') ∧ Plenty w' := by
  unfold Verif.malloc
  rw [if_pos (hp 0)]
  exact ⟨_, _, rfl, fun j => hp (j + 1)⟩

/-- When libjpeg gives up on the file while the `jmp_buf` is dead. -/
theorem jpegOpen_none {name d : List UInt8} {k : Kind} (hl : lib.literalEnds = true) (hh : fs.Holds name (d, k)) (hs : lib.startup d = none)
    {w : World} (hw : w.WF) (hp : Plenty w) : jpegOpen fs lib name w = none := by
  unfold jpegOpen
  obtain ⟨b, w1, h1, _⟩ := hp.malloc
  rw [M.bind_some h1]
  have hw1 := (Tidy.malloc _ _ _ hw h1).1
  simp only
  cases h2 : openFile fs name w1 with
  | none => exact M.bind_none h2
  | some v =>
    obtain ⟨r, w2⟩ := v
    rw [M.bind_some h2]
    have hw2 := (Tidy.openFile _ _ _ _ _ hw1 h2).1
    obtain ⟨f, rfl, hf⟩ := openFile_holds hh h2
    simp only
    cases h3 : enter w2 with
    | none => exact M.bind_none h3
    | some v =>
      obtain ⟨err, w3⟩ := v
      rw [M.bind_some h3]
      have hw3 := (Tidy.enter _ _ _ hw2 h3).1
      cases h4 : jpegSetjmp lib w3 with
      | none => exact M.bind_none h4
      | some v =>
        obtain ⟨jb, w4⟩ := v
        rw [M.bind_some h4]
        have hw4 := (jpegSetjmp_tidy _ _ _ hw3 h4).1
        exact M.bind_none (jpegStart_jb (by rw [hf]; exact hs) w4 hw4 (jpegSetjmp_dead hw3 hl h4))

/-- The error manager does not outlive `open`. -/
theorem jpegOpen_dead {name : List UInt8} {w w' : World} {x : JpegCtx} {W H : ℕ} {e : RDError} (hw : w.WF)
    (h : jpegOpen fs lib name w = some ((some x, W, H, e), w')) : w'.WF ∧ Dead x.err w' := by
  unfold jpegOpen at h
  obtain ⟨b, w1, h1, h⟩ := M.bind_inv h
  have hw1 := (Tidy.malloc _ _ _ hw h1).1
  cases b with
  | none => cases h
  | some b =>
    simp only at h
    obtain ⟨r, w2, h2, h⟩ := M.bind_inv h
    have hw2 := (Tidy.openFile _ _ _ _ _ hw1 h2).1
    cases r with
    | inl e =>
      simp only at h
      obtain ⟨_, _, _, h⟩ := M.bind_inv h
      cases h
    | inr f =>
      simp only at h
      obtain ⟨err, w3, h3, h⟩ := M.bind_inv h
      have hw3 := (Tidy.enter _ _ _ hw2 h3).1
      obtain ⟨jb, w4, h4, h⟩ := M.bind_inv h
      have hw4 := (jpegSetjmp_tidy _ _ _ hw3 h4).1
      obtain ⟨⟨mem, r⟩, w5, h5, h⟩ := M.bind_inv h
      have hw5 := (jpegStart_tidy _ _ _ hw4 h5).1
      cases r with
      | none =>
        simp only at h
        obtain ⟨_, _, _, h⟩ := M.bind_inv h
        obtain ⟨_, _, _, h⟩ := M.bind_inv h
        obtain ⟨_, _, _, h⟩ := M.bind_inv h
        cases h
      | some v =>
        obtain ⟨st, w'', h'', rows⟩ := v
        simp only at h
        obtain ⟨_, w6, h6, h⟩ := M.bind_inv h
        have hw6 := (jpegReturn_tidy _ _ _ hw5 h6).1
        obtain ⟨_, w7, h7, h⟩ := M.bind_inv h
        have hw7 := (Tidy.free _ _ _ _ hw6 h7).1
        have := free_dead hw6 h7
        obtain ⟨h8, rfl⟩ := M.pure_inv h
        cases h8
        exact ⟨hw7, this⟩

theorem openJpeg_dead {name : List UInt8} {w w' : World} {o : Opened} {i : RDImage} (hw : w.WF)
    (h : openImage s (some (jpegReader s fs lib)) name true w = some (o, w')) (hi : o.image = some i) :
    w'.WF ∧ ∃ x, i.ctx = some (.jpeg x) ∧ Dead x.err w' := by
  unfold openImage at h
  obtain ⟨b, w1, h1, h⟩ := M.bind_inv h
  have hw1 := (Tidy.malloc _ _ _ hw h1).1
  have hfail : ∀ {i' : Option RDImage} {e : RDError} {w w' : World} {o : Opened}, openFail i' e w = some (o, w') → o.image = none := by
    intro i' e w w' o h
    unfold openFail at h
    obtain ⟨_, _, _, h⟩ := M.bind_inv h
    cases h; rfl
  cases b with
  | none => have := hfail h; rw [hi] at this; cases this
  | some b =>
    simp only at h
    obtain ⟨⟨ctx, W, H, e⟩, w2, h2, h⟩ := M.bind_inv h
    simp only at h
    split at h
    · have := hfail h; rw [hi] at this; cases this
    split at h
    · have := hfail h; rw [hi] at this; cases this
    rename_i he _
    obtain ⟨b2, w3, h3, h⟩ := M.bind_inv h
    cases b2 with
    | none => have := hfail h; rw [hi] at this; cases this
    | some b2 =>
      obtain ⟨rfl, rfl⟩ := M.pure_inv h
      cases hi
      obtain ⟨⟨c1, c2, c3, c4⟩, w2', h4, h5⟩ := M.bind_inv h2
      obtain ⟨h6, rfl⟩ := M.pure_inv h5
      simp only [Prod.mk.injEq] at h6
      obtain ⟨rfl, rfl, rfl, rfl⟩ := h6
      cases c1 with
      | none =>
        exfalso
        -- without a context there is an error
        have hF : ∀ j, w1.sched j = false → True := fun _ _ => trivial
        rcases jpegOpen_act (F := True) (L := []) (S := []) (fs := fs) (lib := lib) (name := name) w1 w1 (Own.init hw1 hF) with ⟨h, _⟩ | ⟨a, w'', _, _, h, _, ⟨_, _, _, _, hx, _⟩ | ⟨hx, _⟩⟩
        · rw [h] at h4; cases h4
        · rw [h] at h4; cases h4; cases hx
        · rw [h] at h4; cases h4; exact he hx
      | some x =>
        obtain ⟨hw2, hd⟩ := jpegOpen_dead hw1 h4
        exact ⟨(Tidy.malloc _ _ _ hw2 h3).1, x, rfl, Tidy.malloc.dead hw2 hd h3⟩

theorem jpegScan_dead {jb : ℕ} {x : JpegCtx} {st lines : ℕ} (h : lib.Complains x.recRows st lines) {fuel line it : ℕ}
    (hl : line + lines = x.height) {buf : List (Option UInt8)} : Deadly x.err (jpegScan lib jb x fuel buf it line st) := by
  induction h generalizing fuel line it buf with
  | @exit st lines h0 h1 =>
    cases fuel with
    | zero => exact Deadly.ub
    | succ n =>
      unfold jpegScan
      rw [if_pos (by omega)]
      split
      · exact Deadly.ub
      · exact Deadly.first (jcall_err (by rw [h1]; trivial))
  | @message st lines r h0 h1 =>
    cases fuel with
    | zero => exact Deadly.ub
    | succ n =>
      unfold jpegScan
      rw [if_pos (by omega)]
      split
      · exact Deadly.ub
      · exact Deadly.first (jcall_err (by rw [h1]; rfl))
  | @later st st' lines now h0 h1 h2 ih =>
    cases fuel with
    | zero => exact Deadly.ub
    | succ n =>
      unfold jpegScan
      rw [if_pos (by omega)]
      split
      · exact Deadly.ub
      · refine Deadly.bind_of jcall_tidy (fun w a w' _ _ hm => jcall_value hm) ?_
        rintro _ rfl
        rw [h1]
        simp only [JRet.value]
        split
        · exact Deadly.ub
        · refine Deadly.bind (Tidy.lift _) (fun buf => ?_)
          have hle : now.length ≤ lines := by
            by_contra hgt
            have : lines - now.length = 0 := by omega
            rw [this] at h2
            cases h2 <;> omega
          exact ih (by omega)

theorem jpegScan_tidy {jb : ℕ} {x : JpegCtx} {fuel it line st : ℕ} {buf : List (Option UInt8)} : Tidy (jpegScan lib jb x fuel buf it line st) := by
  induction fuel generalizing buf it line st with
  | zero => exact Tidy.ub
  | succ n ih =>
    unfold jpegScan
    split
    · split
      · exact Tidy.ub
      · refine Tidy.bind jcall_tidy (fun a => ?_)
        cases a with
        | none => exact Tidy.pure _
        | some v =>
          simp only
          split
          · exact Tidy.ub
          · exact Tidy.bind (Tidy.lift _) (fun _ => ih)
    · exact Tidy.pure _

theorem jpegRead_dead {x : JpegCtx} {img : List Fl} {W H : ℕ} (he : x.eof = false) (hc : lib.Complains x.recRows x.state (x.height - x.line))
    (hle : x.line ≤ x.height) {w : World} (hw : w.WF) (hp : Plenty w) (hd : Dead x.err w) : jpegRead s lib x img W H w = none := by
  unfold jpegRead
  cases h0 : touch x.block w with
  | none => exact M.bind_none h0
  | some v =>
    obtain ⟨_, w0⟩ := v
    rw [M.bind_some h0, if_neg (by simp [he])]
    have : w0 = w := by
      unfold touch at h0
      split at h0
      · cases h0; rfl
      · cases h0
    subst this
    obtain ⟨b, w1, h1, _⟩ := hp.malloc
    rw [M.bind_some h1]
    refine Deadly.bind jpegSetjmp_tidy (fun jb => Deadly.first (jpegScan_dead hc (by omega))) w1 (Tidy.malloc _ _ _ hw h1).1
      (Tidy.malloc.dead hw hd h1)

end Verif
