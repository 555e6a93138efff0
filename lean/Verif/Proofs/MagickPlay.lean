import Verif.Proofs.PngInterlace

/-! The MagickWand reader. -/

namespace Verif
open Spec

variable {U F : Prop} {L S : List ℕ} {lib : Magick} {fs : Fs} {s : Sys}

theorem fillFrom_eq {f : ℕ → Fl} {todo i : ℕ} {img : List Fl} (h : i + todo ≤ img.length) :
    fillFrom f todo i img = some (fill img i ((List.range todo).map (fun j => f (i + j)))) := by
  induction todo generalizing i img with
  | zero => simp [fillFrom, fill_nil]
  | succ n ih =>
    unfold fillFrom
    rw [wr_some (by omega)]
    simp only [Option.bind_eq_bind, Option.bind_some]
    rw [ih (by simp; omega), fill_set (by omega), List.range_succ_eq_map]
    simp [Nat.add_comm, Nat.add_left_comm, Function.comp_def]

/-- What a failure is reported as. -/
def magickReason (fs : Fs) (name : List UInt8) : MagickEx → ℕ → RDError
  | .blobError, e | .fileOpenError, e => -(e : ℤ)
  | .resourceLimitError, _ | .resourceLimitFatalError, _ => RDENOMEM
  | .missingDelegateError, _ =>
    if name = cs "-" then RDEUNSUPP
    else
      match fs.fopen name with
      | .inl e => -(e + 1 : ℤ)
      | .inr _ => RDEUNSUPP
  | .other, _ => RDEINVAL

theorem magickReason_code (name : List UInt8) (ex : MagickEx) (n : ℕ) : Code (magickReason fs name ex n) := by
  have hn : Code (-(n : ℤ)) := by
    show (-(n : ℤ) : ℤ) ≤ 7
    omega
  cases ex <;> simp only [magickReason]
  · exact hn
  · exact hn
  · exact code_nomem
  · exact code_nomem
  · split
    · exact code_unsupp
    · split
      · exact code_neg _
      · exact code_unsupp
  · exact code_inval

theorem magickError_act {name : List UInt8} {ex : MagickEx} {n : ℕ} :
    Act U F L S (magickError fs name ex n) (fun a L' S' => a = magickReason fs name ex n ∧ L' = L ∧ S' = S) := by
  unfold magickError
  cases ex <;> simp only [magickReason]
  · exact Act.pure ⟨rfl, rfl, rfl⟩
  · exact Act.pure ⟨rfl, rfl, rfl⟩
  · exact Act.pure ⟨rfl, rfl, rfl⟩
  · exact Act.pure ⟨rfl, rfl, rfl⟩
  · refine Act.ite (fun h => ?_) (fun h => ?_)
    · rw [if_pos h]
      exact Act.pure ⟨rfl, rfl, rfl⟩
    · rw [if_neg h]
      refine Act.bind Act.openFile ?_
      rintro r L1 S1 ⟨hL1, ⟨e, rfl, rfl, _, hf⟩ | ⟨f, d, k, rfl, hh, _, rfl⟩⟩
      · subst L1
        rw [hf]
        exact Act.pure ⟨rfl, rfl, rfl⟩
      · subst L1
        have hf : fs.fopen name = .inr (d, k) := by
          rcases hh with ⟨h1, _⟩ | ⟨_, h1⟩
          · exact absurd h1 h
          · exact h1
        rw [hf]
        simp only
        refine Act.bind (Act.closeFile (List.Perm.refl _)) ?_
        rintro _ _ _ ⟨rfl, rfl⟩
        exact Act.pure ⟨rfl, rfl, rfl⟩
  · exact Act.pure ⟨rfl, rfl, rfl⟩

theorem magickClose_act {x : MagickCtx} : Act U F ((Ctx.magick x).blocks ++ L) S (magickClose (some x)) (fun _ l s' => l = L ∧ s' = S) := by
  unfold magickClose
  refine Act.skip (Act.touch (by simp [Ctx.blocks])) ?_
  refine Act.bind (Act.free (R := x.block :: L) (by simp only [Ctx.blocks]; perm_count)) ?_
  rintro _ _ _ ⟨rfl, rfl⟩
  exact Act.free (List.Perm.refl _)

theorem magickOpen_act {name : List UInt8} :
    Act U F L S (magickOpen fs lib name) (fun a L' S' => S' = S ∧
      ((∃ x W H, a = (some x, W, H, RDEOK) ∧ lib.read name = .inr (x.state, W, H) ∧ L' = (Ctx.magick x).blocks ++ L) ∨
       (∃ e, a = (none, 0, 0, e) ∧ L' = L ∧ ((e = RDENOMEM ∧ F) ∨ ∃ ex n, lib.read name = .inl (ex, n) ∧ e = magickReason fs name ex n)))) := by
  unfold magickOpen
  refine Act.bind Act.malloc ?_
  rintro r L1 S1 ⟨hS1, ⟨rfl, rfl, hF⟩ | ⟨b, rfl, rfl⟩⟩ <;> subst S1
  · exact Act.pure ⟨rfl, Or.inr ⟨_, rfl, rfl, Or.inl ⟨rfl, hF⟩⟩⟩
  simp only
  refine Act.bind Act.enter ?_
  rintro wand _ _ ⟨rfl, rfl⟩
  cases hr : lib.read name with
  | inl v =>
    obtain ⟨ex, n⟩ := v
    simp only
    refine Act.bind magickError_act ?_
    rintro e _ _ ⟨rfl, rfl, rfl⟩
    refine Act.bind (magickClose_act.of_perm (L1 := (Ctx.magick ⟨b, wand, 0⟩).blocks ++ L) (by simp only [Ctx.blocks]; perm_count) (List.Perm.refl _)) ?_
    rintro _ _ _ ⟨rfl, rfl⟩
    exact Act.pure ⟨rfl, Or.inr ⟨_, rfl, rfl, Or.inr ⟨ex, n, rfl, rfl⟩⟩⟩
  | inr v =>
    obtain ⟨st, W, H⟩ := v
    refine Act.of_perm (Act.pure ⟨rfl, Or.inl ⟨⟨b, wand, st⟩, W, H, rfl, rfl, rfl⟩⟩) ?_ (List.Perm.refl _)
    simp only [Ctx.blocks]
    perm_count

/-- Contexts of the reader. -/
def IsMagick : Ctx → ℕ → ℕ → Prop
  | .magick _, _, _ => True
  | _, _, _ => False

theorem magickRead_act {x : MagickCtx} {img : List Fl} {w h : ℕ} (hw : Within s.cfg w h) (hl : w * h ≤ img.length) :
    Act U F ((Ctx.magick x).blocks ++ L) S (magickRead s lib x img w h) (fun a L' S' =>
      L' = (Ctx.magick x).blocks ++ L ∧ S' = S ∧
      ((lib.next x.state = none ∧ a = (false, RDEOK, img, x)) ∨
       ∃ st, lib.next x.state = some st ∧
        ((lib.export' st w h = none ∧ a = (true, RDEOK, img, { x with state := st })) ∨
         ∃ f, lib.export' st w h = some f ∧ a = (true, RDEOK, fill img 0 ((List.range (w * h)).map f), { x with state := st })))) := by
  unfold magickRead
  refine Act.skip (Act.touch (by simp [Ctx.blocks])) ?_
  refine Act.skip (Act.touch (by simp [Ctx.blocks])) ?_
  cases hn : lib.next x.state with
  | none => exact Act.pure ⟨rfl, rfl, Or.inl ⟨rfl, rfl⟩⟩
  | some st =>
    simp only
    cases he : lib.export' st w h with
    | none => exact Act.pure ⟨rfl, rfl, Or.inr ⟨st, rfl, Or.inl ⟨he, rfl⟩⟩⟩
    | some f =>
      simp only
      rw [hw.pixels, fillFrom_eq (by omega)]
      simp only [Nat.zero_add]
      refine Act.bind (Act.lift (Q := fun a l s' => a = fill img 0 ((List.range (w * h)).map f) ∧ l = (Ctx.magick x).blocks ++ L ∧ s' = S) (by simp)
        (fun a ha => ⟨(Option.some.inj ha).symm, rfl, rfl⟩)) ?_
      rintro _ _ _ ⟨rfl, rfl, rfl⟩
      exact Act.pure ⟨rfl, rfl, Or.inr ⟨st, rfl, Or.inr ⟨f, he, rfl⟩⟩⟩

theorem magickSeek_act {x : MagickCtx} {k : ℕ} {p : Bool} :
    Act U F ((Ctx.magick x).blocks ++ L) S (magickSeek lib x k p) (fun a L' S' =>
      L' = (Ctx.magick x).blocks ++ L ∧ S' = S ∧
      a = ((magickSkip lib p k 0 x.state).1, RDEOK, (magickSkip lib p k 0 x.state).2.1, { x with state := (magickSkip lib p k 0 x.state).2.2 })) := by
  unfold magickSeek
  refine Act.skip (Act.touch (by simp [Ctx.blocks])) ?_
  refine Act.skip (Act.touch (by simp [Ctx.blocks])) ?_
  exact Act.pure ⟨rfl, rfl, rfl⟩

/-- The reader keeps the contract, and is never undefined. -/
theorem magick_sound (s : Sys) (fs : Fs) (lib : Magick) (U F : Prop) : (magickReader s fs lib).Sound s.cfg (fun _ => U) U F IsMagick where
  opens L S name := by
    refine Act.bind magickOpen_act ?_
    rintro ⟨o, w, h, e⟩ L' S' ⟨rfl, ⟨x, W, H, h1, h2, rfl⟩ | ⟨e', h1, rfl, h2⟩⟩
    · cases h1
      exact Act.pure (Or.inl ⟨rfl, _, rfl, trivial, rfl, rfl⟩)
    · cases h1
      by_cases he : e = 0
      · exact Act.pure (Or.inr (Or.inr ⟨he, rfl, rfl, rfl, rfl⟩))
      · refine Act.pure (Or.inr (Or.inl ⟨he, ?_, rfl, rfl, rfl⟩))
        rcases h2 with ⟨rfl, _⟩ | ⟨ex, n, _, rfl⟩
        · exact code_nomem
        · exact magickReason_code _ _ _
  reads L S x img w h hx hw hl := by
    cases x with
    | magick x =>
      refine Act.bind (magickRead_act hw hl) ?_
      rintro ⟨r, e, img', x'⟩ L' S' ⟨rfl, rfl, ⟨_, h1⟩ | ⟨st, _, ⟨_, h1⟩ | ⟨f, _, h1⟩⟩⟩ <;> cases h1
      · exact Act.pure ⟨spoilt_refl _ _, fun _ => rfl, code_ok, trivial, rfl, rfl⟩
      · exact Act.pure ⟨spoilt_refl _ _, fun _ => rfl, code_ok, trivial, rfl, rfl⟩
      · exact Act.pure ⟨fill_spoilt (by simp) hl, fun _ => rfl, code_ok, trivial, rfl, rfl⟩
    | _ => exact hx.elim
  seeks L S x k p w h hx hw := by
    cases x with
    | magick x =>
      refine Act.bind magickSeek_act ?_
      rintro _ L' S' ⟨rfl, rfl, rfl⟩
      exact Act.pure ⟨fun _ => rfl, code_ok, trivial, rfl, rfl⟩
    | _ => exact hx.elim
  closes L S x w h hx := by
    cases x with
    | magick x => exact magickClose_act
    | _ => exact hx.elim
  closeNull := rfl

/-! ## Playing -/

theorem magickSkip_eq {W H k i st : ℕ} {frames : List (List Fl)} (h : lib.Shows W H st frames) :
    ∃ st', magickSkip lib true k i st = (decide (k ≤ frames.length), (List.range (min k frames.length)).map (fun j => i + (j + 1)), st') ∧
      lib.Shows W H st' (frames.drop k) := by
  induction k generalizing i st frames with
  | zero => exact ⟨st, by simp [magickSkip], by simpa using h⟩
  | succ k ih =>
    unfold magickSkip
    cases h with
    | done h1 => exact ⟨st, by rw [h1]; simp, by simpa using .done h1⟩
    | more h1 h2 h3 h4 h5 =>
      rw [h1]
      obtain ⟨st', e1, e2⟩ := ih (i := i + 1) h5
      refine ⟨st', ?_, by simpa using e2⟩
      simp only [e1, if_true, List.length_cons, Nat.add_le_add_iff_right, Prod.mk.injEq, true_and, and_true]
      rw [Nat.add_min_add_right, List.range_succ_eq_map]
      simp [Function.comp_def, Nat.add_comm, Nat.add_left_comm]

/-- Contexts that show these frames. -/
def MagickShows (lib : Magick) (W H : ℕ) (x : Ctx) (frames : List (List Fl)) : Prop := ∃ y, x = .magick y ∧ lib.Shows W H y.state frames

theorem magick_player {W H : ℕ} (hw : Within s.cfg W H) : Player (magickReader s fs lib) W H IsMagick (MagickShows lib W H) where
  length := by
    rintro x f fs' ⟨y, rfl, h⟩
    cases h
    assumption
  read := by
    rintro x frames img L S ⟨y, rfl, hy⟩ hok hl
    refine Act.bind (magickRead_act hw hl.ge) ?_
    rintro ⟨r, e, img', x'⟩ L' S' ⟨rfl, rfl, hcase⟩
    cases hy with
    | done h1 =>
      rw [h1] at hcase
      rcases hcase with ⟨_, h2⟩ | ⟨_, h2, _⟩
      · cases h2
        exact Act.pure ⟨_, rfl, ⟨y, rfl, .done h1⟩, trivial, rfl, rfl⟩
      · cases h2
    | more h1 h2 h3 h4 h5 =>
      rw [h1] at hcase
      rcases hcase with ⟨h6, _⟩ | ⟨st, h6, ⟨h7, _⟩ | ⟨f, h7, h8⟩⟩
      · cases h6
      · cases h6; rw [h2] at h7; cases h7
      · cases h6; rw [h2] at h7; cases h7
        cases h8
        refine Act.pure ⟨.magick { y with state := _ }, ?_, ⟨_, rfl, h5⟩, trivial, rfl, rfl⟩
        rw [fill_zero (by simp [hl])]
        simp only [List.isEmpty_cons, Bool.not_false, List.headD_cons, Prod.mk.injEq, true_and, and_true]
        refine List.ext_getElem (by simp [h3]) (fun j g1 g2 => ?_)
        simp [h4 j g2]
  seek := by
    rintro x frames L S k ⟨y, rfl, hy⟩ hok
    refine Act.bind magickSeek_act ?_
    rintro _ L' S' ⟨rfl, rfl, rfl⟩
    obtain ⟨st', e1, e2⟩ := magickSkip_eq (k := k) (i := 0) hy
    rw [e1]
    exact Act.pure ⟨.magick { y with state := st' }, by simp only [Nat.zero_add], ⟨_, rfl, e2⟩, trivial, rfl, rfl⟩

theorem magick_open {name : List UInt8} {st W H : ℕ} (hr : lib.read name = .inr (st, W, H)) (L S : List ℕ) :
    Act False False L S ((magickReader s fs lib).open' name) (fun a _ _ => ∃ y : MagickCtx, a = (some (.magick y), W, H, RDEOK) ∧ y.state = st) := by
  refine Act.bind magickOpen_act ?_
  rintro _ L' S' ⟨rfl, ⟨x, W', H', rfl, h2, rfl⟩ | ⟨e', rfl, rfl, ⟨_, h⟩ | ⟨ex, n, h2, _⟩⟩⟩
  · rw [hr] at h2
    simp only [Sum.inr.injEq, Prod.mk.injEq] at h2
    obtain ⟨h3, rfl, rfl⟩ := h2
    exact Act.pure ⟨x, rfl, h3.symm⟩
  · exact h.elim
  · rw [hr] at h2; cases h2

theorem magick_refuses {name : List UInt8} {ex : MagickEx} {n : ℕ} (hr : lib.read name = .inl (ex, n)) (L S : List ℕ) :
    Act False False L S ((magickReader s fs lib).open' name) (fun a _ _ => a = (none, 0, 0, magickReason fs name ex n)) := by
  refine Act.bind magickOpen_act ?_
  rintro _ L' S' ⟨rfl, ⟨x, W', H', rfl, h2, rfl⟩ | ⟨e', rfl, rfl, ⟨_, h⟩ | ⟨ex', n', h2, rfl⟩⟩⟩
  · rw [hr] at h2; cases h2
  · exact h.elim
  · rw [hr] at h2; cases h2
    exact Act.pure rfl

end Verif
