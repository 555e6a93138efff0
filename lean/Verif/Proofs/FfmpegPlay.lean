import Verif.Proofs.MagickPlay

/-! The FFmpeg reader. -/

namespace Verif
open Spec

variable {U F : Prop} {L S : List ℕ} {lib : Ffmpeg} {s : Sys}

/-! ## Packets and frames -/

theorem ffmpegPacket_eq {idx : ℤ} {fuel st st' : ℕ} {more : Bool} (h : ∃ n, lib.Packet idx n st more st' ∧ n ≤ fuel) :
    ∃ e, ffmpegPacket lib idx fuel st = some (e, st') ∧ more = decide (e = 0) := by
  obtain ⟨n, h, hn⟩ := h
  induction h generalizing fuel with
  | found h1 =>
    obtain ⟨m, rfl⟩ : ∃ m, fuel = m + 1 := ⟨fuel - 1, by omega⟩
    refine ⟨0, ?_, by simp⟩
    unfold ffmpegPacket
    rw [h1]
    simp
  | @over _ _ e _ h1 h2 =>
    obtain ⟨m, rfl⟩ : ∃ m, fuel = m + 1 := ⟨fuel - 1, by omega⟩
    refine ⟨e, ?_, ?_⟩
    · unfold ffmpegPacket
      rw [h1]
      simp only [h2, false_and, if_false]
    · simp [h2]
  | skip h1 h2 _ ih =>
    obtain ⟨m, rfl⟩ : ∃ m, fuel = m + 1 := ⟨fuel - 1, by omega⟩
    obtain ⟨e, h3, h4⟩ := ih (fuel := m) (by omega)
    refine ⟨e, ?_, h4⟩
    unfold ffmpegPacket
    rw [h1]
    simp [h2, h3]

theorem ffmpegFrame_eq {idx : ℤ} {fuel st st' : ℕ} {r : ℤ} (h : ∃ n, lib.Comes idx n st r st' ∧ n ≤ fuel) :
    ffmpegFrame lib idx fuel st = some (r, st') := by
  obtain ⟨n, h, hn⟩ := h
  induction h generalizing fuel with
  | now h1 h2 =>
    obtain ⟨m, rfl⟩ : ∃ m, fuel = m + 1 := ⟨fuel - 1, by omega⟩
    unfold ffmpegFrame
    rw [h1]
    simp [h2]
  | refused h1 h2 h3 h4 h5 h6 =>
    obtain ⟨m, rfl⟩ : ∃ m, fuel = m + 1 := ⟨fuel - 1, by omega⟩
    obtain ⟨e, g1, g2⟩ := ffmpegPacket_eq ⟨_, h3, h4⟩
    subst g2
    unfold ffmpegFrame
    rw [h1]
    simp [h2, g1, h5, h6]
  | fed h1 h2 h3 h4 h5 _ ih =>
    obtain ⟨m, rfl⟩ : ∃ m, fuel = m + 1 := ⟨fuel - 1, by omega⟩
    obtain ⟨e, g1, g2⟩ := ffmpegPacket_eq ⟨_, h3, h4⟩
    subst g2
    unfold ffmpegFrame
    rw [h1]
    simp [h2, g1, h5, ih (fuel := m) (by omega)]

/-! ## Owning -/

theorem ffmpegClose_act {x : FfmpegCtx} (hL : L.Perm ((Ctx.ffmpeg x).blocks ++ L')) :
    Act U F L S (ffmpegClose (some x)) (fun _ l s' => l = L' ∧ s' = S) := by
  unfold ffmpegClose
  refine Act.of_perm ?_ hL (List.Perm.refl _)
  simp only [Ctx.blocks]
  refine Act.skip (Act.touch (by simp)) ?_
  refine Act.bind (Act.freeOpt (R := x.block :: (x.fmt.toList ++ x.sws.toList ++ x.frame.toList ++ x.swsframe.toList ++ x.packet.toList) ++ L') (by perm_count)) ?_
  rintro _ _ _ ⟨rfl, rfl⟩
  refine Act.bind (Act.freeOpt (R := x.block :: (x.fmt.toList ++ x.sws.toList ++ x.swsframe.toList ++ x.packet.toList) ++ L') (by perm_count)) ?_
  rintro _ _ _ ⟨rfl, rfl⟩
  refine Act.bind (Act.freeOpt (R := x.block :: (x.fmt.toList ++ x.sws.toList ++ x.packet.toList) ++ L') (by perm_count)) ?_
  rintro _ _ _ ⟨rfl, rfl⟩
  refine Act.bind (Act.freeOpt (R := x.block :: (x.fmt.toList ++ x.sws.toList) ++ L') (by perm_count)) ?_
  rintro _ _ _ ⟨rfl, rfl⟩
  refine Act.bind (Act.freeOpt (R := x.block :: x.fmt.toList ++ L') (by perm_count)) ?_
  rintro _ _ _ ⟨rfl, rfl⟩
  refine Act.bind (Act.freeOpt (R := x.block :: L') (by perm_count)) ?_
  rintro _ _ _ ⟨rfl, rfl⟩
  exact Act.free (List.Perm.refl _)

theorem ffmpegFail_act {x : FfmpegCtx} {averr : ℤ} {e : RDError} {L' : List ℕ} (hL : L.Perm ((Ctx.ffmpeg x).blocks ++ L')) :
    Act U F L S (ffmpegFail lib x averr e) (fun a l s' =>
      a = (none, 0, 0, if averr ≠ 0 then rderrorFromAverror lib averr else e) ∧ l = L' ∧ s' = S) := by
  unfold ffmpegFail
  refine Act.bind (ffmpegClose_act hL) ?_
  rintro _ _ _ ⟨rfl, rfl⟩
  exact Act.pure ⟨rfl, rfl, rfl⟩

/-- All objects are there. -/
structure FfmpegCtx.Ready (x : FfmpegCtx) : Prop where
  fmt : x.fmt.isSome
  codec : x.codec.isSome
  sws : x.sws.isSome
  frame : x.frame.isSome
  swsframe : x.swsframe.isSome
  packet : x.packet.isSome

theorem ffmpegObjects_act {x : FfmpegCtx} (h1 : x.sws = none) (h2 : x.frame = none) (h3 : x.swsframe = none) (h4 : x.packet = none)
    (hf : x.fmt.isSome) (hc : x.codec.isSome) :
    Act U F ((Ctx.ffmpeg x).blocks ++ L) S (ffmpegObjects x) (fun a l s' =>
      l = (Ctx.ffmpeg a.1).blocks ++ L ∧ s' = S ∧ a.1.streamIndex = x.streamIndex ∧ ((a.2 = false ∧ F) ∨ (a.2 = true ∧ a.1.Ready))) := by
  obtain ⟨b, fmt, codec, sws, frame, swsframe, packet, idx, st⟩ := x
  simp only at h1 h2 h3 h4 hf hc
  subst h1 h2 h3 h4
  unfold ffmpegObjects
  refine Act.bind Act.malloc ?_
  rintro r L1 S1 ⟨hS1, ⟨rfl, rfl, hF⟩ | ⟨b1, rfl, rfl⟩⟩ <;> subst S1
  · exact Act.pure ⟨rfl, rfl, rfl, Or.inl ⟨rfl, hF⟩⟩
  simp only
  refine Act.bind Act.malloc ?_
  rintro r L1 S1 ⟨hS1, ⟨rfl, rfl, hF⟩ | ⟨b2, rfl, rfl⟩⟩ <;> subst S1
  · refine Act.of_perm (Act.pure ⟨rfl, rfl, rfl, Or.inl ⟨rfl, hF⟩⟩) ?_ (List.Perm.refl _)
    simp only [Ctx.blocks, Option.toList_some, Option.toList_none]
    perm_count
  simp only
  refine Act.bind Act.malloc ?_
  rintro r L1 S1 ⟨hS1, ⟨rfl, rfl, hF⟩ | ⟨b3, rfl, rfl⟩⟩ <;> subst S1
  · refine Act.of_perm (Act.pure ⟨rfl, rfl, rfl, Or.inl ⟨rfl, hF⟩⟩) ?_ (List.Perm.refl _)
    simp only [Ctx.blocks, Option.toList_some, Option.toList_none]
    perm_count
  simp only
  refine Act.bind Act.malloc ?_
  rintro r L1 S1 ⟨hS1, ⟨rfl, rfl, hF⟩ | ⟨b4, rfl, rfl⟩⟩ <;> subst S1
  · refine Act.of_perm (Act.pure ⟨rfl, rfl, rfl, Or.inl ⟨rfl, hF⟩⟩) ?_ (List.Perm.refl _)
    simp only [Ctx.blocks, Option.toList_some, Option.toList_none]
    perm_count
  · refine Act.of_perm (Act.pure ⟨rfl, rfl, rfl, Or.inr ⟨rfl, hf, hc, rfl, rfl, rfl, rfl⟩⟩) ?_ (List.Perm.refl _)
    simp only [Ctx.blocks, Option.toList_some, Option.toList_none]
    perm_count

/-- The code of a failed call. -/
def averrorCode (lib : Ffmpeg) (e : ℤ) : RDError := if lib.isErrno e then e else RDEINVAL

theorem rderror_eq {e : ℤ} {d : RDError} (h : e ≠ 0) : (if e ≠ 0 then rderrorFromAverror lib e else d) = averrorCode lib e := by
  rw [if_pos h]
  unfold rderrorFromAverror averrorCode
  rw [if_neg h]

/-- What opening comes to. -/
theorem ffmpegOpen_act {name : List UInt8} :
    Act U F L S (ffmpegOpen lib name) (fun a L' S' => S' = S ∧
      ((∃ x, a = (some x, lib.size.1, lib.size.2, RDEOK) ∧ lib.failure name = 0 ∧ x.Ready ∧ x.streamIndex = lib.bestStream ∧ x.state = lib.state ∧
          L' = (Ctx.ffmpeg x).blocks ++ L) ∨
       (∃ e, a = (none, 0, 0, e) ∧ L' = L ∧
        ((e = RDENOMEM ∧ F) ∨ (e = averrorCode lib lib.bestStream ∧ 0 < lib.bestStream ∧ F) ∨
         (lib.failure name ≠ 0 ∧ e = averrorCode lib (if lib.failure name = lib.toContext ∧ lib.toContext < 0 ∧ lib.openInput (Ffmpeg.url name) = 0 ∧
            0 ≤ lib.findInfo ∧ 0 ≤ lib.bestStream then 1 else lib.failure name)))))) := by
  unfold ffmpegOpen
  refine Act.bind Act.malloc ?_
  rintro r L1 S1 ⟨hS1, ⟨rfl, rfl, hF⟩ | ⟨b, rfl, rfl⟩⟩ <;> subst S1
  · exact Act.pure ⟨rfl, Or.inr ⟨_, rfl, rfl, Or.inl ⟨rfl, hF⟩⟩⟩
  simp only
  rw [show (if name = cs "-" then cs "pipe:" else name) = Ffmpeg.url name from rfl]
  refine Act.ite (fun h1 => ?_) (fun h1 => ?_)
  · refine Act.mono (ffmpegFail_act (L' := L) (by simp [Ctx.blocks])) ?_
    rintro _ _ _ ⟨rfl, rfl, rfl⟩
    refine ⟨rfl, Or.inr ⟨_, rfl, rfl, Or.inr (Or.inr ?_)⟩⟩
    have hf : lib.failure name = lib.openInput (Ffmpeg.url name) := by unfold Ffmpeg.failure; rw [if_pos h1]
    rw [hf, rderror_eq h1, if_neg (by rintro ⟨_, _, h, _⟩; exact h1 h)]
    exact ⟨h1, rfl⟩
  rw [not_not] at h1
  refine Act.bind Act.enter ?_
  rintro fmt _ _ ⟨rfl, rfl⟩
  refine Act.ite (fun h2 => ?_) (fun h2 => ?_)
  · refine Act.mono (ffmpegFail_act (L' := L) (by simp only [Ctx.blocks, Option.toList_some, Option.toList_none]; perm_count)) ?_
    rintro _ _ _ ⟨rfl, rfl, rfl⟩
    refine ⟨rfl, Or.inr ⟨_, rfl, rfl, Or.inr (Or.inr ?_)⟩⟩
    have hf : lib.failure name = lib.findInfo := by unfold Ffmpeg.failure; rw [if_neg (by simpa using h1), if_pos h2]
    rw [hf, rderror_eq (by omega), if_neg (by rintro ⟨_, _, _, h, _⟩; omega)]
    exact ⟨by omega, rfl⟩
  refine Act.ite (fun h3 => ?_) (fun h3 => ?_)
  · refine Act.mono (ffmpegFail_act (L' := L) (by simp only [Ctx.blocks, Option.toList_some, Option.toList_none]; perm_count)) ?_
    rintro _ _ _ ⟨rfl, rfl, rfl⟩
    refine ⟨rfl, Or.inr ⟨_, rfl, rfl, Or.inr (Or.inr ?_)⟩⟩
    have hf : lib.failure name = lib.bestStream := by unfold Ffmpeg.failure; rw [if_neg (by simpa using h1), if_neg h2, if_pos h3]
    rw [hf, rderror_eq (by omega), if_neg (by rintro ⟨_, _, _, _, h⟩; omega)]
    exact ⟨by omega, rfl⟩
  refine Act.bind Act.malloc ?_
  rintro r L1 S1 ⟨hS1, ⟨rfl, rfl, hF⟩ | ⟨codec, rfl, rfl⟩⟩ <;> subst S1
  · refine Act.mono (ffmpegFail_act (L' := L) (by simp only [Ctx.blocks, Option.toList_some, Option.toList_none]; perm_count)) ?_
    rintro _ _ _ ⟨rfl, rfl, rfl⟩
    refine ⟨rfl, Or.inr ⟨_, rfl, rfl, ?_⟩⟩
    by_cases h0 : lib.bestStream = 0
    · exact Or.inl ⟨by simp [h0], hF⟩
    · exact Or.inr (Or.inl ⟨rderror_eq h0, by omega, hF⟩)
  simp only
  refine Act.ite (fun h4 => ?_) (fun h4 => ?_)
  · refine Act.mono (ffmpegFail_act (L' := L) (by simp only [Ctx.blocks, Option.toList_some, Option.toList_none]; perm_count)) ?_
    rintro _ _ _ ⟨rfl, rfl, rfl⟩
    have h5 : lib.toContext < 0 := by by_contra h; simp [h] at h4
    refine ⟨rfl, Or.inr ⟨_, rfl, rfl, Or.inr (Or.inr ?_)⟩⟩
    have hf : lib.failure name = lib.toContext := by unfold Ffmpeg.failure; rw [if_neg (by simpa using h1), if_neg h2, if_neg h3, if_pos h5]
    rw [rderror_eq h4, if_pos h5, hf, if_pos ⟨rfl, h5, h1, by omega, by omega⟩]
    exact ⟨by omega, rfl⟩
  have h5 : ¬ lib.toContext < 0 := by intro h; simp [h] at h4
  refine Act.ite (fun h6 => ?_) (fun h6 => ?_)
  · refine Act.mono (ffmpegFail_act (L' := L) (by simp only [Ctx.blocks, Option.toList_some, Option.toList_none]; perm_count)) ?_
    rintro _ _ _ ⟨rfl, rfl, rfl⟩
    refine ⟨rfl, Or.inr ⟨_, rfl, rfl, Or.inr (Or.inr ?_)⟩⟩
    have hf : lib.failure name = lib.open2 := by unfold Ffmpeg.failure; rw [if_neg (by simpa using h1), if_neg h2, if_neg h3, if_neg h5, if_pos h6]
    rw [hf, rderror_eq h6, if_neg (by rintro ⟨_, h, _⟩; exact h5 h)]
    exact ⟨h6, rfl⟩
  rw [not_not] at h6
  refine Act.bind (Act.of_perm (ffmpegObjects_act (L := L) rfl rfl rfl rfl rfl rfl) (by simp only [Ctx.blocks, Option.toList_some, Option.toList_none]; perm_count) (List.Perm.refl _)) ?_
  rintro ⟨x, ok⟩ _ _ ⟨rfl, rfl, hidx, ⟨rfl, hF⟩ | ⟨rfl, hx⟩⟩
  · simp only [Bool.not_false, if_true]
    refine Act.mono (ffmpegFail_act (List.Perm.refl _)) ?_
    rintro _ _ _ ⟨rfl, rfl, rfl⟩
    exact ⟨rfl, Or.inr ⟨_, rfl, rfl, Or.inl ⟨by simp [h6], hF⟩⟩⟩
  simp only [Bool.not_true, Bool.false_eq_true, if_false]
  refine Act.ite (fun h7 => ?_) (fun h7 => ?_)
  · refine Act.mono (ffmpegFail_act (List.Perm.refl _)) ?_
    rintro _ _ _ ⟨rfl, rfl, rfl⟩
    refine ⟨rfl, Or.inr ⟨_, rfl, rfl, Or.inr (Or.inr ?_)⟩⟩
    have hf : lib.failure name = lib.swsInit := by
      unfold Ffmpeg.failure; rw [if_neg (by simpa using h1), if_neg h2, if_neg h3, if_neg h5, if_neg (by simpa using h6), if_pos h7]
    rw [hf, rderror_eq (by omega), if_neg (by rintro ⟨_, h, _⟩; exact h5 h)]
    exact ⟨by omega, rfl⟩
  · refine Act.pure ⟨rfl, Or.inl ⟨{ x with state := lib.state }, rfl, ?_, ⟨hx.fmt, hx.codec, hx.sws, hx.frame, hx.swsframe, hx.packet⟩, hidx, rfl, rfl⟩⟩
    unfold Ffmpeg.failure
    rw [if_neg (by simpa using h1), if_neg h2, if_neg h3, if_neg h5, if_neg (by simpa using h6), if_neg h7]

/-- Contexts of the reader. -/
def IsFfmpeg : Ctx → ℕ → ℕ → Prop
  | .ffmpeg x, _, _ => x.Ready
  | _, _, _ => False

theorem need_act {o : Option ℕ} (h : o.isSome) (hm : ∀ b, o = some b → b ∈ L) :
    Act U F L S (need o >>= touch) (fun _ l s' => l = L ∧ s' = S) := by
  obtain ⟨b, rfl⟩ := Option.isSome_iff_exists.mp h
  refine Act.bind (Act.need (Q := fun a l s' => a = b ∧ l = L ∧ s' = S) rfl ⟨rfl, rfl, rfl⟩) ?_
  rintro _ _ _ ⟨rfl, rfl, rfl⟩
  exact Act.touch (hm _ rfl)

theorem ffmpegTouch_act {x : FfmpegCtx} (hx : x.Ready) :
    Act U F ((Ctx.ffmpeg x).blocks ++ L) S (ffmpegTouch x) (fun _ l s' => l = (Ctx.ffmpeg x).blocks ++ L ∧ s' = S) := by
  have key : ∀ o : Option ℕ, o.isSome → (∀ b, o = some b → b ∈ (Ctx.ffmpeg x).blocks ++ L) →
      Act U F ((Ctx.ffmpeg x).blocks ++ L) S (need o >>= touch) (fun _ l s' => l = (Ctx.ffmpeg x).blocks ++ L ∧ s' = S) := fun o h1 h2 => need_act h1 h2
  unfold ffmpegTouch
  refine Act.skip (Act.touch (by simp [Ctx.blocks])) ?_
  have e : ∀ (o : Option ℕ) (m : M Unit), (do touch (← need o); m) = ((need o >>= touch) >>= fun _ => m) := by
    intro o m; rw [bind_assoc]
  rw [e, e, e]
  refine Act.skip (key _ hx.fmt (fun b h => by simp [Ctx.blocks, h])) ?_
  refine Act.skip (key _ hx.codec (fun b h => by simp [Ctx.blocks, h])) ?_
  refine Act.skip (key _ hx.swsframe (fun b h => by simp [Ctx.blocks, h])) ?_
  exact key _ hx.packet (fun b h => by simp [Ctx.blocks, h])

/-- An error code, or the end. -/
def endCode (lib : Ffmpeg) (r : ℤ) : RDError := if r = lib.eof then RDEOK else averrorCode lib r

theorem endCode_eq {r : ℤ} (h : r ≠ 0) : (if r ≠ lib.eof then rderrorFromAverror lib r else RDEOK) = endCode lib r := by
  unfold endCode rderrorFromAverror averrorCode
  rw [if_neg h]
  by_cases h1 : r = lib.eof
  · rw [if_neg (by simpa using h1), if_pos h1]
  · rw [if_pos h1, if_neg h1]

theorem ffmpegRead_act {x : FfmpegCtx} {img : List Fl} {w h : ℕ} (hx : x.Ready) (hw : Within s.cfg w h) (hl : w * h ≤ img.length)
    (hU : ffmpegFrame lib x.streamIndex lib.patience x.state = none → U) :
    Act U F ((Ctx.ffmpeg x).blocks ++ L) S (ffmpegRead s lib x img w h) (fun a L' S' =>
      L' = (Ctx.ffmpeg x).blocks ++ L ∧ S' = S ∧ ∃ r st, ffmpegFrame lib x.streamIndex lib.patience x.state = some (r, st) ∧
      ((r ≠ 0 ∧ a = (false, endCode lib r, img, { x with state := st })) ∨
       (r = 0 ∧ (lib.scale st).1 < 0 ∧ a = (false, endCode lib (lib.scale st).1, img, { x with state := st })) ∨
       (r = 0 ∧ 0 ≤ (lib.scale st).1 ∧ a = (true, RDEOK, fill img 0 ((List.range (w * h)).map (lib.scale st).2), { x with state := st })))) := by
  unfold ffmpegRead
  refine Act.skip (ffmpegTouch_act hx) ?_
  refine Act.bind (Act.lift (Q := fun a l s' => ffmpegFrame lib x.streamIndex lib.patience x.state = some a ∧ l = (Ctx.ffmpeg x).blocks ++ L ∧ s' = S) hU
    (fun a ha => ⟨ha, rfl, rfl⟩)) ?_
  rintro ⟨r, st⟩ _ S1 ⟨hr, rfl, e1⟩
  subst S1
  simp only
  refine Act.ite (fun h1 => ?_) (fun h1 => ?_)
  · rw [endCode_eq h1]
    exact Act.pure ⟨rfl, rfl, r, st, hr, Or.inl ⟨h1, rfl⟩⟩
  · rw [not_not] at h1
    have e : ∀ {α : Type} (o : Option ℕ) (m : M α), (do touch (← need o); m) = ((need o >>= touch) >>= fun _ => m) := by
      intro α o m; rw [bind_assoc]
    rw [e, e]
    refine Act.skip (need_act hx.sws (fun b h => by simp [Ctx.blocks, h])) ?_
    refine Act.skip (need_act hx.frame (fun b h => by simp [Ctx.blocks, h])) ?_
    refine Act.ite (fun h2 => ?_) (fun h2 => ?_)
    · rw [endCode_eq (by omega)]
      exact Act.pure ⟨rfl, rfl, r, st, hr, Or.inr (Or.inl ⟨h1, h2, rfl⟩)⟩
    · rw [hw.pixels, fillFrom_eq (by omega)]
      simp only [Nat.zero_add]
      refine Act.bind (Act.lift (Q := fun a l s' => a = fill img 0 ((List.range (w * h)).map (lib.scale st).2) ∧ l = (Ctx.ffmpeg x).blocks ++ L ∧ s' = S) (by simp)
        (fun a ha => ⟨(Option.some.inj ha).symm, rfl, rfl⟩)) ?_
      rintro _ _ _ ⟨rfl, rfl, rfl⟩
      exact Act.pure ⟨rfl, rfl, r, st, hr, Or.inr (Or.inr ⟨h1, not_lt.mp h2, rfl⟩)⟩

theorem ffmpegSeek_act {x : FfmpegCtx} {k : ℕ} {p : Bool} (hx : x.Ready) (hU : ffmpegSkip lib x.streamIndex p k 0 x.state = none → U) :
    Act U F ((Ctx.ffmpeg x).blocks ++ L) S (ffmpegSeek lib x k p) (fun a L' S' =>
      L' = (Ctx.ffmpeg x).blocks ++ L ∧ S' = S ∧ ∃ r calls st, ffmpegSkip lib x.streamIndex p k 0 x.state = some (r, calls, st) ∧
        a = (decide (r = 0), if r = 0 then RDEOK else endCode lib r, calls, { x with state := st })) := by
  unfold ffmpegSeek
  refine Act.skip (ffmpegTouch_act hx) ?_
  refine Act.bind (Act.lift (Q := fun a l s' => ffmpegSkip lib x.streamIndex p k 0 x.state = some a ∧ l = (Ctx.ffmpeg x).blocks ++ L ∧ s' = S) hU
    (fun a ha => ⟨ha, rfl, rfl⟩)) ?_
  rintro ⟨r, calls, st⟩ _ S1 ⟨hr, rfl, e1⟩
  subst S1
  refine Act.pure ⟨rfl, rfl, r, calls, st, hr, ?_⟩
  simp only [Prod.mk.injEq, true_and, and_true]
  by_cases h : r = 0
  · simp [h]
  · rw [if_neg h, ← endCode_eq h]
    simp [h]

theorem ffmpegSkip_none {idx : ℤ} {p : Bool} {k i st : ℕ} (h : ffmpegSkip lib idx p k i st = none) :
    ∃ st, ffmpegFrame lib idx lib.patience st = none := by
  induction k generalizing i st with
  | zero => cases h
  | succ k ih =>
    unfold ffmpegSkip at h
    cases hf : ffmpegFrame lib idx lib.patience st with
    | none => exact ⟨st, hf⟩
    | some v =>
      obtain ⟨r, st'⟩ := v
      rw [hf] at h
      simp only [Option.bind_eq_bind, Option.bind_some] at h
      split at h
      · cases h
      · cases hs : ffmpegSkip lib idx p k (i + 1) st' with
        | none => exact ih hs
        | some v => rw [hs] at h; cases h

theorem averrorCode_code (hE : ∀ a, lib.isErrno a = true → a < 0) (r : ℤ) : Code (averrorCode lib r) := by
  unfold averrorCode
  split
  · rename_i h
    have := hE r h
    show (r : ℤ) ≤ 7
    omega
  · exact code_inval

theorem averrorCode_ne {r : ℤ} (h : r ≠ 0) : averrorCode lib r ≠ 0 := by
  unfold averrorCode
  split
  · exact h
  · decide

theorem endCode_code (hE : ∀ a, lib.isErrno a = true → a < 0) (r : ℤ) : Code (endCode lib r) := by
  unfold endCode
  split
  · exact code_ok
  · exact averrorCode_code hE r

/-- The reader keeps the contract; only endless decoding counts as undefined. -/
theorem ffmpeg_sound (s : Sys) (lib : Ffmpeg) (hE : ∀ a, lib.isErrno a = true → a < 0) (F : Prop) :
    (ffmpegReader s lib).Sound s.cfg (fun _ => True) True F IsFfmpeg where
  opens L S name := by
    refine Act.bind ffmpegOpen_act ?_
    rintro _ L' S' ⟨rfl, ⟨x, rfl, _, hx, _, _, rfl⟩ | ⟨e', rfl, rfl, h2⟩⟩
    · exact Act.pure (Or.inl ⟨rfl, _, rfl, hx, rfl, rfl⟩)
    · refine Act.pure (Or.inr (Or.inl ?_))
      rcases h2 with ⟨rfl, _⟩ | ⟨rfl, h, _⟩ | ⟨h, rfl⟩
      · exact ⟨by decide, code_nomem, rfl, rfl, rfl⟩
      · exact ⟨averrorCode_ne (by omega), averrorCode_code hE _, rfl, rfl, rfl⟩
      · refine ⟨averrorCode_ne ?_, averrorCode_code hE _, rfl, rfl, rfl⟩
        split
        · decide
        · exact h
  reads L S x img w h hx hw hl := by
    cases x with
    | ffmpeg x =>
      have hx : x.Ready := hx
      refine Act.bind (ffmpegRead_act hx hw hl (fun _ => trivial)) ?_
      have hr : ∀ st, ({ x with state := st } : FfmpegCtx).Ready := fun st => ⟨hx.fmt, hx.codec, hx.sws, hx.frame, hx.swsframe, hx.packet⟩
      rintro _ L' S' ⟨rfl, rfl, r, st, _, ⟨_, rfl⟩ | ⟨_, _, rfl⟩ | ⟨_, _, rfl⟩⟩
      · exact Act.pure ⟨spoilt_refl _ _, fun h => (by cases h), endCode_code hE _, hr st, rfl, rfl⟩
      · exact Act.pure ⟨spoilt_refl _ _, fun h => (by cases h), endCode_code hE _, hr st, rfl, rfl⟩
      · exact Act.pure ⟨fill_spoilt (by simp) hl, fun _ => rfl, code_ok, hr st, rfl, rfl⟩
    | _ => exact hx.elim
  seeks L S x k p w h hx hw := by
    cases x with
    | ffmpeg x =>
      have hx : x.Ready := hx
      refine Act.bind (ffmpegSeek_act hx (fun _ => trivial)) ?_
      rintro _ L' S' ⟨rfl, rfl, r, calls, st, _, rfl⟩
      refine Act.pure ⟨fun h => ?_, ?_, ⟨hx.fmt, hx.codec, hx.sws, hx.frame, hx.swsframe, hx.packet⟩, rfl, rfl⟩
      · have h : r = 0 := by simpa using h
        exact if_pos h
      · show Code (if r = 0 then RDEOK else endCode lib r)
        split
        · exact code_ok
        · exact endCode_code hE _
    | _ => exact hx.elim
  closes L S x w h hx := by
    cases x with
    | ffmpeg x => exact ffmpegClose_act (List.Perm.refl _)
    | _ => exact hx.elim
  closeNull := rfl

/-! ## Playing -/

theorem Ffmpeg.Shows.frame {idx : ℤ} {size st : ℕ} {frames : List (List Fl)} (h : lib.Shows idx size st frames) :
    ∃ r st', ffmpegFrame lib idx lib.patience st = some (r, st') ∧
      ((frames = [] ∧ r = lib.eof ∧ r ≠ 0 ∧ lib.Shows idx size st' []) ∨
       ∃ f fs, frames = f :: fs ∧ r = 0 ∧ 0 ≤ (lib.scale st').1 ∧ f = (List.range size).map (lib.scale st').2 ∧ lib.Shows idx size st' fs) := by
  cases h with
  | done h1 h2 h3 h4 h5 =>
    refine ⟨_, _, ffmpegFrame_eq ⟨_, h1, h2⟩, Or.inl ⟨rfl, rfl, h4, .done (.now h3 h5) ?_ h3 h4 h5⟩⟩
    have : 1 ≤ lib.patience := by cases h1 <;> omega
    exact this
  | more h1 h2 h3 h4 h5 h6 h7 =>
    refine ⟨_, _, ffmpegFrame_eq ⟨_, h1, h2⟩, Or.inr ⟨_, _, rfl, rfl, by rw [h3]; exact h4, ?_, h7⟩⟩
    rw [h3]
    refine List.ext_getElem (by simp [h5]) (fun j g1 g2 => ?_)
    simp [h6 j g1]

theorem ffmpegSkip_eq {idx : ℤ} {size k i st : ℕ} {frames : List (List Fl)} (h : lib.Shows idx size st frames) :
    ∃ r st', ffmpegSkip lib idx true k i st = some (r, (List.range (min k frames.length)).map (fun j => i + (j + 1)), st') ∧
      ((r = 0 ∧ k ≤ frames.length) ∨ (r = lib.eof ∧ r ≠ 0 ∧ frames.length < k)) ∧ lib.Shows idx size st' (frames.drop k) := by
  induction k generalizing i st frames with
  | zero => exact ⟨0, st, by simp [ffmpegSkip], Or.inl ⟨rfl, by omega⟩, by simpa using h⟩
  | succ k ih =>
    unfold ffmpegSkip
    obtain ⟨r, st', h1, ⟨rfl, rfl, h2, h3⟩ | ⟨f, fs, rfl, rfl, _, _, h3⟩⟩ := h.frame
    · rw [h1]
      refine ⟨lib.eof, st', ?_, Or.inr ⟨rfl, h2, by simp⟩, by simpa using h3⟩
      simp only [Option.bind_eq_bind, Option.bind_some, if_pos h2]
      simp
    · obtain ⟨r, st2, e1, e2, e3⟩ := ih (i := i + 1) h3
      rw [h1]
      simp only [Option.bind_eq_bind, Option.bind_some, ne_eq, not_true, if_false, e1, if_true]
      refine ⟨r, st2, ?_, ?_, by simpa using e3⟩
      · simp only [pure, List.length_cons, Option.some.injEq, Prod.mk.injEq, true_and, and_true]
        rw [Nat.add_min_add_right, List.range_succ_eq_map]
        simp [Function.comp_def, Nat.add_comm, Nat.add_left_comm]
      · simpa using e2

/-- Contexts that show these frames. -/
def FfmpegShows (lib : Ffmpeg) (W H : ℕ) (x : Ctx) (frames : List (List Fl)) : Prop :=
  ∃ y, x = .ffmpeg y ∧ y.streamIndex = lib.bestStream ∧ lib.Shows lib.bestStream (W * H) y.state frames

theorem ffmpeg_player {W H : ℕ} (hw : Within s.cfg W H) : Player (ffmpegReader s lib) W H IsFfmpeg (FfmpegShows lib W H) where
  length := by
    rintro x f fs' ⟨y, rfl, _, h⟩
    obtain ⟨_, _, _, ⟨h, _⟩ | ⟨f', fs, h, _, _, rfl, _⟩⟩ := h.frame
    · cases h
    · cases h; simp
  read := by
    rintro x frames img L S ⟨y, rfl, hi, hy⟩ hok hl
    have hx : y.Ready := hok
    obtain ⟨r, st', h1, h2⟩ := hy.frame
    rw [← hi] at h1
    refine Act.bind (ffmpegRead_act hx hw hl.ge (fun h => by rw [h1] at h; cases h)) ?_
    rintro _ L' S' ⟨rfl, rfl, r', st, h3, h4⟩
    rw [h1] at h3
    simp only [Option.some.injEq, Prod.mk.injEq] at h3
    obtain ⟨rfl, rfl⟩ := h3
    have hr : ({ y with state := st' } : FfmpegCtx).Ready := ⟨hx.fmt, hx.codec, hx.sws, hx.frame, hx.swsframe, hx.packet⟩
    rcases h2 with ⟨rfl, h5, h6, h7⟩ | ⟨f, fs, rfl, rfl, h5, rfl, h7⟩
    · rcases h4 with ⟨_, rfl⟩ | ⟨h, _⟩ | ⟨h, _⟩
      · have e1 : endCode lib r = RDEOK := if_pos h5
        rw [e1]
        exact Act.pure ⟨.ffmpeg { y with state := st' }, rfl, ⟨_, rfl, hi, h7⟩, hr, rfl, rfl⟩
      · exact absurd h h6
      · exact absurd h h6
    · rcases h4 with ⟨h, _⟩ | ⟨_, h, _⟩ | ⟨_, _, rfl⟩
      · exact absurd rfl h
      · omega
      · refine Act.pure ⟨.ffmpeg { y with state := st' }, ?_, ⟨_, rfl, hi, h7⟩, hr, rfl, rfl⟩
        rw [fill_zero (by simp [hl])]
        rfl
  seek := by
    rintro x frames L S k ⟨y, rfl, hi, hy⟩ hok
    have hx : y.Ready := hok
    obtain ⟨r, st', h1, h2, h3⟩ := ffmpegSkip_eq (k := k) (i := 0) hy
    rw [← hi] at h1
    refine Act.bind (ffmpegSeek_act hx (fun h => by rw [h1] at h; cases h)) ?_
    rintro _ L' S' ⟨rfl, rfl, r', calls, st, h4, rfl⟩
    rw [h1] at h4
    simp only [Option.some.injEq, Prod.mk.injEq] at h4
    obtain ⟨rfl, rfl, rfl⟩ := h4
    have hr : ({ y with state := st' } : FfmpegCtx).Ready := ⟨hx.fmt, hx.codec, hx.sws, hx.frame, hx.swsframe, hx.packet⟩
    refine Act.pure ⟨.ffmpeg { y with state := st' }, ?_, ⟨_, rfl, hi, h3⟩, hr, rfl, rfl⟩
    simp only [Nat.zero_add, Prod.mk.injEq, and_true]
    rcases h2 with ⟨rfl, h5⟩ | ⟨h5, h6, h7⟩
    · simp [h5]
    · refine ⟨by simp [h6]; omega, ?_⟩
      rw [if_neg h6]
      exact if_pos h5

theorem ffmpeg_open {name : List UInt8} (hf : lib.failure name = 0) (L S : List ℕ) :
    Act False False L S ((ffmpegReader s lib).open' name) (fun a _ _ => ∃ y : FfmpegCtx, a = (some (.ffmpeg y), lib.size.1, lib.size.2, RDEOK) ∧
      y.Ready ∧ y.streamIndex = lib.bestStream ∧ y.state = lib.state) := by
  refine Act.bind ffmpegOpen_act ?_
  rintro _ L' S' ⟨rfl, ⟨x, rfl, _, h1, h2, h3, rfl⟩ | ⟨e', rfl, rfl, ⟨_, h⟩ | ⟨_, _, h⟩ | ⟨h, _⟩⟩⟩
  · exact Act.pure ⟨x, rfl, h1, h2, h3⟩
  · exact h.elim
  · exact h.elim
  · exact absurd hf h

theorem ffmpeg_refuses {name : List UInt8} (hf : lib.failure name ≠ 0) (L S : List ℕ) :
    Act False False L S ((ffmpegReader s lib).open' name) (fun a _ _ => a.1 = none ∧ a.2.2.2 =
      averrorCode lib (if lib.failure name = lib.toContext ∧ lib.toContext < 0 ∧ lib.openInput (Ffmpeg.url name) = 0 ∧
            0 ≤ lib.findInfo ∧ 0 ≤ lib.bestStream then 1 else lib.failure name)) := by
  refine Act.bind ffmpegOpen_act ?_
  rintro _ L' S' ⟨rfl, ⟨x, rfl, h, _⟩ | ⟨e', rfl, rfl, ⟨_, h⟩ | ⟨_, _, h⟩ | ⟨h, rfl⟩⟩⟩
  · exact absurd h hf
  · exact h.elim
  · exact h.elim
  · exact Act.pure ⟨rfl, rfl⟩

theorem ffmpeg_defined {name : List UInt8} {wantBuf : Bool} (hE : ∀ a, lib.isErrno a = true → a < 0)
    (hfin : ∀ st, ffmpegFrame lib lib.bestStream lib.patience st ≠ none) : Defined (openImage s (some (ffmpegReader s lib)) name wantBuf) := by
  refine defined_of (ffmpeg_sound s lib hE True) (G := fun x _ _ => ∃ y, x = .ffmpeg y ∧ y.streamIndex = lib.bestStream) ?_ ?_ ?_
  · rintro L S x img w h hx ⟨y, rfl, hi⟩ hw hl
    refine Act.bind (ffmpegRead_act hx hw hl (fun h => hfin _ (by rw [← hi]; exact h))) ?_
    rintro _ L' S' ⟨rfl, rfl, r, st, _, ⟨_, rfl⟩ | ⟨_, _, rfl⟩ | ⟨_, _, rfl⟩⟩ <;> exact Act.pure ⟨_, rfl, hi⟩
  · rintro L S x k p w h hx ⟨y, rfl, hi⟩ hw
    refine Act.bind (ffmpegSeek_act hx (fun h => ?_)) ?_
    · obtain ⟨st, h1⟩ := ffmpegSkip_none h
      rw [hi] at h1
      exact hfin _ h1
    · rintro _ L' S' ⟨rfl, rfl, r, calls, st, _, rfl⟩
      exact Act.pure ⟨_, rfl, hi⟩
  · intro L S
    refine Act.bind ffmpegOpen_act ?_
    rintro _ L' S' ⟨rfl, ⟨x, rfl, _, _, h2, _, rfl⟩ | ⟨e', rfl, rfl, _⟩⟩
    · refine Act.pure ?_
      intro x' hx'
      cases hx'
      exact ⟨x, rfl, h2⟩
    · refine Act.pure ?_
      intro x' hx'
      cases hx'

/-- The third allocation fails. -/
theorem ffmpeg_nomem {s : Sys} {lib : Ffmpeg} {name : List UInt8} {wantBuf : Bool} {w : World} (h1 : lib.openInput (Ffmpeg.url name) = 0) (h2 : 0 ≤ lib.findInfo)
    (h3 : 0 < lib.bestStream) (s0 : w.sched 0 = true) (s1 : w.sched 1 = true) (s2 : w.sched 2 = false) :
    ∃ w1, openImage s (some (ffmpegReader s lib)) name wantBuf w = some (⟨none, 0, 0, none, averrorCode lib lib.bestStream⟩, w1) := by
  have e1 : ¬ lib.findInfo < 0 := by omega
  have e2 : ¬ lib.bestStream < 0 := by omega
  have e3 : lib.bestStream ≠ 0 := by omega
  have hu : (if name = cs "-" then cs "pipe:" else name) = Ffmpeg.url name := rfl
  have hne : averrorCode lib lib.bestStream ≠ 0 := averrorCode_ne (by omega)
  have hr : rderrorFromAverror lib lib.bestStream = averrorCode lib lib.bestStream := by
    unfold rderrorFromAverror averrorCode; rw [if_neg e3]
  have m0 : malloc w = some (some w.next, { w with live := w.next :: w.live, next := w.next + 1, sched := advance w.sched }) := by
    unfold malloc; rw [if_pos s0]
  unfold openImage
  simp only
  rw [M.bind_some m0]
  generalize hw' : ({ w with live := w.next :: w.live, next := w.next + 1, sched := advance w.sched } : World) = w'
  have hl : w.next ∈ w'.live := by subst hw'; simp
  have hopen : ∃ w2, (ffmpegReader s lib).open' name w' = some ((none, 0, 0, averrorCode lib lib.bestStream), w2) ∧ w.next ∈ w2.live := by
    have m1 : malloc w' = some (some w'.next, { w' with live := w'.next :: w'.live, next := w'.next + 1, sched := advance w'.sched }) := by
      unfold malloc; rw [if_pos (by subst hw'; exact s1)]
    have hs' : w'.sched 1 = false := by subst hw'; exact s2
    clear hw'
    show ∃ w2, ((ffmpegOpen lib name >>= _) : M _) w' = _ ∧ _
    have : ∃ w2, ffmpegOpen lib name w' = some ((none, 0, 0, averrorCode lib lib.bestStream), w2) ∧ w.next ∈ w2.live := by
      unfold ffmpegOpen
      rw [M.bind_some m1]
      simp only [hu, h1, ne_eq, not_true, if_false]
      rw [M.bind_some (show enter _ = some (_, _) from rfl)]
      simp only [if_neg e1, if_neg e2]
      rw [M.bind_some (show malloc _ = some (none, _) from by unfold malloc; rw [if_neg (by simp [advance, hs'])])]
      simp only [ffmpegFail, ffmpegClose]
      simp [M.bind_apply, touch, free, hr, e3, hl]
    obtain ⟨w2, h, h'⟩ := this
    refine ⟨w2, ?_, h'⟩
    rw [M.bind_some h]
    rfl
  obtain ⟨w2, h, h'⟩ := hopen
  simp only
  rw [M.bind_some h]
  simp only [if_pos hne]
  refine ⟨{ w2 with live := w2.live.erase w.next }, ?_⟩
  simp [openFail, closeImage, M.bind_apply, touch, free, h', ffmpegReader, ffmpegClose]

end Verif
