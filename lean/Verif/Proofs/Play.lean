import Verif.Proofs.ImageLemmas
import Verif.Proofs.StreamLemmas

/-! The built-in readers as functions of the bytes still to come. -/

namespace Verif

/-- The effect of reading a frame: the frame if there is one, the error, the context afterwards; `none` is undefined. -/
def Ctx.step (s : Sys) (w h : ℕ) : Ctx → Option (Option (List Fl) × RDError × Ctx)
  | .pgm x =>
    if x.eof then some (none, RDEOK, .pgm x)
    else
      let x' : PgmCtx := { x with eof := true, f := { x.f with st := x.f.st.advance (min (w * h) x.f.st.rest.length) } }
      if w * h ≤ x.f.st.rest.length then some (some ((x.f.st.rest.take (w * h)).map (pgmSample x.depth)), RDEOK, .pgm x')
      else some (none, RDEINVAL, .pgm x')
  | .pfm x =>
    match pfmReadHeader s.cfg x w h with
    | none => none
    | some (ok, e, x1) =>
      if ok then
        if 4 * pfmComps x1.format * w * h ≤ x1.f.st.rest.length then
          some (some (pfmFrame s.cfg (!sameOrder s.cfg x1.scale) (pfmComps x1.format) w h x1.f.st.rest), RDEOK,
            .pfm { x1 with headerConsumed := false, f := { x1.f with st := x1.f.st.advance (4 * pfmComps x1.format * w * h) } })
        else some (none, RDEINVAL, .pfm { x1 with f := { x1.f with st := x1.f.st.advance x1.f.st.rest.length } })
      else some (none, e, .pfm x1)
  | .y4m x =>
    let r := y4mReads s x (w * h) [] x.f.st
    some (if r.1 then some (y4mPlane s.cfg x.depth (w * h) ((y4mFrameHeader x.f.st).2.2.rest.take x.ySize)) else none, r.2.1,
      .y4m { x with f := { x.f with st := r.2.2.2 } })
  | _ => none

/-- The built-in readers and their contexts. -/
inductive Builtin (s : Sys) (fs : Fs) : Reader → (Ctx → ℕ → ℕ → Prop) → Prop where
  | pgm : Builtin s fs (pgmReader s fs) IsPgm
  | pfm : Builtin s fs (pfmReader s fs) IsPfm
  | y4m : Builtin s fs (y4mReader s fs) (IsY4m s.cfg)

variable {s : Sys} {fs : Fs} {r : Reader} {Ok : Ctx → ℕ → ℕ → Prop} {U F : Prop} {L S : List ℕ} {w h : ℕ}

theorem Builtin.sound (hb : Builtin s fs r Ok) (F : Prop) : r.Sound s.cfg (fun _ => True) True F Ok := by
  cases hb with
  | pgm => exact (pgm_sound s fs True F).weaken (fun _ _ => trivial) id
  | pfm => exact (pfm_sound s fs F).weaken (fun _ _ => trivial) id
  | y4m => exact (y4m_sound s fs True F).weaken (fun _ _ => trivial) id

theorem y4mReads_image (x : Y4mCtx) (n : ℕ) (img : List Fl) (st : Stream) :
    (y4mReads s x n img st).1 = (y4mReads s x n [] st).1 ∧ (y4mReads s x n img st).2.1 = (y4mReads s x n [] st).2.1 ∧
    (y4mReads s x n img st).2.2.2 = (y4mReads s x n [] st).2.2.2 := by
  unfold y4mReads
  simp only
  split
  · split <;> simp
  · simp

/-- What reading a frame leaves. -/
structure Stepped (w h : ℕ) (img : List Fl) (a : Bool × RDError × List Fl × Ctx) (o : Option (List Fl)) (e : RDError) (x' : Ctx) : Prop where
  ret : a.1 = o.isSome
  error : a.2.1 = e
  ctx : a.2.2.2 = x'
  spoilt : Spoilt img a.2.2.1 (w * h)
  frame : ∀ f, o = some f → a.2.2.1 = fill img 0 f ∧ f.length = w * h ∧ e = 0
  same : o = none → e = 0 → a.2.2.1 = img

theorem Builtin.read_act (hb : Builtin s fs r Ok) {x : Ctx} (hx : Ok x w h) (hw : Within s.cfg w h) {img : List Fl}
    (hl : w * h ≤ img.length) : Act (x.step s w h = none) F (x.blocks ++ L) (x.files ++ S) (r.read x img w h) (fun a L' S' =>
      ∃ o e x', x.step s w h = some (o, e, x') ∧ Stepped w h img a o e x' ∧ Ok x' w h ∧ L' = x'.blocks ++ L ∧ S' = x'.files ++ S) := by
  cases hb with
  | pgm =>
    cases x with
    | pgm x =>
      refine Act.bind (pgmRead_act hw hl) ?_
      rintro a L' S' ⟨rfl, rfl, rfl⟩
      simp only [Ctx.step]
      split
      · exact Act.pure ⟨_, _, _, rfl, ⟨rfl, rfl, rfl, spoilt_refl _ _, by simp, fun _ _ => rfl⟩, trivial, rfl, rfl⟩
      · split
        · rename_i hr
          refine Act.pure ⟨_, _, _, rfl, ⟨by simp [hr], rfl, rfl, ?_, ?_, by simp⟩, trivial, rfl, rfl⟩
          · exact fill_spoilt (by simp) hl
          · intro f hf; cases hf
            exact ⟨rfl, by simp [hr], rfl⟩
        · rename_i hr
          refine Act.pure ⟨_, _, _, rfl, ⟨by simp [hr], rfl, rfl, ?_, by simp, ?_⟩, trivial, rfl, rfl⟩
          · exact fill_spoilt (by simp) hl
          · intro _ h0; exact absurd h0 (by decide)
    | _ => exact hx.elim
  | pfm =>
    cases x with
    | pfm x =>
      refine Act.bind (Act.weaken (pfmRead_act hw hl) (fun h => by simp only [Ctx.step, h]) Iff.rfl) ?_
      rintro a L' S' ⟨rfl, rfl, ok, e, x1, h1, h2⟩
      have k1 := pfmReadHeader_keeps h1
      simp only [Ctx.step, h1]
      cases ok with
      | false =>
        simp only [Bool.false_eq_true, if_false] at h2 ⊢
        subst h2
        refine Act.pure ⟨_, _, _, rfl, ⟨rfl, rfl, rfl, spoilt_refl _ _, by simp, fun _ _ => rfl⟩, trivial, ?_, ?_⟩
        · simp only [Ctx.blocks, k1.1]; rfl
        · simp only [Ctx.files, owned_eq k1.2.1]
      | true =>
        simp only [if_true] at h2 ⊢
        split at h2
        · rename_i hr
          subst h2
          rw [if_pos hr]
          refine Act.pure ⟨_, _, _, rfl, ⟨rfl, rfl, rfl, fill_spoilt (by rw [pfmFrame_length, Nat.mul_comm]) hl, ?_, by simp⟩, trivial, ?_, ?_⟩
          · intro f hf; cases hf
            exact ⟨rfl, by rw [pfmFrame_length, Nat.mul_comm], rfl⟩
          · simp only [Ctx.blocks, k1.1]; rfl
          · simp only [Ctx.files]; simp only [File.owned, k1.2.1]
        · rename_i hr
          obtain ⟨img', h3, rfl⟩ := h2
          rw [if_neg hr]
          refine Act.pure ⟨_, _, _, rfl, ⟨rfl, rfl, rfl, h3, by simp, ?_⟩, trivial, ?_, ?_⟩
          · intro _ h0; exact absurd h0 (by decide)
          · simp only [Ctx.blocks, k1.1]; rfl
          · simp only [Ctx.files]; simp only [File.owned, k1.2.1]
    | _ => exact hx.elim
  | y4m =>
    cases x with
    | y4m x =>
      refine Act.bind (y4mRead_act hx hw hl) ?_
      rintro a L' S' ⟨rfl, rfl, rfl⟩
      obtain ⟨i1, i2, i3⟩ := y4mReads_image (s := s) x (w * h) img x.f.st
      have hx' : Y4mOk s.cfg x w h := hx
      simp only [Ctx.step]
      refine Act.pure ⟨_, _, _, rfl, ⟨?_, i2, by rw [i3], ?_, ?_, ?_⟩, Y4mOk.move hx' _, rfl, rfl⟩
      · simp only [i1]; split <;> simp_all
      · simp only [y4mReads]
        split
        · split
          · exact fill_spoilt (y4mPlane_length _ _ _ _).le hl
          · exact spoilt_refl _ _
        · exact spoilt_refl _ _
      · intro f hf
        by_cases h0 : (y4mReads s x (w * h) [] x.f.st).1 = true
        · rw [if_pos h0] at hf
          cases hf
          simp only [y4mReads] at h0 ⊢
          by_cases hok : (y4mFrameHeader x.f.st).1 = true
          · rw [if_pos hok] at h0 ⊢
            rw [if_pos hok]
            by_cases hr : x.ySize ≤ (y4mFrameHeader x.f.st).2.2.rest.length
            · rw [if_pos hr] at h0 ⊢
              rw [if_pos hr]
              exact ⟨rfl, y4mPlane_length _ _ _ _, by simpa using h0⟩
            · rw [if_neg hr] at h0; cases h0
          · rw [if_neg hok] at h0; cases h0
        · rw [if_neg h0] at hf; cases hf
      · intro ho he
        simp only [y4mReads] at ho he ⊢
        split
        · rename_i hok
          rw [if_pos hok] at ho he
          split
          · rename_i hr
            rw [if_pos hr] at ho he
            simp only at he
            simp [he] at ho
          · rfl
        · rfl
    | _ => exact hx.elim

/-- The context without the identities of blocks and streams. -/
def Ctx.erase : Ctx → Ctx
  | .pgm x => .pgm { x with block := 0, f := { x.f with id := none } }
  | .pfm x => .pfm { x with block := 0, f := { x.f with id := none } }
  | .y4m x => .y4m { x with block := 0, f := { x.f with id := none }, buf := none }
  | x => x

theorem pfmReadHeader_erase (c : Cfg) (x : PfmCtx) (b : ℕ) (id : Option ℕ) :
    pfmReadHeader c { x with block := b, f := { x.f with id := id } } w h =
      (pfmReadHeader c x w h).map (fun v => (v.1, v.2.1, { v.2.2 with block := b, f := { v.2.2.f with id := id } })) := by
  unfold pfmReadHeader
  simp only
  by_cases hc : x.headerConsumed = true
  · rw [if_pos hc, if_pos hc]; rfl
  · rw [if_neg hc, if_neg hc]
    rcases x.f.st.fgetc with ⟨_ | b, st⟩
    · rfl
    · simp only
      by_cases hp : b = ch 'P'
      · rw [if_neg (by simp [hp]), if_neg (by simp [hp])]
        rcases pfmFields c st with _ | ⟨_ | ⟨f, w', h', sc⟩, st⟩
        · rfl
        · rfl
        · simp only [Option.bind_eq_bind, Option.bind_some]
          by_cases hn : w' ≠ w ∨ h' ≠ h
          · rw [if_pos hn, if_pos hn]; rfl
          · rw [if_neg hn, if_neg hn]; rfl
      · rw [if_pos (by simp [hp]), if_pos (by simp [hp])]; rfl

/-- Reading does not depend on the identities. -/
theorem Ctx.step_erase (x : Ctx) : x.erase.step s w h = (x.step s w h).map (fun v => (v.1, v.2.1, v.2.2.erase)) := by
  cases x with
  | pgm x =>
    simp only [Ctx.erase, Ctx.step]
    by_cases he : x.eof = true
    · rw [if_pos he, if_pos he]; rfl
    · rw [if_neg he, if_neg he]
      by_cases hl : w * h ≤ x.f.st.rest.length
      · rw [if_pos hl, if_pos hl]; rfl
      · rw [if_neg hl, if_neg hl]; rfl
  | pfm x =>
    simp only [Ctx.erase, Ctx.step]
    rw [pfmReadHeader_erase]
    rcases pfmReadHeader s.cfg x w h with _ | ⟨ok, e, x1⟩
    · rfl
    · simp only [Option.map_some]
      cases ok with
      | false => rfl
      | true =>
        simp only [if_true]
        by_cases hl : 4 * pfmComps x1.format * w * h ≤ x1.f.st.rest.length
        · rw [if_pos hl, if_pos hl]; rfl
        · rw [if_neg hl, if_neg hl]; rfl
  | y4m x => rfl
  | _ => rfl

/-- A bound on the number of frames to come. -/
def Ctx.todo : Ctx → ℕ
  | .pgm x => if x.eof then 0 else 1
  | .pfm x => x.f.st.rest.length
  | .y4m x => x.f.st.rest.length
  | _ => 0

theorem pfmReadHeader_after {c : Cfg} {x x' : PfmCtx} {ok : Bool} {e : RDError} (hh : pfmReadHeader c x w h = some (ok, e, x')) :
    After x.f.st x'.f.st := by
  unfold pfmReadHeader at hh
  by_cases hc : x.headerConsumed = true
  · rw [if_pos hc] at hh; cases hh; exact After.refl _
  · rw [if_neg hc] at hh
    rcases hg : x.f.st.fgetc with ⟨_ | b, st⟩
    · rw [hg] at hh; simp only at hh; cases hh; exact After.fgetc hg
    · rw [hg] at hh; simp only at hh
      split at hh
      · cases hh; exact After.fgetc hg
      · simp only [Option.bind_eq_bind, Option.bind_eq_some_iff] at hh
        obtain ⟨⟨r, st'⟩, h1, hh⟩ := hh
        have a1 := (After.fgetc hg).trans (After.pfmFields h1)
        rcases r with _ | ⟨f, w', h', sc⟩
        · cases hh; exact a1
        · simp only at hh
          split at hh <;> cases hh <;> exact a1

theorem pfmComps_pos (f : UInt8) : 0 < pfmComps f := by unfold pfmComps; split <;> omega

theorem skipBy_le (s : Sys) (k : Bool) (st : Stream) (n : ℕ) : (skipBy s k st n).2.rest.length ≤ st.rest.length := by
  unfold skipBy
  repeat' split
  all_goals simp [Stream.advance]

theorem Ctx.step_todo {x x' : Ctx} {f : List Fl} {e : RDError} (hw : 0 < w * h) (hs : x.step s w h = some (some f, e, x')) :
    x'.todo < x.todo := by
  cases x with
  | pgm x =>
    simp only [Ctx.step] at hs
    split at hs
    · cases hs
    · rename_i he
      split at hs
      · cases hs; simp only [Ctx.todo]; rw [if_neg he]; simp
      · cases hs
  | pfm x =>
    simp only [Ctx.step] at hs
    split at hs
    · cases hs
    · rename_i ok e1 x1 h1
      have a1 := (pfmReadHeader_after h1).le
      cases ok with
      | false => cases hs
      | true =>
        simp only [if_true] at hs
        split at hs
        · rename_i hl
          cases hs
          simp only [Ctx.todo, Stream.advance, List.length_drop]
          have h3 : 0 < 4 * pfmComps x1.format * w * h := by
            rw [Nat.mul_assoc]; exact Nat.mul_pos (Nat.mul_pos (by omega) (pfmComps_pos _)) hw
          omega
        · cases hs
  | y4m x =>
    simp only [Ctx.step] at hs
    by_cases h0 : (y4mReads s x (w * h) [] x.f.st).1 = true
    · rw [if_pos h0] at hs
      cases hs
      simp only [Ctx.todo]
      simp only [y4mReads] at h0 ⊢
      by_cases hok : (y4mFrameHeader x.f.st).1 = true
      · have a1 := ((After.y4mFrameHeader x.f.st).2 hok).1
        rw [if_pos hok]
        by_cases hr : x.ySize ≤ (y4mFrameHeader x.f.st).2.2.rest.length
        · rw [if_pos hr]
          simp only
          have := skipBy_le s x.seekable ((y4mFrameHeader x.f.st).2.2.advance x.ySize) x.uvSize
          simp only [Stream.advance, List.length_drop] at this ⊢
          omega
        · rw [if_neg hr]
          simp only [Stream.advance, List.length_drop]
          omega
      · rw [if_neg hok] at h0; cases h0
    · rw [if_neg h0] at hs; cases hs
  | _ => cases hs

/-- The frames to come and the error that ends them; `none` if it is undefined behaviour that ends them. -/
def Ctx.play (s : Sys) (w h : ℕ) : ℕ → Ctx → List (List Fl) × Option RDError
  | 0, _ => ([], none)
  | n + 1, x =>
    match x.step s w h with
    | none => ([], none)
    | some (none, e, _) => ([], some e)
    | some (some f, _, x') => (f :: (x'.play s w h n).1, (x'.play s w h n).2)

/-- The same with enough fuel. -/
def Ctx.frames (s : Sys) (w h : ℕ) (x : Ctx) : List (List Fl) × Option RDError := x.play s w h (x.todo + 1)

theorem Ctx.play_fuel (hw : 0 < w * h) {n : ℕ} {x : Ctx} (hn : x.todo < n) : x.play s w h n = x.frames s w h := by
  have key : ∀ n m (x : Ctx), x.todo < n → x.todo < m → x.play s w h n = x.play s w h m := by
    intro n
    induction n with
    | zero => intro m x h1; omega
    | succ n ih =>
      intro m x h1 h2
      obtain ⟨m, rfl⟩ : ∃ k, m = k + 1 := ⟨m - 1, by omega⟩
      unfold Ctx.play
      rcases hs : x.step s w h with _ | ⟨_ | f, e, x'⟩
      · rfl
      · rfl
      · have := Ctx.step_todo hw hs
        simp only
        rw [ih m x' (by omega) (by omega)]
  exact key _ _ _ hn (Nat.lt_succ_self _)

theorem Ctx.frames_none {x : Ctx} (hs : x.step s w h = none) : x.frames s w h = ([], none) := by
  unfold Ctx.frames Ctx.play; rw [hs]

theorem Ctx.frames_stop {x x' : Ctx} {e : RDError} (hs : x.step s w h = some (none, e, x')) : x.frames s w h = ([], some e) := by
  unfold Ctx.frames Ctx.play; rw [hs]

theorem Ctx.frames_next (hw : 0 < w * h) {x x' : Ctx} {e : RDError} {f : List Fl} (hs : x.step s w h = some (some f, e, x')) :
    x.frames s w h = (f :: (x'.frames s w h).1, (x'.frames s w h).2) := by
  have := Ctx.step_todo hw hs
  conv_lhs => unfold Ctx.frames Ctx.play
  rw [hs]
  simp only
  rw [Ctx.play_fuel hw (by omega)]

theorem Ctx.frames_erase (hw : 0 < w * h) (x : Ctx) : x.erase.frames s w h = x.frames s w h := by
  have key : ∀ n (x : Ctx), x.todo < n → x.erase.frames s w h = x.frames s w h := by
    intro n
    induction n with
    | zero => intro x h1; omega
    | succ n ih =>
      intro x hn
      have he := Ctx.step_erase (s := s) (w := w) (h := h) x
      rcases hs : x.step s w h with _ | ⟨_ | f, e, x'⟩
      · rw [hs] at he; rw [Ctx.frames_none hs, Ctx.frames_none he]
      · rw [hs] at he; rw [Ctx.frames_stop hs, Ctx.frames_stop he]
      · rw [hs] at he
        rw [Ctx.frames_next hw hs, Ctx.frames_next hw he, ih x' (by have := Ctx.step_todo hw hs; omega)]
  exact key _ x (Nat.lt_succ_self _)

/-! ## Opening -/

theorem Fs.Holds.unique {name : List UInt8} {a b : List UInt8 × Kind} (h1 : fs.Holds name a) (h2 : fs.Holds name b) : a = b := by
  rcases h1 with ⟨h, rfl⟩ | ⟨h, h1⟩ <;> rcases h2 with ⟨h', rfl⟩ | ⟨h', h2⟩
  · rfl
  · exact absurd h h'
  · exact absurd h' h
  · rw [h1] at h2; cases h2; rfl

theorem Fs.Holds.not_missing {name : List UInt8} {a : List UInt8 × Kind} {e : ℕ} (h1 : fs.Holds name a) (h : name ≠ cs "-") (h2 : fs.fopen name = .inl e) :
    False := by
  rcases h1 with ⟨h', _⟩ | ⟨_, h1⟩
  · exact h h'
  · rw [h1] at h2; cases h2

theorem holds_or (fs : Fs) (name : List UInt8) : (∃ d k, fs.Holds name (d, k)) ∨ (name ≠ cs "-" ∧ ∃ e, fs.fopen name = .inl e) := by
  by_cases h : name = cs "-"
  · exact Or.inl ⟨fs.stdin.1, fs.stdin.2, Or.inl ⟨h, rfl⟩⟩
  · cases hf : fs.fopen name with
    | inl e => exact Or.inr ⟨h, e, rfl⟩
    | inr r => exact Or.inl ⟨r.1, r.2, Or.inr ⟨h, hf⟩⟩

/-- What opening a file comes to, whatever the state of memory, unless memory runs out; `none` is undefined behaviour. -/
def Determined (r : Reader) (name : List UInt8) (o : Option (Option Ctx × ℕ × ℕ × RDError)) : Prop :=
  ∀ F L S, Act (o = none) F L S (r.open' name) (fun a _ _ =>
    (a.2.2.2 = RDENOMEM ∧ a.1 = none ∧ F) ∨ o = some (a.1.map Ctx.erase, a.2.1, a.2.2.1, a.2.2.2))

theorem pgm_determined (name : List UInt8) :
    (∀ d k, fs.Holds name (d, k) → Determined (pgmReader s fs) name (match pgmHeader s.cfg ⟨d, 0, k⟩ with
      | none => none
      | some (none, _) => some (none, 0, 0, RDEINVAL)
      | some (some (w, h, depth), st) => some (some (.pgm ⟨0, ⟨none, st⟩, false, depth⟩), w, h, RDEOK))) ∧
    (∀ e, name ≠ cs "-" → fs.fopen name = .inl e → Determined (pgmReader s fs) name (some (none, 0, 0, -(e + 1 : ℤ)))) := by
  constructor
  · intro d k hh F L S
    refine Act.bind (Act.weaken pgmOpen_act ?_ Iff.rfl) ?_
    · rintro ⟨d', k', h1, h2⟩
      cases hh.unique h1
      rw [h2]
    · rintro ⟨o, w, h, e⟩ L' S' (⟨h0, x, d', k', st, rfl, hd, hp, rfl, he, _⟩ | ⟨h0, rfl, hw, hh', _, _, h1⟩)
      · cases hh.unique hd
        refine Act.pure (Or.inr ?_)
        simp only at h0 hp ⊢
        rw [hp, h0]
        simp [Ctx.erase, he]
        rfl
      · simp only at h0 hw hh' h1
        subst hw hh'
        rcases h1 with ⟨rfl, hF⟩ | ⟨e', rfl, h2, h3⟩ | ⟨rfl, d', k', st, hd, hp⟩
        · exact Act.pure (Or.inl ⟨rfl, rfl, hF⟩)
        · exact (hh.not_missing h2 h3).elim
        · cases hh.unique hd
          rw [hp]
          exact Act.pure (Or.inr rfl)
  · intro e0 hn hf F L S
    refine Act.bind (Act.weaken pgmOpen_act ?_ Iff.rfl) ?_
    · rintro ⟨d', k', h1, h2⟩
      exact (h1.not_missing hn hf).elim
    · rintro ⟨o, w, h, e⟩ L' S' (⟨h0, x, d', k', st, rfl, hd, _⟩ | ⟨h0, rfl, hw, hh', _, _, h1⟩)
      · exact (hd.not_missing hn hf).elim
      · simp only at h0 hw hh' h1
        subst hw hh'
        rcases h1 with ⟨rfl, hF⟩ | ⟨e', rfl, h2, h3⟩ | ⟨rfl, d', k', st, hd, hp⟩
        · exact Act.pure (Or.inl ⟨rfl, rfl, hF⟩)
        · rw [hf] at h3; cases h3
          exact Act.pure (Or.inr rfl)
        · exact (hd.not_missing hn hf).elim

theorem pfm_determined (name : List UInt8) :
    (∀ d k, fs.Holds name (d, k) → Determined (pfmReader s fs) name (match pfmHeader s.cfg ⟨d, 0, k⟩ with
      | none => none
      | some (none, _) => some (none, 0, 0, RDEINVAL)
      | some (some (format, w, h, scale), st) => some (some (.pfm ⟨0, ⟨none, st⟩, scale, format, true⟩), w, h, RDEOK))) ∧
    (∀ e, name ≠ cs "-" → fs.fopen name = .inl e → Determined (pfmReader s fs) name (some (none, 0, 0, -(e + 1 : ℤ)))) := by
  constructor
  · intro d k hh F L S
    refine Act.bind (Act.weaken pfmOpen_act ?_ Iff.rfl) ?_
    · rintro ⟨d', k', h1, h2⟩
      cases hh.unique h1
      rw [h2]
    · rintro ⟨o, w, h, e⟩ L' S' (⟨h0, x, d', k', st, rfl, hd, hp, rfl, he, _⟩ | ⟨h0, rfl, hw, hh', _, _, h1⟩)
      · cases hh.unique hd
        refine Act.pure (Or.inr ?_)
        simp only at h0 hp ⊢
        rw [hp, h0]
        simp [Ctx.erase, he]
        rfl
      · simp only at h0 hw hh' h1
        subst hw hh'
        rcases h1 with ⟨rfl, hF⟩ | ⟨e', rfl, h2, h3⟩ | ⟨rfl, d', k', st, hd, hp⟩
        · exact Act.pure (Or.inl ⟨rfl, rfl, hF⟩)
        · exact (hh.not_missing h2 h3).elim
        · cases hh.unique hd
          rw [hp]
          exact Act.pure (Or.inr rfl)
  · intro e0 hn hf F L S
    refine Act.bind (Act.weaken pfmOpen_act ?_ Iff.rfl) ?_
    · rintro ⟨d', k', h1, h2⟩
      exact (h1.not_missing hn hf).elim
    · rintro ⟨o, w, h, e⟩ L' S' (⟨h0, x, d', k', st, rfl, hd, _⟩ | ⟨h0, rfl, hw, hh', _, _, h1⟩)
      · exact (hd.not_missing hn hf).elim
      · simp only at h0 hw hh' h1
        subst hw hh'
        rcases h1 with ⟨rfl, hF⟩ | ⟨e', rfl, h2, h3⟩ | ⟨rfl, d', k', st, hd, hp⟩
        · exact Act.pure (Or.inl ⟨rfl, rfl, hF⟩)
        · rw [hf] at h3; cases h3
          exact Act.pure (Or.inr rfl)
        · exact (hd.not_missing hn hf).elim

/-- The outcome of opening a Y4M file with these contents. -/
def y4mOutcome (c : Cfg) (d : List UInt8) (k : Kind) : Option (Option Ctx × ℕ × ℕ × RDError) :=
  match y4mHeader c ⟨d, 0, k⟩ with
  | none => none
  | some (none, _) => some (none, 0, 0, RDEINVAL)
  | some (some p, st) =>
    match y4mSizes c p with
    | none => none
    | some (.inl e) => some (none, 0, 0, e)
    | some (.inr (y, uv, depth)) => some (some (.y4m ⟨0, ⟨none, st⟩, none, y, uv, depth, seekMode c st (y + uv)⟩), p.width, p.height, RDEOK)

theorem y4m_determined (name : List UInt8) :
    (∀ d k, fs.Holds name (d, k) → Determined (y4mReader s fs) name (y4mOutcome s.cfg d k)) ∧
    (∀ e, name ≠ cs "-" → fs.fopen name = .inl e → Determined (y4mReader s fs) name (some (none, 0, 0, -(e + 1 : ℤ)))) := by
  constructor
  · intro d k hh F L S
    unfold y4mOutcome
    refine Act.bind (Act.weaken y4mOpen_act ?_ Iff.rfl) ?_
    · rintro ⟨d', k', h1, h2 | ⟨p, st, h2, h3⟩⟩
      · cases hh.unique h1
        rw [h2]
      · cases hh.unique h1
        rw [h2]
        simp only
        rw [h3]
    · rintro ⟨o, w, h, e⟩ L' S' (⟨h0, x, d', k', p, st, rfl, hd, hp, hz, hw, hh', rfl, hk, ⟨b2, hb, _⟩, _⟩ | ⟨h0, rfl, hw, hh', _, _, h1⟩)
      · cases hh.unique hd
        refine Act.pure (Or.inr ?_)
        simp only at h0 hp hw hh' ⊢
        subst h0 hw hh'
        rw [hp]
        simp only
        rw [hz]
        simp only [Option.map_some, Ctx.erase, ← hk]
        rfl
      · simp only at h0 hw hh' h1
        subst hw hh'
        rcases h1 with ⟨rfl, hF⟩ | ⟨e', rfl, h2, h3⟩ | ⟨d', k', st, hd, ⟨rfl, hp⟩ | ⟨p, hp, hz⟩⟩
        · exact Act.pure (Or.inl ⟨rfl, rfl, hF⟩)
        · exact (hh.not_missing h2 h3).elim
        · cases hh.unique hd
          rw [hp]
          exact Act.pure (Or.inr rfl)
        · cases hh.unique hd
          rw [hp]
          simp only
          rw [hz]
          exact Act.pure (Or.inr rfl)
  · intro e0 hn hf F L S
    refine Act.bind (Act.weaken y4mOpen_act ?_ Iff.rfl) ?_
    · rintro ⟨d', k', h1, h2⟩
      exact (h1.not_missing hn hf).elim
    · rintro ⟨o, w, h, e⟩ L' S' (⟨h0, x, d', k', p, st, rfl, hd, _⟩ | ⟨h0, rfl, hw, hh', _, _, h1⟩)
      · exact (hd.not_missing hn hf).elim
      · simp only at h0 hw hh' h1
        subst hw hh'
        rcases h1 with ⟨rfl, hF⟩ | ⟨e', rfl, h2, h3⟩ | ⟨d', k', st, hd, _⟩
        · exact Act.pure (Or.inl ⟨rfl, rfl, hF⟩)
        · rw [hf] at h3; cases h3
          exact Act.pure (Or.inr rfl)
        · exact (hd.not_missing hn hf).elim

theorem Builtin.determined (hb : Builtin s fs r Ok) (name : List UInt8) : ∃ o, Determined r name o := by
  cases hb with
  | pgm =>
    rcases holds_or fs name with ⟨d, k, hh⟩ | ⟨hn, e, hf⟩
    · exact ⟨_, (pgm_determined name).1 d k hh⟩
    · exact ⟨_, (pgm_determined name).2 e hn hf⟩
  | pfm =>
    rcases holds_or fs name with ⟨d, k, hh⟩ | ⟨hn, e, hf⟩
    · exact ⟨_, (pfm_determined name).1 d k hh⟩
    · exact ⟨_, (pfm_determined name).2 e hn hf⟩
  | y4m =>
    rcases holds_or fs name with ⟨d, k, hh⟩ | ⟨hn, e, hf⟩
    · exact ⟨_, (y4m_determined name).1 d k hh⟩
    · exact ⟨_, (y4m_determined name).2 e hn hf⟩

end Verif
