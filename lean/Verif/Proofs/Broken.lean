import Verif.Proofs.AnyFile
import Verif.Proofs.PfmFormat
import Verif.Proofs.Y4mFormat

/-! Streams that end in a read error. -/

namespace Verif

open Spec

variable {s : Sys} {fs : Fs} {r : Reader} {Ok : Ctx → ℕ → ℕ → Prop} {U F : Prop} {L S : List ℕ} {w h W H : ℕ} {x x' : Ctx}

/-- A reader that distinguishes the end of the file from an error is on a stream that ends in a read error. -/
def Ctx.Broken : Ctx → Prop
  | .pfm x => x.f.st.kind.broken = true
  | .y4m x => x.f.st.kind.broken = true
  | _ => False

theorem After.kind {a b : Stream} (h : After a b) : b.kind = a.kind := by obtain ⟨n, _, rfl⟩ := h; rfl

theorem skipBy_kind (s : Sys) (seek : Bool) (st : Stream) (n : ℕ) : (skipBy s seek st n).2.kind = st.kind := by
  unfold skipBy
  split <;> split <;> rfl

theorem fskip_kind {st st' : Stream} {n : ℕ} {buf buf' : Option (List UInt8)} {e : RDError} (hs : fskip s st n buf = some (e, st', buf')) :
    st'.kind = st.kind := by
  unfold fskip at hs
  cases buf with
  | some b =>
    simp only at hs
    split at hs
    · cases hs
    · rw [fread_eq] at hs; cases hs; rfl
  | none =>
    simp only [Option.bind_eq_bind, Option.bind_eq_some_iff] at hs
    obtain ⟨⟨ok, st1⟩, h1, hs⟩ := hs
    cases hs
    unfold Stream.fseek at h1
    split at h1
    · cases h1
    · split at h1 <;> cases h1 <;> rfl

theorem y4mReads_kind (s : Sys) (x : Y4mCtx) (n : ℕ) (img : List Fl) (st : Stream) : (y4mReads s x n img st).2.2.2.kind = st.kind := by
  unfold y4mReads
  have h0 := (After.y4mFrameHeader st).1.kind
  simp only
  split
  · split
    · exact (skipBy_kind ..).trans h0
    · exact h0
  · exact h0

theorem Ctx.done_broken (hd : x.Done) : ¬ x.Broken := by
  cases x with
  | pfm x => intro h; simp only [Ctx.Broken] at h; rw [hd.2.2] at h; cases h
  | y4m x => intro h; simp only [Ctx.Broken] at h; rw [hd.2] at h; cases h
  | _ => exact id

theorem Ctx.step_broken (hb : x.Broken) {o : Option (List Fl)} {e : RDError} (hs : x.step s w h = some (o, e, x')) :
    x'.Broken ∧ (o = none → e ≠ RDEOK) := by
  have h1 : x'.Broken := by
    cases x with
    | pfm x =>
      simp only [Ctx.step] at hs
      split at hs
      · cases hs
      · rename_i ok e1 x1 h1
        have h2 : x1.f.st.kind.broken = true := by rw [(pfmReadHeader_after h1).kind]; exact hb
        split at hs
        · split at hs <;> cases hs <;> exact h2
        · cases hs; exact h2
    | y4m x =>
      simp only [Ctx.step, Option.some.injEq, Prod.mk.injEq] at hs
      obtain ⟨_, _, rfl⟩ := hs
      simp only [Ctx.Broken]
      rw [y4mReads_kind]; exact hb
    | _ => exact hb.elim
  refine ⟨h1, ?_⟩
  rintro rfl rfl
  exact Ctx.done_broken (Ctx.step_end hs) h1

theorem pfmSkip_broken {bytes k i : ℕ} {x x1 : PfmCtx} {p : Bool} {buf : Option (List UInt8)} {calls c1 : List ℕ} {ret : Bool} {e : RDError}
    (hb : x.f.st.kind.broken = true) (hs : pfmSkip s w h bytes p k i x buf calls = some (ret, e, c1, x1)) :
    x1.f.st.kind.broken = true ∧ (ret = false → e ≠ RDEOK) := by
  induction k generalizing i x buf calls with
  | zero => simp only [pfmSkip] at hs; cases hs; exact ⟨hb, by simp⟩
  | succ n ih =>
    unfold pfmSkip at hs
    simp only [Option.bind_eq_bind, Option.bind_eq_some_iff] at hs
    obtain ⟨⟨ok, e1, x2⟩, h1, hs⟩ := hs
    have a1 : x2.f.st.kind.broken = true := by rw [(pfmReadHeader_after h1).kind]; exact hb
    cases ok with
    | false =>
      cases hs
      refine ⟨a1, ?_⟩
      rintro - rfl
      rw [(pfmReadHeader_end h1).2.2] at a1; cases a1
    | true =>
      simp only [Bool.not_true, Bool.false_eq_true, if_false, Option.bind_eq_some_iff] at hs
      obtain ⟨⟨e2, st, b2⟩, h2, hs⟩ := hs
      have a2 := fskip_kind h2
      simp only at hs
      split at hs
      · rename_i he
        cases hs
        exact ⟨by simp only; rw [a2]; exact a1, fun _ => he⟩
      · exact ih (by simp only; rw [a2]; exact a1) hs

theorem y4mSkips_broken {x : Y4mCtx} {k i : ℕ} {p : Bool} {st : Stream} {calls : List ℕ} (hb : st.kind.broken = true) :
    (y4mSkips s x p k i st calls).2.2.2.kind.broken = true ∧
      ((y4mSkips s x p k i st calls).1 = false → (y4mSkips s x p k i st calls).2.1 ≠ RDEOK) := by
  induction k generalizing i st calls with
  | zero => exact ⟨hb, by simp [y4mSkips]⟩
  | succ n ih =>
    unfold y4mSkips
    simp only
    have a0 : (y4mFrameHeader st).2.2.kind.broken = true := by rw [(After.y4mFrameHeader st).1.kind]; exact hb
    split
    · split
      · split
        · exact ih (by rw [skipBy_kind, skipBy_kind]; exact a0)
        · rename_i he
          exact ⟨by simp only; rw [skipBy_kind, skipBy_kind]; exact a0, fun _ => he⟩
      · rename_i he
        exact ⟨by simp only; rw [skipBy_kind]; exact a0, fun _ => he⟩
    · rename_i h1
      refine ⟨a0, fun _ h2 => ?_⟩
      rw [(y4mFrameHeader_end (by simpa using h1) h2).2] at a0; cases a0

theorem Ctx.skip_broken (hb : x.Broken) {k : ℕ} {ret : Bool} {e : RDError} {calls : List ℕ} (hs : x.skip s w h k = some (ret, e, calls, x')) :
    x'.Broken ∧ (ret = false → e ≠ RDEOK) := by
  cases x with
  | pfm x =>
    simp only [Ctx.skip, Option.map_eq_some_iff] at hs
    obtain ⟨⟨r1, e1, c1, x1⟩, h1, h2⟩ := hs
    cases h2
    exact ⟨(pfmSkip_broken hb h1).1, (pfmSkip_broken hb h1).2⟩
  | y4m x =>
    simp only [Ctx.skip, Option.some.injEq, Prod.mk.injEq] at hs
    obtain ⟨rfl, rfl, rfl, rfl⟩ := hs
    exact y4mSkips_broken hb
  | _ => exact hb.elim

theorem Runs.broken {ops : List IOp} {obs : List IObs} (hr : Runs s w h F x ops obs x') (hb : x.Broken) : ∀ o ∈ obs, o.ended = false := by
  induction hr with
  | nil x => simp
  | @read x x1 x' ops obs o e d h1 h2 _ ih =>
    obtain ⟨a1, a2⟩ := Ctx.step_broken hb h1
    intro y hy
    rcases List.mem_cons.mp hy with rfl | hy
    · cases o with
      | none => simpa [IObs.ended] using a2 rfl
      | some f => rfl
    · exact ih a1 y hy
  | @seek x x1 x' ops obs k ret e calls h1 _ ih =>
    obtain ⟨a1, a2⟩ := Ctx.skip_broken hb h1
    intro y hy
    rcases List.mem_cons.mp hy with rfl | hy
    · cases ret with
      | false => simpa [IObs.ended] using a2 rfl
      | true => rfl
    · exact ih a1 y hy
  | oom h1 _ _ ih =>
    intro y hy
    rcases List.mem_cons.mp hy with rfl | hy
    · rfl
    · exact ih hb y hy

/-- The frames of such a stream never end well. -/
theorem Ctx.frames_broken (h0 : 0 < w * h) (hb : x.Broken) : (x.frames s w h).2 ≠ some RDEOK := by
  generalize hn : (x.frames s w h).1.length = n
  induction n using Nat.strong_induction_on generalizing x with
  | _ n ih =>
    rcases hst : x.step s w h with _ | ⟨_ | f, e, x1⟩
    · rw [Ctx.frames_none hst]; simp
    · rw [Ctx.frames_stop hst]
      simp only [ne_eq, Option.some.injEq]
      exact (Ctx.step_broken hb hst).2 rfl
    · have hx := Ctx.frames_next h0 hst
      rw [hx] at hn ⊢
      simp only [List.length_cons] at hn
      exact ih _ (by omega) (Ctx.step_broken hb hst).1 rfl

variable {io : Io} {ft : Option (List UInt8)} {name : List UInt8} {i : RDImage} {m : Option Method} {p : Option Params} {ptr : Ptrs}

/-- Opening succeeds and the frames end well. -/
def EndsWell (s : Sys) (o : Option (Option Ctx × ℕ × ℕ × RDError)) : Prop :=
  ∃ x W H, o = some (some x, W, H, 0) ∧ 0 < W * H ∧ (x.frames s W H).2 = some 0

/-- Bulk reading succeeds only if the frames end well. -/
theorem Builtin.readImage_end (hb : Builtin s io.fs r Ok)
    (hf : resdetOpenImage s io (some name) ft true true true = openImage s (some r) name true) {a : Option (Option Ctx × ℕ × ℕ × RDError)}
    (hd : Determined r name a) :
    Act True F L S (readImage s io (some name) ft true true) (fun v _ _ => v.error = 0 → EndsWell s a) := by
  unfold readImage
  rw [hf]
  refine Act.bind ((hb.det_act hd).weaken (fun _ => trivial) Iff.rfl) ?_
  rintro o L1 S1 (⟨i, x1, ho, e1, hp, rfl⟩ | ⟨h1, h2, rfl, rfl, h3⟩)
  · rw [if_neg (by simp [ho.error])]
    obtain ⟨b, hbuf⟩ := ho.buffer
    have hp' : L1.Perm (held b i x1 L) := by rw [hbuf] at hp; exact hp
    refine Act.of_perm ?_ hp' (List.Perm.refl _)
    refine Act.bind (Act.need (Q := fun a l s' => a = i ∧ l = held b i x1 L ∧ s' = x1.files ++ S) ho.image ⟨rfl, rfl, rfl⟩) ?_
    rintro i1 _ _ ⟨e1, rfl, rfl⟩
    subst i1
    refine Act.bind (Act.need (Q := fun a l s' => a = _ ∧ l = held b i x1 L ∧ s' = x1.files ++ S) hbuf ⟨rfl, rfl, rfl⟩) ?_
    rintro b1 _ _ ⟨e1, rfl, rfl⟩
    subst b1
    refine Act.bind ((hb.readLoop_act ho.handle (buf := ⟨b, List.replicate (o.width * o.height) s.env.junk⟩) (n := 0) (L := L) (S := S) (acc := [])
      (by simp) (by simp) ho.within.roomy (by omega)).weaken (fun _ => trivial) Iff.rfl) ?_
    rintro ⟨e', buf, n, i'⟩ _ _ ⟨⟨hc⟩, x', hi', rfl, rfl⟩
    simp only at hc hi' ⊢
    have hr := hb.sound F
    have key : e' = 0 → EndsWell s a := by
      rintro rfl
      refine ⟨_, _, _, e1, ho.within.pos, ?_⟩
      rw [Ctx.frames_erase ho.within.pos]
      rcases hc with ⟨h1, _⟩ | ⟨h1, _⟩ | ⟨h1, _⟩
      · exact h1
      · exact absurd h1 (by decide)
      · exact absurd h1 (by decide)
    by_cases he : e' ≠ 0
    · rw [if_pos he]
      refine Act.bind (P := fun a l s' => a = none ∧ l = i'.block :: (x'.blocks ++ L) ∧ s' = x'.files ++ S) ?_ ?_
      · refine Act.bind (Act.free (List.Perm.refl _)) ?_
        rintro _ _ _ ⟨rfl, rfl⟩
        exact Act.pure ⟨rfl, rfl, rfl⟩
      · rintro _ _ _ ⟨rfl, rfl, rfl⟩
        refine Act.bind (closeImage_act hr hi'.reader hi'.ctx hi'.ok (List.Perm.refl _) (List.Perm.refl _)) ?_
        rintro _ _ _ ⟨rfl, rfl⟩
        exact Act.pure key
    · rw [if_neg he]
      refine Act.bind (P := fun a l s' => a = some buf ∧ l = held buf.id i' x' L ∧ s' = x'.files ++ S) (Act.pure ⟨rfl, rfl, rfl⟩) ?_
      rintro _ _ _ ⟨rfl, rfl, rfl⟩
      refine Act.bind (closeImage_act hr hi'.reader hi'.ctx hi'.ok (L := buf.id :: L) (S := S) ?_ (List.Perm.refl _)) ?_
      · exact (List.Perm.swap _ _ _).trans (List.Perm.cons _ List.perm_middle.symm)
      · rintro _ _ _ ⟨rfl, rfl⟩
        exact Act.pure key
  · rw [if_pos h2]
    exact Act.pure (fun h => absurd h h2)

theorem Builtin.fileLoop_end (hs : Build s) (hb : Builtin s fs r Ok) {L0 : List ℕ} (hL0 : ∀ b ∈ L0, b ∈ L) (hi : Handle s r Ok W H i x)
    {buf : Buf Fl} (hl : buf.data.length = W * H) {fuel : ℕ} {ev : List (Call × Obs)} {a : Analysis} (ha : InLoop s m p W H L0 ev a) :
    Act True F (held buf.id i x L) (x.files ++ S) (fileLoop s fuel i buf a)
      (LoopPost s r Ok m p W H L0 L S a (fun e' _ => e' = 0 → (x.frames s W H).2 = some 0)) := by
  induction fuel generalizing i x buf a ev with
  | zero =>
    intro base w hw
    exact Or.inl ⟨rfl, trivial⟩
  | succ fuel ih =>
    unfold fileLoop
    refine Act.bind (Act.weaken (hb.frame_act (F := F) (L := L) (S := S) hi (buf := buf) (off := 0) (by omega)) (fun _ => trivial) Iff.rfl) ?_
    rintro v L1 S1 ⟨o, e', x', data, hst, rfl, hsp, hdata, _, hi', rfl, rfl⟩
    simp only
    refine Act.bind (Act.need (Q := fun a l s' => a = _ ∧ l = held buf.id i x' L ∧ s' = x'.files ++ S) rfl ⟨rfl, rfl, rfl⟩) ?_
    rintro _ _ _ ⟨rfl, rfl, rfl⟩
    refine Act.bind (Act.need (Q := fun a l s' => a = _ ∧ l = held buf.id i x' L ∧ s' = x'.files ++ S) rfl ⟨rfl, rfl, rfl⟩) ?_
    rintro _ _ _ ⟨rfl, rfl, rfl⟩
    cases o with
    | none =>
      simp only [Option.isSome_none, Bool.not_false, if_true]
      rw [Ctx.frames_stop hst]
      exact Act.pure ⟨ev, x', fun h => congrArg some h, ha, rfl, hi', rfl, rfl⟩
    | some f =>
      obtain ⟨hf1, hf2, he0⟩ := hdata f rfl
      have hdf : data = f := by
        rw [hf1]; exact fill_zero (by rw [hf2, List.length_drop]; omega)
      subst hdf
      rw [Ctx.frames_next hi.within.pos hst]
      simp only [Option.isSome_some, Bool.not_true, Bool.false_eq_true, if_false, List.take_zero, List.nil_append]
      refine Act.bind ((analyze_act hs ha (by intro b hb; simp [held, hL0 b hb]) hf2).weaken False.elim Iff.rfl) ?_
      rintro ⟨e2, oa⟩ _ _ ⟨rfl, rfl, a', wd, rfl, hbl, _, ha'⟩
      refine Act.bind (Act.need (Q := fun a l s' => a = a' ∧ l = held buf.id i x' L ∧ s' = x'.files ++ S) rfl ⟨rfl, rfl, rfl⟩) ?_
      rintro a1 _ _ ⟨e1, rfl, rfl⟩
      subst a1
      by_cases he : e2 ≠ 0
      · rw [if_pos he]
        exact Act.pure ⟨_, x', fun h => absurd h he, ha', hbl, hi', rfl, rfl⟩
      · rw [if_neg he]
        refine Act.mono (ih (i := { i with ctx := some x' }) hi' (buf := ⟨buf.id, data⟩) hf2 ha') ?_
        exact fun v L' S' hv => hv.trans hbl (fun _ _ h => h)

/-- `resdetect_file` succeeds only if the frames end well. -/
theorem Builtin.file_end (hb : Builtin s io.fs r Ok) (hs : Build s) (hm : ValidMethod? m) (hp : ValidParams? s.cfg p) (hF : F)
    (hf : resdetOpenImage s io (some name) ft true true true = openImage s (some r) name true) {a : Option (Option Ctx × ℕ × ℕ × RDError)}
    (hd : Determined r name a) {fuel : ℕ} :
    Act True F L S (resdetectFile s io fuel (some name) ft ptr m p) (fun v _ _ => v.1 = 0 → EndsWell s a) := by
  rw [resdetectFile_eq]
  by_cases hptr : ((ptr.rw && !ptr.cw) || (ptr.rh && !ptr.ch)) = true
  · rw [if_pos hptr]
    exact Act.pure (fun h => absurd h (show RDEPARAM ≠ 0 by decide))
  rw [if_neg hptr, hf]
  refine Act.bind ((hb.det_act hd).weaken (fun _ => trivial) Iff.rfl) ?_
  rintro o L1 S1 (⟨i, x1, ho, e1, hp1, rfl⟩ | ⟨h1, h2, rfl, rfl, h3⟩)
  · rw [if_neg (by simp [ho.error])]
    obtain ⟨b, hbuf⟩ := ho.buffer
    have hp' : L1.Perm (held b i x1 L) := by rw [hbuf] at hp1; exact hp1
    refine Act.of_perm ?_ hp' (List.Perm.refl _)
    refine Act.bind (Act.need (Q := fun a l s' => a = i ∧ l = held b i x1 L ∧ s' = x1.files ++ S) ho.image ⟨rfl, rfl, rfl⟩) ?_
    rintro i1 _ _ ⟨e1, rfl, rfl⟩
    subst i1
    refine Act.bind (Act.need (Q := fun a l s' => a = _ ∧ l = held b i x1 L ∧ s' = x1.files ++ S) hbuf ⟨rfl, rfl, rfl⟩) ?_
    rintro b1 _ _ ⟨e1, rfl, rfl⟩
    subst b1
    refine Act.mono (fileTail_act hs hm hp (hb.sound F) ho.handle (buf := ⟨b, List.replicate (o.width * o.height) s.env.junk⟩)
      (K := fun e' _ => e' = 0 → (x1.frames s o.width o.height).2 = some 0) (fun _ => hF) ?_) ?_
    · intro a L1 ha
      exact hb.fileLoop_end hs (fun _ h => h) ho.handle (by simp) ha
    · rintro v L' S' ⟨_, h2⟩ h0
      cases h2 with
      | create e L' hc =>
        cases hc with
        | zero => exact absurd h0 (show RDEINVAL ≠ 0 by decide)
        | toobig => exact absurd h0 (show RDETOOBIG ≠ 0 by decide)
        | internal => exact absurd h0 (show RDEINTERNAL ≠ 0 by decide)
        | nomem => exact absurd h0 (show RDENOMEM ≠ 0 by decide)
      | stopped ev a e _ _ he => exact absurd h0 he
      | results ev a c e out L' _ hK =>
        refine ⟨_, _, _, e1, ho.within.pos, ?_⟩
        rw [Ctx.frames_erase ho.within.pos]
        exact hK rfl
  · rw [if_pos h2]
    exact Act.pure (fun h => absurd h h2)

/-- Opening a stream that ends in a read error. -/
theorem pfm_opens_broken {file : List UInt8} {k : Kind} (hk : k.broken = true) (hh : fs.Holds name (file, k)) :
    ∃ a, Determined (pfmReader s fs) name a ∧ ∀ x W H e, a = some (some x, W, H, e) → x.Broken := by
  refine ⟨_, (pfm_determined name).1 file k hh, ?_⟩
  intro x W H e h
  split at h
  · cases h
  · cases h
  · rename_i hp; cases h; simp only [Ctx.Broken]; rw [(After.pfmHeader hp).kind]; exact hk

theorem y4m_opens_broken {file : List UInt8} {k : Kind} (hk : k.broken = true) (hh : fs.Holds name (file, k)) :
    ∃ a, Determined (y4mReader s fs) name a ∧ ∀ x W H e, a = some (some x, W, H, e) → x.Broken := by
  refine ⟨_, (y4m_determined name).1 file k hh, ?_⟩
  intro x W H e h
  unfold y4mOutcome at h
  split at h
  · cases h
  · cases h
  · rename_i hp
    split at h
    · cases h
    · cases h
    · cases h; simp only [Ctx.Broken]; rw [(After.y4mHeader hp).kind]; exact hk

theorem pfm_step_broken {x : PfmCtx} (hc : x.headerConsumed = false) (hr : x.f.st.rest = []) (hb : x.f.st.kind.broken = true) :
    ∃ x', Ctx.step s w h (.pfm x) = some (none, RDEINVAL, x') := by
  have h1 : pfmReadHeader s.cfg x w h = some (false, RDEINVAL, x) := by
    unfold pfmReadHeader
    rw [if_neg (by simp [hc])]
    have : x.f.st.fgetc = (none, x.f.st) := by unfold Stream.fgetc; rw [hr]
    rw [this]
    simp only [Stream.feof, hb, Bool.not_true, Bool.false_eq_true, if_false]
  exact ⟨_, by simp only [Ctx.step, h1]; rfl⟩

theorem y4m_step_broken {d p uv : ℕ} {k : Kind} {mode : Bool} {n : ℕ} (hb : k.broken = true) :
    ∃ x', Ctx.step s w h (.y4m ⟨0, ⟨none, ⟨[], p, k⟩⟩, none, n, uv, d, mode⟩) = some (none, RDEINVAL, x') := by
  have h1 : y4mFrameHeader ⟨[], p, k⟩ = (false, RDEINVAL, ⟨[], p, k⟩) := by
    unfold y4mFrameHeader
    rw [fread_eq]
    simp [Stream.advance, Stream.feof, hb]
  exact ⟨_, by simp only [Ctx.step, y4mReads, h1]; rfl⟩

/-- Images, and then a read error. -/
theorem pfm_frames_broken (hW : W ≤ s.cfg.sizeMax) (hH : H ≤ s.cfg.sizeMax) (hp : 0 < W * H) {is : List PfmImage} {a : List UInt8}
    (ha : PfmFile W H is a) : ∀ x : PfmCtx, x.headerConsumed = false → x.f.st.rest = a → x.f.st.kind.broken = true →
      Ctx.frames s W H (.pfm x) = (is.map PfmImage.samples, some RDEINVAL) := by
  induction ha with
  | nil =>
    intro x hc hr hb
    obtain ⟨x', h5⟩ := pfm_step_broken (s := s) (w := W) (h := H) hc hr hb
    exact Ctx.frames_stop h5
  | @cons i is a b h1 _ ih =>
    intro x hc hr hb
    cases h1 with
    | @mk head' hi hh' =>
      have hs : x.f.st = ⟨head' ++ (i.data ++ b), x.f.st.pos, x.f.st.kind⟩ := by
        simp only [List.append_assoc] at hr; rw [← hr]
      obtain ⟨scale, h4, h5⟩ := pfmReadHeader_eq (c := s.cfg) hh' hW hH hc hs
      rw [Ctx.frames_next hp (pfm_step_data h4 rfl rfl h5 hi), ih _ rfl rfl (by exact hb)]
      rfl

theorem EndsWell.not_broken {a : Option (Option Ctx × ℕ × ℕ × RDError)} (h : EndsWell s a) (hb : ∀ x W H e, a = some (some x, W, H, e) → x.Broken) :
    False := by
  obtain ⟨x, W, H, h1, h2, h3⟩ := h
  exact Ctx.frames_broken h2 (hb _ _ _ _ h1) h3

end Verif
