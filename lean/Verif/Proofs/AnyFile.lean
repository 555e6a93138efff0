import Verif.Proofs.Runs
import Verif.Proofs.PgmFormat

/-! Facts about reading that hold for every file. -/

namespace Verif

open Spec

variable {s : Sys} {fs : Fs} {r : Reader} {Ok : Ctx → ℕ → ℕ → Prop} {U F : Prop} {L S : List ℕ} {w h W H : ℕ} {x x' : Ctx}

/-- Nothing is left to read. -/
def Ctx.Done : Ctx → Prop
  | .pgm x => x.eof = true
  | .pfm x => x.headerConsumed = false ∧ x.f.st.rest = [] ∧ x.f.st.kind.broken = false
  | .y4m x => x.f.st.rest = [] ∧ x.f.st.kind.broken = false
  | _ => False

theorem feof_ok {b : Bool} (h : (if b then RDEOK else RDEINVAL) = RDEOK) : b = true := by
  cases b
  · cases h
  · rfl

theorem pfmReadHeader_end {c : Cfg} {x x1 : PfmCtx} (hh : pfmReadHeader c x w h = some (false, RDEOK, x1)) :
    x1.headerConsumed = false ∧ x1.f.st.rest = [] ∧ x1.f.st.kind.broken = false := by
  unfold pfmReadHeader at hh
  by_cases hc : x.headerConsumed = true
  · rw [if_pos hc] at hh; cases hh
  · rw [if_neg hc] at hh
    rcases hg : x.f.st.fgetc with ⟨_ | b, st⟩
    · rw [hg] at hh
      simp only [Option.some.injEq, Prod.mk.injEq, true_and] at hh
      obtain ⟨h1, rfl⟩ := hh
      refine ⟨by simpa using hc, ?_, by simpa [Stream.feof] using feof_ok h1⟩
      unfold Stream.fgetc at hg
      split at hg
      · rename_i hr; cases hg; exact hr
      · cases hg
    · rw [hg] at hh; simp only at hh
      split at hh
      · cases hh
      · simp only [Option.bind_eq_bind, Option.bind_eq_some_iff] at hh
        obtain ⟨⟨r, st'⟩, h1, hh⟩ := hh
        rcases r with _ | ⟨f, w', h', sc⟩
        · cases hh
        · simp only at hh
          split at hh <;> cases hh

theorem y4mFrameHeader_end {st : Stream} (h1 : (y4mFrameHeader st).1 = false) (h2 : (y4mFrameHeader st).2.1 = RDEOK) :
    (y4mFrameHeader st).2.2.rest = [] ∧ (y4mFrameHeader st).2.2.kind.broken = false := by
  unfold y4mFrameHeader at h1 h2 ⊢
  rw [fread_eq] at h1 h2 ⊢
  simp only at h1 h2 ⊢
  split at h2
  · rename_i hl
    rw [if_pos hl]
    simp only at h2 ⊢
    have h3 := feof_ok h2
    simp only [Bool.and_eq_true, decide_eq_true_eq, List.length_eq_zero_iff, List.take_eq_nil_iff, OfNat.ofNat_ne_zero, false_or] at h3
    refine ⟨by simp [Stream.advance, h3.1], by simpa [Stream.feof] using h3.2⟩
  · split at h2
    · cases h2
    · split at h2
      · rename_i hk
        rename_i ha hb
        rw [if_neg ha, if_neg hb, if_pos hk] at h1
        cases h1
      · cases h2

theorem Ctx.step_end (hs : x.step s w h = some (none, RDEOK, x')) : x'.Done := by
  cases x with
  | pgm x =>
    simp only [Ctx.step] at hs
    split at hs
    · rename_i he; cases hs; exact he
    · split at hs <;> cases hs
  | pfm x =>
    simp only [Ctx.step] at hs
    split at hs
    · cases hs
    · rename_i ok e1 x1 h1
      cases ok with
      | false =>
        simp only [Bool.false_eq_true, if_false] at hs
        cases hs
        exact pfmReadHeader_end h1
      | true =>
        simp only [if_true] at hs
        split at hs <;> cases hs
  | y4m x =>
    simp only [Ctx.step, Option.some.injEq, Prod.mk.injEq] at hs
    obtain ⟨h1, h2, rfl⟩ := hs
    simp only [Ctx.Done]
    by_cases h0 : (y4mReads s x (w * h) [] x.f.st).1 = true
    · rw [if_pos h0] at h1; cases h1
    · simp only [y4mReads] at h0 h2 ⊢
      by_cases hok : (y4mFrameHeader x.f.st).1 = true
      · rw [if_pos hok] at h0 h2
        by_cases hr : x.ySize ≤ (y4mFrameHeader x.f.st).2.2.rest.length
        · rw [if_pos hr] at h0 h2
          simp only at h0 h2
          exact absurd (decide_eq_true (show _ = (0 : RDError) from h2)) h0
        · rw [if_neg hr] at h2; cases h2
      · rw [if_neg hok] at h2 ⊢
        exact y4mFrameHeader_end (by simpa using hok) h2
  | _ => cases hs

theorem y4mFrameHeader_nil {st : Stream} (h : st.rest = [] ∧ st.kind.broken = false) : y4mFrameHeader st = (false, RDEOK, st) := by
  obtain ⟨rest, p, ⟨k, b⟩⟩ := st
  simp only at h
  obtain ⟨rfl, rfl⟩ := h
  rfl

theorem pfmReadHeader_nil {c : Cfg} {x : PfmCtx} (h1 : x.headerConsumed = false) (h2 : x.f.st.rest = []) (h3 : x.f.st.kind.broken = false) :
    pfmReadHeader c x w h = some (false, RDEOK, x) := by
  unfold pfmReadHeader
  rw [if_neg (by simp [h1])]
  have : x.f.st.fgetc = (none, x.f.st) := by unfold Stream.fgetc; rw [h2]
  rw [this]
  simp [Stream.feof, h3]

theorem Ctx.done_step (hd : x.Done) : x.step s w h = some (none, RDEOK, x) := by
  cases x with
  | pgm x => simp only [Ctx.step]; rw [if_pos (show x.eof = true from hd)]
  | pfm x => simp only [Ctx.step, pfmReadHeader_nil hd.1 hd.2.1 hd.2.2]; rfl
  | y4m x =>
    simp only [Ctx.Done] at hd
    simp only [Ctx.step, y4mReads, y4mFrameHeader_nil hd]
    rfl
  | _ => exact hd.elim

theorem Ctx.done_skip (hd : x.Done) (k : ℕ) : x.skip s w h k = some (decide (k = 0), RDEOK, [], x) := by
  cases x with
  | pgm x =>
    have : x.eof = true := hd
    obtain ⟨b, f, e, d⟩ := x
    simp only at this
    subst this
    cases k <;> simp [Ctx.skip, singleSeek]
  | pfm x =>
    simp only [Ctx.skip]
    cases k with
    | zero => simp only [pfmSkip, Option.map_some, ← hd.1, decide_true]
    | succ n => simp [pfmSkip, pfmReadHeader_nil hd.1 hd.2.1 hd.2.2, ← hd.1]
  | y4m x =>
    simp only [Ctx.Done] at hd
    cases k with
    | zero => simp [Ctx.skip, y4mSkips]
    | succ n => simp [Ctx.skip, y4mSkips, y4mFrameHeader_nil hd]
  | _ => exact hd.elim

theorem pfmSkip_calls {bytes k i : ℕ} {x x1 : PfmCtx} {buf : Option (List UInt8)} {calls c1 : List ℕ} {ret : Bool} {e : RDError}
    (hs : pfmSkip s w h bytes true k i x buf calls = some (ret, e, c1, x1)) :
    ∃ j, j ≤ k ∧ c1 = calls ++ (List.range j).map (fun a => i + a + 1) ∧ (ret = true ↔ j = k) := by
  induction k generalizing i x buf calls with
  | zero => simp only [pfmSkip] at hs; cases hs; exact ⟨0, le_rfl, by simp, by simp⟩
  | succ n ih =>
    unfold pfmSkip at hs
    simp only [Option.bind_eq_bind, Option.bind_eq_some_iff] at hs
    obtain ⟨⟨ok, e1, x2⟩, _, hs⟩ := hs
    cases ok with
    | false =>
      cases hs
      exact ⟨0, by omega, by simp, by simp⟩
    | true =>
      simp only [Bool.not_true, Bool.false_eq_true, if_false, Option.bind_eq_some_iff] at hs
      obtain ⟨⟨e2, st, b2⟩, _, hs⟩ := hs
      simp only at hs
      split at hs
      · cases hs
        exact ⟨0, by omega, by simp, by simp⟩
      · simp only [if_true] at hs
        obtain ⟨j, h1, h2, h3⟩ := ih hs
        refine ⟨j + 1, by omega, ?_, by rw [h3]; omega⟩
        rw [h2, List.range_succ_eq_map]
        simp only [List.map_cons, List.map_map, List.append_assoc, List.singleton_append, Nat.add_zero]
        congr 2
        refine List.map_congr_left (fun a _ => ?_)
        simp only [Function.comp]
        omega

theorem y4mSkips_calls {x : Y4mCtx} {k i : ℕ} {st : Stream} {calls : List ℕ} :
    ∃ j, j ≤ k ∧ (y4mSkips s x true k i st calls).2.2.1 = calls ++ (List.range j).map (fun a => i + a + 1) ∧
      ((y4mSkips s x true k i st calls).1 = true ↔ j = k) := by
  induction k generalizing i st calls with
  | zero => exact ⟨0, le_rfl, by simp [y4mSkips], by simp [y4mSkips]⟩
  | succ n ih =>
    unfold y4mSkips
    simp only [if_true]
    split
    · split
      · split
        · obtain ⟨j, h1, h2, h3⟩ := ih (i := i + 1) (st := (skipBy s x.seekable (skipBy s x.seekable (y4mFrameHeader st).2.2 x.ySize).2 x.uvSize).2)
            (calls := calls ++ [i + 1])
          refine ⟨j + 1, by omega, ?_, by rw [h3]; omega⟩
          rw [h2, List.range_succ_eq_map]
          simp only [List.map_cons, List.map_map, List.append_assoc, List.singleton_append, Nat.add_zero]
          congr 2
          refine List.map_congr_left (fun a _ => ?_)
          simp only [Function.comp]
          omega
        · exact ⟨0, by omega, by simp, by simp⟩
      · exact ⟨0, by omega, by simp, by simp⟩
    · exact ⟨0, by omega, by simp, by simp⟩

theorem Ctx.skip_calls {k : ℕ} {ret : Bool} {e : RDError} {calls : List ℕ} (hs : x.skip s w h k = some (ret, e, calls, x')) :
    ∃ j, j ≤ k ∧ calls = (List.range j).map (· + 1) ∧ (ret = true ↔ j = k) := by
  cases x with
  | pgm x =>
    simp only [Ctx.skip] at hs
    cases hs
    simp only [singleSeek]
    rcases k with _ | _ | k
    · exact ⟨0, le_rfl, by simp, by simp⟩
    · cases x.eof
      · exact ⟨1, le_rfl, by simp, by simp⟩
      · exact ⟨0, by omega, by simp, by simp⟩
    · cases x.eof
      · exact ⟨1, by omega, by simp, by simp⟩
      · exact ⟨0, by omega, by simp, by simp⟩
  | pfm x =>
    simp only [Ctx.skip, Option.map_eq_some_iff] at hs
    obtain ⟨⟨r1, e1, c1, x1⟩, h1, h2⟩ := hs
    cases h2
    obtain ⟨j, h3, h4, h5⟩ := pfmSkip_calls h1
    exact ⟨j, h3, by simpa using h4, h5⟩
  | y4m x =>
    simp only [Ctx.skip] at hs
    cases hs
    obtain ⟨j, h3, h4, h5⟩ := y4mSkips_calls (s := s) (x := x) (k := k) (i := 0) (st := x.f.st) (calls := [])
    exact ⟨j, h3, by simpa using h4, h5⟩
  | _ => cases hs

/-- The bytes still to come. -/
def Ctx.left : Ctx → ℕ
  | .pgm x => x.f.st.rest.length
  | .pfm x => x.f.st.rest.length
  | .y4m x => x.f.st.rest.length
  | _ => 0

/-- Bytes per sample at least. -/
def Ctx.unit : Ctx → ℕ
  | .pfm _ => 4
  | _ => 1

theorem Ctx.step_left {o : Option (List Fl)} {e : RDError} (hok : ∀ x1, x = .y4m x1 → w * h ≤ x1.ySize) (hs : x.step s w h = some (o, e, x')) :
    x'.left + (if o.isSome then x.unit * (w * h) else 0) ≤ x.left ∧ x'.unit = x.unit ∧ (∀ x1, x' = .y4m x1 → w * h ≤ x1.ySize) := by
  cases x with
  | pgm x =>
    simp only [Ctx.step] at hs
    split at hs
    · cases hs; exact ⟨by simp, rfl, by simp⟩
    · split at hs
      · rename_i hl
        cases hs; refine ⟨?_, rfl, by simp⟩
        simp only [Ctx.left, Ctx.unit, Stream.advance, List.length_drop, Option.isSome_some, if_true]
        rw [Nat.min_eq_left hl]; omega
      · cases hs; refine ⟨?_, rfl, by simp⟩
        simp [Ctx.left, Stream.advance]
  | pfm x =>
    simp only [Ctx.step] at hs
    split at hs
    · cases hs
    · rename_i ok e1 x1 h1
      have a1 := (pfmReadHeader_after h1).le
      cases ok with
      | false =>
        simp only [Bool.false_eq_true, if_false] at hs
        cases hs
        exact ⟨by simpa [Ctx.left] using a1, rfl, by simp⟩
      | true =>
        simp only [if_true] at hs
        split at hs
        · rename_i hl
          cases hs
          refine ⟨?_, rfl, by simp⟩
          have h3 : 4 * (w * h) ≤ 4 * pfmComps x1.format * w * h := by
            rw [Nat.mul_assoc, Nat.mul_assoc]
            exact Nat.mul_le_mul_left _ (Nat.le_mul_of_pos_left _ (pfmComps_pos _))
          simp only [Ctx.left, Ctx.unit, Stream.advance, List.length_drop, Option.isSome_some, if_true]
          omega
        · cases hs
          refine ⟨?_, rfl, by simp⟩
          simp [Ctx.left, Stream.advance]
  | y4m x =>
    have hy := hok x rfl
    simp only [Ctx.step, Option.some.injEq, Prod.mk.injEq] at hs
    obtain ⟨rfl, rfl, rfl⟩ := hs
    refine ⟨?_, rfl, by intro x1 hx1; cases hx1; exact hy⟩
    simp only [Ctx.left, Ctx.unit, y4mReads, Nat.one_mul]
    have a0 := (After.y4mFrameHeader x.f.st).1.le
    by_cases hok : (y4mFrameHeader x.f.st).1 = true
    · rw [if_pos hok]
      by_cases hr : x.ySize ≤ (y4mFrameHeader x.f.st).2.2.rest.length
      · rw [if_pos hr]
        simp only
        have := skipBy_le s x.seekable ((y4mFrameHeader x.f.st).2.2.advance x.ySize) x.uvSize
        have h2 : ((y4mFrameHeader x.f.st).2.2.advance x.ySize).rest.length = (y4mFrameHeader x.f.st).2.2.rest.length - x.ySize := by
          simp [Stream.advance]
        generalize (skipBy s x.seekable ((y4mFrameHeader x.f.st).2.2.advance x.ySize) x.uvSize) = q at this ⊢
        by_cases hq : q.1 = 0
        · simp only [hq, decide_true, if_true, Option.isSome_some]; omega
        · simp only [hq, decide_false, Bool.false_eq_true, if_false, Option.isSome_none]; omega
      · rw [if_neg hr]
        simp [Stream.advance]
    · rw [if_neg hok]
      simpa using a0
  | _ => cases hs

theorem fskip_le {st st' : Stream} {n : ℕ} {buf buf' : Option (List UInt8)} {e : RDError} (hs : fskip s st n buf = some (e, st', buf')) :
    st'.rest.length ≤ st.rest.length := by
  unfold fskip at hs
  split at hs
  · split at hs
    · cases hs
    · rw [fread_eq] at hs
      cases hs
      simp [Stream.advance]
  · simp only [Option.bind_eq_bind, Option.bind_eq_some_iff] at hs
    obtain ⟨⟨ok, st2⟩, h1, h2⟩ := hs
    cases h2
    unfold Stream.fseek at h1
    split at h1
    · cases h1
    · split at h1 <;> cases h1
      · simp [Stream.advance]
      · exact le_rfl

theorem pfmSkip_left {bytes k i : ℕ} {x x1 : PfmCtx} {p : Bool} {buf : Option (List UInt8)} {calls c1 : List ℕ} {ret : Bool} {e : RDError}
    (hs : pfmSkip s w h bytes p k i x buf calls = some (ret, e, c1, x1)) : x1.f.st.rest.length ≤ x.f.st.rest.length := by
  induction k generalizing i x buf calls with
  | zero => simp only [pfmSkip] at hs; cases hs; exact le_rfl
  | succ n ih =>
    unfold pfmSkip at hs
    simp only [Option.bind_eq_bind, Option.bind_eq_some_iff] at hs
    obtain ⟨⟨ok, e1, x2⟩, h1, hs⟩ := hs
    have a1 := (pfmReadHeader_after h1).le
    cases ok with
    | false => cases hs; exact a1
    | true =>
      simp only [Bool.not_true, Bool.false_eq_true, if_false, Option.bind_eq_some_iff] at hs
      obtain ⟨⟨e2, st, b2⟩, h2, hs⟩ := hs
      have a2 := fskip_le h2
      simp only at hs
      split at hs
      · cases hs; exact a2.trans a1
      · exact (ih hs).trans (a2.trans a1)

theorem y4mSkips_left {x : Y4mCtx} {k i : ℕ} {p : Bool} {st : Stream} {calls : List ℕ} :
    (y4mSkips s x p k i st calls).2.2.2.rest.length ≤ st.rest.length := by
  induction k generalizing i st calls with
  | zero => exact le_rfl
  | succ n ih =>
    unfold y4mSkips
    simp only
    have a0 := (After.y4mFrameHeader st).1.le
    have a1 := skipBy_le s x.seekable (y4mFrameHeader st).2.2 x.ySize
    have a2 := skipBy_le s x.seekable (skipBy s x.seekable (y4mFrameHeader st).2.2 x.ySize).2 x.uvSize
    split
    · split
      · split
        · exact ih.trans (a2.trans (a1.trans a0))
        · exact a2.trans (a1.trans a0)
      · exact a1.trans a0
    · exact a0

theorem Ctx.skip_left {k : ℕ} {ret : Bool} {e : RDError} {calls : List ℕ} (hok : ∀ x1, x = .y4m x1 → w * h ≤ x1.ySize)
    (hs : x.skip s w h k = some (ret, e, calls, x')) :
    x'.left ≤ x.left ∧ x'.unit = x.unit ∧ (∀ x1, x' = .y4m x1 → w * h ≤ x1.ySize) := by
  cases x with
  | pgm x =>
    simp only [Ctx.skip] at hs
    cases hs
    exact ⟨le_rfl, rfl, by simp⟩
  | pfm x =>
    simp only [Ctx.skip, Option.map_eq_some_iff] at hs
    obtain ⟨⟨r1, e1, c1, x1⟩, h1, h2⟩ := hs
    cases h2
    exact ⟨(pfmSkip_left h1 :), rfl, by simp⟩
  | y4m x =>
    have hy := hok x rfl
    simp only [Ctx.skip] at hs
    cases hs
    exact ⟨y4mSkips_left, rfl, by intro x1 hx1; cases hx1; exact hy⟩
  | _ => cases hs

theorem Spec.Native.builtin {io : Io} {name : List UInt8} {m : M Opened} {n : ℕ} (h : Native s io name m n) :
    ∃ r Ok, Builtin s io.fs r Ok ∧ m = openImage s (some r) name true ∧ ∀ x W H, Ok x W H → x.unit = n ∧ (∀ x1, x = .y4m x1 → W * H ≤ x1.ySize) := by
  cases h with
  | pgm ho hu =>
    refine ⟨_, _, .pgm, uses_pgm hu ho, fun x W H h => ?_⟩
    cases x <;> first | exact h.elim | exact ⟨rfl, by simp⟩
  | pfm ho hu =>
    refine ⟨_, _, .pfm, uses_pfm hu ho, fun x W H h => ?_⟩
    cases x <;> first | exact h.elim | exact ⟨rfl, by simp⟩
  | y4m ho hu =>
    refine ⟨_, _, .y4m, uses_y4m hu ho, fun x W H h => ?_⟩
    cases x <;> first | exact h.elim | skip
    refine ⟨rfl, ?_⟩
    intro x1 hx
    cases hx
    have h : Y4mOk _ _ _ _ := h
    rw [h.ySize]
    have := h.depth_ge
    exact Nat.le_mul_of_pos_right _ (by omega)

theorem Ctx.erase_left (x : Ctx) : x.erase.left = x.left ∧ x.erase.unit = x.unit := by
  cases x <;> exact ⟨rfl, rfl⟩

theorem Ctx.erase_ySize {n : ℕ} (h : ∀ x1, x = .y4m x1 → n ≤ x1.ySize) : ∀ x1, x.erase = .y4m x1 → n ≤ x1.ySize := by
  intro x1 hx
  cases x with
  | y4m x => cases hx; exact h x rfl
  | pgm x => cases hx
  | pfm x => cases hx
  | _ => cases hx

theorem Runs.left {ops : List IOp} {obs : List IObs} (hr : Runs s w h F x ops obs x') (hok : ∀ x1, x = .y4m x1 → w * h ≤ x1.ySize) :
    x'.left + (obs.countP IObs.got) * (x.unit * (w * h)) ≤ x.left := by
  induction hr with
  | nil x => simp
  | @read x x1 x' ops obs o e d h1 h2 _ ih =>
    obtain ⟨h3, h4, h5⟩ := Ctx.step_left hok h1
    have := ih h5
    rw [h4] at this
    rw [List.countP_cons]
    simp only [IObs.got]
    split at h3
    · rename_i hs; simp only [hs, if_true, Nat.add_mul, Nat.one_mul]; omega
    · rename_i hs
      have : o.isSome = false := by simpa using hs
      simp only [this, Bool.false_eq_true, if_false, Nat.add_zero]; omega
  | @seek x x1 x' ops obs k ret e calls h1 _ ih =>
    obtain ⟨h3, h4, h5⟩ := Ctx.skip_left hok h1
    have := ih h5
    rw [h4] at this
    rw [List.countP_cons]
    simp only [IObs.got, Bool.false_eq_true, if_false, Nat.add_zero]
    omega
  | oom h1 _ _ ih =>
    rw [List.countP_cons]
    simpa only [IObs.got, Bool.false_eq_true, if_false, Nat.add_zero] using ih hok

theorem runs_frames {frames : List (List Fl)} {e : RDError} (h0 : 0 < w * h) (hf : x.frames s w h = (frames, some e)) {obs : List IObs}
    (hr : Runs s w h F x (List.replicate (frames.length + 1) .read) obs x') :
    ∃ last, obs = frames.map (.read true RDEOK) ++ [.read false e last] := by
  induction frames generalizing x obs with
  | nil =>
    cases hr with
    | @read _ x1 _ _ obs o e' d h1 h2 h3 =>
      cases h3
      cases o with
      | none => rw [Ctx.frames_stop h1] at hf; cases hf; exact ⟨d, rfl⟩
      | some f => rw [Ctx.frames_next h0 h1] at hf; cases hf
  | cons f frames ih =>
    cases hr with
    | @read _ x1 _ _ obs o e' d h1 h2 h3 =>
      cases o with
      | none => rw [Ctx.frames_stop h1] at hf; cases hf
      | some f' =>
        rw [Ctx.frames_next h0 h1] at hf
        simp only [Prod.mk.injEq, List.cons.injEq] at hf
        obtain ⟨⟨rfl, h5⟩, h6⟩ := hf
        obtain ⟨last, rfl⟩ := ih (Prod.ext h5 h6) h3
        obtain ⟨rfl, rfl⟩ := h2 _ rfl
        exact ⟨last, rfl⟩

theorem breaks_frames {frames : List (List Fl)} {e : RDError} (h0 : 0 < w * h) (hf : x.frames s w h = (frames, some e)) :
    ¬ Breaks s w h x (List.replicate (frames.length + 1) .read) := by
  induction frames generalizing x with
  | nil =>
    intro hr
    cases hr with
    | read h1 => rw [Ctx.frames_none h1] at hf; cases hf
    | readLater h1 h2 => cases h2
  | cons f frames ih =>
    intro hr
    cases hr with
    | read h1 => rw [Ctx.frames_none h1] at hf; cases hf
    | @readLater _ x1 _ o e' h1 h2 =>
      cases o with
      | none => rw [Ctx.frames_stop h1] at hf; cases hf
      | some f' =>
        rw [Ctx.frames_next h0 h1] at hf
        simp only [Prod.mk.injEq, List.cons.injEq] at hf
        exact ih (Prod.ext hf.1.2 hf.2) h2

theorem Builtin.yields {io : Io} (hb : Builtin s io.fs r Ok) {name : List UInt8} (hd : Determined r name (some (some x, W, H, RDEOK)))
    (hw : Within s.cfg W H) {frames : List (List Fl)} {e : RDError} (hf : x.frames s W H = (frames, some e)) :
    Yields (openImage s (some r) name true) W H frames e := by
  intro w hwf hp
  have hF : ∀ j, w.sched j = false → False := fun j h => by rw [hp j] at h; cases h
  rcases hb.det_act hd (F := False) (wantBuf := true) (L := []) (S := []) w w (Own.init hwf hF) with ⟨h4, h5⟩ | ⟨op, w', L', S', h4, ow, h5⟩
  · cases h5
  · rcases h5 with ⟨i, x1, ho, e1, hp1, rfl⟩ | ⟨_, h0, _, _, ⟨_, h⟩ | ⟨_, _, h⟩ | ⟨_, _, _, _, h, hn⟩⟩
    · obtain ⟨b, hbuf⟩ := ho.buffer
      simp only [Option.some.injEq, Prod.mk.injEq] at e1
      obtain ⟨rfl, hW, hH, _⟩ := e1
      obtain ⟨oi, ow', oh, ob, oe⟩ := op
      simp only at hW hH hbuf
      subst hW hH
      have e1 : oi = some i := ho.image
      have e2 : oe = 0 := ho.error
      subst e1 e2 hbuf
      refine ⟨i, _, w', h4, by simp, ?_⟩
      rcases hb.runs_act (List.replicate (frames.length + 1) .read) ho.handle (buf := ⟨b, List.replicate (W * H) s.env.junk⟩) (L := []) (S := [])
        (by simp) w w' (ow.perm hp1 (List.Perm.refl _)) with ⟨_, h⟩ | ⟨⟨obs, o1, o2⟩, w2, L2, S2, h6, ow2, i', buf', x', he, hr, h7, _⟩
      · exact (breaks_frames hw.pos hf (breaks_erase h)).elim
      · cases he
        obtain ⟨last, rfl⟩ := runs_frames hw.pos hf (runs_erase hr)
        exact ⟨last, some i', some buf', w2, h6⟩
    · exact h.elim
    · cases h
    · cases h; exact absurd hw hn

theorem Builtin.rejects {io : Io} (hb : Builtin s io.fs r Ok) {name : List UInt8} {e : RDError} (hd : Determined r name (some (none, W, H, e)))
    (he : e ≠ 0) : Rejects (openImage s (some r) name true) e := by
  intro w hwf hp
  have hF : ∀ j, w.sched j = false → False := fun j h => by rw [hp j] at h; cases h
  rcases hb.det_act hd (F := False) (wantBuf := true) (L := []) (S := []) w w (Own.init hwf hF) with ⟨h4, h5⟩ | ⟨op, w', L', S', h4, ow, h5⟩
  · cases h5
  · rcases h5 with ⟨i, x1, ho, e1, hp1, rfl⟩ | ⟨h1, h0, rfl, rfl, ⟨_, h⟩ | ⟨_, _, h⟩ | ⟨_, _, _, _, h, hn⟩⟩
    · cases e1
    · exact h.elim
    · cases h
      rw [h1] at h4
      exact ⟨w', h4, ow.same⟩
    · cases h; exact (he rfl).elim

theorem Builtin.tooBig {io : Io} (hb : Builtin s io.fs r Ok) {name : List UInt8} (hd : Determined r name (some (some x, W, H, RDEOK)))
    (hw : ¬ Within s.cfg W H) : Rejects (openImage s (some r) name true) RDETOOBIG := by
  intro w hwf hp
  have hF : ∀ j, w.sched j = false → False := fun j h => by rw [hp j] at h; cases h
  rcases hb.det_act hd (F := False) (wantBuf := true) (L := []) (S := []) w w (Own.init hwf hF) with ⟨h4, h5⟩ | ⟨op, w', L', S', h4, ow, h5⟩
  · cases h5
  · rcases h5 with ⟨i, x1, ho, e1, hp1, rfl⟩ | ⟨h1, h0, rfl, rfl, ⟨_, h⟩ | ⟨_, _, h⟩ | ⟨h2, _, _, _, h, hn⟩⟩
    · have := ho.within
      simp only [Option.some.injEq, Prod.mk.injEq] at e1
      rw [← e1.2.1, ← e1.2.2.1] at this
      exact absurd this hw
    · exact h.elim
    · cases h
    · rw [h1, h2] at h4
      exact ⟨w', h4, ow.same⟩

theorem After.pfmHeader {c : Cfg} {s t : Stream} {o : Option (UInt8 × ℕ × ℕ × Fl)} (h : pfmHeader c s = some (o, t)) : After s t := by
  unfold Verif.pfmHeader at h
  rcases h1 : s.scanChar (ch 'P') with ⟨r1, s1⟩
  have a1 := After.scanChar h1
  rw [h1] at h
  cases r1 with
  | ok _ => exact a1.trans (After.pfmFields h)
  | _ => cases h; exact a1

theorem After.y4mParams {c : Cfg} {n : ℕ} {p : Y4mParams} {s t : Stream} {o : Option Y4mParams} (h : y4mParams c n p s = some (o, t)) :
    After s t := by
  induction n generalizing p s with
  | zero => unfold Verif.y4mParams at h; cases h; exact After.refl _
  | succ n ih =>
    unfold Verif.y4mParams at h
    rcases hg : s.fgetc with ⟨_ | b, s1⟩
    · rw [hg] at h; cases h; exact After.fgetc hg
    · rw [hg] at h
      have a1 := After.fgetc hg
      simp only at h
      split at h
      · cases h; exact a1
      split at h
      · simp only [Option.bind_eq_bind, Option.bind_eq_some_iff] at h
        obtain ⟨⟨r, s2⟩, h2, h⟩ := h
        have a2 := a1.trans (After.scanUnsigned h2)
        cases r with
        | ok v => exact a2.trans (ih h)
        | _ => cases h; exact a2
      split at h
      · simp only [Option.bind_eq_bind, Option.bind_eq_some_iff] at h
        obtain ⟨⟨r, s2⟩, h2, h⟩ := h
        have a2 := a1.trans (After.scanUnsigned h2)
        cases r with
        | ok v => exact a2.trans (ih h)
        | _ => cases h; exact a2
      split at h
      · rcases h2 : s1.scanWord (some 9) with ⟨r, s2⟩
        have a2 := a1.trans (After.scanWord h2)
        rw [h2] at h
        cases r with
        | ok v => exact a2.trans (ih h)
        | _ => cases h; exact a2
      split at h
      · exact a1.trans (ih h)
      · rcases h2 : s1.scanWord none with ⟨r, s2⟩
        have a2 := a1.trans (After.scanWord h2)
        rw [h2] at h
        cases r with
        | eof => cases h; exact a2
        | _ => exact a2.trans (ih h)

theorem After.y4mHeader {c : Cfg} {s t : Stream} {o : Option Y4mParams} (h : y4mHeader c s = some (o, t)) : After s t := by
  unfold Verif.y4mHeader at h
  rw [fread_eq] at h
  simp only at h
  have a1 : After s (s.advance (min 10 s.rest.length)) := After.advance (by omega)
  split at h
  · cases h; exact a1
  · exact a1.trans (After.y4mParams h)

/-- Opening a file that is there, by a built-in reader. -/
theorem Spec.Native.open {io : Io} {name : List UInt8} {m : M Opened} {n : ℕ} (hn : Native s io name m n) {file : List UInt8} {k : Kind}
    (hh : io.fs.Holds name (file, k)) {w w1 : World} {o : Opened} (hw : w.WF) (hm : m w = some (o, w1)) (he : o.error = RDEOK) :
    ∃ x : Ctx, x.left ≤ file.length ∧ x.unit = n ∧ (∀ x1, x = .y4m x1 → o.width * o.height ≤ x1.ySize) ∧ Within s.cfg o.width o.height ∧
      ∀ ops, (session ops o.image o.buf w1 = none ∧ Breaks s o.width o.height x ops) ∨
        ∃ obs i b w2 x', session ops o.image o.buf w1 = some ((obs, some i, some b), w2) ∧
          Runs s o.width o.height (∃ j, w.sched j = false) x ops obs x' := by
  obtain ⟨r, Ok, hb, rfl, hok⟩ := hn.builtin
  obtain ⟨a, hd, ha⟩ : ∃ a, Determined r name a ∧ ∀ x W H e, a = some (some x, W, H, e) → x.left ≤ file.length := by
    cases hb with
    | pgm =>
      refine ⟨_, (pgm_determined name).1 file k hh, ?_⟩
      intro x W H e h
      split at h
      · cases h
      · cases h
      · rename_i hp; cases h; exact (After.pgmHeader hp).le
    | pfm =>
      refine ⟨_, (pfm_determined name).1 file k hh, ?_⟩
      intro x W H e h
      split at h
      · cases h
      · cases h
      · rename_i hp; cases h; exact (After.pfmHeader hp).le
    | y4m =>
      refine ⟨_, (y4m_determined name).1 file k hh, ?_⟩
      intro x W H e h
      unfold y4mOutcome at h
      split at h
      · cases h
      · cases h
      · rename_i hp
        split at h
        · cases h
        · cases h
        · cases h; exact (After.y4mHeader hp).le
  obtain ⟨x, h1, h2, h3, h4⟩ := hb.opened hd hw hm he
  obtain ⟨h5, h6⟩ := hok _ _ _ h2
  refine ⟨x.erase, ha _ _ _ _ h1, by rw [x.erase_left.2, h5], Ctx.erase_ySize h6, h3, fun ops => ?_⟩
  rcases h4 ops with h | ⟨obs, i, b, w2, x', h7, h8, _⟩
  · exact Or.inl h
  · exact Or.inr ⟨obs, i, b, w2, _, h7, h8⟩

theorem Runs.done {ops : List IOp} {obs : List IObs} (hr : Runs s w h F x ops obs x') (hd : x.Done) :
    ∀ o ∈ obs, (∀ ret e d, o = .read ret e d → ret = false ∧ e = RDEOK) ∧ (∀ ret e c, o = .seek ret e c → c = [] ∧ (ret = true → e = RDEOK)) := by
  induction hr with
  | nil x => simp
  | @read x x1 x' ops obs o e d h1 h2 _ ih =>
    rw [Ctx.done_step hd] at h1
    cases h1
    intro o ho
    rcases List.mem_cons.mp ho with rfl | ho
    · refine ⟨?_, by simp⟩
      intro ret e d h
      cases h
      exact ⟨rfl, rfl⟩
    · exact ih hd o ho
  | @seek x x1 x' ops obs k ret e calls h1 _ ih =>
    rw [Ctx.done_skip hd] at h1
    cases h1
    intro o ho
    rcases List.mem_cons.mp ho with rfl | ho
    · refine ⟨by simp, ?_⟩
      intro ret e c h
      cases h
      exact ⟨rfl, fun _ => rfl⟩
    · exact ih hd o ho
  | oom h1 _ _ ih =>
    intro o ho
    rcases List.mem_cons.mp ho with rfl | ho
    · refine ⟨by simp, ?_⟩
      intro ret e c h
      cases h
      exact ⟨rfl, by simp⟩
    · exact ih hd o ho

theorem Runs.split {ops : List IOp} {a b : List IObs} {y : IObs} (hr : Runs s w h F x ops (a ++ y :: b) x') :
    ∃ ops' ops'' op x1 x2, ops = ops' ++ op :: ops'' ∧ Runs s w h F x ops' a x1 ∧ Runs s w h F x1 [op] [y] x2 ∧ Runs s w h F x2 ops'' b x' := by
  induction a generalizing x ops with
  | nil =>
    cases hr with
    | read h1 h2 h3 => exact ⟨[], _, _, _, _, rfl, .nil _, .read h1 h2 (.nil _), h3⟩
    | seek h1 h3 => exact ⟨[], _, _, _, _, rfl, .nil _, .seek h1 (.nil _), h3⟩
    | oom h1 h1' h3 => exact ⟨[], _, _, _, _, rfl, .nil _, .oom h1 h1' (.nil _), h3⟩
  | cons z a ih =>
    cases hr with
    | read h1 h2 h3 =>
      obtain ⟨ops', ops'', op, x1, x2, rfl, e1, e2, e3⟩ := ih h3
      exact ⟨_ :: ops', ops'', op, x1, x2, rfl, .read h1 h2 e1, e2, e3⟩
    | seek h1 h3 =>
      obtain ⟨ops', ops'', op, x1, x2, rfl, e1, e2, e3⟩ := ih h3
      exact ⟨_ :: ops', ops'', op, x1, x2, rfl, .seek h1 e1, e2, e3⟩
    | oom h1 h1' h3 =>
      obtain ⟨ops', ops'', op, x1, x2, rfl, e1, e2, e3⟩ := ih h3
      exact ⟨_ :: ops', ops'', op, x1, x2, rfl, .oom h1 h1' e1, e2, e3⟩

theorem not_breaks_y4m {x : Y4mCtx} {ops : List IOp} : ¬ Breaks s w h (.y4m x) ops := by
  induction ops generalizing x with
  | nil => intro h; cases h
  | cons op ops ih =>
    intro h
    cases h with
    | read h1 => simp [Ctx.step] at h1
    | readLater h1 h2 => simp only [Ctx.step] at h1; cases h1; exact ih h2
    | seek h1 => simp [Ctx.skip] at h1
    | seekLater h1 h2 => simp only [Ctx.skip] at h1; cases h1; exact ih h2
    | oom h2 => exact ih h2

theorem not_breaks_pgm {x : PgmCtx} {ops : List IOp} : ¬ Breaks s w h (.pgm x) ops := by
  induction ops generalizing x with
  | nil => intro h; cases h
  | cons op ops ih =>
    intro h
    cases h with
    | read h1 => simp only [Ctx.step] at h1; split at h1 <;> [cases h1; (split at h1 <;> cases h1)]
    | readLater h1 h2 =>
      simp only [Ctx.step] at h1
      split at h1
      · cases h1; exact ih h2
      · split at h1 <;> cases h1 <;> exact ih h2
    | seek h1 => simp [Ctx.skip] at h1
    | seekLater h1 h2 => simp only [Ctx.skip] at h1; cases h1; exact ih h2
    | oom h2 => exact ih h2

/-- The frame of a PGM context, if the data suffice. -/
def PgmCtx.frame (x : PgmCtx) (n : ℕ) : Option (List Fl) :=
  if n ≤ x.f.st.rest.length then some ((x.f.st.rest.take n).map (pgmSample x.depth)) else none

theorem Runs.oneShot {x : PgmCtx} {ops : List IOp} {obs : List IObs} {frame : Option (List Fl)} (hf : x.eof = false → frame = x.frame (w * h))
    (hr : Runs s w h F (.pgm x) ops obs x') : OneShot frame (!x.eof) ops obs := by
  induction ops generalizing x obs with
  | nil => cases hr; exact .nil _
  | cons op ops ih =>
    cases hr with
    | @read _ x1 _ _ obs o e d h1 h2 h3 =>
      simp only [Ctx.step] at h1
      split at h1
      · rename_i he
        cases h1
        have := ih (x := x) (by simp [he]) h3
        rw [he] at this ⊢
        exact .done this
      · rename_i he
        have he : x.eof = false := by simpa using he
        have hf := hf he
        rw [he]
        unfold PgmCtx.frame at hf
        split at h1
        · rename_i hl
          rw [if_pos hl] at hf
          cases h1
          obtain ⟨rfl, _⟩ := h2 _ rfl
          exact .good hf (ih (by simp) h3)
        · rename_i hl
          rw [if_neg hl] at hf
          cases h1
          exact .bad hf (ih (by simp) h3)
    | @seek _ x1 _ _ obs k ret e c h1 h3 =>
      simp only [Ctx.skip] at h1
      cases k with
      | zero =>
        simp only [singleSeek] at h1
        cases h1
        exact .stay (ih hf h3)
      | succ k =>
        cases he : x.eof with
        | true =>
          simp only [singleSeek, he] at h1
          cases h1
          have := ih (by simp) h3
          exact .beyond this
        | false =>
          simp only [singleSeek, he] at h1
          cases h1
          have := ih (by simp) h3
          cases k with
          | zero => exact OneShot.skip (k := 0) this
          | succ k => simpa using OneShot.skip (k := k + 1) this
    | oom h1 h2 h3 => exact h2.elim

end Verif
