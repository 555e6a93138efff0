import Verif.Proofs.Seek

/-! Any sequence of calls on any file. -/

namespace Verif

open Spec

variable {s : Sys} {fs : Fs} {r : Reader} {Ok : Ctx → ℕ → ℕ → Prop} {U F : Prop} {L S : List ℕ} {w h W H : ℕ} {i : RDImage} {x : Ctx}

/-- What a sequence of calls shows and where it leads; `F` says that memory may run out. -/
inductive Runs (s : Sys) (w h : ℕ) (F : Prop) : Ctx → List IOp → List IObs → Ctx → Prop where
  | nil (x : Ctx) : Runs s w h F x [] [] x
  | read {x x1 x' : Ctx} {ops : List IOp} {obs : List IObs} {o : Option (List Fl)} {e : RDError} {d : List Fl} :
    x.step s w h = some (o, e, x1) → (∀ f, o = some f → d = f ∧ e = RDEOK) → Runs s w h F x1 ops obs x' →
    Runs s w h F x (.read :: ops) (.read o.isSome e d :: obs) x'
  | seek {x x1 x' : Ctx} {ops : List IOp} {obs : List IObs} {k : ℕ} {ret : Bool} {e : RDError} {calls : List ℕ} :
    x.skip s w h k = some (ret, e, calls, x1) → Runs s w h F x1 ops obs x' →
    Runs s w h F x (.seek k :: ops) (.seek ret e calls :: obs) x'
  | oom {x x' : Ctx} {ops : List IOp} {obs : List IObs} {k : ℕ} : F → x.greedy → Runs s w h F x ops obs x' →
    Runs s w h F x (.seek k :: ops) (.seek false RDENOMEM [] :: obs) x'

/-- A sequence of calls that leads to undefined behaviour. -/
inductive Breaks (s : Sys) (w h : ℕ) : Ctx → List IOp → Prop where
  | read {x : Ctx} {ops : List IOp} : x.step s w h = none → Breaks s w h x (.read :: ops)
  | readLater {x x1 : Ctx} {ops : List IOp} {o : Option (List Fl)} {e : RDError} : x.step s w h = some (o, e, x1) → Breaks s w h x1 ops →
    Breaks s w h x (.read :: ops)
  | seek {x : Ctx} {ops : List IOp} {k : ℕ} : x.skip s w h k = none → Breaks s w h x (.seek k :: ops)
  | seekLater {x x1 : Ctx} {ops : List IOp} {k : ℕ} {ret : Bool} {e : RDError} {calls : List ℕ} : x.skip s w h k = some (ret, e, calls, x1) →
    Breaks s w h x1 ops → Breaks s w h x (.seek k :: ops)
  | oom {x : Ctx} {ops : List IOp} {k : ℕ} : Breaks s w h x ops → Breaks s w h x (.seek k :: ops)

theorem Builtin.runs_act (hb : Builtin s fs r Ok) (ops : List IOp) (hi : Handle s r Ok W H i x) {buf : Buf Fl} (hl : buf.data.length = W * H) :
    Act (Breaks s W H x ops) F (heldOpt (some buf) i x L) (x.files ++ S) (session ops (some i) (some buf)) (fun a L' S' =>
      ∃ i' buf' x', a.2 = (some i', some buf') ∧ Runs s W H F x ops a.1 x' ∧ Handle s r Ok W H i' x' ∧ buf'.data.length = W * H ∧
        L' = heldOpt (some buf') i' x' L ∧ S' = x'.files ++ S) := by
  induction ops generalizing i x buf with
  | nil => exact Act.pure ⟨i, buf, x, rfl, .nil x, hi, hl, rfl, rfl⟩
  | cons op ops ih =>
    unfold session
    cases op with
    | read =>
      simp only [istep, bind_assoc, pure_bind]
      have ha := hb.frame_act (F := F) (L := L) (S := S) hi (buf := buf) (off := 0) (by omega)
      refine Act.bind (ha.weaken .read Iff.rfl) ?_
      rintro a _ _ ⟨o, e, x1, data, h1, rfl, hsp, hfr, hsame, hi', rfl, rfl⟩
      simp only [List.take_zero, List.nil_append, Option.map_some, Option.getD_some]
      have hdl : data.length = W * H := by
        have := hsp.1
        simpa [hl] using this
      have hd : ∀ f, o = some f → data = f ∧ e = RDEOK := by
        intro f hf
        obtain ⟨hf1, hf2, hf3⟩ := hfr f hf
        refine ⟨?_, hf3⟩
        rw [hf1]
        simp only [List.drop_zero]
        exact fill_zero (by rw [hf2, hl])
      refine Act.bind ((ih (i := { i with ctx := some x1 }) hi' (buf := ⟨buf.id, data⟩) hdl).weaken (.readLater h1) Iff.rfl) ?_
      rintro ⟨obs, o1, o2⟩ _ _ ⟨i', buf', x', he, hr, h2, h3, rfl, rfl⟩
      cases he
      exact Act.pure ⟨i', buf', x', rfl, .read h1 hd hr, h2, h3, rfl, rfl⟩
    | seek k =>
      simp only [istep, bind_assoc, pure_bind]
      refine Act.bind ((hb.skip_act (F := F) hi (b := some buf) (k := k)).weaken .seek Iff.rfl) ?_
      rintro a _ _ ⟨x', h4, hi', rfl, rfl⟩
      rcases h4 with ⟨rfl, hF, rfl, hg⟩ | ⟨ret, e, calls, h4, rfl⟩
      · refine Act.bind ((ih hi' hl).weaken .oom Iff.rfl) ?_
        rintro ⟨obs, o1, o2⟩ _ _ ⟨i', buf', x', he, hr, h2, h3, rfl, rfl⟩
        cases he
        exact Act.pure ⟨i', buf', x', rfl, .oom hF hg hr, h2, h3, rfl, rfl⟩
      · refine Act.bind ((ih hi' hl).weaken (.seekLater h4) Iff.rfl) ?_
        rintro ⟨obs, o1, o2⟩ _ _ ⟨i', buf', x', he, hr, h2, h3, rfl, rfl⟩
        cases he
        exact Act.pure ⟨i', buf', x', rfl, .seek h4 hr, h2, h3, rfl, rfl⟩

/-- Reading a context that can be opened is reading the context without identities. -/
theorem runs_erase {x x' : Ctx} {ops : List IOp} {obs : List IObs} (hr : Runs s w h F x ops obs x') : Runs s w h F x.erase ops obs x'.erase := by
  induction hr with
  | nil x => exact .nil _
  | read h1 h2 _ ih => exact .read (by rw [Ctx.step_erase, h1]; rfl) h2 ih
  | seek h1 _ ih => exact .seek (by rw [Ctx.skip_erase, h1]; rfl) ih
  | @oom x _ _ _ _ h1 h2 _ ih => exact .oom h1 (by cases x <;> first | exact h2.elim | trivial) ih

theorem breaks_erase {x : Ctx} {ops : List IOp} (hr : Breaks s w h x ops) : Breaks s w h x.erase ops := by
  induction hr with
  | read h1 => exact .read (by rw [Ctx.step_erase, h1]; rfl)
  | readLater h1 _ ih => exact .readLater (by rw [Ctx.step_erase, h1]; rfl) ih
  | seek h1 => exact .seek (by rw [Ctx.skip_erase, h1]; rfl)
  | seekLater h1 _ ih => exact .seekLater (by rw [Ctx.skip_erase, h1]; rfl) ih
  | oom _ ih => exact .oom ih

/-- Opening by a known reader. -/
theorem Builtin.opened {io : Io} (hb : Builtin s io.fs r Ok) {name : List UInt8} {a : Option (Option Ctx × ℕ × ℕ × RDError)} (hd : Determined r name a)
    {w w1 : World} {o : Opened} (hw : w.WF) (hm : openImage s (some r) name true w = some (o, w1)) (he : o.error = RDEOK) :
    ∃ x, a = some (some x.erase, o.width, o.height, RDEOK) ∧ Ok x o.width o.height ∧ Within s.cfg o.width o.height ∧
      ∀ ops, (session ops o.image o.buf w1 = none ∧ Breaks s o.width o.height x.erase ops) ∨
        ∃ obs i b w2 x', session ops o.image o.buf w1 = some ((obs, some i, some b), w2) ∧
          Runs s o.width o.height (∃ j, w.sched j = false) x.erase ops obs x'.erase ∧ Ok x' o.width o.height := by
  rcases hb.det_act hd (F := ∃ j, w.sched j = false) (wantBuf := true) (L := []) (S := []) w w (Own.init hw (fun j h => ⟨j, h⟩)) with
    ⟨h4, h5⟩ | ⟨op, w', L', S', h4, ow, h5⟩
  · rw [hm] at h4; cases h4
  · rw [hm] at h4
    cases h4
    rcases h5 with ⟨i, x, ho, e1, hp1, rfl⟩ | ⟨_, h0, _⟩
    · obtain ⟨b, hbuf⟩ := ho.buffer
      refine ⟨x, e1, ho.ok, ho.within, fun ops => ?_⟩
      rw [ho.image, hbuf]
      rw [hbuf] at hp1
      rcases hb.runs_act ops ho.handle (buf := ⟨b, List.replicate (o.width * o.height) s.env.junk⟩) (L := []) (S := []) (by simp) w w1
        (ow.perm hp1 (List.Perm.refl _)) with ⟨h1, h2⟩ | ⟨⟨obs, o1, o2⟩, w2, L2, S2, h6, ow2, i', buf', x', he, hr, h7, _⟩
      · exact Or.inl ⟨h1, breaks_erase h2⟩
      · cases he
        exact Or.inr ⟨obs, i', buf', w2, x', h6, runs_erase hr, h7.ok⟩
    · exact absurd he h0

end Verif
