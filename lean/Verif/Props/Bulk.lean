import Verif.Proofs.Loop
import Verif.Proofs.BulkLemmas
import Verif.Spec.DemoImage
import Verif.Proofs.PgmFormat
import Verif.Props.Memory
import Verif.Props.History
import Verif.Props.Params

/-!
# Reading all frames and analysing files (C15, C16, C45)

`Yields` describes a file by what a client sees when it opens it and reads one frame after the other.
-/

namespace Verif.Props

open Spec

variable {s : Sys} {io : Io} {fn ft : Option (List UInt8)} {hasW hasH : Bool} {W H : ℕ} {frames : List (List Fl)} {e : RDError}
  {m : Option Method} {p : Option Params} {ptr : Ptrs}

/-- What `resdet_read_image` may come to, whatever the file. -/
structure ReadOutcome (s : Sys) (w : World) (o : ReadOut) (w' : World) : Prop where
  failed : o.error ≠ RDEOK → o.images = none ∧ Unchanged w w'
  images : o.error = RDEOK → ∃ b, o.images = some b ∧ b.id ∉ w.live ∧ (∀ x, x ∈ w'.live ↔ x = b.id ∨ x ∈ w.live) ∧
    (∀ f, f ∈ w'.files ↔ f ∈ w.files) ∧ o.width * o.height * o.nimages ≤ b.data.length ∧ b.data.length ≤ s.cfg.pixelMax

/-- **C45** With any readers that keep the contract, bulk reading ends with an error, no images and nothing left behind, or
with a new block within the limit that has room for the images, and nothing else left behind. -/
theorem C45_memory (hio : io.Contract s.cfg) {w w' : World} {o : ReadOut} (hw : w.WF)
    (h : readImage s io fn ft hasW hasH w = some (o, w')) : ReadOutcome s w o w' := by
  rcases readImage_act (F := True) (L := []) (S := []) hio w w (Own.init hw (fun _ _ => trivial)) with ⟨h1, _⟩ | ⟨a, w1, L', S', h1, ow, rfl, _, h2⟩
  · rw [h] at h1; cases h1
  · rw [h] at h1
    cases h1
    rcases h2 with ⟨h2, h3, rfl⟩ | ⟨h2, h3, b, h4, rfl, h5, h6⟩
    · exact ⟨fun _ => ⟨h3, ow.same⟩, fun h => absurd h h2⟩
    · refine ⟨fun h => absurd h2 h, fun _ => ⟨b, h4, (ow.new b.id (by simp)).1, ?_, ?_, ?_, ?_⟩⟩
      · intro x
        rw [ow.live x]
        simp [or_comm]
      · intro f
        rw [ow.files f]
        simp
      · rw [h5]
        exact Nat.mul_le_mul_left _ (by omega)
      · rw [h5]; exact h6.1

example : Demo.io.Contract Demo.sys.cfg ∧ Demo.w0.WF ∧ (readImage Demo.sys Demo.io (some (cs "a.y4m")) none true true Demo.w0).map (fun r =>
    (r.1.error, r.1.nimages, r.1.width, r.1.height)) = some (RDEOK, 2, 2, 1) := ⟨Demo.io_contract _, Demo.w0_wf, by decide +kernel⟩

/-- The size limit allows `k` images at once. -/
def Fit (c : Cfg) (W H k : ℕ) : Prop := W * H * k ≤ c.pixelMax ∧ W * H * k * 4 ≤ c.sizeMax

/-- **C45** A file that yields frames and then the error `e` (0 at the end of the file): bulk reading succeeds, with the number
of frames and the frames one after the other, exactly if `e` is 0 and the limit allows one more image than there are frames;
otherwise the error is `e` or RDETOOBIG - or RDENOMEM if memory ran out - and there are no images.  Partial: by the
documentation the frames themselves must fit, not one more (`C45_fails`). -/
theorem C45_bulk_partial (hio : Inbuilt s io (resdetOpenImage s io fn ft true true true))
    (hy : Yields (resdetOpenImage s io fn ft true true true) W H frames e) {w : World} (hw : w.WF) :
    ∃ o w', readImage s io fn ft true true w = some (o, w') ∧
      (o.error = RDEOK → e = RDEOK ∧ Fit s.cfg W H (frames.length + 1) ∧ o.width = W ∧ o.height = H ∧ o.nimages = frames.length ∧
        ∃ b, o.images = some b ∧ b.data.take (W * H * frames.length) = frames.flatten) ∧
      (o.error ≠ RDEOK → o.images = none) ∧
      (Plenty w → (Fit s.cfg W H (frames.length + 1) → o.error = e) ∧ (¬ Fit s.cfg W H (frames.length + 1) → o.error = RDETOOBIG)) := by
  obtain ⟨name, r, Ok, x, hx⟩ := source_of_yields hio.usable ⟨w, hw⟩ hy
  rcases hx.readImage_act (F := ∃ j, w.sched j = false) (L := []) (S := []) w w (Own.init hw (fun j hj => ⟨j, hj⟩)) with
    ⟨_, h⟩ | ⟨o, w', L', S', h1, ow, _, h2⟩
  · exact h.elim
  · refine ⟨o, w', h1, ?_⟩
    rcases h2 with ⟨h2, h3, h4, h5, h6, h7, b, h8, _, _, h9⟩ | ⟨h2, h3, _, h4⟩
    · exact ⟨fun _ => ⟨h3, h7, h4, h5, h6, b, h8, h9⟩, fun h => absurd h2 h, fun _ => ⟨fun _ => by rw [h2, h3], fun h => absurd h7 h⟩⟩
    · refine ⟨fun h => absurd h h2, fun _ => h3, fun hp => ?_⟩
      rcases h4 with ⟨h4, h5⟩ | ⟨h4, h5⟩ | ⟨_, j, h5⟩
      · exact ⟨fun _ => h4, fun h => absurd h5 h⟩
      · exact ⟨fun h => absurd h h5, fun _ => h4⟩
      · rw [hp j] at h5; cases h5

theorem demo_yields : Yields (resdetOpenImage Demo.sys Demo.io (some (cs "a.pgm")) none true true true) 2 1 [[normal 255 0, normal 255 255]] RDEOK :=
  (pgm_plays Demo.uses_pgm rfl Demo.holds_pgm Demo.pgm_file (by unfold Within; decide)).yields trivial

example : Inbuilt Demo.sys Demo.io (resdetOpenImage Demo.sys Demo.io (some (cs "a.pgm")) none true true true) ∧
    Yields (resdetOpenImage Demo.sys Demo.io (some (cs "a.pgm")) none true true true) 2 1 [[normal 255 0, normal 255 255]] RDEOK ∧
    Fit Demo.sys.cfg 2 1 2 := ⟨Or.inl Demo.io_plain, demo_yields, by unfold Fit; decide⟩

/-- **C45** (negation) A PGM within the limit but beyond half of it can be read frame by frame, but not at once. -/
theorem C45_fails {name ext file raster : List UInt8} {k : Kind} {maxval : ℕ} (ho : io.omitPgm = false) (hx : Extension name ft ext)
    (hp : Plainly s.cfg ext) (ht : SameText ext (cs "pgm")) (hh : io.fs.Holds name (file, k)) (hf : PgmFile W H maxval raster file)
    (hw : Within s.cfg W H) (hh2 : s.cfg.pixelMax < W * H * 2) {w : World} (hwf : w.WF) (hpl : Plenty w) :
    Yields (resdetOpenImage s io (some name) ft true true true) W H [raster.map (fun b => normal maxval b.toNat)] RDEOK ∧
    Fit s.cfg W H 1 ∧ ∃ o w', readImage s io (some name) ft true true w = some (o, w') ∧ o.error = RDETOOBIG := by
  have hy := (pgm_plays (.byType hx hp ht) ho hh hf hw).yields trivial
  refine ⟨hy, ⟨by rw [Nat.mul_one]; exact hw.2.2.1, by rw [Nat.mul_one]; exact hw.2.2.2⟩, ?_⟩
  obtain ⟨o, w', h1, _, _, h2⟩ := C45_bulk_partial (Or.inr ⟨_, _, .pgm ho (.byType hx hp ht)⟩) hy hwf
  refine ⟨o, w', h1, (h2 hpl).2 ?_⟩
  rintro ⟨h3, _⟩
  have : W * H * 2 ≤ s.cfg.pixelMax := h3
  omega

example : PgmFile 2 1 255 [0, 255] Demo.pgmBytes ∧ Within { lp64 .fftw with pixelMax := 3 } 2 1 ∧ 3 < 2 * 1 * 2 :=
  ⟨Demo.pgm_file, by unfold Within; decide, by decide⟩

/-- **C45** If the image cannot be opened, bulk reading fails in the same way. -/
theorem C45_not_opened {w w' : World} {o : Opened} (h : resdetOpenImage s io fn ft hasW hasH true w = some (o, w')) (he : o.error ≠ RDEOK) :
    readImage s io fn ft hasW hasH w = some (⟨o.error, none, 0, o.width, o.height⟩, w') := by
  unfold readImage
  rw [M.bind_some h]
  exact congrFun (if_pos he) w'

example : (resdetOpenImage Demo.sys Demo.io (some (cs "none")) none true true true Demo.w0).map (fun r => decide (r.1.error ≠ RDEOK)) = some true := by
  decide +kernel

theorem fed_ok {fs : List (List Fl)} {ev : List (Call × Obs)} (hf : Fed fs RDEOK ev) :
    ev.map (fun x => x.2) = List.replicate fs.length (.analyzed RDEOK) ∧ ev.map (fun x => x.1.op) = fs.map (fun f => Op.analyze (some f)) := by
  generalize he : RDEOK = e at hf
  induction hf with
  | done => exact ⟨rfl, rfl⟩
  | refused f fs e w h => exact absurd he.symm h
  | next f fs e ev w _ ih =>
    obtain ⟨i1, i2⟩ := ih he
    exact ⟨by simp [i1, List.replicate_succ, he], by simp [i2]⟩

theorem results_code (hs : Build s) {a a' : Analysis} (hg : Good s a) {c : Call} (hl : Legal a c) (hop : c.op = .results ptr)
    {e : RDError} {rw' : Option (List Res)} {cw : ℕ} {rh : Option (List Res)} {ch : ℕ}
    (hstep : step s a c = some (.results e rw' cw rh ch, a')) :
    (e = RDEPARAM ∧ ((ptr.rw && !ptr.cw) || (ptr.rh && !ptr.ch)) = true) ∨ e = RDENOIMG ∨ e = RDENOMEM ∨ e = RDEOK := by
  have hk2 := step_ok hs hg hl hstep
  generalize ho : Obs.results e rw' cw rh ch = o at hk2
  cases hk2 with
  | analyze => cases ho
  | results ptr' e' out L' hop' hres =>
    rw [hop] at hop'
    cases hop'
    injection ho with h1 _ _ _ _
    subst h1
    cases hres with
    | param h => exact Or.inl ⟨rfl, h⟩
    | noimg _ h => exact Or.inr (Or.inl rfl)
    | nomem _ h => exact Or.inr (Or.inr (Or.inl rfl))
    | ok _ _ _ _ h => exact Or.inr (Or.inr (Or.inr rfl))

theorem reach_expected (hs : Build s) (hm : ValidMethod? m) (hp : ValidParams? s.cfg p) {ev : List (Call × Obs)} {a : Analysis}
    (hr : Reach s m W H p ev a) : expected s W H = RDEOK := by
  induction hr with
  | @create a e wd wd' hwd hc =>
    obtain ⟨oa, e', wd'', h1, h2, h3⟩ := C17_create_outcome hs hm hp (w := W) (h := H) hwd
    rw [hc] at h1
    cases h1
    have he : e = RDEOK := by
      by_contra h
      exact absurd (h2.mpr h) (by simp)
    rcases h3 with h3 | ⟨h3, _⟩
    · rw [← h3, he]
    · rw [he] at h3; cases h3
  | call _ _ _ ih => exact ih

/-- **C14** The error of `resdetect` for a given image when no allocation fails: RDENOIMG without frames, else that of creating the analysis,
else RDEINVAL if a sample is infinite or not a number, else none. -/
theorem C14_error (hs : Build s) (hm : ValidMethod? m) (hp : ValidParams? s.cfg p) {n : ℕ} {image : List Fl} (himg : image.length ≤ s.cfg.sizeMax)
    (hlen : n * (W * H) ≤ image.length) (hrw : ptr.rw = true → ptr.cw = true) (hrh : ptr.rh = true → ptr.ch = true) {w : World} (hw : w.WF)
    (hpl : Plenty w) (hsm : ¬ HugeScores s W H) :
    ∃ out w', resdetect s (some image) n W H ptr m p w = some ((if n = 0 then RDENOIMG else if expected s W H ≠ RDEOK then expected s W H
      else frameError W H (framesOf image W H n), out), w') := by
  have hptr : ¬ (((ptr.rw && !ptr.cw) || (ptr.rh && !ptr.ch)) = true) := by
    rw [ptr_bad]
    rintro (⟨h1, h2⟩ | ⟨h1, h2⟩)
    · rw [hrw h1] at h2; cases h2
    · rw [hrh h1] at h2; cases h2
  have huge : LinesTooBig s.cfg W H → False := by
    rintro (h | h)
    · exact hsm ⟨W, Or.inl rfl, h⟩
    · exact hsm ⟨H, Or.inr rfl, h⟩
  obtain ⟨⟨e, out⟩, w', L', e1, r1, q⟩ := resdetect_tri (F := False) (L := []) hs hm hp (w := W) (h := H) (n := n)
    (image := some image) (ptr := ptr) (by rintro _ h; cases h; exact ⟨himg, hlen⟩) huge w w (Rel.init hw (fun j hj => by rw [hpl j] at hj; cases hj))
  refine ⟨out, w', ?_⟩
  rw [e1, Option.some.injEq, Prod.mk.injEq, Prod.mk.injEq]
  refine ⟨⟨?_, rfl⟩, rfl⟩
  rcases q with ⟨_, _, h3 | h3⟩ | ⟨_, ⟨_, h3, _, h4⟩ | ⟨h4, im, him, hd⟩⟩
  · exact absurd h3 hptr
  · cases h3
  · cases h3
    rw [if_pos h4]
  · cases him
    rw [if_neg h4]
    cases hd with
    | create e L' hc =>
      have hne : e ≠ RDEOK := by cases hc <;> decide
      have key : e = expected s W H := by
        unfold expected
        cases hc with
        | zero h => rw [if_pos h]
        | toobig h1 h2 h3 =>
          rw [if_neg (by omega), if_pos]
          rcases h3 with h3 | h3 | h3
          · unfold Fits at h3; omega
          · exact Or.inr (Or.inr (Or.inl h3))
          · exact Or.inr (Or.inr (Or.inr h3))
        | internal h1 h2 h3 h4 h5 h6 h7 =>
          rw [if_neg (by omega), if_neg, if_pos ⟨h6, h7⟩]
          unfold Fits at h3; omega
        | nomem _ h _ => exact h.elim
      rw [if_pos (key ▸ hne)]
      exact key
    | refused ev a e hr hf hne hnm =>
      rw [if_neg (not_not.mpr (reach_expected hs hm hp hr))]
      exact (fed_code hs hm hp hr hf).elim (fun h => (hnm h).elim) id
    | results ev a c e out L' hr hf hleg hop hstep hout hnm hperm =>
      rw [if_neg (not_not.mpr (reach_expected hs hm hp hr))]
      have hfe : RDEOK = frameError W H (framesOf image W H n) := (fed_code hs hm hp hr hf).elim (fun h => absurd h (by decide)) id
      rw [← hfe]
      obtain ⟨f1, _⟩ := fed_ok hf
      have he : analysed ev = ev := by
        refine List.filter_eq_self.mpr fun x hx => ?_
        have := List.mem_map_of_mem (f := fun x => x.2) hx
        rw [f1] at this
        simp [List.eq_of_mem_replicate this]
      have hl : ev.length = n := by
        rw [← List.length_map (fun x : Call × Obs => x.2), f1, List.length_replicate]
        simp [framesOf]
      have hpos : 0 < W * H := by
        have hx := reach_expected hs hm hp hr
        unfold expected at hx
        by_contra hc
        have : W = 0 ∨ H = 0 := Nat.mul_eq_zero.mp (by omega)
        rw [if_pos this] at hx
        exact absurd hx (by decide)
      have hk : (analysed ev).length ≤ s.cfg.sizeMax := by
        rw [he, hl]
        exact le_trans (Nat.le_mul_of_pos_right _ hpos) (le_trans hlen himg)
      rcases results_code hs (reach_inv hs hm hp hr).good hleg hop hstep with h2 | h2 | h2 | h2
      · exact absurd h2.2 hptr
      · have := (C10_noimg_iff hs hm hp hr hk hleg hop hrw hrh hstep).mp h2
        rw [he] at this
        rw [this] at hl
        exact absurd hl.symm h4
      · exact (hnm h2).elim
      · exact h2

example : Build Demo.sys ∧ ¬ HugeScores Demo.sys 4 2 ∧ Plenty Demo.w0 ∧ expected Demo.sys 4 2 = RDEOK ∧
    frameError 4 2 (framesOf (Demo.image ++ List.replicate 8 (.nan false)) 4 2 1) = RDEOK ∧
    frameError 4 2 (framesOf (Demo.image ++ List.replicate 8 (.nan false)) 4 2 2) = RDEINVAL :=
  ⟨Demo.sys_build, by rintro ⟨n, rfl | rfl, h⟩ <;> revert h <;> decide +kernel, fun _ => rfl, by decide +kernel, by decide +kernel, by decide +kernel⟩

theorem done_outputs {F : Prop} {K : RDError → List (Call × Obs) → Prop} (hs : Build s) (hm : ValidMethod? m)
    (hp : ValidParams? s.cfg p) {v : RDError × Out} {L' : List ℕ} {wd w' : World}
    (hptr : ((ptr.rw && !ptr.cw) || (ptr.rh && !ptr.ch)) = false) (r1 : Rel F wd L' w') (hd : FileDone s F [] K W H ptr m p v L') :
    Outputs ptr v.1 v.2 wd w' := by
  have hgood : ∀ {e : RDError}, (ptr.rw = true ∧ ptr.cw = false) ∨ (ptr.rh = true ∧ ptr.ch = false) → e = RDEPARAM :=
    fun h => by rw [← ptr_bad, hptr] at h; cases h
  have none_ok : ∀ e', e' ≠ RDEOK → Outputs ptr e' Out.nothing wd w' := fun e' h =>
    ⟨fun _ => rfl, fun h' => absurd h' h, fun h' => absurd h' h, fun b ⟨r, h, _⟩ => by simp [Out.nothing] at h,
      fun r r' h => by simp [Out.nothing] at h, hgood⟩
  cases hd with
  | create e L' hc =>
    refine none_ok _ ?_
    cases hc <;> decide
  | stopped ev a e _ _ hne => exact none_ok _ hne
  | results ev a c e out L' h1 h2 h3 h4 h5 h6 _ h8 =>
    obtain ⟨f1, f2⟩ := outputs_fresh r1 h8
    have key : e = RDEOK → ∃ ptr', c.op = .results ptr' ∧
        out.rw.map Buf.data = (if ptr'.rw then some (dimList s a a.width a.xresult) else none) ∧
        out.rh.map Buf.data = (if ptr'.rh then some (dimList s a a.height a.yresult) else none) ∧
        out.cw = ((out.rw.map Buf.data).map List.length).getD 0 ∧
        out.ch = ((out.rh.map Buf.data).map List.length).getD 0 := by
      rintro rfl
      obtain ⟨ptr', k1, _, _, _, _, k2, k3, k4, k5⟩ := results_obs hs (reach_inv hs hm hp h1).good h3 h5
      exact ⟨ptr', k1, k2, k3, k4, k5⟩
    refine ⟨h6, ?_, ?_, f1, f2, hgood⟩
    · intro he
      obtain ⟨ptr', k1, k2, _, k4, _⟩ := key he
      rw [h4] at k1
      cases k1
      refine ⟨?_, k4⟩
      cases hq : ptr.rw <;> rw [hq] at k2 <;> cases hx : out.rw <;> rw [hx] at k2 <;> simp at k2 ⊢
    · intro he
      obtain ⟨ptr', k1, _, k3, _, k5⟩ := key he
      rw [h4] at k1
      cases k1
      refine ⟨?_, k5⟩
      cases hq : ptr.rh <;> rw [hq] at k3 <;> cases hx : out.rh <;> rw [hx] at k3 <;> simp at k3 ⊢

/-- `resdetect_file` on a file that yields frames and then `e`; `F` follows if memory runs out. -/
theorem file_core {F : Prop} {r : Reader} {Ok : Ctx → ℕ → ℕ → Prop} {G : Ctx → List (List Fl) → RDError → Prop} (hs : Build s) (hm : ValidMethod? m) (hp : ValidParams? s.cfg p)
    (hx : Fount s (resdetOpenImage s io fn ft true true true) W H r Ok F G (fun x => G x frames e)) (hF : LinesTooBig s.cfg W H → F)
    (hrw : ptr.rw = true → ptr.cw = true) (hrh : ptr.rh = true → ptr.ch = true) {fuel : ℕ} (hfuel : frames.length < fuel)
    (hlen : frames.length ≤ s.cfg.sizeMax) {w : World} (hw : w.WF) (hj : ∀ j, w.sched j = false → F) :
    ∃ err out w', resdetectFile s io fuel fn ft ptr m p w = some ((err, out), w') ∧
      (err = RDEOK → e = RDEOK ∧ ∃ ev a, Returned s m W H p ev a (out.rw.map Buf.data) out.cw (out.rh.map Buf.data) out.ch ∧
        ev.map (fun x => x.2) = List.replicate frames.length (.analyzed RDEOK) ∧
        ev.map (fun x => x.1.op) = frames.map (fun f => Op.analyze (some f)) ∧ (¬ F → ∀ x ∈ ev, Plenty x.1.world)) ∧
      (err ≠ RDEOK → out = Out.nothing) ∧
      (¬ F → err = if expected s W H ≠ RDEOK then expected s W H
        else if frameError W H frames ≠ RDEOK then frameError W H frames else if e ≠ RDEOK then e else if frames = [] then RDENOIMG else RDEOK) ∧
      (s.cfg.backend = .fftw ∨ W = H ∨ ¬ F →
        (∀ b, b ∈ w'.live ↔ b ∈ w.live ∨ out.rw.map Buf.id = some b ∨ out.rh.map Buf.id = some b) ∧ ∀ f, f ∈ w'.files ↔ f ∈ w.files) ∧ Outputs ptr err out w w' ∧ w'.WF ∧ w.next ≤ w'.next := by
  have hptr : ¬ (((ptr.rw && !ptr.cw) || (ptr.rh && !ptr.ch)) = true) := by
    rw [ptr_bad]
    rintro (⟨h1, h2⟩ | ⟨h1, h2⟩)
    · rw [hrw h1] at h2; cases h2
    · rw [hrh h1] at h2; cases h2
  rcases hx.file_act hs hm hp hF hptr hfuel (L := []) (S := [])
    w w (Own.init hw hj) with ⟨_, h⟩ | ⟨⟨err, out⟩, w', L', S', h1, ow, rfl, h2⟩
  · exact h.elim
  have nomem : ∀ {P : Prop}, F → ¬ F → P := fun h hn => absurd h hn
  have key : s.cfg.backend = .fftw ∨ W = H ∨ ¬ F →
      (∀ b, b ∈ w'.live ↔ b ∈ w.live ∨ out.rw.map Buf.id = some b ∨ out.rh.map Buf.id = some b) ∧ ∀ f, f ∈ w'.files ↔ f ∈ w.files := by
    intro hb
    have key : L'.Perm ((out.rw.map Buf.id).toList ++ (out.rh.map Buf.id).toList) := by
      rcases h2 with ⟨h2, rfl, _⟩ | hd
      · cases h2; exact List.Perm.refl _
      · cases hd with
        | create e L' hc =>
          have : L' = [] := by
            cases hc with
            | zero => rfl
            | toobig => rfl
            | internal => rfl
            | nomem L' hF h =>
              rcases h with h | ⟨h1, h2, _⟩
              · exact h
              · rcases hb with hb | hb | hb
                · rw [hb] at h1; cases h1
                · exact absurd hb h2
                · exact nomem hF hb
          rw [this]; exact List.Perm.refl _
        | stopped => exact List.Perm.refl _
        | results ev a c e out L' h1 h2 h3 h4 h5 h6 _ h8 => rw [List.append_nil] at h8; exact h8
    refine ⟨fun b => ?_, fun f => ?_⟩
    · rw [ow.live b, key.mem_iff, List.mem_append, Option.mem_toList, Option.mem_toList]
    · rw [ow.files f]; simp
  refine ⟨err, out, w', h1, ?_⟩
  rw [← and_assoc, ← and_assoc]
  refine ⟨?_, key, ?_, ow.wf, ow.next⟩
  swap
  · rcases h2 with ⟨h2, _, _⟩ | h2
    · cases h2
      exact ⟨fun _ => rfl, fun h => absurd h (by decide), fun h => absurd h (by decide), fun b ⟨r, h, _⟩ => by simp [Out.nothing] at h,
        fun r r' h => by simp [Out.nothing] at h, fun h => absurd ((ptr_bad).mpr h) hptr⟩
    · have o := done_outputs hs hm hp (by simpa using hptr) ow.rel h2
      exact ⟨o.error, o.rw, o.rh, o.fresh, o.distinct, o.pointers⟩
  rw [and_assoc]
  rcases h2 with ⟨h2, _, h3⟩ | h2
  · cases h2
    exact ⟨fun h => absurd h (by decide), fun _ => rfl, fun a => nomem h3 a⟩
  · cases h2 with
    | create e0 L' hc =>
      have hne : err ≠ RDEOK := by cases hc <;> decide
      refine ⟨fun h => absurd h hne, fun _ => rfl, fun a => ?_⟩
      have key : err = expected s W H := by
        unfold expected
        cases hc with
        | zero h => rw [if_pos h]
        | toobig h1 h2 h3 =>
          rw [if_neg (by omega), if_pos]
          rcases h3 with h3 | h3 | h3
          · unfold Fits at h3; omega
          · exact Or.inr (Or.inr (Or.inl h3))
          · exact Or.inr (Or.inr (Or.inr h3))
        | internal h1 h2 h3 h4 h5 h6 h7 =>
          rw [if_neg (by omega), if_neg, if_pos ⟨h6, h7⟩]
          unfold Fits at h3; omega
        | nomem _ h _ => exact nomem h a
      rw [if_pos (key ▸ hne)]
      exact key
    | stopped ev a e0 hr hK hne =>
      obtain ⟨e1, hf, hk, hnm, _⟩ := hK
      refine ⟨fun h => absurd h hne, fun _ => rfl, fun hpl => ?_⟩
      have hfe : e1 = frameError W H frames := (fed_code hs hm hp hr hf).elim (fun h => nomem (hnm h) hpl) id
      rw [if_neg (not_not.mpr (reach_expected hs hm hp hr)), ← hfe]
      by_cases h0 : e1 = 0
      · subst h0
        rw [if_neg (by decide)]
        rw [if_pos rfl] at hk
        rw [if_pos (hk ▸ hne), hk]
      · rw [if_neg h0] at hk
        rw [if_pos (show e1 ≠ RDEOK from h0)]
        exact hk
    | results ev a c e0 out L' hr hK hleg hop hstep hout hnm hperm =>
      obtain ⟨e1, hf, hk, _, hwd⟩ := hK
      have h0 : e1 = 0 := by
        by_contra h
        rw [if_neg h] at hk
        exact h hk.symm
      subst h0
      rw [if_pos rfl] at hk
      have hk : e = RDEOK := hk.symm
      obtain ⟨f1, f2⟩ := fed_ok hf
      refine ⟨fun he => ?_, hout, fun hpl => ?_⟩
      · subst he
        refine ⟨hk, ev, a, ⟨hr, c, a, hleg, hstep⟩, f1, f2, fun hpl x hx j => ?_⟩
        by_contra hj
        exact nomem (hwd x hx j (by simpa using hj)) hpl
      · have hfe : RDEOK = frameError W H frames := (fed_code hs hm hp hr hf).elim (fun h => absurd h (by decide)) id
        rw [if_neg (not_not.mpr (reach_expected hs hm hp hr)), if_neg (not_not.mpr hfe.symm), if_neg (not_not.mpr hk)]
        have hl : (analysed ev).length = frames.length := by
          have : analysed ev = ev := by
            refine List.filter_eq_self.mpr fun x hx => ?_
            have := List.mem_map_of_mem (f := fun x => x.2) hx
            rw [f1] at this
            simp [List.eq_of_mem_replicate this]
          rw [this, ← List.length_map (fun x : Call × Obs => x.2), f1, List.length_replicate]
        have hn := C10_noimg_iff hs hm hp hr (by omega) hleg hop hrw hrh hstep
        rw [← List.length_eq_zero_iff, hl, List.length_eq_zero_iff] at hn
        by_cases h : frames = []
        · rw [if_pos h]
          exact hn.mpr h
        · rw [if_neg h]
          rcases results_code hs (reach_inv hs hm hp hr).good hleg hop hstep with h2 | h2 | h2 | h2
          · exact absurd h2.2 hptr
          · exact absurd (hn.mp h2) h
          · exact nomem (hnm h2) hpl
          · exact h2

/-- **C15** `resdetect_file` on a file that yields frames and then `e`.  If it succeeds, `e` is 0 and the lists are those of an
analysis fed exactly these frames (so C01 to C13 apply to them), handed out as C16 says.  If it fails, there are no lists.  When no allocation fails,
the error is that of creating the analysis, else RDEINVAL if a sample is infinite or not a number, else the reader's, else RDENOIMG if
there are no frames. -/
theorem C15_file (hio : Inbuilt s io (resdetOpenImage s io fn ft true true true)) (hs : Build s) (hm : ValidMethod? m) (hp : ValidParams? s.cfg p)
    (hy : Yields (resdetOpenImage s io fn ft true true true) W H frames e) (hrw : ptr.rw = true → ptr.cw = true)
    (hrh : ptr.rh = true → ptr.ch = true) {fuel : ℕ} (hfuel : frames.length < fuel) (hlen : frames.length ≤ s.cfg.sizeMax) {w : World} (hw : w.WF) :
    ∃ err out w', resdetectFile s io fuel fn ft ptr m p w = some ((err, out), w') ∧
      (err = RDEOK → e = RDEOK ∧ ∃ ev a, Returned s m W H p ev a (out.rw.map Buf.data) out.cw (out.rh.map Buf.data) out.ch ∧
        ev.map (fun x => x.2) = List.replicate frames.length (.analyzed RDEOK) ∧
        ev.map (fun x => x.1.op) = frames.map (fun f => Op.analyze (some f)) ∧ (Plenty w → ¬ HugeScores s W H → ∀ x ∈ ev, Plenty x.1.world)) ∧
      (err ≠ RDEOK → out = Out.nothing) ∧
      (Plenty w → ¬ HugeScores s W H → err = if expected s W H ≠ RDEOK then expected s W H
        else if frameError W H frames ≠ RDEOK then frameError W H frames else if e ≠ RDEOK then e else if frames = [] then RDENOIMG else RDEOK) ∧
      (s.cfg.backend = .fftw ∨ W = H ∨ (Plenty w ∧ ¬ HugeScores s W H) →
        (∀ b, b ∈ w'.live ↔ b ∈ w.live ∨ out.rw.map Buf.id = some b ∨ out.rh.map Buf.id = some b) ∧ ∀ f, f ∈ w'.files ↔ f ∈ w.files) ∧ Outputs ptr err out w w' := by
  obtain ⟨name, r, Ok, x, hx⟩ := source_of_yields hio.usable ⟨w, hw⟩ hy
  have huge : LinesTooBig s.cfg W H → HugeScores s W H := by
    rintro (h | h)
    · exact ⟨W, Or.inl rfl, h⟩
    · exact ⟨H, Or.inr rfl, h⟩
  have nomem : Plenty w → ¬ HugeScores s W H → ¬ ((∃ j, w.sched j = false) ∨ HugeScores s W H) := by
    rintro hp hn (⟨j, h⟩ | h)
    · rw [hp j] at h; cases h
    · exact hn h
  obtain ⟨err, out, w', h1, h2, h3, h4, h5, h6, _⟩ := file_core hs hm hp (hx.fount (F := (∃ j, w.sched j = false) ∨ HugeScores s W H))
    (fun h => Or.inr (huge h)) hrw hrh hfuel hlen hw (fun j hj => Or.inl ⟨j, hj⟩)
  refine ⟨err, out, w', h1, fun h => ?_, h3, fun a b => h4 (nomem a b), fun h => h5 ?_, h6⟩
  · obtain ⟨h6, ev, a, h7, h8, h9, h10⟩ := h2 h
    exact ⟨h6, ev, a, h7, h8, h9, fun a b => h10 (nomem a b)⟩
  · rcases h with h | h | ⟨h, h'⟩
    · exact Or.inl h
    · exact Or.inr (Or.inl h)
    · exact Or.inr (Or.inr (nomem h h'))

example : Demo.io.Plain ∧ Build Demo.sys ∧ ValidMethod? none ∧ ValidParams? Demo.sys.cfg none ∧
    Yields (resdetOpenImage Demo.sys Demo.io (some (cs "a.pgm")) none true true true) 2 1 [[normal 255 0, normal 255 255]] RDEOK ∧ Demo.w0.WF :=
  ⟨Demo.io_plain, Demo.sys_build, by simp [ValidMethod?], by simp [ValidParams?], demo_yields, Demo.w0_wf⟩

/-- Opening the image fails, and so does `resdetect_file`, with the same error. -/
theorem C15_not_opened {fuel : ℕ} {w w' : World} {o : Opened} (hrw : ptr.rw = true → ptr.cw = true)
    (hrh : ptr.rh = true → ptr.ch = true) (h : resdetOpenImage s io fn ft true true true w = some (o, w')) (he : o.error ≠ RDEOK) :
    resdetectFile s io fuel fn ft ptr m p w = some ((o.error, Out.nothing), w') := by
  rw [resdetectFile_eq, if_neg, M.bind_some h]
  · exact congrFun (if_pos he) w'
  · rw [ptr_bad]
    rintro (⟨h1, h2⟩ | ⟨h1, h2⟩)
    · rw [hrw h1] at h2; cases h2
    · rw [hrh h1] at h2; cases h2

/-- **C16** `resdetect_file`, with any combination of NULL arguments and any readers that keep the contract. -/
theorem C16_file_outputs (hio : io.Contract s.cfg) (hs : Build s) (hm : ValidMethod? m) (hp : ValidParams? s.cfg p) {fuel : ℕ}
    {w w' : World} (hw : w.WF) {v : RDError × Out} (h : resdetectFile s io fuel fn ft ptr m p w = some (v, w')) :
    Outputs ptr v.1 v.2 w w' := by
  rcases file_safe (F := True) (L := []) (S := []) (fn := fn) (ft := ft) (ptr := ptr) hio hs hm hp trivial (fuel := fuel) w w
    (Own.init hw (fun _ _ => trivial)) with ⟨h1, _⟩ | ⟨a, w1, L', S', h1, ow, rfl, h2⟩
  · rw [h] at h1; cases h1
  rw [h] at h1
  cases h1
  have none_ok : ∀ e', e' ≠ RDEOK → ((ptr.rw = true ∧ ptr.cw = false) ∨ (ptr.rh = true ∧ ptr.ch = false) → e' = RDEPARAM) →
      Outputs ptr e' Out.nothing w w' := fun e' h h' =>
    ⟨fun _ => rfl, fun h' => absurd h' h, fun h' => absurd h' h, fun b ⟨r, h, _⟩ => by simp [Out.nothing] at h,
      fun r r' h => by simp [Out.nothing] at h, h'⟩
  rcases h2 with ⟨h2, _, _⟩ | ⟨hptr, ⟨h2, _, h3, _⟩ | ⟨W, H, h2⟩⟩
  · rw [h2]; exact none_ok _ (by decide) (fun _ => rfl)
  · rw [h3]; exact none_ok _ h2 (fun h => by rw [← ptr_bad, hptr] at h; cases h)
  · have o := done_outputs hs hm hp hptr ow.rel h2
    exact ⟨o.error, o.rw, o.rh, o.fresh, o.distinct, o.pointers⟩

example : Demo.io.Contract Demo.sys.cfg ∧ Build Demo.sys ∧ Demo.w0.WF ∧
    (resdetectFile Demo.sys Demo.io 3 (some (cs "a.y4m")) none ⟨true, true, true, true⟩ none none Demo.w0).isSome = true ∧
    (resdetectFile Demo.sys Demo.io 3 (some (cs "x.pgm")) none ⟨true, true, true, true⟩ none none Demo.w0).map (fun r => r.1.1) = some (-2) :=
  ⟨Demo.io_contract _, Demo.sys_build, Demo.w0_wf, by decide +kernel, by decide +kernel⟩

/-- **C20** With the FFTW backend `resdetect_file` leaves nothing behind but the lists it returns, and no open file, whatever
the file and the allocation failures.  Partial: see `C20_fails` for the other backend. -/
theorem C20_file_partial (hio : io.Contract s.cfg) (hs : Build s) (hm : ValidMethod? m) (hp : ValidParams? s.cfg p)
    (hb : s.cfg.backend = .fftw) {fuel : ℕ} {w w' : World} (hw : w.WF) {v : RDError × Out}
    (h : resdetectFile s io fuel fn ft ptr m p w = some (v, w')) :
    (∀ b, b ∈ w'.live ↔ b ∈ w.live ∨ v.2.rw.map Buf.id = some b ∨ v.2.rh.map Buf.id = some b) ∧ ∀ f, f ∈ w'.files ↔ f ∈ w.files := by
  rcases file_safe (F := True) (L := []) (S := []) (fn := fn) (ft := ft) (ptr := ptr) hio hs hm hp trivial (fuel := fuel) w w
    (Own.init hw (fun _ _ => trivial)) with ⟨h1, _⟩ | ⟨a, w1, L', S', h1, ow, rfl, h2⟩
  · rw [h] at h1; cases h1
  rw [h] at h1
  cases h1
  have key : L'.Perm ((v.2.rw.map Buf.id).toList ++ (v.2.rh.map Buf.id).toList) := by
    rcases h2 with ⟨h2, _, rfl⟩ | ⟨hptr, ⟨h2, _, h3, rfl⟩ | ⟨W, H, hd⟩⟩
    · rw [h2]; exact List.Perm.refl _
    · rw [h3]; exact List.Perm.refl _
    · cases hd with
      | create e L' hc =>
        have : L' = [] := by
          cases hc with
          | zero => rfl
          | toobig => rfl
          | internal => rfl
          | nomem L' _ h =>
            rcases h with h | ⟨h1, _, _⟩
            · exact h
            · rw [hb] at h1; cases h1
        rw [this]; exact List.Perm.refl _
      | stopped => exact List.Perm.refl _
      | results ev a c e out L' h1 h2 h3 h4 h5 h6 _ h8 => rw [List.append_nil] at h8; exact h8
  refine ⟨fun b => ?_, fun f => ?_⟩
  · rw [ow.live b, key.mem_iff, List.mem_append, Option.mem_toList, Option.mem_toList]
  · rw [ow.files f]; simp

/-- **C23** Every code `resdetect_file` returns is a negated errno or has a message. -/
theorem C23_file_codes (hio : io.Contract s.cfg) (hs : Build s) (hm : ValidMethod? m) (hp : ValidParams? s.cfg p) {fuel : ℕ}
    {w w' : World} (hw : w.WF) {v : RDError × Out} (h : resdetectFile s io fuel fn ft ptr m p w = some (v, w')) :
    v.1 < 0 ∨ v.1 ∈ messages.map Prod.fst := by
  rcases file_safe (F := True) (L := []) (S := []) (fn := fn) (ft := ft) (ptr := ptr) hio hs hm hp trivial (fuel := fuel) w w
    (Own.init hw (fun _ _ => trivial)) with ⟨h1, _⟩ | ⟨a, w1, L', S', h1, ow, rfl, h2⟩
  · rw [h] at h1; cases h1
  rw [h] at h1
  cases h1
  have code : ∀ e : RDError, Code e → e < 0 ∨ e ∈ messages.map Prod.fst := by
    show ∀ e : ℤ, e ≤ 7 → e < 0 ∨ e ∈ messages.map Prod.fst
    intro e h
    by_cases h0 : e < 0
    · exact Or.inl h0
    · refine Or.inr ?_
      obtain ⟨n, rfl⟩ := Int.eq_ofNat_of_zero_le (by omega : (0 : ℤ) ≤ e)
      have : n ≤ 7 := by omega
      interval_cases n <;> decide
  rcases h2 with ⟨h2, _, _⟩ | ⟨hptr, ⟨h2, hc, _⟩ | ⟨W, H, hd⟩⟩
  · rw [h2]; right; decide
  · exact code _ hc
  · cases hd with
    | create e L' hc => right; cases hc <;> decide
    | stopped ev a e _ hk _ => exact code _ hk
    | results ev a c e out L' h1 h2 h3 h4 h5 h6 _ h8 =>
      rcases results_code hs (reach_inv hs hm hp h1).good h3 h4 h5 with ⟨h, _⟩ | h | h | h <;> rw [h] <;> right <;> simp only <;> decide

end Verif.Props
