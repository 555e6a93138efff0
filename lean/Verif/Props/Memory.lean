import Verif.Proofs.DetectLemmas
import Verif.Props.History

/-!
# resdetect, outcomes of creation, memory (C14, C16 to C20)

A memory state is a `World`: the live heap blocks and the schedule that decides which allocations succeed.  A function that
does something undefined (out-of-bounds access, use after free, double free) has no outcome in the model.
-/

namespace Verif.Props

open Spec

variable {s : Sys} {m : Option Method} {p : Option Params} {w h : ℕ} {ev : List (Call × Obs)} {a a' : Analysis}

/-- **C14** `resdetect` is the sequential use of the API: create, one `resdet_analyze_image` per consecutive block of
`w*h` samples until one fails, results, destroy - same error, same lists, same effect on memory. -/
theorem C14_resdetect_sequential (hs : Build s) (hm : ValidMethod? m) (hp : ValidParams? s.cfg p) {n : ℕ}
    {image : List Fl} (himg : image.length ≤ s.cfg.sizeMax) (hlen : n * (w * h) ≤ image.length) (hn : n ≠ 0) {ptr : Ptrs}
    (hw : ptr.rw = true → ptr.cw = true) (hh : ptr.rh = true → ptr.ch = true) {wd : World} (hwd : wd.WF) :
    resdetect s (some image) n w h ptr m p wd = sequential s (framesOf image w h n) w h ptr m p wd :=
  resdetect_eq hs hm hp himg hlen hn (by cases h1 : ptr.rw <;> cases h2 : ptr.rh <;> simp_all) hwd

/-- **C14** So the lists of a successful `resdetect` are those of a history in which exactly the given frames were
analysed, and C01 to C13 apply to them. -/
theorem C14_resdetect_history (hs : Build s) (hm : ValidMethod? m) (hp : ValidParams? s.cfg p) {n : ℕ}
    {image : List Fl} (himg : image.length ≤ s.cfg.sizeMax) (hlen : n * (w * h) ≤ image.length) {ptr : Ptrs}
    {wd wd' : World} (hwd : wd.WF) {out : Out}
    (hr : resdetect s (some image) n w h ptr m p wd = some ((RDEOK, out), wd')) :
    ∃ ev a, Returned s m w h p ev a (out.rw.map Buf.data) out.cw (out.rh.map Buf.data) out.ch ∧ NoOom ev ∧
      ev.map (fun x => x.2) = List.replicate n (.analyzed RDEOK) ∧
      ev.map (fun x => x.1.op) = (framesOf image w h n).map (fun f => Op.analyze (some f)) ∧
      (Plenty wd → ¬ HugeScores s w h → ∀ x ∈ ev, Plenty x.1.world) := by
  obtain ⟨r, w', L', e, r1, q⟩ := resdetect_tri (F := (∃ j, wd.sched j = false) ∨ LinesTooBig s.cfg w h) (L := []) hs hm hp (w := w) (h := h) (n := n)
    (image := some image) (ptr := ptr) (by rintro _ h; cases h; exact ⟨himg, hlen⟩) Or.inr wd wd
    (Rel.init hwd (fun j h => Or.inl ⟨j, h⟩))
  rw [hr] at e
  cases e
  have fed : ∀ {fs : List (List Fl)} {ev}, Fed fs RDEOK ev → ev.map (fun x => x.2) = List.replicate fs.length (.analyzed RDEOK) ∧
      ev.map (fun x => x.1.op) = fs.map (fun f => Op.analyze (some f)) := by
    intro fs ev hf
    generalize he : RDEOK = e at hf
    induction hf with
    | done => exact ⟨rfl, rfl⟩
    | refused f fs e w h => exact absurd he.symm h
    | next f fs e ev w _ ih =>
      obtain ⟨i1, i2⟩ := ih he
      exact ⟨by simp [i1, List.replicate_succ, he], by simp [i2]⟩
  rcases q with ⟨h, _⟩ | ⟨hptr, ⟨_, h, _⟩ | ⟨hn, im, him, hd⟩⟩
  · simp [RDEOK, RDEPARAM] at h
  · simp [RDEOK, RDENOIMG] at h
  · cases him
    cases hd with
    | create e L' hc =>
      generalize he : RDEOK = e at hc
      cases hc <;> simp [RDEOK, RDEINVAL, RDETOOBIG, RDEINTERNAL, RDENOMEM] at he
    | refused ev a e _ _ hne _ => exact absurd rfl hne
    | results ev a c e out L' h1 h2 h3 h4 h5 _ _ _ hwd =>
      obtain ⟨f1, f2⟩ := fed h2
      refine ⟨ev, a, ⟨h1, c, a, h3, h5⟩, ?_, ?_, f2, fun hpl hsm x hx j => ?_⟩
      · intro x hx
        have : x.2 ∈ ev.map (fun x => x.2) := List.mem_map.mpr ⟨x, hx, rfl⟩
        rw [f1] at this
        rw [List.eq_of_mem_replicate this]
        decide
      · rw [f1]; simp [framesOf]
      · by_contra hj
        rcases hwd x hx j (by simpa using hj) with ⟨k, hk⟩ | hl | hl
        · rw [hpl k] at hk; cases hk
        · exact hsm ⟨w, Or.inl rfl, hl⟩
        · exact hsm ⟨h, Or.inr rfl, hl⟩

/-- Two 4 by 2 frames, in memory where everything succeeds. -/
example : (resdetect Demo.sys (some (Demo.image ++ Demo.image)) 2 4 2 .all none (some Demo.params) Demo.w0).map
      (fun r => (r.1.1, r.1.2.rw.map Buf.data)) = some (RDEOK, some Demo.listX) ∧
    resdetect Demo.sys (some (Demo.image ++ Demo.image)) 2 4 2 .all none (some Demo.params) Demo.w0 =
      sequential Demo.sys (framesOf (Demo.image ++ Demo.image) 4 2 2) 4 2 .all none (some Demo.params) Demo.w0 :=
  ⟨by decide +kernel, C14_resdetect_sequential Demo.sys_build Demo.none_method Demo.params_valid (by decide +kernel)
    (by decide +kernel) (by decide) (fun _ => rfl) (fun _ => rfl) Demo.w0_wf⟩

example : ∃ out wd', resdetect Demo.sys (some (Demo.image ++ Demo.image)) 2 4 2 .all none (some Demo.params) Demo.w0 =
      some ((RDEOK, out), wd') ∧ ∃ ev a, Returned Demo.sys none 4 2 (some Demo.params) ev a (out.rw.map Buf.data) out.cw
        (out.rh.map Buf.data) out.ch ∧ ev.map (fun x => x.2) = List.replicate 2 (.analyzed RDEOK) := by
  have h : (resdetect Demo.sys (some (Demo.image ++ Demo.image)) 2 4 2 .all none (some Demo.params) Demo.w0).map
      (fun r => r.1.1) = some RDEOK := by decide +kernel
  rw [Option.map_eq_some_iff] at h
  obtain ⟨⟨⟨e, out⟩, wd'⟩, h1, h2⟩ := h
  have h2 : e = RDEOK := h2
  subst h2
  obtain ⟨ev, a, h3, _, h4, _⟩ := C14_resdetect_history Demo.sys_build Demo.none_method Demo.params_valid
    (by decide +kernel) (by decide +kernel) Demo.w0_wf h1
  exact ⟨out, wd', h1, ev, a, h3, h4⟩

/-- What the caller finds in its output pointers: on success, a fresh array for each result pointer supplied, with its
count; on an error, NULL and 0 everywhere. -/
structure Outputs (ptr : Ptrs) (e : RDError) (out : Out) (wd wd' : World) : Prop where
  error : e ≠ RDEOK → out = Out.nothing
  rw : e = RDEOK → (out.rw.isSome ↔ ptr.rw = true) ∧ out.cw = ((out.rw.map Buf.data).map List.length).getD 0
  rh : e = RDEOK → (out.rh.isSome ↔ ptr.rh = true) ∧ out.ch = ((out.rh.map Buf.data).map List.length).getD 0
  fresh : ∀ b, (∃ r, (out.rw = some r ∨ out.rh = some r) ∧ r.id = b) → b ∉ wd.live ∧ b ∈ wd'.live
  distinct : ∀ r r', out.rw = some r → out.rh = some r' → r.id ≠ r'.id
  pointers : (ptr.rw = true ∧ ptr.cw = false) ∨ (ptr.rh = true ∧ ptr.ch = false) → e = RDEPARAM

theorem outputs_fresh {F : Prop} {wd wd' : World} {out : Out} {L L' : List ℕ} (hr : Rel F wd L' wd')
    (hp : L'.Perm ((out.rw.map Buf.id).toList ++ (out.rh.map Buf.id).toList ++ L)) :
    (∀ b, (∃ r, (out.rw = some r ∨ out.rh = some r) ∧ r.id = b) → b ∉ wd.live ∧ b ∈ wd'.live) ∧
    ∀ r r', out.rw = some r → out.rh = some r' → r.id ≠ r'.id := by
  constructor
  · rintro b ⟨r, h, rfl⟩
    have hm : r.id ∈ L' := by
      rw [hp.mem_iff]
      rcases h with h | h <;> simp [h]
    exact ⟨(hr.new _ hm).1, (hr.live _).mpr (Or.inr hm)⟩
  · intro r r' h1 h2 he
    have := hp.nodup_iff.mp hr.nodup
    rw [h1, h2] at this
    simp [he] at this

theorem ptr_bad {ptr : Ptrs} : (((ptr.rw && !ptr.cw) || (ptr.rh && !ptr.ch)) = true) ↔
    (ptr.rw = true ∧ ptr.cw = false) ∨ (ptr.rh = true ∧ ptr.ch = false) := by
  simp [Bool.or_eq_true, Bool.and_eq_true]

/-- **C16** `resdet_analysis_results`, on a NULL analysis or any existing one. -/
theorem C16_results_outputs (hs : Build s) (hm : ValidMethod? m) (hp : ValidParams? s.cfg p) {oa : Option Analysis}
    (hr : ∀ a, oa = some a → ∃ ev, Reach s m w h p ev a) {wd : World} (hwd : wd.WF)
    (hl : ∀ a, oa = some a → ∀ b ∈ owned a, b ∈ wd.live) (ptr : Ptrs) :
    ∃ e out wd', analysisResults s oa ptr wd = some ((e, out, oa), wd') ∧ Outputs ptr e out wd wd' := by
  cases oa with
  | none =>
    have : analysisResults s none ptr wd = some ((RDEPARAM, Out.nothing, none), wd) := by
      unfold analysisResults; split <;> rfl
    refine ⟨_, _, _, this, ?_⟩
    exact ⟨fun _ => rfl, fun h => by simp [RDEPARAM, RDEOK] at h, fun h => by simp [RDEPARAM, RDEOK] at h,
      fun b ⟨r, h, _⟩ => by simp [Out.nothing] at h, fun r r' h => by simp [Out.nothing] at h, fun _ => rfl⟩
  | some a =>
    obtain ⟨ev, hr⟩ := hr a rfl
    have hg := (reach_inv hs hm hp hr).good
    have hlive : ∀ b ∈ a.blocks, b ∈ wd.live := fun b hb => hl a rfl b (blocks_owned b hb)
    rw [analysisResults_eq hs hg hlive]
    obtain ⟨⟨e, out, oa⟩, wd', L', h1, h2, h3⟩ := resultsProg_tri (F := True) (L := []) (s := s) (a := a) (ptr := ptr)
      wd wd (Rel.init hwd (fun _ _ => trivial))
    rw [h1]
    have hpe : L'.Perm ((out.rw.map Buf.id).toList ++ (out.rh.map Buf.id).toList ++ []) := by
      cases h3 with
      | ok _ _ _ _ _ _ _ h => exact h
      | param => exact List.Perm.refl _
      | noimg => exact List.Perm.refl _
      | nomem => exact List.Perm.refl _
    obtain ⟨f1, f2⟩ := outputs_fresh h2 hpe
    cases h3 with
    | ok rw rh _ hb hn hx hy _ =>
      refine ⟨_, _, _, rfl, fun h => absurd rfl h, fun _ => ⟨?_, ?_⟩, fun _ => ⟨?_, ?_⟩, f1, f2,
        fun h => absurd (ptr_bad.mpr h) hb⟩
      · cases hq : ptr.rw <;> rw [hq] at hx <;> cases rw <;> simp at hx ⊢
      · simp [Option.map_map]; rfl
      · cases hq : ptr.rh <;> rw [hq] at hy <;> cases rh <;> simp at hy ⊢
      · simp [Option.map_map]; rfl
    | param hb =>
      exact ⟨_, _, _, rfl, fun _ => rfl, fun h => by simp [RDEPARAM, RDEOK] at h, fun h => by simp [RDEPARAM, RDEOK] at h,
        f1, f2, fun _ => rfl⟩
    | noimg hb =>
      exact ⟨_, _, _, rfl, fun _ => rfl, fun h => by simp [RDENOIMG, RDEOK] at h, fun h => by simp [RDENOIMG, RDEOK] at h,
        f1, f2, fun h => absurd (ptr_bad.mpr h) hb⟩
    | nomem hb =>
      exact ⟨_, _, _, rfl, fun _ => rfl, fun h => by simp [RDENOMEM, RDEOK] at h, fun h => by simp [RDENOMEM, RDEOK] at h,
        f1, f2, fun h => absurd (ptr_bad.mpr h) hb⟩

/-- A results call on the demonstration analysis. -/
example : ∃ e out wd', analysisResults Demo.sys (some Demo.analysis1) .all Demo.w1 = some ((e, out, some Demo.analysis1), wd') ∧
    Outputs .all e out Demo.w1 wd' :=
  C16_results_outputs Demo.sys_build Demo.none_method Demo.params_valid
    (by rintro a h; cases h; exact ⟨_, Demo.reach1⟩) Demo.w1_wf (by rintro a h; cases h; decide) .all

/-- **C16** `resdetect`, with any combination of NULL arguments. -/
theorem C16_resdetect_outputs (hs : Build s) (hm : ValidMethod? m) (hp : ValidParams? s.cfg p) {n : ℕ}
    {image : Option (List Fl)}
    (himg : ∀ im, image = some im → im.length ≤ s.cfg.sizeMax ∧ n * (w * h) ≤ im.length) (ptr : Ptrs)
    {wd : World} (hwd : wd.WF) :
    ∃ e out wd', resdetect s image n w h ptr m p wd = some ((e, out), wd') ∧ Outputs ptr e out wd wd' := by
  obtain ⟨⟨e, out⟩, w', L', e1, r1, q⟩ := resdetect_tri (F := True) (L := []) hs hm hp (w := w) (h := h) (n := n)
    (image := image) (ptr := ptr) himg (fun _ => trivial) wd wd (Rel.init hwd (fun _ _ => trivial))
  refine ⟨e, out, w', e1, ?_⟩
  have none_ok : ∀ e', e' ≠ RDEOK → ((ptr.rw = true ∧ ptr.cw = false) ∨ (ptr.rh = true ∧ ptr.ch = false) → e' = RDEPARAM) →
      Outputs ptr e' Out.nothing wd w' := fun e' h h' =>
    ⟨fun _ => rfl, fun h' => absurd h' h, fun h' => absurd h' h, fun b ⟨r, h, _⟩ => by simp [Out.nothing] at h,
      fun r r' h => by simp [Out.nothing] at h, h'⟩
  rcases q with ⟨h, _, _⟩ | ⟨hptr, ⟨_, h, _⟩ | ⟨hn, im, him, hd⟩⟩
  · cases h
    exact none_ok _ (by decide) (fun _ => rfl)
  · cases h
    exact none_ok _ (by decide) (fun h => by rw [← ptr_bad, hptr] at h; cases h)
  · have hgood : (ptr.rw = true ∧ ptr.cw = false) ∨ (ptr.rh = true ∧ ptr.ch = false) → e = RDEPARAM :=
      fun h => by rw [← ptr_bad, hptr] at h; cases h
    cases hd with
    | create e L' hc =>
      refine none_ok _ ?_ hgood
      cases hc <;> decide
    | refused ev a e _ _ hne _ => exact none_ok _ hne hgood
    | results ev a c e out L' h1 h2 h3 h4 h5 h6 _ h8 =>
      obtain ⟨f1, f2⟩ := outputs_fresh r1 h8
      have key : e = RDEOK → ∃ ptr', c.op = .results ptr' ∧
          out.rw.map Buf.data = (if ptr'.rw then some (dimList s a a.width a.xresult) else none) ∧
          out.rh.map Buf.data = (if ptr'.rh then some (dimList s a a.height a.yresult) else none) ∧
          out.cw = ((out.rw.map Buf.data).map List.length).getD 0 ∧
          out.ch = ((out.rh.map Buf.data).map List.length).getD 0 := by
        rintro rfl
        obtain ⟨ptr', k1, _, _, _, _, k2, k3, k4, k5⟩ := results_obs hs (reach_inv hs hm hp h1).good h3 h5
        exact ⟨ptr', k1, k2, k3, k4, k5⟩
      refine ⟨h6, ?_, ?_, f1, f2, hgood⟩
      · intro he
        obtain ⟨ptr', k1, k2, _, k4, _⟩ := key he
        rw [h4] at k1
        cases k1
        refine ⟨?_, k4⟩
        cases hq : ptr.rw <;> rw [hq] at k2 <;> cases hx : out.rw <;> rw [hx] at k2 <;> simp at k2 ⊢
      · intro he
        obtain ⟨ptr', k1, _, k3, _, k5⟩ := key he
        rw [h4] at k1
        cases k1
        refine ⟨?_, k5⟩
        cases hq : ptr.rh <;> rw [hq] at k3 <;> cases hx : out.rh <;> rw [hx] at k3 <;> simp at k3 ⊢

/-- A width array requested without its count. -/
example : ∃ e out wd', resdetect Demo.sys (some Demo.image) 1 4 2 ⟨true, false, true, true⟩ none none Demo.w0 =
    some ((e, out), wd') ∧ Outputs ⟨true, false, true, true⟩ e out Demo.w0 wd' :=
  C16_resdetect_outputs Demo.sys_build Demo.none_method (Demo.none_valid _)
    (by rintro im h; cases h; exact ⟨by decide +kernel, by decide +kernel⟩) _ Demo.w0_wf

/-- **C17** `resdet_create_analysis` is defined, returns NULL exactly with an error, and the error is the expected one
unless it is RDENOMEM and an allocation failed (some entry of the schedule says so, or a score array would exceed
`SIZE_MAX` bytes). -/
theorem C17_create_outcome (hs : Build s) (hm : ValidMethod? m) (hp : ValidParams? s.cfg p) {wd : World} (hwd : wd.WF) :
    ∃ oa e wd', createAnalysis s m w h p wd = some ((oa, e), wd') ∧ (oa = none ↔ e ≠ RDEOK) ∧
      (e = expected s w h ∨ e = RDENOMEM ∧ ((∃ j, wd.sched j = false) ∨
        ∃ side, (side = w ∨ side = h) ∧
          s.cfg.sizeMax < (side - 2 * (effParams s.cfg (effMethod m) p).range) * s.cfg.szInter)) := by
  obtain ⟨⟨oa, e⟩, w2, L', e1, r1, q⟩ := createAnalysis_tri
    (F := (∃ j, wd.sched j = false) ∨ ScoresTooBig s.cfg w h (effParams s.cfg (effMethod m) p).range)
    (L := []) hs hm hp (w := w) (h := h) Or.inr wd wd (Rel.init hwd (fun j hj => Or.inl ⟨j, hj⟩))
  refine ⟨oa, e, w2, e1, ?_, ?_⟩
  · cases q <;> simp [RDEOK, RDEINVAL, RDETOOBIG, RDEINTERNAL, RDENOMEM]
  · cases q with
    | ok a L' hf _ h1 h2 h3 =>
      left
      have hg := hf.good
      have g1 := hg.width_pos
      have g2 := hg.height_pos
      have g3 := hg.pixels
      have g4 := hg.bytes
      rw [hf.width] at g1 g3 g4
      rw [hf.height] at g2 g3 g4
      unfold expected
      rw [if_neg (by omega), if_neg (by omega), if_neg]
      rintro ⟨b, hb⟩
      rw [h3 b] at hb
      cases hb
    | zero h => left; unfold expected; rw [if_pos h]
    | toobig h1 h2 h3 =>
      left
      unfold expected
      rw [if_neg (by omega), if_pos]
      rcases h3 with h3 | h3
      · unfold Fits at h3
        by_cases hx : w * h ≤ s.cfg.pixelMax
        · have : ¬ w * h * s.cfg.szCoeff ≤ s.cfg.sizeMax := fun h => h3 ⟨hx, h⟩
          omega
        · omega
      · omega
    | internal h1 h2 h3 h4 h5 h6 h7 =>
      left
      obtain ⟨f1, f2⟩ := h3
      unfold expected
      rw [if_neg (by omega), if_neg (by omega), if_pos ⟨h6, h7⟩]
    | nomem L' h =>
      right
      refine ⟨rfl, ?_⟩
      rcases h with hx | hx
      · exact Or.inl hx
      · right
        rcases hx with hx | hx
        · exact ⟨w, Or.inl rfl, hx⟩
        · exact ⟨h, Or.inr rfl, hx⟩

/-- With KISS FFT on LP64, sides of INT_MAX/3 + 1 are too big. -/
example : expected Demo.sysK (2 ^ 31 / 3 + 1) 1 = RDETOOBIG ∧ expected Demo.sysK 4 0 = RDEINVAL ∧
    expected Demo.sysK 4 2 = RDEOK := by decide +kernel

example : ∃ oa e wd', createAnalysis Demo.sysK none 4 2 none { Demo.w0 with sched := fun k => k != 5 } = some ((oa, e), wd') ∧
    (oa = none ↔ e ≠ RDEOK) ∧ (e = expected Demo.sysK 4 2 ∨ e = RDENOMEM) := by
  obtain ⟨oa, e, wd', h1, h2, h3⟩ := C17_create_outcome (w := 4) (h := 2) (wd := { Demo.w0 with sched := fun k => k != 5 }) Demo.sysK_build Demo.none_method (Demo.none_valid _) ⟨by simp [Demo.w0], by simp [Demo.w0], by simp [Demo.w0], by simp [Demo.w0]⟩
  exact ⟨oa, e, wd', h1, h2, h3.imp id And.left⟩

/-- **C18** The size check is exact. -/
theorem C18_limit_exact (c : Cfg) (w h n e : ℕ) (he : 0 < e) :
    dimsExceedLimit c w h n e = true ↔
      w = 0 ∨ h = 0 ∨ n = 0 ∨ w * h * n > c.pixelMax ∨ w * h * n * e > c.sizeMax := by
  have := dimsExceedLimit_false (c := c) (w := w) (h := h) (n := n) he
  rw [← Bool.not_eq_false, this]
  omega

/-- **C18** Once it accepts, no `size_t` product formed from the dimensions, in any of the orders the code uses, wraps, nor
does the index of any sample of any frame. -/
theorem C18_no_wrap (c : Cfg) (w h n e : ℕ) (he : 0 < e) (hok : dimsExceedLimit c w h n e = false) :
    c.sz (w * h) = w * h ∧ c.sz (c.sz (e * w) * h) = e * w * h ∧ c.sz (c.sz (c.sz (w * h) * n) * e) = w * h * n * e ∧
    c.sz (c.sz (c.sz (n * w) * h) * e) = n * w * h * e ∧
    ∀ i y x, i < n → y < h → x < w → c.sz (c.sz (c.sz (i * w) * h) + c.sz (c.sz (y * w) + x)) = (i * h + y) * w + x ∧
      (i * h + y) * w + x < w * h * n := by
  obtain ⟨hw, hh, hn, hp, hb⟩ := (dimsExceedLimit_false he).mp hok
  have m1 : ∀ k, k ≤ w * h * n * e → c.sz k = k := fun k hk => Cfg.sz_eq (le_trans hk hb)
  have hA : w * h * n ≤ w * h * n * e := Nat.le_mul_of_pos_right _ he
  have hB : w * h ≤ w * h * n := Nat.le_mul_of_pos_right _ hn
  have hC : e * w ≤ w * h * n * e := by
    calc e * w = w * e := Nat.mul_comm _ _
      _ ≤ w * h * n * e := Nat.mul_le_mul_right _ (by rw [Nat.mul_assoc]; exact Nat.le_mul_of_pos_right _ (Nat.mul_pos hh hn))
  have hD : e * w * h ≤ w * h * n * e := by
    calc e * w * h = w * h * e := by ring
      _ ≤ w * h * n * e := Nat.mul_le_mul_right _ hB
  have hE : n * w ≤ w * h * n := by
    calc n * w = w * n := Nat.mul_comm _ _
      _ ≤ w * h * n := Nat.mul_le_mul_right _ (Nat.le_mul_of_pos_right _ hh)
  have hG : n * w * h = w * h * n := by ring
  refine ⟨m1 _ (le_trans hB hA), ?_, ?_, ?_, ?_⟩
  · rw [m1 _ hC, m1 _ hD]
  · rw [m1 _ (le_trans hB hA), m1 _ hA, m1 _ le_rfl]
  · rw [m1 _ (le_trans hE hA), hG, m1 _ hA, m1 _ le_rfl]
  · intro i y x hi hy hx
    have h1 : (i * h + y) * w + x < w * h * n := by
      have a1 : i * h + y + 1 ≤ n * h := by
        calc i * h + y + 1 ≤ i * h + h := by omega
          _ = (i + 1) * h := by ring
          _ ≤ n * h := Nat.mul_le_mul_right _ hi
      calc (i * h + y) * w + x < (i * h + y) * w + w := by omega
        _ = (i * h + y + 1) * w := by ring
        _ ≤ n * h * w := Nat.mul_le_mul_right _ a1
        _ = w * h * n := by ring
    have e1 : (i * h + y) * w + x = i * w * h + (y * w + x) := by ring
    have e2 : i * w ≤ i * w * h := Nat.le_mul_of_pos_right _ hh
    refine ⟨?_, h1⟩
    rw [e1] at h1 ⊢
    rw [m1 (i * w) (by omega), m1 (i * w * h) (by omega), m1 (y * w) (by omega), m1 (y * w + x) (by omega), m1 _ (by omega)]

example : dimsExceedLimit (lp64 .fftw) 4000 3000 10 4 = false ∧ dimsExceedLimit (lp64 .fftw) (2 ^ 40) (2 ^ 22) 1 4 = true := by
  decide +kernel

/-- **C19** Nothing undefined happens: every legal call on every analysis the library can create is defined (array accesses
outside an array, accesses to freed memory, and counters that overflow or never end have no outcome in the model); so are
creation and destruction. -/
theorem C19_defined (hs : Build s) (hm : ValidMethod? m) (hp : ValidParams? s.cfg p) :
    (∀ wd : World, wd.WF → (createAnalysis s m w h p wd).isSome) ∧
    ∀ ev a, Reach s m w h p ev a →
      (∀ c, Legal a c → (step s a c).isSome) ∧
      (∀ wd : World, wd.WF → (∀ b ∈ owned a, b ∈ wd.live) → (destroyAnalysis (some a) wd).isSome) := by
  refine ⟨fun wd hwd => ?_, fun ev a hr => ⟨fun c hc => ?_, fun wd hwd hl => ?_⟩⟩
  · obtain ⟨oa, e, wd', h1, _⟩ := C17_create_outcome hs hm hp (w := w) (h := h) hwd
    rw [h1]; rfl
  · obtain ⟨o, a', h1, _⟩ := step_cases hs (reach_inv hs hm hp hr).good hc
    rw [h1]; rfl
  · have hnd := reach_blocks hs hm hp hr
    obtain ⟨_, w', L', h1, _⟩ := destroyAnalysis_tri (F := True) (R := []) (a := a) (L := a.blocks) (by simp) _ _
      (Rel.part hwd hnd (fun b hb => hl b (blocks_owned b hb)))
    rw [h1]; rfl

/-- A 700 by 500 image on the KISS build, any memory state. -/
example (wd : World) (hwd : wd.WF) : (createAnalysis Demo.sysK none 700 500 none wd).isSome :=
  (C19_defined Demo.sysK_build Demo.none_method (Demo.none_valid _)).1 wd hwd

/-- The same blocks are live. -/
def SameHeap (wd wd' : World) : Prop := ∀ b, b ∈ wd'.live ↔ b ∈ wd.live

/-- **C20** (partial) A failing `resdet_create_analysis` releases everything it allocated, on every allocation schedule.
Missing: the KISS backend with width different from height, for which this is false, see `C20_fails`. -/
theorem C20_create_failure_partial (hs : Build s) (hm : ValidMethod? m) (hp : ValidParams? s.cfg p)
    (hb : s.cfg.backend = .fftw ∨ w = h) {wd wd' : World} (hwd : wd.WF) {e : RDError}
    (hc : createAnalysis s m w h p wd = some ((none, e), wd')) : SameHeap wd wd' := by
  obtain ⟨r, w2, L', e1, r1, q⟩ := createAnalysis_tri (F := True) (L := []) hs hm hp (w := w) (h := h) (fun _ => trivial)
    wd wd (Rel.init hwd (fun _ _ => trivial))
  rw [hc] at e1
  cases e1
  have : L' = [] := by
    cases q with
    | zero => rfl
    | toobig => rfl
    | internal => rfl
    | nomem L' _ h =>
      rcases h with h | ⟨h1, h2, _⟩
      · exact h
      · rcases hb with hb | hb
        · rw [hb] at h1; cases h1
        · exact absurd hb h2
  rw [this] at r1
  exact r1.live_eq

/-- A KISS plan for equal sides whose fifth allocation fails. -/
example : ∀ e wd', createAnalysis Demo.sysK none 2 2 none { Demo.w0 with sched := fun k => k != 5 } = some ((none, e), wd') →
    SameHeap { Demo.w0 with sched := fun k => k != 5 } wd' := fun _ _ h =>
  C20_create_failure_partial Demo.sysK_build Demo.none_method (Demo.none_valid _) (Or.inr rfl)
    ⟨by simp [Demo.w0], by simp [Demo.w0], by simp [Demo.w0], by simp [Demo.w0]⟩ h

/-- **C20** is false for the KISS backend: creating a 2 by 1 analysis when the ninth allocation fails returns NULL but
leaves a block behind that nothing refers to. -/
theorem C20_fails : ∃ (s : Sys) (wd wd' : World) (b : ℕ), Build s ∧ wd.WF ∧
    createAnalysis s none 2 1 none wd = some ((none, RDENOMEM), wd') ∧ b ∉ wd.live ∧ b ∈ wd'.live := by
  have h : (createAnalysis Demo.sysK none 2 1 none { Demo.w0 with sched := fun k => k != 8 }).map
      (fun r => (r.1, decide (7 ∈ r.2.live))) = some ((none, RDENOMEM), true) := by decide +kernel
  rw [Option.map_eq_some_iff] at h
  obtain ⟨⟨r, wd'⟩, h1, h2⟩ := h
  simp only [Prod.mk.injEq, decide_eq_true_eq] at h2
  refine ⟨Demo.sysK, { Demo.w0 with sched := fun k => k != 8 }, wd', 7, Demo.sysK_build,
    ⟨by simp [Demo.w0], by simp [Demo.w0], by simp [Demo.w0], by simp [Demo.w0]⟩, ?_, by simp [Demo.w0], h2.2⟩
  rw [h1, h2.1]

/-- **C20** A successful creation adds exactly the blocks the analysis owns; destroying the analysis after any history, in
whatever memory state the program is in by then, releases exactly these (and nothing is released twice, which would be
undefined). -/
theorem C20_create_destroy (hs : Build s) (hm : ValidMethod? m) (hp : ValidParams? s.cfg p) :
    (∀ wd wd' a e, wd.WF → createAnalysis s m w h p wd = some ((some a, e), wd') →
      (∀ b ∈ owned a, b ∉ wd.live) ∧ ∀ b, b ∈ wd'.live ↔ b ∈ wd.live ∨ b ∈ owned a) ∧
    ∀ ev a, Reach s m w h p ev a → ∀ wd : World, wd.WF → (∀ b ∈ owned a, b ∈ wd.live) →
      ∃ wd', destroyAnalysis (some a) wd = some ((), wd') ∧ ∀ b, b ∈ wd'.live ↔ b ∈ wd.live ∧ b ∉ owned a := by
  have hiff : ∀ {a}, Good s a → ∀ b, b ∈ owned a ↔ b ∈ a.blocks := fun hg b => ⟨hg.owned_blocks b, blocks_owned b⟩
  refine ⟨fun wd wd' a e hwd hc => ?_, fun ev a hr wd hwd hl => ?_⟩
  · obtain ⟨r, w2, L', e1, r1, q⟩ := createAnalysis_tri (F := True) (L := []) hs hm hp (w := w) (h := h) (fun _ => trivial)
      wd wd (Rel.init hwd (fun _ _ => trivial))
    rw [hc] at e1
    cases e1
    cases q with
    | ok a L' hf hperm _ _ _ =>
      rw [List.append_nil] at hperm
      refine ⟨fun b hb => (r1.new b (hperm.mem_iff.mpr ((hiff hf.good b).mp hb))).1, fun b => ?_⟩
      rw [r1.live b, hperm.mem_iff, hiff hf.good]
  · have hnd := reach_blocks hs hm hp hr
    have hg := (reach_inv hs hm hp hr).good
    obtain ⟨_, w', L', h1, h2, rfl⟩ := destroyAnalysis_tri (F := True) (R := []) (a := a) (L := a.blocks) (by simp) _ _
      (Rel.part hwd hnd (fun b hb => hl b (blocks_owned b hb)))
    refine ⟨w', h1, fun b => ?_⟩
    rw [h2.live_eq b, hiff hg]
    simp [List.mem_filter]

/-- **C20** Analysing leaves the heap as it was, and collecting results adds exactly the returned arrays. -/
theorem C20_calls (hs : Build s) (hm : ValidMethod? m) (hp : ValidParams? s.cfg p) (hr : Reach s m w h p ev a)
    {wd : World} (hwd : wd.WF) (hl : ∀ b ∈ owned a, b ∈ wd.live) :
    (∀ image : List Fl, w * h ≤ image.length → ∃ r wd', analyzeImage s (some a) (some image) wd = some (r, wd') ∧
      SameHeap wd wd') ∧
    ∀ ptr, ∃ e out a' wd', analysisResults s (some a) ptr wd = some ((e, out, a'), wd') ∧
      ∀ b, b ∈ wd'.live ↔ b ∈ wd.live ∨ out.rw.map Buf.id = some b ∨ out.rh.map Buf.id = some b := by
  have hinv := reach_inv hs hm hp hr
  have hlive : ∀ b ∈ a.blocks, b ∈ wd.live := fun b hb => hl b (blocks_owned b hb)
  refine ⟨fun image hi => ?_, fun ptr => ?_⟩
  · obtain ⟨e, a', w', h1, _, i, j, rfl⟩ := analyze_cases hs.wf hinv.good (image := some image) (w := wd) hlive
      (by rintro _ h; cases h; rw [hinv.width, hinv.height]; exact hi)
    exact ⟨_, _, h1, fun b => Iff.rfl⟩
  · rw [analysisResults_eq hs hinv.good hlive]
    obtain ⟨⟨e, out, oa⟩, wd', L', h1, h2, h3⟩ := resultsProg_tri (F := True) (L := []) (s := s) (a := a) (ptr := ptr)
      wd wd (Rel.init hwd (fun _ _ => trivial))
    have hpe : L'.Perm ((out.rw.map Buf.id).toList ++ (out.rh.map Buf.id).toList) := by
      cases h3 with
      | ok _ _ _ _ _ _ _ h => rw [List.append_nil] at h; exact h
      | param => exact List.Perm.refl _
      | noimg => exact List.Perm.refl _
      | nomem => exact List.Perm.refl _
    refine ⟨_, _, _, _, h1, fun b => ?_⟩
    rw [h2.live b, hpe.mem_iff, List.mem_append, Option.mem_toList, Option.mem_toList]

/-- **C20** (partial) `resdetect` leaves nothing behind but the returned arrays.  Missing: the KISS backend with width
different from height, where a failing creation may leak. -/
theorem C20_resdetect_partial (hs : Build s) (hm : ValidMethod? m) (hp : ValidParams? s.cfg p)
    {n : ℕ} {image : Option (List Fl)}
    (himg : ∀ im, image = some im → im.length ≤ s.cfg.sizeMax ∧ n * (w * h) ≤ im.length) (ptr : Ptrs)
    {wd : World} (hb : s.cfg.backend = .fftw ∨ w = h ∨ (Plenty wd ∧ ¬ HugeScores s w h)) (hwd : wd.WF) :
    ∃ e out wd', resdetect s image n w h ptr m p wd = some ((e, out), wd') ∧
      ∀ b, b ∈ wd'.live ↔ b ∈ wd.live ∨ out.rw.map Buf.id = some b ∨ out.rh.map Buf.id = some b := by
  obtain ⟨⟨e, out⟩, w', L', e1, r1, q⟩ := resdetect_tri (F := (∃ j, wd.sched j = false) ∨ LinesTooBig s.cfg w h) (L := []) hs hm hp (w := w) (h := h) (n := n)
    (image := image) (ptr := ptr) himg Or.inr wd wd (Rel.init hwd (fun j h => Or.inl ⟨j, h⟩))
  refine ⟨e, out, w', e1, fun b => ?_⟩
  have key : L'.Perm ((out.rw.map Buf.id).toList ++ (out.rh.map Buf.id).toList) := by
    rcases q with ⟨h, hL, _⟩ | ⟨hptr, ⟨_, h, hL, _⟩ | ⟨hn, im, him, hd⟩⟩
    · cases h; rw [hL]; exact List.Perm.refl _
    · cases h; rw [hL]; exact List.Perm.refl _
    · cases hd with
      | create e L' hc =>
        have : L' = [] := by
          cases hc with
          | zero => rfl
          | toobig => rfl
          | internal => rfl
          | nomem L' hF h' =>
            rcases h' with h' | ⟨h1, h2, _⟩
            · exact h'
            · rcases hb with hb | hb | ⟨hpl, hsm⟩
              · rw [hb] at h1; cases h1
              · exact absurd hb h2
              · rcases hF with ⟨k, hk⟩ | hl | hl
                · rw [hpl k] at hk; cases hk
                · exact absurd ⟨w, Or.inl rfl, hl⟩ hsm
                · exact absurd ⟨h, Or.inr rfl, hl⟩ hsm
        rw [this]; exact List.Perm.refl _
      | refused => exact List.Perm.refl _
      | results ev a c e out L' h1 h2 h3 h4 h5 h6 _ h8 _ => rw [List.append_nil] at h8; exact h8
  rw [r1.live b, key.mem_iff, List.mem_append, Option.mem_toList, Option.mem_toList]

/-- The whole life of the demonstration analysis. -/
example : ∃ wd', destroyAnalysis (some Demo.analysis1) Demo.w1 = some ((), wd') ∧
    ∀ b, b ∈ wd'.live ↔ b ∈ Demo.w1.live ∧ b ∉ owned Demo.analysis1 :=
  (C20_create_destroy Demo.sys_build Demo.none_method Demo.params_valid).2 _ _ Demo.reach1 _ Demo.w1_wf (by decide)

example : ∃ e out wd', resdetect Demo.sys (some Demo.image) 1 4 2 .all none none { Demo.w0 with sched := fun k => k != 6 } =
    some ((e, out), wd') ∧ ∀ b, b ∈ wd'.live ↔ b ∈ Demo.w0.live ∨ out.rw.map Buf.id = some b ∨ out.rh.map Buf.id = some b :=
  C20_resdetect_partial Demo.sys_build Demo.none_method (Demo.none_valid _)
    (by rintro im h; cases h; exact ⟨by decide +kernel, by decide +kernel⟩) _ (Or.inl rfl)
    ⟨by simp [Demo.w0], by simp [Demo.w0], by simp [Demo.w0], by simp [Demo.w0]⟩

end Verif.Props
