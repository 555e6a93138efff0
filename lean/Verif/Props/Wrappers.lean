import Verif.Proofs.Wrappers

/-! # The functions of the Python and JavaScript bindings that run the detection (C68 to C70) -/

namespace Verif.Props

open Spec

variable {s : Sys} {io : Io} {c : Cfg} {w w1 w2 w' : World} {m : Option Method} {p : Option Params}

/-! ## Python -/

/-- **C68** The exception tells the error code: every code the library returns has its own, with the number of the system error kept. -/
theorem C68_exceptions {e e' : RDError} (he : e < 0 ∨ e ∈ messages.map Prod.fst) (h0 : e ≠ RDEOK) (he' : e' < 0 ∨ e' ∈ messages.map Prod.fst)
    (h0' : e' ≠ RDEOK) : pyException e ≠ .other ∧ (pyException e = pyException e' → e = e') ∧ (e < 0 → pyException e = .os (-e)) := by
  have hk : ∀ e : RDError, (e < 0 ∨ e ∈ messages.map Prod.fst) → e ≠ RDEOK →
      (e < 0 ∧ pyException e = .os (-e)) ∨ (e, pyException e) ∈ [(RDENOMEM, PyExc.memory), (RDEINTERNAL, .internal), (RDEINVAL, .invalid),
        (RDEUNSUPP, .unsupported), (RDETOOBIG, .tooBig), (RDEPARAM, .parameter), (RDENOIMG, .noImages)] := by
    rintro e (h | h) h0
    · left
      refine ⟨h, ?_⟩
      have ne : ∀ k : RDError, 0 ≤ k → e ≠ k := fun k hk h' => absurd (lt_of_lt_of_le h hk) (by rw [h']; exact lt_irrefl _)
      unfold pyException
      rw [if_neg (ne _ (by decide)), if_neg (ne _ (by decide)), if_neg (ne _ (by decide)), if_neg (ne _ (by decide)), if_neg (ne _ (by decide)),
        if_neg (ne _ (by decide)), if_neg (ne _ (by decide)), if_pos h]
    · right
      simp only [messages, List.map_cons, List.map_nil, List.mem_cons, List.not_mem_nil, or_false] at h
      rcases h with rfl | rfl | rfl | rfl | rfl | rfl | rfl | rfl
      · exact absurd rfl h0
      all_goals decide
  have key := hk e he h0
  have key' := hk e' he' h0'
  refine ⟨?_, ?_, ?_⟩
  · rcases key with ⟨_, h⟩ | h
    · rw [h]; simp
    · intro hx
      rw [hx] at h
      simp at h
  · intro hx
    rcases key with ⟨_, h⟩ | h <;> rcases key' with ⟨_, h'⟩ | h'
    · rw [h, h'] at hx
      exact neg_injective (PyExc.os.inj hx)
    · rw [← hx, h] at h'; simp at h'
    · rw [hx, h'] at h; simp at h
    · rw [hx] at h
      generalize pyException e' = x at h h'
      simp only [List.mem_cons, Prod.mk.injEq, List.not_mem_nil, or_false] at h h'
      rcases h with ⟨rfl, rfl⟩ | ⟨rfl, rfl⟩ | ⟨rfl, rfl⟩ | ⟨rfl, rfl⟩ | ⟨rfl, rfl⟩ | ⟨rfl, rfl⟩ | ⟨rfl, rfl⟩ <;> exact Eq.symm (by simpa using h')
  · intro h
    rcases key with ⟨_, h1⟩ | h1
    · exact h1
    · simp only [List.mem_cons, Prod.mk.injEq, List.not_mem_nil, or_false] at h1
      rcases h1 with ⟨rfl, _⟩ | ⟨rfl, _⟩ | ⟨rfl, _⟩ | ⟨rfl, _⟩ | ⟨rfl, _⟩ | ⟨rfl, _⟩ | ⟨rfl, _⟩ <;> exact absurd h (by decide)

example : pyException (-2) = .os 2 ∧ pyException RDETOOBIG = .tooBig ∧ ((-2 : RDError) < 0) ∧ RDETOOBIG ∈ messages.map Prod.fst := by decide

theorem still {w w' : World} (h : ∀ j, w'.sched j = false → ∃ j, w.sched j = false) (hp : Plenty w) : Plenty w' := by
  intro j
  by_contra hj
  obtain ⟨k, hk⟩ := h j (by simpa using hj)
  rw [hp k] at hk
  cases hk

/-- **C68** `resdetect`: an exception for unknown keys; otherwise the library is called with the parameters of C51, its lists are returned
or an exception is raised for its error, whichever allocations fail, and the heap is what it was. -/
theorem C68_resdetect (hs : Build s) (hm : ValidMethod? m) {image : Option (List Fl)} {n W H : ℤ} {d : PyDict}
    (hb : s.cfg.backend = .fftw ∨ pySize s.cfg W = pySize s.cfg H ∨ (Plenty w ∧ ¬ HugeScores s (pySize s.cfg W) (pySize s.cfg H)))
    (himg : ∀ im, image = some im → im.length ≤ s.cfg.sizeMax ∧ pySize s.cfg n * (pySize s.cfg W * pySize s.cfg H) ≤ im.length) (hw : w.WF) :
    (d.unknown = true → pyResdetect s image n W H m d w = some (.raised none, w)) ∧
    (d.unknown = false → ∃ q w1 v w2 w', pyParameters s.cfg d w = some (.ok q, w1) ∧
      resdetect s image (pySize s.cfg n) (pySize s.cfg W) (pySize s.cfg H) .all m (q.map Prod.snd) w1 = some (v, w2) ∧
      pyResdetect s image n W H m d w = some (answer v, w') ∧ SameHeap w w') := by
  constructor
  · intro hd
    unfold pyResdetect
    rw [M.bind_some ((C51_python_partial (c := s.cfg) (w := w)).1 hd)]; rfl
  · intro hd
    obtain ⟨q, w1, h1, h2, h3⟩ := pyParameters_own (F := ∃ j, w.sched j = false) hs hd hw (fun j h => ⟨j, h⟩)
    obtain ⟨v, w2, h4, h5⟩ := resdetect_called hs hm h2 (hb.imp_right (Or.imp_right (And.imp_left (still h3.sched)))) himg h3.wf
    obtain ⟨w', h6, h7⟩ := pyFinish_run h3 h5
    refine ⟨q, w1, v, w2, w', h1, h4, ?_, h7.same.1⟩
    unfold pyResdetect
    rw [M.bind_some h1]
    exact (M.bind_some h4).trans h6

example : Build Demo.sys ∧ ValidMethod? none ∧ Demo.sys.cfg.backend = .fftw ∧ Demo.w0.WF ∧ Demo.image.length ≤ Demo.sys.cfg.sizeMax ∧
    pySize Demo.sys.cfg 1 * (pySize Demo.sys.cfg 4 * pySize Demo.sys.cfg 2) ≤ Demo.image.length ∧
    (pyResdetect Demo.sys (some Demo.image) 1 4 2 none Demo.dict Demo.w0).map (fun r => (r.1, r.2.live)) = some (Demo.found, []) :=
  ⟨Demo.sys_build, Demo.none_method, rfl, Demo.w0_wf, by decide +kernel, by decide +kernel, by decide +kernel⟩

/-- **C68** `resdetect_file`, whenever the library function itself is defined; no file stays open either. -/
theorem C68_file (hio : io.Contract s.cfg) (hs : Build s) (hm : ValidMethod? m) {fn ft : Option (List UInt8)} {fuel : ℕ} {d : PyDict}
    (hb : s.cfg.backend = .fftw) (hw : w.WF) :
    (d.unknown = true → pyResdetectFile s io fuel fn ft m d w = some (.raised none, w)) ∧
    (d.unknown = false → ∃ q w1, pyParameters s.cfg d w = some (.ok q, w1) ∧
      ∀ v w2, resdetectFile s io fuel fn ft .all m (q.map Prod.snd) w1 = some (v, w2) →
        ∃ w', pyResdetectFile s io fuel fn ft m d w = some (answer v, w') ∧ SameHeap w w' ∧ ∀ f, f ∈ w'.files ↔ f ∈ w.files) := by
  constructor
  · intro hd
    unfold pyResdetectFile
    rw [M.bind_some ((C51_python_partial (c := s.cfg) (w := w)).1 hd)]; rfl
  · intro hd
    obtain ⟨q, w1, h1, h2, h3⟩ := pyParameters_own (F := True) hs hd hw (fun _ _ => trivial)
    refine ⟨q, w1, h1, fun v w2 h4 => ?_⟩
    obtain ⟨g1, g2⟩ := C20_file_partial hio hs hm h2 hb h3.wf h4
    have h5 := file_called hio hs hm h2 h3.wf h4 g1 g2
    obtain ⟨w', h6, h7⟩ := pyFinish_run h3 h5
    refine ⟨w', ?_, h7.same⟩
    unfold pyResdetectFile
    rw [M.bind_some h1]
    exact (M.bind_some h4).trans h6

example : Demo.io.Contract Demo.sys.cfg ∧ Build Demo.sys ∧ ValidMethod? none ∧ Demo.sys.cfg.backend = .fftw ∧ Demo.w0.WF ∧
    (pyResdetectFile Demo.sys Demo.io 3 (some (cs "a.y4m")) none none Demo.dict Demo.w0).map (fun r => (r.1, r.2.live, r.2.files)) =
      some (.ok ([⟨2, .fin true (-1)⟩], [⟨1, .fin true (-1)⟩]), [], []) ∧
    (pyResdetectFile Demo.sys Demo.io 3 (some (cs "x.pgm")) none none Demo.dict Demo.w0).map (fun r => (r.1, r.2.live, r.2.files)) =
      some (.raised (some (-2)), [], []) :=
  ⟨Demo.io_contract _, Demo.sys_build, Demo.none_method, rfl, Demo.w0_wf, by decide +kernel, by decide +kernel⟩

/-- **C68** `analysis_results`, for an analysis after any history and for one that was destroyed. -/
theorem C68_results (hs : Build s) (hm : ValidMethod? m) (hp : ValidParams? s.cfg p) {W H : ℕ} {oa : Option Analysis}
    (hr : ∀ a, oa = some a → ∃ ev, Reach s m W H p ev a) (hw : w.WF) (hl : ∀ a, oa = some a → ∀ b ∈ owned a, b ∈ w.live) :
    ∃ v w2 w', analysisResults s oa .all w = some ((v.1, v.2, oa), w2) ∧ pyResults s oa w = some (answer v, w') ∧ SameHeap w w' ∧
      (oa = none → v.1 = RDEPARAM) := by
  obtain ⟨v, w2, h4, h5⟩ := results_called hs hm hp hr hw hl
  obtain ⟨w', h6, h7⟩ := pyFinish_run (o := none) (Own.init hw (fun _ _ => trivial)) h5
  refine ⟨v, w2, w', h4, ?_, h7.same.1, ?_⟩
  · unfold pyResults
    exact (M.bind_some h4).trans h6
  · rintro rfl
    have : analysisResults s none .all w = some ((RDEPARAM, Out.nothing, none), w) := rfl
    rw [h4] at this
    cases v
    cases this
    rfl

example : Reach Demo.sys none 4 2 (some Demo.params) [(Demo.callA, .analyzed RDEOK)] Demo.analysis1 ∧ Demo.w1.WF ∧
    (∀ b ∈ owned Demo.analysis1, b ∈ Demo.w1.live) ∧
    (pyResults Demo.sys (some Demo.analysis1) Demo.w1).map (fun r => (r.1, r.2.live)) = some (Demo.found, Demo.w1.live) :=
  ⟨Demo.reach1, Demo.w1_wf, by decide, by decide +kernel⟩

/-! ## JavaScript -/

/-- **C69** `resDetect` with parameters the binding accepts: an out of memory error, which happens only if an allocation fails, or what the
library answers; in the latter case the heap is what it was.  Missing: `C69_leaks_fails`, `C51_js_leaks_fails`. -/
theorem C69_resDetect_partial (hs : Build s) (hm : ValidMethod? m) {v : JsConv} {image : List Fl} {n W H : Fl} {d : JsObject}
    (hb : s.cfg.backend = .fftw ∨ v.size W = v.size H ∨ (Plenty w ∧ ¬ HugeScores s (v.size W) (v.size H))) (hv : ∀ x, v.size x ≤ s.cfg.sizeMax)
    (hlen : image.length * 4 ≤ s.cfg.sizeMax) (himg : v.size n * (v.size W * v.size H) ≤ image.length) (hw : w.WF)
    {q : Option (ℕ × Params)} (hq : jsParameters s.cfg v d w = some (.ok q, w1)) :
    ∃ r w', jsResDetect s v image n W H m d w = some (r, w') ∧
      ((r = .raised none ∧ ∃ j, w.sched j = false) ∨
       (SameHeap w w' ∧ ∃ wc o w2, wc.WF ∧ (Plenty w → Plenty wc) ∧ resdetect s (some image) (v.size n) (v.size W) (v.size H) .all m (q.map Prod.snd) wc = some (o, w2) ∧
        r = answer o)) := by
  obtain ⟨g1, g2⟩ := jsParameters_own hs hv hw (F := ∃ j, w.sched j = false) (fun j h => ⟨j, h⟩) hq
  unfold jsResDetect
  rw [M.bind_some hq]
  simp only
  rw [if_pos hlen]
  have hn : (need (some ()) : M Unit) w1 = some ((), w1) := rfl
  rw [M.bind_some hn]
  obtain ⟨o1, x1, a1, b1, c1⟩ := malloc_own g2
  rw [M.bind_some a1]
  cases o1 with
  | none => exact ⟨_, _, rfl, Or.inl ⟨rfl, c1 rfl⟩⟩
  | some buf =>
    simp only
    obtain ⟨o2, x2, a2, b2, c2⟩ := malloc_own b1
    obtain ⟨o3, x3, a3, b3, c3⟩ := malloc_own b2
    obtain ⟨o4, x4, a4, b4, c4⟩ := malloc_own b3
    obtain ⟨o5, x5, a5, b5, c5⟩ := malloc_own b4
    rw [M.bind_some a2, M.bind_some a3, M.bind_some a4, M.bind_some a5]
    by_cases hc : (!(o2.isSome && o3.isSome && o4.isSome && o5.isSome)) = true
    · rw [if_pos hc]
      refine ⟨_, _, rfl, Or.inl ⟨rfl, ?_⟩⟩
      cases o2 with
      | none => exact c2 rfl
      | some _ => cases o3 with
        | none => exact c3 rfl
        | some _ => cases o4 with
          | none => exact c4 rfl
          | some _ => cases o5 with
            | none => exact c5 rfl
            | some _ => simp at hc
    · rw [if_neg hc]
      obtain ⟨o, w2, h4, h5⟩ := resdetect_called hs hm g1 (hb.imp_right (Or.imp_right (And.imp_left (still b5.sched)))) (image := some image) (n := v.size n) (by rintro im h; cases h; exact ⟨by omega, himg⟩) b5.wf
      rw [M.bind_some h4]
      have ow := b5.called h5
      obtain ⟨r, w', L', S', h6, h7, rfl, rfl, rfl⟩ := Act.run (f := do
          free (q.map Prod.fst)
          free (some buf)
          jsCollect o2 o3 o4 o5 o.1 o.2) (Q := fun r L' S' => r = answer o ∧ L' = [] ∧ S' = []) (by
        refine Act.bind (Act.freeOpt (R := buf :: (lists o ++ (o4.toList ++ (o5.toList ++ (o2.toList ++ (o3.toList ++ [])))))) ?_) ?_
        · simp only [Option.toList_some]
          perm_count
        · rintro _ _ _ ⟨rfl, rfl⟩
          refine Act.bind (Act.free (List.Perm.refl _)) ?_
          rintro _ _ _ ⟨rfl, rfl⟩
          exact jsCollect_act h5) ow
      exact ⟨_, w', h6, Or.inr ⟨h7.same.1, _, o, w2, b5.wf, still b5.sched, h4, rfl⟩⟩

example : (jsParameters Demo.sys.cfg Demo.conv Demo.obj Demo.w0).map Prod.fst = some (.ok (some (0, Demo.params))) ∧
    (∀ x, Demo.conv.size x ≤ Demo.sys.cfg.sizeMax) ∧ Demo.image.length * 4 ≤ Demo.sys.cfg.sizeMax ∧
    Demo.conv.size (.fin false 1) * (Demo.conv.size (.fin false 4) * Demo.conv.size (.fin false 2)) ≤ Demo.image.length ∧
    (jsResDetect Demo.sys Demo.conv Demo.image (.fin false 1) (.fin false 4) (.fin false 2) none Demo.obj Demo.w0).map (fun r => (r.1, r.2.live)) =
      some (Demo.found, []) :=
  ⟨by decide +kernel, Demo.conv_size, by decide +kernel, by decide +kernel, by decide +kernel⟩

/-- **C69** `analysisResults`, likewise, for an analysis after any history. -/
theorem C69_results_partial (hs : Build s) (hm : ValidMethod? m) (hp : ValidParams? s.cfg p) {W H : ℕ} {ev : List (Call × Obs)} {a : Analysis}
    (hr : Reach s m W H p ev a) (hw : w.WF) (hl : ∀ b ∈ owned a, b ∈ w.live) :
    ∃ r w', jsResults s a w = some (r, w') ∧
      ((r = .raised none ∧ ∃ j, w.sched j = false) ∨
       (SameHeap w w' ∧ ∃ wc o w2, analysisResults s (some a) .all wc = some ((o.1, o.2, some a), w2) ∧ r = answer o)) := by
  unfold jsResults
  obtain ⟨o2, x2, a2, b2, c2⟩ := malloc_own (Own.init hw (F := ∃ j, w.sched j = false) (fun j h => ⟨j, h⟩))
  obtain ⟨o3, x3, a3, b3, c3⟩ := malloc_own b2
  obtain ⟨o4, x4, a4, b4, c4⟩ := malloc_own b3
  obtain ⟨o5, x5, a5, b5, c5⟩ := malloc_own b4
  rw [M.bind_some a2, M.bind_some a3, M.bind_some a4, M.bind_some a5]
  by_cases hc : (!(o2.isSome && o3.isSome && o4.isSome && o5.isSome)) = true
  · rw [if_pos hc]
    refine ⟨_, _, rfl, Or.inl ⟨rfl, ?_⟩⟩
    cases o2 with
    | none => exact c2 rfl
    | some _ => cases o3 with
      | none => exact c3 rfl
      | some _ => cases o4 with
        | none => exact c4 rfl
        | some _ => cases o5 with
          | none => exact c5 rfl
          | some _ => simp at hc
  · rw [if_neg hc]
    obtain ⟨o, w2, h4, h5⟩ := results_called hs hm hp (oa := some a) (by rintro _ h; cases h; exact ⟨ev, hr⟩) b5.wf
      (by rintro _ h; cases h; exact fun b hb => (b5.live b).mpr (Or.inl (hl b hb)))
    rw [M.bind_some h4]
    have ow := b5.called h5
    obtain ⟨r, w', L', S', h6, h7, rfl, rfl, rfl⟩ := Act.run (f := jsCollect o2 o3 o4 o5 o.1 o.2)
      (Q := fun r L' S' => r = answer o ∧ L' = [] ∧ S' = []) (Act.of_perm (jsCollect_act (L := []) h5) (by perm_count) (List.Perm.refl _)) ow
    exact ⟨_, w', h6, Or.inr ⟨h7.same.1, _, o, w2, h4, rfl⟩⟩

example : (jsResults Demo.sys Demo.analysis1 Demo.w1).map (fun r => (r.1, r.2.live)) = some (Demo.found, Demo.w1.live) := by decide +kernel

/-- **C69** The constructor of `Analysis`, likewise; with an analysis, exactly its own blocks are added to the heap. -/
theorem C69_analysis_partial (hs : Build s) (hm : ValidMethod? m) {v : JsConv} {W H : Fl} {d : JsObject}
    (hb : s.cfg.backend = .fftw ∨ v.size W = v.size H) (hv : ∀ x, v.size x ≤ s.cfg.sizeMax) (hw : w.WF)
    {q : Option (ℕ × Params)} (hq : jsParameters s.cfg v d w = some (.ok q, w1)) :
    ∃ r w', jsAnalysis s v m W H d w = some (r, w') ∧
      ((r = .raised none ∧ ∃ j, w.sched j = false) ∨
       ∃ wc w2 oa e, wc.WF ∧ createAnalysis s m (v.size W) (v.size H) (q.map Prod.snd) wc = some ((oa, e), w2) ∧
        ((oa = none ∧ e ≠ RDEOK ∧ r = .raised (some e) ∧ SameHeap w w') ∨
         ∃ a, oa = some a ∧ e = RDEOK ∧ r = .ok (some a) ∧ ∀ b, b ∈ w'.live ↔ b ∈ w.live ∨ b ∈ owned a)) := by
  obtain ⟨g1, g2⟩ := jsParameters_own hs hv hw (F := ∃ j, w.sched j = false) (fun j h => ⟨j, h⟩) hq
  unfold jsAnalysis
  rw [M.bind_some hq]
  simp only
  obtain ⟨o1, x1, a1, b1, c1⟩ := malloc_own g2
  rw [M.bind_some a1]
  cases o1 with
  | none => exact ⟨_, _, rfl, Or.inl ⟨rfl, c1 rfl⟩⟩
  | some errp =>
    simp only
    obtain ⟨⟨oa, e⟩, x2, L2, S2, h1, h2, rfl, h3⟩ := Act.run (Act.ofTri (createAnalysis_tri (F := True) hs hm g1 (w := v.size W) (h := v.size H) (fun _ => trivial)))
      b1.anyway
    rw [M.bind_some h1]
    have clean : ∀ (X : List ℕ) (r : Raises (Option Analysis)), L2.Perm (X ++ ((some errp).toList ++ (q.map Prod.fst).toList)) → (do
        free (q.map Prod.fst)
        free (some errp)
        if e ≠ 0 then return .raised (some e)
        else return .ok oa : M (Raises (Option Analysis))) = (do free (q.map Prod.fst); free (some errp); return r) →
        ∃ w', (do
        free (q.map Prod.fst)
        free (some errp)
        if e ≠ 0 then return .raised (some e)
        else return .ok oa : M (Raises (Option Analysis))) x2 = some (r, w') ∧ Own True w X [] w' := by
      intro X r hX heq
      rw [heq]
      obtain ⟨r', w', L', S', h6, h7, rfl, rfl, rfl⟩ := Act.run (f := do free (q.map Prod.fst); free (some errp); return r)
        (Q := fun r' L' S' => r' = r ∧ L' = X ∧ S' = []) (by
          refine Act.bind (Act.freeOpt (R := errp :: X) (hX.trans (by simp only [Option.toList_some]; perm_count))) ?_
          rintro _ _ _ ⟨rfl, rfl⟩
          refine Act.bind (Act.free (List.Perm.refl _)) ?_
          rintro _ _ _ ⟨rfl, rfl⟩
          exact Act.pure ⟨rfl, rfl, rfl⟩) h2
      exact ⟨w', h6, h7⟩
    have fail : e ≠ RDEOK → oa = none → L2 = (some errp).toList ++ (q.map Prod.fst).toList → ∃ r w', (do
        free (q.map Prod.fst)
        free (some errp)
        if e ≠ 0 then return .raised (some e)
        else return .ok oa : M (Raises (Option Analysis))) x2 = some (r, w') ∧ ((r = .raised none ∧ ∃ j, w.sched j = false) ∨
       ∃ wc w2 oa e, wc.WF ∧ createAnalysis s m (v.size W) (v.size H) (q.map Prod.snd) wc = some ((oa, e), w2) ∧
        ((oa = none ∧ e ≠ RDEOK ∧ r = .raised (some e) ∧ SameHeap w w') ∨
         ∃ a, oa = some a ∧ e = RDEOK ∧ r = .ok (some a) ∧ ∀ b, b ∈ w'.live ↔ b ∈ w.live ∨ b ∈ owned a)) := by
      intro he ho hL
      obtain ⟨w', k1, k2⟩ := clean [] (.raised (some e)) (by rw [hL]; exact List.Perm.refl _) (by rw [if_pos (show e ≠ 0 from he)])
      exact ⟨_, w', k1, Or.inr ⟨x1, x2, oa, e, b1.wf, h1, Or.inl ⟨ho, he, rfl, k2.same.1⟩⟩⟩
    cases h3 with
    | ok a L' hf hperm _ _ _ =>
      obtain ⟨w', k1, k2⟩ := clean a.blocks (.ok (some a)) hperm (by rw [if_neg (by decide)])
      exact ⟨_, w', k1, Or.inr ⟨x1, x2, some a, RDEOK, b1.wf, h1, Or.inr ⟨a, rfl, rfl, rfl, fun b => by
        rw [k2.live b]
        exact or_congr Iff.rfl ⟨blocks_owned b, hf.good.owned_blocks b⟩⟩⟩⟩
    | zero => exact fail (by decide) rfl rfl
    | toobig => exact fail (by decide) rfl rfl
    | internal => exact fail (by decide) rfl rfl
    | nomem L' _ h =>
      refine fail (by decide) rfl ?_
      rcases h with h | ⟨h1, h2, _⟩
      · exact h
      · rcases hb with hb | hb
        · rw [hb] at h1; cases h1
        · exact absurd hb h2

example : (jsAnalysis Demo.sys Demo.conv none (.fin false 4) (.fin false 2) Demo.obj Demo.w0).map (fun r => r.2.live) = some [6, 5, 4, 3, 2] ∧
    (jsAnalysis Demo.sys Demo.conv none (.fin false 4) (.fin false 0) Demo.obj Demo.w0).map (fun r => (r.1, r.2.live)) =
      some (.raised (some RDEINVAL), []) :=
  ⟨by decide +kernel, by decide +kernel⟩

/-- **C69** `analyzeImage` leaves the heap as it was, whichever allocation fails; without an out of memory error it does what the library does. -/
theorem C69_analyze (hs : Build s) (hm : ValidMethod? m) (hp : ValidParams? s.cfg p) {W H : ℕ} {ev : List (Call × Obs)} {a : Analysis}
    (hr : Reach s m W H p ev a) (hw : w.WF) (hl : ∀ b ∈ owned a, b ∈ w.live) {image : List Fl} (hlen : image.length * 4 ≤ s.cfg.sizeMax)
    (himg : W * H ≤ image.length) :
    ∃ r a' w', jsAnalyze s a image w = some ((r, a'), w') ∧ SameHeap w w' ∧
      ((r = .raised none ∧ a' = some a ∧ ∃ j, w.sched j = false) ∨
       ∃ wc w2 e, wc.WF ∧ analyzeImage s (some a) (some image) wc = some ((e, a'), w2) ∧ r = if e = RDEOK then .ok () else .raised (some e)) := by
  unfold jsAnalyze
  rw [if_pos hlen]
  have hn : (need (some ()) : M Unit) w = some ((), w) := rfl
  rw [M.bind_some hn]
  obtain ⟨o, x, a1, b1, c1⟩ := malloc_own (Own.init hw (F := ∃ j, w.sched j = false) (fun j h => ⟨j, h⟩))
  rw [M.bind_some a1]
  cases o with
  | none => exact ⟨_, _, _, rfl, b1.same.1, Or.inl ⟨rfl, rfl, c1 rfl⟩⟩
  | some buf =>
    simp only
    have hinv := reach_inv hs hm hp hr
    obtain ⟨e, a', w', h1, _, i, j, rfl⟩ := analyze_cases hs.wf hinv.good (image := some image) (w := x)
      (fun b hb => (b1.live b).mpr (Or.inl (hl b (blocks_owned b hb))))
      (by rintro _ h; cases h; rw [hinv.width, hinv.height]; exact himg)
    rw [M.bind_some h1]
    have ow : Own True w ((some buf).toList ++ []) [] (x.skip i j) := { b1.anyway with next := le_trans b1.next (Nat.le_add_right _ _), new := fun b hb => ⟨(b1.new b hb).1, lt_of_lt_of_le (b1.new b hb).2 (Nat.le_add_right _ _)⟩, snew := by simp, sched := fun _ _ => trivial }
    obtain ⟨_, w2, L', S', h6, h7, rfl, rfl⟩ := Act.run (f := free (some buf)) (Act.free (R := []) (List.Perm.refl _)) ow
    rw [M.bind_some h6]
    by_cases he : e = RDEOK
    · rw [if_neg (by rw [he]; exact fun h => h rfl)]
      exact ⟨_, _, _, rfl, h7.same.1, Or.inr ⟨x, _, e, b1.wf, h1, by rw [if_pos he]⟩⟩
    · rw [if_pos (show e ≠ 0 from he)]
      exact ⟨_, _, _, rfl, h7.same.1, Or.inr ⟨x, _, e, b1.wf, h1, by rw [if_neg he]⟩⟩

example : Demo.image.length * 4 ≤ Demo.sys.cfg.sizeMax ∧ 4 * 2 ≤ Demo.image.length ∧
    (jsAnalyze Demo.sys Demo.analysis1 Demo.image Demo.w1).map (fun r => (r.1.1, r.2.live)) = some (.ok (), Demo.w1.live) :=
  ⟨by decide +kernel, by decide, by decide +kernel⟩

/-- **C69** When the memory for the samples or for the outputs runs out, `resDetect` leaves the parameters behind for good. -/
theorem C69_leaks_fails {v : JsConv} {image : List Fl} {n W H : Fl} {d : JsObject} (hs : Build s) (hv : ∀ x, v.size x ≤ s.cfg.sizeMax)
    (hlen : image.length * 4 ≤ s.cfg.sizeMax) (hw : w.WF) {b : ℕ} {q : Params} (hq : jsParameters s.cfg v d w = some (.ok (some (b, q)), w1))
    (hfail : ∃ j, j < 5 ∧ w1.sched j = false) :
    ∃ w', jsResDetect s v image n W H m d w = some (.raised none, w') ∧ b ∉ w.live ∧ b ∈ w'.live := by
  obtain ⟨g1, g2⟩ := jsParameters_own hs hv hw (F := True) (fun _ _ => trivial) hq
  have hnew : b ∉ w.live := (g2.new b (by simp)).1
  have hsched : ∀ {x x' : World} {o : Option ℕ}, malloc x = some (o, x') → (o.isSome = x.sched 0) ∧ x'.sched = advance x.sched := by
    intro x x' o h
    unfold malloc at h
    split_ifs at h with h1
    · cases h; exact ⟨by rw [h1]; rfl, rfl⟩
    · cases h; exact ⟨by simp at h1; rw [h1]; rfl, rfl⟩
  unfold jsResDetect
  rw [M.bind_some hq]
  simp only
  rw [if_pos hlen]
  have hn : (need (some ()) : M Unit) w1 = some ((), w1) := rfl
  rw [M.bind_some hn]
  obtain ⟨o1, x1, a1, b1, c1⟩ := malloc_own g2
  rw [M.bind_some a1]
  cases o1 with
  | none => exact ⟨_, rfl, hnew, (b1.live b).mpr (Or.inr (by simp))⟩
  | some buf =>
    simp only
    obtain ⟨o2, x2, a2, b2, c2⟩ := malloc_own b1
    obtain ⟨o3, x3, a3, b3, c3⟩ := malloc_own b2
    obtain ⟨o4, x4, a4, b4, c4⟩ := malloc_own b3
    obtain ⟨o5, x5, a5, b5, c5⟩ := malloc_own b4
    rw [M.bind_some a2, M.bind_some a3, M.bind_some a4, M.bind_some a5]
    have hc : (!(o2.isSome && o3.isSome && o4.isSome && o5.isSome)) = true := by
      obtain ⟨k1, e1⟩ := hsched a1
      obtain ⟨k2, e2⟩ := hsched a2
      obtain ⟨k3, e3⟩ := hsched a3
      obtain ⟨k4, e4⟩ := hsched a4
      obtain ⟨k5, e5⟩ := hsched a5
      rw [e1] at k2 e2
      rw [e2] at k3 e3
      rw [e3] at k4 e4
      rw [e4] at k5
      obtain ⟨j, hj, hf⟩ := hfail
      simp only [advance] at k1 k2 k3 k4 k5
      rw [k2, k3, k4, k5]
      interval_cases j
      · rw [hf] at k1; cases k1
      all_goals simp_all
    rw [if_pos hc]
    exact ⟨_, rfl, hnew, (b5.live b).mpr (Or.inr (by simp))⟩

example : (jsParameters Demo.sys.cfg Demo.conv Demo.obj { Demo.w0 with sched := fun k => k != 3 }).map (fun r => (r.1, r.2.sched 2)) =
      some (.ok (some (0, Demo.params)), false) ∧
    (jsResDetect Demo.sys Demo.conv Demo.image (.fin false 1) (.fin false 4) (.fin false 2) none Demo.obj
      { Demo.w0 with sched := fun k => k != 3 }).map (fun r => (r.1, r.2.live)) = some (.raised none, [4, 3, 2, 1, 0]) :=
  ⟨by decide +kernel, by decide +kernel⟩

/-! ## Too few samples -/

theorem load_short {image : List Fl} (hf : ∀ x ∈ image, x.isfinite = true) : ∀ (todo i : ℕ) (f : List Fl), i + todo > image.length →
    i ≤ image.length → loadImage c image todo i f = none
  | 0, i, f, h, h' => by omega
  | todo + 1, i, f, h, h' => by
    unfold loadImage
    by_cases hi : i < image.length
    · have : rd image i = some image[i] := List.getElem?_eq_getElem hi
      rw [this]
      simp only [Option.bind_eq_bind, Option.bind_some]
      rw [if_pos (hf _ (List.getElem_mem hi))]
      cases wr f i (c.coeff.conv image[i]) with
      | none => rfl
      | some g => exact load_short hf todo (i + 1) g (by omega) (by omega)
    · have : rd image i = none := List.getElem?_eq_none (by omega)
      rw [this]; rfl

theorem analyze_short (hs : Build s) (hm : ValidMethod? m) (hp : ValidParams? s.cfg p) {W H : ℕ} {ev : List (Call × Obs)} {a : Analysis}
    (hr : Reach s m W H p ev a) (hl : ∀ b ∈ owned a, b ∈ w.live) {image : List Fl} (hf : ∀ x ∈ image, x.isfinite = true)
    (himg : image.length < W * H) : analyzeImage s (some a) (some image) w = none := by
  have hinv := reach_inv hs hm hp hr
  obtain ⟨fb, hfb, hlen⟩ := hinv.good.f
  obtain ⟨l1, l2⟩ := Good.live (fun b hb => hl b (blocks_owned b hb)) hfb
  unfold analyzeImage
  dsimp only
  rw [M.bind_some (touch_live l1), hfb, M.bind_some (a := fb) (w' := w) rfl, M.bind_some (touch_live l2)]
  rw [hinv.good.total hs.wf, if_neg (by have := hinv.good.pixels; have := hs.wf.pixel_idx; omega),
    load_short hf _ _ _ (by rw [hinv.width, hinv.height]; omega) (by omega)]
  exact M.bind_none rfl

/-- **C70** Enough samples: `analyze_image` of a list is defined. -/
theorem C70_python_partial (hs : Build s) (hm : ValidMethod? m) (hp : ValidParams? s.cfg p) {W H : ℕ} {ev : List (Call × Obs)} {a : Analysis}
    (hr : Reach s m W H p ev a) (hl : ∀ b ∈ owned a, b ∈ w.live) {image : List Fl} (himg : W * H ≤ image.length) :
    ∃ r a' w', pyAnalyzeList s (some a) image w = some ((r, a'), w') := by
  have hinv := reach_inv hs hm hp hr
  obtain ⟨e, a', w', h1, _⟩ := analyze_cases hs.wf hinv.good (image := some (image.map binary32.conv)) (w := w)
    (fun b hb => hl b (blocks_owned b hb)) (by rintro _ h; cases h; rw [hinv.width, hinv.height, List.length_map]; exact himg)
  unfold pyAnalyzeList pyAnalyze
  rw [M.bind_some h1]
  by_cases he : e ≠ 0
  · exact ⟨.raised (some e), _, _, by simp only; rw [if_pos he]; rfl⟩
  · exact ⟨.ok (), _, _, by simp only; rw [if_neg he]; rfl⟩

/-- **C70** The length of a list is not compared with the size of the analysis: fewer samples than that, all finite, and memory is read that
is not part of the list. -/
theorem C70_python_fails (hs : Build s) (hm : ValidMethod? m) (hp : ValidParams? s.cfg p) {W H : ℕ} {ev : List (Call × Obs)} {a : Analysis}
    (hr : Reach s m W H p ev a) (hl : ∀ b ∈ owned a, b ∈ w.live) {image : List Fl} (hf : ∀ x ∈ image, (binary32.conv x).isfinite = true)
    (himg : image.length < W * H) : pyAnalyzeList s (some a) image w = none := by
  unfold pyAnalyzeList pyAnalyze
  refine M.bind_none (analyze_short hs hm hp hr hl ?_ (by rw [List.length_map]; exact himg))
  intro x hx
  obtain ⟨y, hy, rfl⟩ := List.mem_map.mp hx
  exact hf y hy

example : Reach Demo.sys none 4 2 (some Demo.params) [(Demo.callA, .analyzed RDEOK)] Demo.analysis1 ∧
    (∀ b ∈ owned Demo.analysis1, b ∈ Demo.w1.live) ∧ (∀ x ∈ [Fl.fin false 0], (binary32.conv x).isfinite = true) ∧ [Fl.fin false 0].length < 4 * 2 :=
  ⟨Demo.reach1, by decide, by decide +kernel, by decide⟩

/-- **C70** Nor is that of a typed array in JavaScript. -/
theorem C70_js_fails (hs : Build s) (hm : ValidMethod? m) (hp : ValidParams? s.cfg p) {W H : ℕ} {ev : List (Call × Obs)} {a : Analysis}
    (hr : Reach s m W H p ev a) (hw : w.WF) (hl : ∀ b ∈ owned a, b ∈ w.live) {image : List Fl} (hf : ∀ x ∈ image, x.isfinite = true)
    (himg : image.length < W * H) (hplenty : Plenty w) : jsAnalyze s a image w = none := by
  unfold jsAnalyze
  by_cases hlen : image.length * 4 ≤ s.cfg.sizeMax
  · rw [if_pos hlen]
    have hn : (need (some ()) : M Unit) w = some ((), w) := rfl
    rw [M.bind_some hn]
    obtain ⟨o, x, a1, b1, c1⟩ := malloc_own (Own.init hw (F := False) (fun j h => by rw [hplenty j] at h; cases h))
    rw [M.bind_some a1]
    cases o with
    | none => exact (c1 rfl).elim
    | some buf =>
      exact M.bind_none (analyze_short hs hm hp hr (fun b hb => (b1.live b).mpr (Or.inl (hl b hb))) hf himg)
  · rw [if_neg hlen]; rfl

/-- **C70** The same for the functions that take the size as arguments: two samples given as an image of 4 by 2. -/
theorem C70_resdetect_fails :
    pyResdetectList Demo.sys [.fin false 0, .fin false 0] 1 4 2 none {} Demo.w0 = none ∧
    jsResDetect Demo.sys Demo.conv [.fin false 0, .fin false 0] (.fin false 1) (.fin false 4) (.fin false 2) none {} Demo.w0 = none := by
  constructor <;> decide +kernel

end Verif.Props
