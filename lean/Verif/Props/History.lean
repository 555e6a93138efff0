import Verif.Proofs.EraseLemmas
import Verif.Props.Results

/-!
# Sequences of calls on one analysis (C09 to C13)

`run s a cs` executes the calls `cs`; every call carries the memory state it is made in, so the theorems hold whatever
the rest of the program does to memory in between.
-/

namespace Verif.Props

open Spec

variable {s : Sys} {m : Option Method} {p : Option Params} {w h : ℕ} {ev : List (Call × Obs)} {a a' : Analysis}
  {rw rh : Option (List Res)} {cw ch : ℕ}

/-- **C09** A results call, successful or not, can be left out without changing what any other call returns. -/
theorem C09_results_do_not_disturb (hs : Build s) (hm : ValidMethod? m) (hp : ValidParams? s.cfg p)
    (hr : Reach s m w h p ev a) {before after : List Call} {r : Call} (hl : ∀ c ∈ before ++ r :: after, Legal a c)
    {ptr : Ptrs} (hop : r.op = .results ptr) {os : List Obs} (hrun : run s a (before ++ r :: after) = some (os, a')) :
    ∃ b', run s a (before ++ after) = some (os.eraseIdx before.length, b') := by
  have hg := (reach_inv hs hm hp hr).good
  refine run_erase hs hg hl hrun ?_
  intro b b' o hgb hlb _ hstep
  cases step_ok hs hgb hlb hstep with
  | analyze image _ _ hop' => rw [hop] at hop'; cases hop'
  | results =>
    obtain ⟨f, hf, _⟩ := hgb.f
    exact EqF.refl hf

/-- Results between two frames. -/
example : ∃ os a', run Demo.sys Demo.analysis ([Demo.callA] ++ Demo.callR :: [Demo.callA]) = some (os, a') ∧
    ∃ b', run Demo.sys Demo.analysis ([Demo.callA] ++ [Demo.callA]) = some (os.eraseIdx 1, b') := by
  have hl : ∀ c ∈ [Demo.callA] ++ Demo.callR :: [Demo.callA], Legal Demo.analysis c := by
    intro c hc
    simp only [List.singleton_append, List.mem_cons, List.not_mem_nil, or_false] at hc
    rcases hc with rfl | rfl | rfl
    · exact Demo.legalA
    · exact ⟨Demo.w1_wf, by decide, trivial⟩
    · exact Demo.legalA
  obtain ⟨os, a', h, _⟩ := run_defined Demo.sys_build (reach_inv Demo.sys_build Demo.none_method Demo.params_valid
    Demo.reach0).good hl
  exact ⟨os, a', h, C09_results_do_not_disturb Demo.sys_build Demo.none_method Demo.params_valid Demo.reach0 hl
    (ptr := .all) rfl h⟩

/-- **C10** With acceptable pointers a results call returns RDENOIMG if and only if no frame has been analysed
successfully (for up to `SIZE_MAX` frames). -/
theorem C10_noimg_iff (hs : Build s) (hm : ValidMethod? m) (hp : ValidParams? s.cfg p) (hr : Reach s m w h p ev a)
    (hk : (analysed ev).length ≤ s.cfg.sizeMax) {c : Call} (hl : Legal a c) {ptr : Ptrs} (hop : c.op = .results ptr)
    (hw : ptr.rw = true → ptr.cw = true) (hh : ptr.rh = true → ptr.ch = true) {e : RDError}
    (hstep : step s a c = some (.results e rw cw rh ch, a')) : e = RDENOIMG ↔ analysed ev = [] := by
  have hinv := reach_inv hs hm hp hr
  have hcount := hinv.count hk
  have hn : a.nimages = 0 ↔ analysed ev = [] := by rw [hcount, List.length_eq_zero_iff]
  have hbad : ¬ ((ptr.rw && !ptr.cw) || (ptr.rh && !ptr.ch)) := by
    cases h1 : ptr.rw <;> cases h2 : ptr.rh <;> simp_all
  have hk2 := step_ok hs hinv.good hl hstep
  generalize ho : Obs.results e rw cw rh ch = o at hk2
  cases hk2 with
  | analyze => cases ho
  | results ptr' e' out L' hop' hres =>
    rw [hop] at hop'
    cases hop'
    injection ho with h1 _ _ _ _
    subst h1
    rw [← hn]
    cases hres with
    | param h => exact absurd h hbad
    | noimg _ h => exact ⟨fun _ => h, fun _ => rfl⟩
    | nomem _ h => exact ⟨fun h => by simp [RDENOMEM, RDENOIMG] at h, fun h' => absurd h' h⟩
    | ok _ _ _ _ h => exact ⟨fun h => by simp [RDEOK, RDENOIMG] at h, fun h' => absurd h' h⟩

/-- **C10** `resdetect` without frames. -/
theorem C10_resdetect_no_frames (s : Sys) (m : Option Method) (p : Option Params) (image : List Fl) (w h : ℕ) (ptr : Ptrs)
    (hw : ptr.rw = true → ptr.cw = true) (hh : ptr.rh = true → ptr.ch = true) (wd : World) :
    resdetect s (some image) 0 w h ptr m p wd = some ((RDENOIMG, Out.nothing), wd) := by
  have hbad : ¬ ((ptr.rw && !ptr.cw) || (ptr.rh && !ptr.ch)) := by
    cases h1 : ptr.rw <;> cases h2 : ptr.rh <;> simp_all
  unfold resdetect
  rw [if_neg hbad]
  rfl

example : step Demo.sys Demo.analysis { Demo.callR with world := Demo.w1 } =
    some (.results RDENOIMG none 0 none 0, Demo.analysis) := by decide +kernel

example : (RDENOIMG = RDENOIMG ↔ analysed [] = []) :=
  C10_noimg_iff (a' := Demo.analysis) (rw := none) (cw := 0) (rh := none) (ch := 0) Demo.sys_build Demo.none_method
    Demo.params_valid Demo.reach0 (by decide +kernel) (c := Demo.callR) ⟨Demo.w1_wf, by decide, trivial⟩ rfl
    (fun _ => rfl) (fun _ => rfl) (by decide +kernel)

/-- **C11** A frame that was rejected with RDEINVAL or RDEPARAM can be left out without changing what any other call
returns. -/
theorem C11_rejected_frame (hs : Build s) (hm : ValidMethod? m) (hp : ValidParams? s.cfg p)
    (hr : Reach s m w h p ev a) {before after : List Call} {r : Call} (hl : ∀ c ∈ before ++ r :: after, Legal a c)
    {os : List Obs} (hrun : run s a (before ++ r :: after) = some (os, a')) {e : RDError}
    (ho : os[before.length]? = some (.analyzed e)) (he : e = RDEINVAL ∨ e = RDEPARAM) :
    ∃ b', run s a (before ++ after) = some (os.eraseIdx before.length, b') := by
  have hg := (reach_inv hs hm hp hr).good
  refine run_erase hs hg hl hrun ?_
  intro b b' o hgb hlb ho' hstep
  rw [ho] at ho'
  cases ho'
  cases step_ok hs hgb hlb hstep with
  | analyze image _ _ hop' hk =>
    cases hk with
    | param =>
      obtain ⟨f, hf, _⟩ := hgb.f
      exact EqF.refl hf
    | inval im fb f' _ _ hfb hlen => exact EqF.set hfb hlen
    | frame im fb pl f w' _ _ _ _ _ _ _ _ hx =>
      cases hx <;> rcases he with he | he <;> simp [RDEOK, RDENOMEM, RDEINVAL, RDEPARAM] at he

/-- A frame with an infinite sample. -/
def badImage : List Fl := Demo.image.set 5 (.inf false)

example : ∃ b', run Demo.sys Demo.analysis [Demo.callA, Demo.callR] =
    some ([.analyzed RDEINVAL, .analyzed RDEOK,
      .results RDEOK (some Demo.listX) 3 (some [⟨2, .fin true (-1)⟩]) 1].eraseIdx 0, b') := by
  have hl : ∀ c ∈ ([] : List Call) ++ (⟨.analyze (some badImage), Demo.w1⟩ : Call) :: [Demo.callA, Demo.callR],
      Legal Demo.analysis c := by
    intro c hc
    simp only [List.nil_append, List.mem_cons, List.not_mem_nil, or_false] at hc
    rcases hc with rfl | rfl | rfl
    · exact ⟨Demo.w1_wf, by decide, show Demo.analysis.width * Demo.analysis.height ≤ badImage.length by decide⟩
    · exact Demo.legalA
    · exact ⟨Demo.w1_wf, by decide, trivial⟩
  have hrun : run Demo.sys Demo.analysis ([] ++ (⟨.analyze (some badImage), Demo.w1⟩ : Call) :: [Demo.callA, Demo.callR]) =
      some ([.analyzed RDEINVAL, .analyzed RDEOK,
        .results RDEOK (some Demo.listX) 3 (some [⟨2, .fin true (-1)⟩]) 1], Demo.analysis1) := by decide +kernel
  exact C11_rejected_frame (before := []) Demo.sys_build Demo.none_method Demo.params_valid Demo.reach0 hl hrun
    (e := RDEINVAL) rfl (Or.inl rfl)

/-- **C12** Only the orig method can run out of memory while analysing. -/
theorem C12_only_orig (hs : Build s) (hm : ValidMethod? m) (hp : ValidParams? s.cfg p) (hr : Reach s m w h p ev a)
    {c : Call} (hl : Legal a c) (hstep : step s a c = some (.analyzed RDENOMEM, a')) :
    (effMethod m).func = .orig := by
  have hinv := reach_inv hs hm hp hr
  rw [← hinv.method]
  have hk := step_ok hs hinv.good hl hstep
  generalize ho : Obs.analyzed RDENOMEM = o at hk
  cases hk with
  | results => cases ho
  | analyze image e _ _ hk =>
    injection ho with ho
    subst ho
    generalize he : RDENOMEM = e at hk
    cases hk with
    | param => simp [RDENOMEM, RDEPARAM] at he
    | inval => simp [RDENOMEM, RDEINVAL] at he
    | frame im fb pl f w' _ _ _ _ _ _ _ _ hx =>
      cases hx with
      | ok => simp [RDENOMEM, RDEOK] at he
      | nomemX h _ => exact h
      | nomemY h _ => exact h

/-- **C12** (partial) A frame refused for lack of memory leaves no trace if one of the two dimensions is too small to be
analysed.  Missing: images large enough in both dimensions, where the statement is false, see `C12_fails`. -/
theorem C12_oom_frame_partial (hs : Build s) (hm : ValidMethod? m) (hp : ValidParams? s.cfg p)
    (hr : Reach s m w h p ev a)
    (hsmall : w ≤ 2 * (effParams s.cfg (effMethod m) p).range ∨ h ≤ 2 * (effParams s.cfg (effMethod m) p).range)
    {before after : List Call} {r : Call} (hl : ∀ c ∈ before ++ r :: after, Legal a c)
    {os : List Obs} (hrun : run s a (before ++ r :: after) = some (os, a'))
    (ho : os[before.length]? = some (.analyzed RDENOMEM)) :
    ∃ b', run s a (before ++ after) = some (os.eraseIdx before.length, b') := by
  have hinv := reach_inv hs hm hp hr
  have hg := hinv.good
  -- the dimensions do not change in the calls made before
  obtain ⟨o1, a1, e1, g1, l1, k1⟩ := run_defined hs hg (fun c hc => hl c (List.mem_append_left _ hc))
  have hsame : ∀ {cs : List Call} {x y : Analysis} {os : List Obs}, Good s x → (∀ c ∈ cs, Legal x c) →
      run s x cs = some (os, y) → Same x y := by
    intro cs
    induction cs with
    | nil =>
      intro x y os _ _ h
      simp only [run, Option.some.injEq, Prod.mk.injEq] at h
      rw [← h.2]
      exact ⟨rfl, rfl, rfl, rfl, rfl, rfl⟩
    | cons c cs ih =>
      intro x y os hg hl h
      unfold run at h
      simp only [Option.bind_eq_bind, Option.bind_eq_some_iff] at h
      obtain ⟨⟨o, x1⟩, f1, ⟨os', x2⟩, f2, f3⟩ := h
      simp only [Option.pure_def, Option.some.injEq, Prod.mk.injEq] at f3
      obtain ⟨rfl, rfl⟩ := f3
      have hk := step_ok hs hg (hl c (by simp)) f1
      have q1 := hk.same
      have q2 := ih (hk.good hg).1 (fun c' hc' => hk.legal (hl c' (by simp [hc']))) f2
      exact ⟨q2.block.trans q1.block, q2.method.trans q1.method, q2.width.trans q1.width, q2.height.trans q1.height,
        q2.params.trans q1.params, q2.p.trans q1.p⟩
  have q := hsame hg (fun c hc => hl c (List.mem_append_left _ hc)) e1
  rw [← hinv.params, ← q.params] at hsmall
  have hw1 : a1.width = w := q.width.trans hinv.width
  have hh1 : a1.height = h := q.height.trans hinv.height
  -- as in `run_erase`, for the state `a1` only
  rw [run_append] at hrun ⊢
  rw [e1] at hrun ⊢
  simp only [Option.bind_some] at hrun ⊢
  unfold run at hrun
  have lr := k1 r (hl r (by simp))
  obtain ⟨o, a2, e2, hk⟩ := step_cases hs g1 lr
  rw [e2] at hrun
  simp only [Option.bind_eq_bind, Option.bind_some] at hrun
  have hl2 : ∀ c ∈ after, Legal a2 c := fun c hc => hk.legal (k1 c (hl c (by simp [hc])))
  obtain ⟨o3, a3, e3, g3, l3, _⟩ := run_defined hs (hk.good g1).1 hl2
  rw [e3] at hrun
  simp only [Option.bind_some, Option.pure_def, Option.map_some, Option.some.injEq, Prod.mk.injEq] at hrun
  obtain ⟨rfl, rfl⟩ := hrun
  rw [← l1] at ho
  simp only [le_refl, List.getElem?_append_right, Nat.sub_self, List.getElem?_cons_zero,
    Option.some.injEq] at ho
  subst ho
  have hE : EqF a1 a2 := by
    generalize hob : Obs.analyzed RDENOMEM = ob at hk
    cases hk with
    | results => cases hob
    | analyze image e _ _ hk =>
      injection hob with hob
      subst hob
      generalize he : RDENOMEM = e at hk
      cases hk with
      | param => simp [RDENOMEM, RDEPARAM] at he
      | inval => simp [RDENOMEM, RDEINVAL] at he
      | frame im fb pl f w' _ _ _ _ hfb _ hlen _ hx =>
        obtain ⟨fb', hfb', hl'⟩ := g1.f
        rw [hfb] at hfb'
        cases hfb'
        cases hx with
        | ok => simp [RDENOMEM, RDEOK] at he
        | nomemX _ _ => exact EqF.set hfb (by rw [hlen, hl'])
        | nomemY _ hy =>
          rcases hsmall with hsmall | hsmall
          · have hx : a1.xresult = none := by
              have := g1.x
              unfold DimGood at this
              rwa [if_neg (by omega)] at this
            have : addX s a1 fb f = { a1 with f := some { fb with data := f } } := by
              have hu : updBuf s a1.method.func (rows f a1.width) a1.height a1.params.range a1.xresult = a1.xresult := by
                rw [hx]; rfl
              unfold addX; rw [hu]
            rw [this]
            exact EqF.set hfb (by rw [hlen, hl'])
          · exfalso
            apply hy
            have := g1.y
            unfold DimGood at this
            rwa [if_neg (by omega)] at this
  obtain ⟨b3, f3, _⟩ := run_eqF hs (hk.good g1).1 hE.symm hl2 e3
  refine ⟨b3, ?_⟩
  rw [f3]
  simp only [Option.map_some, Option.some.injEq, Prod.mk.injEq, and_true]
  rw [← l1]
  simp [List.eraseIdx_append_of_length_le]

/-- The orig method, used in the counterexample. -/
def origMethod : Method := ⟨"orig", .orig, binary32.deliver false (64 / 100)⟩

/-- Three identical rows 2, 1, -2 (with the identity in place of the transform). -/
def oomImage : List Fl := ([2, 1, -2, 2, 1, -2, 2, 1, -2] : List ℚ).map (fun q => .fin (decide (q < 0)) q)

/-- The 3 by 3 orig analysis just after its creation. -/
def oomAnalysis : Analysis where
  block := 0
  method := origMethod
  width := 3
  height := 3
  nimages := 0
  params := Demo.params
  f := some ⟨1, List.replicate 9 (.fin false 0)⟩
  p := some (.fftw 2 (some 3) 3 3)
  xresult := some ⟨4, [.fin false 0]⟩
  yresult := some ⟨5, [.fin false 0]⟩
  xbound := some (1, 2)
  ybound := some (1, 2)

theorem oom_reach : Reach Demo.sys (some origMethod) 3 3 (some Demo.params) [] oomAnalysis := by
  have h : (createAnalysis Demo.sys (some origMethod) 3 3 (some Demo.params) Demo.w0).map Prod.fst =
      some (some oomAnalysis, RDEOK) := by decide +kernel
  cases h' : createAnalysis Demo.sys (some origMethod) 3 3 (some Demo.params) Demo.w0 with
  | none => rw [h'] at h; cases h
  | some v =>
    obtain ⟨⟨a, e⟩, w⟩ := v
    rw [h'] at h
    cases h
    exact Reach.create Demo.w0_wf h'

/-- The second allocation of a call fails. -/
def oomWorld : World := { Demo.w1 with sched := fun k => k != 1 }

/-- Analyse a frame while memory is short, analyse it again, collect results. -/
def oomCalls : List Call := [⟨.analyze (some oomImage), oomWorld⟩, ⟨.analyze (some oomImage), Demo.w1⟩, Demo.callR]

theorem oom_legal : ∀ c ∈ oomCalls, Legal oomAnalysis c := by
  intro c hc
  simp only [oomCalls, List.mem_cons, List.not_mem_nil, or_false] at hc
  rcases hc with rfl | rfl | rfl
  · exact ⟨⟨Demo.w1_wf.1, Demo.w1_wf.2, Demo.w1_wf.3, Demo.w1_wf.4⟩, by decide,
      show oomAnalysis.width * oomAnalysis.height ≤ oomImage.length by decide⟩
  · exact ⟨Demo.w1_wf, by decide, show oomAnalysis.width * oomAnalysis.height ≤ oomImage.length by decide⟩
  · exact ⟨Demo.w1_wf, by decide, trivial⟩

/-- **C12** is false: after a frame is refused with RDENOMEM and retried, the reported confidence is 2; without the
refused call it is 1. -/
theorem C12_fails : ∃ (s : Sys) (m : Option Method) (w h : ℕ) (p : Option Params) (a a1 a2 : Analysis) (r : Call)
    (after : List Call) (rh : Option (List Res)),
    Build s ∧ Precise s.cfg ∧ ValidMethod? m ∧ ValidParams? s.cfg p ∧ Reach s m w h p [] a ∧
    (∀ c ∈ r :: after, Legal a c) ∧
    run s a (r :: after) = some ([.analyzed RDENOMEM, .analyzed RDEOK,
      .results RDEOK (some [⟨1, .fin false 2⟩, ⟨3, .fin true (-1)⟩]) 2 rh 2], a1) ∧
    run s a after = some ([.analyzed RDEOK,
      .results RDEOK (some [⟨1, .fin false 1⟩, ⟨3, .fin true (-1)⟩]) 2 rh 2], a2) := by
  have h1 : (run Demo.sys oomAnalysis oomCalls).map Prod.fst = some [.analyzed RDENOMEM, .analyzed RDEOK,
      .results RDEOK (some [⟨1, .fin false 2⟩, ⟨3, .fin true (-1)⟩]) 2
        (some [⟨1, .fin false 0⟩, ⟨3, .fin true (-1)⟩]) 2] := by decide +kernel
  have h2 : (run Demo.sys oomAnalysis oomCalls.tail).map Prod.fst = some [.analyzed RDEOK,
      .results RDEOK (some [⟨1, .fin false 1⟩, ⟨3, .fin true (-1)⟩]) 2
        (some [⟨1, .fin false 0⟩, ⟨3, .fin true (-1)⟩]) 2] := by decide +kernel
  rw [Option.map_eq_some_iff] at h1 h2
  obtain ⟨⟨o1, a1⟩, e1, rfl⟩ := h1
  obtain ⟨⟨o2, a2⟩, e2, rfl⟩ := h2
  exact ⟨Demo.sys, some origMethod, 3, 3, some Demo.params, oomAnalysis, a1, a2, _, _, _, Demo.sys_build, demo_precise,
    by rintro q h; cases h; simp [methods, origMethod], Demo.params_valid, oom_reach, oom_legal, e1, e2⟩

/-- In that run the first call does fail for lack of memory, so `C12_only_orig` applies to it. -/
example : (effMethod (some origMethod)).func = .orig := by
  have h : (step Demo.sys oomAnalysis ⟨.analyze (some oomImage), oomWorld⟩).map Prod.fst =
      some (.analyzed RDENOMEM) := by decide +kernel
  rw [Option.map_eq_some_iff] at h
  obtain ⟨⟨o, a'⟩, e, rfl⟩ := h
  exact C12_only_orig Demo.sys_build (by rintro q h; cases h; simp [methods, origMethod]) Demo.params_valid oom_reach
    (oom_legal _ (by simp [oomCalls])) e

/-- A 3 by 2 orig analysis, to which `C12_oom_frame_partial` applies: the only allocation fails, then a retry. -/
example : ∃ (a a' : Analysis) (os : List Obs) (r : Call) (after : List Call),
    run Demo.sys a ([] ++ r :: after) = some (os, a') ∧ os[0]? = some (.analyzed RDENOMEM) ∧
    ∃ b', run Demo.sys a ([] ++ after) = some (os.eraseIdx 0, b') := by
  let a : Analysis := { oomAnalysis with
    height := 2, f := some ⟨1, List.replicate 6 (.fin false 0)⟩, p := some (.fftw 2 (some 3) 3 2), yresult := none,
    ybound := none }
  have h : (createAnalysis Demo.sys (some origMethod) 3 2 (some Demo.params) Demo.w0).map Prod.fst =
      some (some a, RDEOK) := by decide +kernel
  have hr : Reach Demo.sys (some origMethod) 3 2 (some Demo.params) [] a := by
    cases h' : createAnalysis Demo.sys (some origMethod) 3 2 (some Demo.params) Demo.w0 with
    | none => rw [h'] at h; cases h
    | some v =>
      obtain ⟨⟨b, e⟩, w⟩ := v
      rw [h'] at h
      cases h
      exact Reach.create Demo.w0_wf h'
  let r : Call := ⟨.analyze (some oomImage), { Demo.w1 with sched := fun _ => false }⟩
  have hl : ∀ c ∈ [] ++ r :: [⟨.analyze (some oomImage), Demo.w1⟩, Demo.callR], Legal a c := by
    intro c hc
    simp only [List.nil_append, List.mem_cons, List.not_mem_nil, or_false] at hc
    rcases hc with rfl | rfl | rfl
    · exact ⟨⟨Demo.w1_wf.1, Demo.w1_wf.2, Demo.w1_wf.3, Demo.w1_wf.4⟩, by decide,
        show a.width * a.height ≤ oomImage.length by decide⟩
    · exact ⟨Demo.w1_wf, by decide, show a.width * a.height ≤ oomImage.length by decide⟩
    · exact ⟨Demo.w1_wf, by decide, trivial⟩
  have h1 : (run Demo.sys a ([] ++ r :: [⟨.analyze (some oomImage), Demo.w1⟩, Demo.callR])).map Prod.fst =
      some [.analyzed RDENOMEM, .analyzed RDEOK, .results RDEOK (some [⟨1, .fin false 1⟩, ⟨3, .fin true (-1)⟩]) 2
        (some [⟨2, .fin true (-1)⟩]) 1] := by decide +kernel
  rw [Option.map_eq_some_iff] at h1
  obtain ⟨⟨os, a'⟩, e, he⟩ := h1
  have he : os = _ := he
  have ho : os[0]? = some (.analyzed RDENOMEM) := by rw [he]; rfl
  exact ⟨a, a', os, r, _, e, ho, C12_oom_frame_partial (before := []) Demo.sys_build
    (by rintro q h; cases h; simp [methods, origMethod]) Demo.params_valid hr (Or.inr (by decide)) hl e ho⟩

/-- **C13** Scores are per-frame means: a reported candidate's confidence is the mean score `meanAt fs` of its position,
rounded to `float`; that mean is the left-to-right sum of the scores the frames have on their own, divided by the number
of frames; and it differs from the exact average of the separate scores by at most `(k+1)/2^p` after `k` frames, where `p`
is the precision of the intermediate type (53 bits by default). -/
theorem C13_per_frame_means (hs : Build s) (hpr : Precise s.cfg) (hm : ValidMethod? m) (hp : ValidParams? s.cfg p)
    (hno : NoOom ev) (hk : (analysed ev).length ≤ 2 ^ s.cfg.inter.p) (hk' : (analysed ev).length ≤ s.cfg.sizeMax)
    (hr : Returned s m w h p ev a rw cw rh ch) {fs : List (List Fl)} (hfs : Spectra s a ev fs) :
    let q := effParams s.cfg (effMethod m) p
    let score := meanAt s (effMethod m).func
    (∀ l, rw = some l → ∀ r ∈ l, r ≠ ⟨w, .fin true (-1)⟩ →
      r.confidence = binary32.conv (score (fun f => rows f w) h q.range fs r.index)) ∧
    (∀ l, rh = some l → ∀ r ∈ l, r ≠ ⟨h, .fin true (-1)⟩ →
      r.confidence = binary32.conv (score (fun f => cols f w) w q.range fs r.index)) ∧
    ∀ g n, (n = w ∨ n = h) → 2 * q.range < max w h → ∀ x,
      score g n q.range fs x =
        mean s.cfg (fsum s.cfg.inter (fs.map (fun f => score g n q.range [f] x))) fs.length ∧
      |val (score g n q.range fs x) - (fs.map (fun f => val (score g n q.range [f] x))).sum / fs.length| ≤
        (fs.length + 1) * pow2 (-s.cfg.inter.p) := by
  have hg := returned_got hs hm hp hr
  have hF := hs.wf.inter_wf
  obtain ⟨gs, h1, hX, hY⟩ := hg.inv.scores hno
  obtain rfl := spectra_unique h1 hfs
  have hlen : gs.length = (analysed ev).length := h1.length_eq.symm
  have hcount := hg.inv.count hk'
  have hn : a.nimages = gs.length := by omega
  have hne : gs ≠ [] := by
    intro h; rw [h] at hn; exact hg.nimages hn
  intro q score
  have eq : a.params = q := hg.inv.params
  have ed : a.method.func = (effMethod m).func := by rw [hg.inv.method]
  obtain ⟨sx, sy⟩ := hg.inv.side hpr
  have hgood := hg.inv.good
  have hrp := hgood.range_pos
  rw [eq, ed, hg.inv.width, hg.inv.height] at hX hY
  have key : ∀ len res g n, scores res = (List.range (len - 2 * q.range)).map
      (fun k => total s (effMethod m).func g n q.range gs (q.range + k)) →
      ∀ r ∈ dimList s a len res, r ≠ ⟨len, .fin true (-1)⟩ →
        r.confidence = binary32.conv (score g n q.range gs r.index) := by
    intro len res g n hsc r hr hne
    obtain ⟨init, h1, h2, h3⟩ := dimList_shape (s := s) (length := len) (result := res) hg.inv.threshold
    rw [h1] at hr
    rcases List.mem_append.mp hr with hr | hr
    · obtain ⟨i, hi, _, rfl⟩ := mem_candidates.mp (h2.mem_iff.mp hr)
      simp only [eq, hsc, List.getElem_map, List.getElem_range, hn]
      rfl
    · rw [List.mem_singleton] at hr
      exact absurd hr hne
  refine ⟨?_, ?_, ?_⟩
  · intro l hl
    rw [hg.listX l hl]; exact key _ _ (fun f => rows f w) h hX
  · intro l hl
    rw [hg.listY l hl]; exact key _ _ (fun f => cols f w) w hY
  · intro g n hnn hmx x
    have hw := hg.inv.width
    have hh := hg.inv.height
    have hwp := hgood.width_pos
    have hhp := hgood.height_pos
    have n1 : n ≤ 2 ^ s.cfg.inter.p := by rcases hnn with rfl | rfl <;> omega
    have n0 : 0 < n := by rcases hnn with rfl | rfl <;> omega
    have r1 : q.range ≤ 2 ^ s.cfg.inter.p := by
      rcases lt_max_iff.mp hmx with h | h <;> omega
    have r0 : 0 < q.range := by rw [← eq]; exact hrp
    refine ⟨?_, meanAt_err hF hpr n1 r1 n0 r0 (by omega) hne⟩
    show meanAt _ _ _ _ _ _ _ = _
    unfold meanAt
    rw [total_sum hF hpr n1 r1 n0 r0 (by omega)]

/-- **C13** The order of frames matters only to rounding: two analyses of the same frames in different orders have mean
scores that differ by at most `2(k+1)/2^p`. -/
theorem C13_order (hs : Build s) (hpr : Precise s.cfg) {d : Detect} {g : List Fl → ℕ → ℕ → Fl} {n range x : ℕ}
    (hn : 0 < n) (hn' : n ≤ s.cfg.intMax) (hr : 0 < range) (hr' : range ≤ s.cfg.intMax) {fs fs' : List (List Fl)}
    (hperm : fs.Perm fs') (hne : fs ≠ []) (hk : fs.length ≤ 2 ^ s.cfg.inter.p) :
    |val (meanAt s d g n range fs x) - val (meanAt s d g n range fs' x)| ≤
      2 * (fs.length + 1) * pow2 (-s.cfg.inter.p) := by
  have hF := hs.wf.inter_wf
  have e1 := meanAt_err hF hpr (d := d) (g := g) (x := x) (le_trans hn' hpr.sides) (le_trans hr' hpr.sides) hn hr hk hne
  have e2 := meanAt_err hF hpr (d := d) (g := g) (x := x) (le_trans hn' hpr.sides) (le_trans hr' hpr.sides) hn hr
    (fs := fs') (by rw [← hperm.length_eq]; exact hk) (by intro h; rw [h] at hperm; exact hne hperm.eq_nil)
  have hsum : (fs'.map (fun f => val (meanAt s d g n range [f] x))).sum =
      (fs.map (fun f => val (meanAt s d g n range [f] x))).sum := ((hperm.map _).sum_eq).symm
  rw [hsum, ← hperm.length_eq] at e2
  rw [abs_le] at *
  constructor <;> linarith [e1.1, e1.2, e2.1, e2.2]

theorem demo_spectra : Spectra Demo.sys Demo.analysis1 [(Demo.callA, .analyzed RDEOK)] [Demo.image] := by
  refine List.Forall₂.cons ⟨Demo.image, .fftw 2 (some 3) 4 2, Demo.w1, rfl, rfl, ?_⟩ List.Forall₂.nil
  have e : (Demo.image.take (4 * 2)).map Demo.sys.cfg.coeff.conv = Demo.image := by decide +kernel
  show transform Demo.sys (.fftw 2 (some 3) 4 2) ((Demo.image.take (4 * 2)).map Demo.sys.cfg.coeff.conv) Demo.w1 = _
  rw [e]
  rfl

/-- The demonstration candidate (2, 0.5) has the mean score of position 2. -/
example : Fl.fin false (1 / 2) =
    binary32.conv (meanAt Demo.sys .sign (fun f => rows f 4) 2 1 [Demo.image] 2) :=
  (C13_per_frame_means Demo.sys_build demo_precise Demo.none_method Demo.params_valid
    (by intro x hx; simp only [List.mem_singleton] at hx; rw [hx]; decide) (by decide +kernel) (by decide +kernel)
    demo_returned demo_spectra).1 _ rfl ⟨2, .fin false (1 / 2)⟩ (by simp [Demo.listX]) (by decide)

example : |val (meanAt Demo.sys .sign (fun f => rows f 4) 2 1 [Demo.image, oomImage] 2) -
    val (meanAt Demo.sys .sign (fun f => rows f 4) 2 1 [oomImage, Demo.image] 2)| ≤
      2 * (([Demo.image, oomImage].length : ℕ) + 1) * pow2 (-(53 : ℕ)) :=
  C13_order Demo.sys_build demo_precise (by decide) (by decide +kernel) (by decide) (by decide +kernel)
    (List.Perm.swap _ _ _) (by simp) (by decide +kernel)

end Verif.Props
