import Verif.Spec.History
import Verif.Proofs.ResultsLemmas

/-! Invariants of histories. -/

namespace Verif

open Spec

theorem blocks_owned {a : Analysis} : ∀ b ∈ a.blocks, b ∈ owned a := by
  intro b hb
  unfold Analysis.blocks at hb
  unfold owned
  cases hp : a.p with
  | none => rw [hp] at hb; simp only [Option.map, Option.getD, List.append_nil] at hb ⊢; exact hb
  | some p =>
    rw [hp] at hb
    cases p with
    | fftw b q w h =>
      simp only [Option.map, Option.getD, Plan.blocks, List.mem_append] at hb ⊢
      tauto
    | kiss p =>
      simp only [Option.map, Option.getD, Plan.blocks, List.mem_append, KissPlan.blocks] at hb ⊢
      have : b ∈ (if p.width = p.height then [] else (blk p.cfg1).toList ++ (blk p.shift1).toList) →
          b ∈ (blk p.cfg1).toList ∨ b ∈ (blk p.shift1).toList := by
        split
        · simp
        · exact List.mem_append.mp
      tauto

theorem Legal.live {a : Analysis} {c : Call} (h : Legal a c) : ∀ b ∈ a.blocks, b ∈ c.world.live :=
  fun b hb => h.2.1 b (blocks_owned b hb)

theorem createAnalysis_good {s : Sys} (hs : Build s) {m : Option Method} (hm : ValidMethod? m) {p : Option Params}
    (hp : ValidParams? s.cfg p) {w h : ℕ} {wd wd' : World} (hwd : wd.WF) {a : Analysis} {e : RDError}
    (hc : createAnalysis s m w h p wd = some ((some a, e), wd')) : Fresh s m w h p a ∧ e = RDEOK := by
  obtain ⟨r, w2, L', e1, _, q⟩ := createAnalysis_tri (F := True) (L := []) hs hm hp (w := w) (h := h) (fun _ => trivial)
    wd wd (Rel.init hwd (fun _ _ => trivial))
  rw [hc] at e1
  cases e1
  cases q with
  | ok a L' hf _ _ _ _ => exact ⟨hf, rfl⟩

/-- The outcomes of a legal `resdet_analyze_image`. -/
inductive AnalyzeOk (s : Sys) (a : Analysis) (image : Option (List Fl)) (w : World) : RDError → Analysis → Prop where
  | param : image = none → AnalyzeOk s a image w RDEPARAM a
  | inval (im : List Fl) (fb : Buf Fl) (f' : List Fl) : image = some im → ¬ AllFinite im (a.width * a.height) →
      a.f = some fb → f'.length = fb.data.length →
      AnalyzeOk s a image w RDEINVAL { a with f := some { fb with data := f' } }
  | frame (im : List Fl) (fb : Buf Fl) (p : Plan) (f : List Fl) (w' : World) (e : RDError) (a' : Analysis) :
      image = some im → AllFinite im (a.width * a.height) →
      a.f = some fb → a.p = some p → f.length = a.width * a.height →
      transform s p (frame s a im) w = some (f, w') → AfterOk s a fb f (e, some a') →
      AnalyzeOk s a image w e a'

theorem analyze_cases {s : Sys} (hs : s.cfg.WF) {a : Analysis} (hg : Good s a) {image : Option (List Fl)} {w : World}
    (hlive : ∀ b ∈ a.blocks, b ∈ w.live) (hi : ∀ im, image = some im → a.width * a.height ≤ im.length) :
    ∃ e a' w', analyzeImage s (some a) image w = some ((e, some a'), w') ∧ AnalyzeOk s a image w e a' ∧
      ∃ i j, w' = w.skip i j := by
  cases image with
  | none => exact ⟨_, _, _, rfl, AnalyzeOk.param rfl, 0, 0, rfl⟩
  | some im =>
    have hi := hi im rfl
    obtain ⟨fb, hfb, hlen⟩ := hg.f
    obtain ⟨p, hp, hgood⟩ := hg.p
    by_cases hall : AllFinite im (a.width * a.height)
    · rw [analyzeImage_finite hs hg hi hall hfb hp hlive]
      have hfr : (frame s a im).length = a.width * a.height := by
        unfold frame; rw [List.length_map, List.length_take]; omega
      obtain ⟨g, h1, h2⟩ := transform_temp s hgood hfr
      have h3 := h2 w (fun b hb => hlive b (by simp [Analysis.blocks, hp, hb]))
      rw [M.bind_some h3]
      obtain ⟨g', h4, h5⟩ := afterTransform_temp hs hg (fb := fb) (h1 w.sched)
      have h6 := h5 (w.skip (g w.sched).2.1 (g w.sched).2.2) (fun b hb => hlive b hb)
      have h7 := h4 (w.skip (g w.sched).2.1 (g w.sched).2.2).sched
      rw [h6]
      have : ∃ a', (g' (w.skip (g w.sched).2.1 (g w.sched).2.2).sched).1.2 = some a' := by
        generalize (g' (w.skip (g w.sched).2.1 (g w.sched).2.2).sched).1 = r at h7
        cases h7 <;> exact ⟨_, rfl⟩
      obtain ⟨a', ha'⟩ := this
      refine ⟨_, a', _, by rw [← ha'], ?_, _, _, World.skip_skip _ _ _ _ _⟩
      refine AnalyzeOk.frame im fb p _ _ _ a' rfl hall hfb hp (h1 w.sched) h3 ?_
      rw [← ha']
      exact h7
    · obtain ⟨f', e1, e2⟩ := analyzeImage_bad hs hg hi hall hfb hlive
      exact ⟨_, _, _, e2, AnalyzeOk.inval im fb f' rfl hall hfb e1, 0, 0, rfl⟩

theorem AnalyzeOk.good {s : Sys} {a a' : Analysis} (hg : Good s a) {image : Option (List Fl)} {w : World} {e : RDError}
    (h : AnalyzeOk s a image w e a') : Good s a' ∧ a'.blocks = a.blocks := by
  cases h with
  | param _ => exact ⟨hg, rfl⟩
  | inval im fb f' _ _ hfb hl =>
    obtain ⟨fb', h1, h2⟩ := hg.f
    rw [hfb] at h1; cases h1
    exact ⟨hg.setF (by rw [hl]; exact h2), blocks_setF hfb⟩
  | frame im fb p f w' _ _ _ _ hfb _ hl _ hx =>
    cases hx with
    | ok => exact ⟨hg.addFrame hl, blocks_addFrame hfb⟩
    | nomemX _ _ => exact ⟨hg.setF hl, blocks_setF hfb⟩
    | nomemY _ _ => exact ⟨hg.addX hl, blocks_addX hfb⟩

/-- Outcomes of `resdet_analysis_results`. -/
inductive ResultsOk (s : Sys) (F : Prop) (L : List ℕ) (a : Analysis) (ptr : Ptrs) :
    RDError × Out × Option Analysis → List ℕ → Prop where
  | param : (ptr.rw && !ptr.cw) || (ptr.rh && !ptr.ch) → ResultsOk s F L a ptr (RDEPARAM, Out.nothing, some a) L
  | noimg : ¬ ((ptr.rw && !ptr.cw) || (ptr.rh && !ptr.ch)) → a.nimages = 0 →
      ResultsOk s F L a ptr (RDENOIMG, Out.nothing, some a) L
  | nomem : ¬ ((ptr.rw && !ptr.cw) || (ptr.rh && !ptr.ch)) → a.nimages ≠ 0 → F → (ptr.rw || ptr.rh) →
      ResultsOk s F L a ptr (RDENOMEM, Out.nothing, some a) L
  | ok (rw rh : Option (Buf Res)) (L' : List ℕ) : ¬ ((ptr.rw && !ptr.cw) || (ptr.rh && !ptr.ch)) → a.nimages ≠ 0 →
      rw.map Buf.data = (if ptr.rw then some (dimList s a a.width a.xresult) else none) →
      rh.map Buf.data = (if ptr.rh then some (dimList s a a.height a.yresult) else none) →
      L'.Perm ((rw.map Buf.id).toList ++ (rh.map Buf.id).toList ++ L) →
      ResultsOk s F L a ptr
        (RDEOK, ⟨rw, (rw.map (fun b => b.data.length)).getD 0, rh, (rh.map (fun b => b.data.length)).getD 0⟩, some a) L'

theorem allocList_tri {F : Prop} {L : List ℕ} {l : List Res} :
    Tri F L (allocList l) (fun r L' => (r = (RDENOMEM, none) ∧ L' = L ∧ F) ∨
      ∃ b, r = (RDEOK, some ⟨b, l⟩) ∧ L' = b :: L) := by
  unfold allocList
  refine Tri.bind Tri.malloc ?_
  rintro r L' (⟨rfl, rfl, hF⟩ | ⟨b, rfl, rfl⟩)
  · exact Tri.pure (Or.inl ⟨rfl, rfl, hF⟩)
  · exact Tri.pure (Or.inr ⟨b, rfl, rfl⟩)

/-- An optional list in a fresh array. -/
theorem allocOpt_tri {F : Prop} {L : List ℕ} {l : List Res} {b : Bool} :
    Tri F L (if b then allocList l else pure (RDEOK, none)) (fun r L' => (b = true ∧ r = (RDENOMEM, none) ∧ L' = L ∧ F) ∨
      r.1 = RDEOK ∧ r.2.map Buf.data = (if b then some l else none) ∧ L' = (r.2.map Buf.id).toList ++ L) := by
  cases b with
  | false => exact Tri.pure (Or.inr ⟨rfl, rfl, rfl⟩)
  | true =>
    refine Tri.mono allocList_tri ?_
    rintro r L' (⟨rfl, rfl, hF⟩ | ⟨b, rfl, rfl⟩)
    · exact Or.inl ⟨rfl, rfl, rfl, hF⟩
    · exact Or.inr ⟨rfl, rfl, rfl⟩

/-- `resultsProg` with the conditional calls as separate computations. -/
theorem resultsProg_eq (s : Sys) (a : Analysis) (ptr : Ptrs) :
    resultsProg s a ptr =
      if (ptr.rw && !ptr.cw) || (ptr.rh && !ptr.ch) then pure (RDEPARAM, Out.nothing, some a)
      else if a.nimages = 0 then pure (RDENOIMG, Out.nothing, some a)
      else
        (if ptr.rw then allocList (dimList s a a.width a.xresult) else pure (RDEOK, none)) >>= fun r =>
          if r.1 ≠ 0 then do
            freeBuf r.2
            return (r.1, Out.nothing, some a)
          else
            (if ptr.rh then allocList (dimList s a a.height a.yresult) else pure (RDEOK, none)) >>= fun q =>
              if q.1 ≠ 0 then do
                freeBuf r.2
                freeBuf q.2
                return (q.1, Out.nothing, some a)
              else
                return (RDEOK,
                  ⟨r.2, (r.2.map (fun b => b.data.length)).getD 0, q.2, (q.2.map (fun b => b.data.length)).getD 0⟩,
                  some a) := by
  unfold resultsProg
  cases h1 : ptr.rw <;> cases h2 : ptr.rh <;> rfl

theorem resultsProg_tri {F : Prop} {L : List ℕ} {s : Sys} {a : Analysis} {ptr : Ptrs} :
    Tri F L (resultsProg s a ptr) (ResultsOk s F L a ptr) := by
  rw [resultsProg_eq]
  by_cases hb : ((ptr.rw && !ptr.cw) || (ptr.rh && !ptr.ch)) = true
  · rw [if_pos hb]
    exact Tri.pure (ResultsOk.param hb)
  rw [if_neg hb]
  by_cases hn : a.nimages = 0
  · rw [if_pos hn]
    exact Tri.pure (ResultsOk.noimg hb hn)
  rw [if_neg hn]
  refine Tri.bind allocOpt_tri ?_
  rintro ⟨e, rw⟩ L' (⟨hp, h, rfl, hF⟩ | ⟨h1, h2, rfl⟩)
  · cases h
    simp only [RDENOMEM, ne_eq, one_ne_zero, not_false_eq_true, if_true]
    exact Tri.pure (ResultsOk.nomem hb hn hF (by simp [hp]))
  dsimp only at h1
  subst h1
  simp only [RDEOK, ne_eq, not_true_eq_false, if_false]
  refine Tri.bind allocOpt_tri ?_
  rintro ⟨e, rh⟩ L' (⟨hp, h, rfl, hF⟩ | ⟨h3, h4, rfl⟩)
  · cases h
    simp only [RDENOMEM, one_ne_zero, not_false_eq_true, if_true]
    unfold freeBuf
    refine Tri.bind (Tri.freeOpt (List.Perm.refl _)) ?_
    rintro _ _ rfl
    exact Tri.pure (ResultsOk.nomem hb hn hF (by simp [hp]))
  dsimp only at h3
  subst h3
  simp only [RDEOK, not_true_eq_false, if_false]
  refine Tri.pure (ResultsOk.ok rw rh _ hb hn h2 h4 ?_)
  perm_count

theorem results_tri_eq {s : Sys} (hs : Build s) {a : Analysis} (hg : Good s a) {ptr : Ptrs} {F : Prop} {L : List ℕ}
    (hL : ∀ b ∈ a.blocks, b ∈ L) : Tri F L (analysisResults s (some a) ptr) (ResultsOk s F L a ptr) := by
  intro base w hw
  rw [analysisResults_eq hs hg (fun b hb => (hw.live b).mpr (Or.inr (hL b hb)))]
  exact resultsProg_tri base w hw

theorem results_cases {s : Sys} (hs : Build s) {a : Analysis} (hg : Good s a) {ptr : Ptrs} {w : World} (hw : w.WF)
    (hlive : ∀ b ∈ a.blocks, b ∈ w.live) :
    ∃ r w' L', analysisResults s (some a) ptr w = some (r, w') ∧
      ResultsOk s (∃ j, w.sched j = false) [] a ptr r L' := by
  rw [analysisResults_eq hs hg hlive]
  obtain ⟨r, w', L', h1, _, h2⟩ := resultsProg_tri (F := ∃ j, w.sched j = false) (L := []) (s := s) (a := a) (ptr := ptr)
    w w (Rel.init hw (fun j hj => ⟨j, hj⟩))
  exact ⟨r, w', L', h1, h2⟩

/-- What one legal call does to the analysis. -/
inductive StepOk (s : Sys) (a : Analysis) (c : Call) : Obs → Analysis → Prop where
  | analyze (image : Option (List Fl)) (e : RDError) (a' : Analysis) : c.op = .analyze image →
      AnalyzeOk s a image c.world e a' → StepOk s a c (.analyzed e) a'
  | results (ptr : Ptrs) (e : RDError) (out : Out) (L' : List ℕ) : c.op = .results ptr →
      ResultsOk s (∃ j, c.world.sched j = false) [] a ptr (e, out, some a) L' →
      StepOk s a c (.results e (out.rw.map Buf.data) out.cw (out.rh.map Buf.data) out.ch) a

theorem step_cases {s : Sys} (hs : Build s) {a : Analysis} (hg : Good s a) {c : Call} (hc : Legal a c) :
    ∃ o a', step s a c = some (o, a') ∧ StepOk s a c o a' := by
  obtain ⟨op, w⟩ := c
  cases op with
  | analyze image =>
    obtain ⟨e, a', w', h1, h2, _⟩ := analyze_cases hs.wf hg (image := image) (w := w) (Legal.live hc) (by
      rintro im rfl; exact hc.2.2)
    exact ⟨_, a', by simp only [step, h1], StepOk.analyze image e a' rfl h2⟩
  | results ptr =>
    obtain ⟨⟨e, out, a'⟩, w', L', h1, h2⟩ := results_cases hs hg (ptr := ptr) (w := w) hc.1 (Legal.live hc)
    have : a' = some a := by cases h2 <;> rfl
    subst this
    exact ⟨_, a, by simp only [step, h1], StepOk.results ptr e out L' rfl h2⟩

theorem StepOk.good {s : Sys} {a a' : Analysis} (hg : Good s a) {c : Call} {o : Obs} (h : StepOk s a c o a') :
    Good s a' ∧ a'.blocks = a.blocks := by
  cases h with
  | analyze image e _ _ h => exact h.good hg
  | results => exact ⟨hg, rfl⟩

theorem step_ok {s : Sys} (hs : Build s) {a a' : Analysis} (hg : Good s a) {c : Call} (hc : Legal a c) {o : Obs}
    (h : step s a c = some (o, a')) : StepOk s a c o a' := by
  obtain ⟨o', a'', h1, h2⟩ := step_cases hs hg hc
  rw [h] at h1
  cases h1
  exact h2

/-- What is constant during the life of an analysis. -/
structure Same (a a' : Analysis) : Prop where
  block : a'.block = a.block
  method : a'.method = a.method
  width : a'.width = a.width
  height : a'.height = a.height
  params : a'.params = a.params
  p : a'.p = a.p

theorem AnalyzeOk.same {s : Sys} {a a' : Analysis} {image : Option (List Fl)} {w : World} {e : RDError}
    (h : AnalyzeOk s a image w e a') : Same a a' := by
  cases h with
  | param _ => exact ⟨rfl, rfl, rfl, rfl, rfl, rfl⟩
  | inval => exact ⟨rfl, rfl, rfl, rfl, rfl, rfl⟩
  | frame im fb p f w' _ _ _ _ hfb _ hl _ hx => cases hx <;> exact ⟨rfl, rfl, rfl, rfl, rfl, rfl⟩

theorem StepOk.same {s : Sys} {a a' : Analysis} {c : Call} {o : Obs} (h : StepOk s a c o a') : Same a a' := by
  cases h with
  | analyze _ _ _ _ h => exact h.same
  | results => exact ⟨rfl, rfl, rfl, rfl, rfl, rfl⟩

/-- The invariant of histories. -/
structure Inv (s : Sys) (m : Option Method) (w h : ℕ) (p : Option Params) (ev : List (Call × Obs)) (a : Analysis) :
    Prop where
  good : Good s a
  method : a.method = effMethod m
  width : a.width = w
  height : a.height = h
  params : a.params = effParams s.cfg (effMethod m) p
  nimages : a.nimages = s.cfg.sz (analysed ev).length
  scores : NoOom ev → ∃ fs, List.Forall₂ (fun x f => Spectrum s a x.1 f) (analysed ev) fs ∧
    scores a.xresult = widthScores s a.method.func a.width a.height a.params.range fs ∧
    scores a.yresult = heightScores s a.method.func a.width a.height a.params.range fs

theorem analysed_append {ev : List (Call × Obs)} {x : Call × Obs} :
    analysed (ev ++ [x]) = if x.2 = .analyzed RDEOK then analysed ev ++ [x] else analysed ev := by
  unfold analysed
  rw [List.filter_append]
  by_cases h : x.2 = .analyzed RDEOK
  · rw [if_pos h]; simp [h]
  · rw [if_neg h]; simp [h]

theorem NoOom.init {ev : List (Call × Obs)} {x : Call × Obs} (h : NoOom (ev ++ [x])) :
    NoOom ev ∧ x.2 ≠ .analyzed RDENOMEM :=
  ⟨fun y hy => h y (List.mem_append_left _ hy), h x (by simp)⟩

theorem scores_updBuf {s : Sys} {d : Detect} {g : List Fl → ℕ → ℕ → Fl} {n range k : ℕ} {r : Option (Buf Fl)}
    {fs : List (List Fl)} {f : List Fl}
    (h : scores r = (List.range k).map (fun j => total s d g n range fs (range + j))) :
    scores (updBuf s d (g f) n range r) =
      (List.range k).map (fun j => total s d g n range (fs ++ [f]) (range + j)) := by
  have e : scores (updBuf s d (g f) n range r) = updScores s d (g f) n range (scores r) := by
    cases r <;> rfl
  rw [e, h]
  unfold updScores
  apply List.ext_getElem
  · simp
  · intro i h1 h2
    simp [total]

theorem sz_succ {c : Cfg} {n : ℕ} : c.sz (c.sz n + 1) = c.sz (n + 1) := by
  unfold Cfg.sz; rw [Nat.mod_add_mod]

theorem scores_zero {s : Sys} {d : Detect} {g : List Fl → ℕ → ℕ → Fl} {n range length : ℕ} {r : Option (Buf Fl)}
    {b : Option (ℕ × ℕ)} (hd : DimGood length range r b)
    (hz : ∀ b, r = some b → b.data = List.replicate (length - 2 * range) (.fin false 0)) :
    scores r = (List.range (length - 2 * range)).map (fun j => total s d g n range [] (range + j)) := by
  unfold DimGood at hd
  split at hd
  · obtain ⟨r, rfl, h1, _⟩ := hd
    show r.data = _
    rw [hz r rfl]
    unfold total
    simp only [List.foldl_nil, List.map_const', List.length_range]
  · subst hd
    rw [show length - 2 * range = 0 by omega]
    rfl

theorem AnalyzeOk.frame_inv {s : Sys} {a a' : Analysis} {image : Option (List Fl)} {w : World}
    (h : AnalyzeOk s a image w RDEOK a') : ∃ im fb p f w', image = some im ∧ AllFinite im (a.width * a.height) ∧
      a.f = some fb ∧ a.p = some p ∧ f.length = a.width * a.height ∧ transform s p (Verif.frame s a im) w = some (f, w') ∧
      a' = addFrame s a fb f := by
  generalize he : RDEOK = e at h
  cases h with
  | param _ => simp [RDEOK, RDEPARAM] at he
  | inval => simp [RDEOK, RDEINVAL] at he
  | frame im fb p f w' _ _ h1 h2 h3 h4 h5 h6 h7 =>
    subst he
    refine ⟨im, fb, p, f, w', h1, h2, h3, h4, h5, h6, ?_⟩
    generalize hr : (RDEOK, some a') = r at h7
    cases h7 with
    | ok => cases hr; rfl
    | nomemX => simp [RDEOK, RDENOMEM] at hr
    | nomemY => simp [RDEOK, RDENOMEM] at hr

theorem AnalyzeOk.other {s : Sys} {a a' : Analysis} {image : Option (List Fl)} {w : World} {e : RDError}
    (h : AnalyzeOk s a image w e a') (h0 : e ≠ RDEOK) :
    a'.nimages = a.nimages ∧ (e ≠ RDENOMEM → a'.xresult = a.xresult ∧ a'.yresult = a.yresult) := by
  cases h with
  | param _ => exact ⟨rfl, fun _ => ⟨rfl, rfl⟩⟩
  | inval => exact ⟨rfl, fun _ => ⟨rfl, rfl⟩⟩
  | frame im fb p f w' _ _ h1 h2 h3 h4 h5 h6 h7 =>
    cases h7 with
    | ok => exact absurd rfl h0
    | nomemX => exact ⟨rfl, fun h => absurd rfl h⟩
    | nomemY => exact ⟨rfl, fun h => absurd rfl h⟩

theorem reach_inv {s : Sys} (hs : Build s) {m : Option Method} (hm : ValidMethod? m) {p : Option Params}
    (hp : ValidParams? s.cfg p) {w h : ℕ} {ev : List (Call × Obs)} {a : Analysis} (hr : Reach s m w h p ev a) :
    Inv s m w h p ev a := by
  induction hr with
  | create hwd hc =>
    obtain ⟨hf, _⟩ := createAnalysis_good hs hm hp hwd hc
    refine ⟨hf.good, hf.method, hf.width, hf.height, hf.params, ?_, ?_⟩
    · rw [hf.nimages]; simp [analysed, Cfg.sz]
    · intro _
      refine ⟨[], List.Forall₂.nil, scores_zero hf.good.x ?_, scores_zero hf.good.y ?_⟩
      · rw [hf.width]; exact hf.xzero
      · rw [hf.height]; exact hf.yzero
  | @call ev a a' c o hr hl hstep ih =>
    have hk := step_ok hs ih.good hl hstep
    have hsame := hk.same
    refine ⟨(hk.good ih.good).1, hsame.method.trans ih.method, hsame.width.trans ih.width,
      hsame.height.trans ih.height, hsame.params.trans ih.params, ?_, ?_⟩
    · rw [analysed_append]
      cases hk with
      | results => rw [if_neg (by simp)]; exact ih.nimages
      | analyze image e _ hop h =>
        by_cases he : e = RDEOK
        · subst he
          rw [if_pos rfl]
          obtain ⟨im, fb, pl, f, w', _, _, _, _, _, _, rfl⟩ := h.frame_inv
          show s.cfg.sz (a.nimages + 1) = _
          rw [ih.nimages, sz_succ, List.length_append, List.length_singleton]
        · rw [if_neg (by simpa using he), (h.other he).1]
          exact ih.nimages
    · intro hno
      obtain ⟨hno, hlast⟩ := NoOom.init hno
      obtain ⟨fs, h1, h2, h3⟩ := ih.scores hno
      have hspec : ∀ x f, Spectrum s a x f → Spectrum s a' x f := by
        rintro x f ⟨image, plan, w', e1, e2, e3⟩
        refine ⟨image, plan, w', e1, by rw [hsame.p, e2], ?_⟩
        rw [hsame.width, hsame.height]; exact e3
      have h1 : List.Forall₂ (fun x f => Spectrum s a' x.1 f) (analysed ev) fs := h1.imp (fun _ _ h => hspec _ _ h)
      rw [hsame.method, hsame.width, hsame.height, hsame.params, analysed_append]
      cases hk with
      | results => rw [if_neg (by simp)]; exact ⟨fs, h1, h2, h3⟩
      | analyze image e _ hop h =>
        by_cases he : e = RDEOK
        · subst he
          rw [if_pos rfl]
          obtain ⟨im, fb, pl, f, w', e1, e2, e3, e4, e5, e6, rfl⟩ := h.frame_inv
          refine ⟨fs ++ [f], List.rel_append h1 (List.Forall₂.cons ?_ List.Forall₂.nil), ?_, ?_⟩
          · exact ⟨im, pl, w', by rw [hop, e1], e4, e6⟩
          · exact scores_updBuf (g := fun f => rows f a.width) h2
          · exact scores_updBuf (g := fun f => cols f a.width) h3
        · rw [if_neg (by simpa using he)]
          obtain ⟨e1, e2⟩ := (h.other he).2 (fun h => hlast (by rw [h]))
          rw [e1, e2]
          exact ⟨fs, h1, h2, h3⟩

/-- What a successful results call returned. -/
theorem results_obs {s : Sys} (hs : Build s) {a a' : Analysis} (hg : Good s a) {c : Call} (hl : Legal a c)
    {rw rh : Option (List Res)} {cw ch : ℕ} (h : step s a c = some (.results RDEOK rw cw rh ch, a')) :
    ∃ ptr, c.op = .results ptr ∧ (ptr.rw = true → ptr.cw = true) ∧ (ptr.rh = true → ptr.ch = true) ∧ a' = a ∧
      a.nimages ≠ 0 ∧
      rw = (if ptr.rw then some (dimList s a a.width a.xresult) else none) ∧
      rh = (if ptr.rh then some (dimList s a a.height a.yresult) else none) ∧
      cw = (rw.map List.length).getD 0 ∧ ch = (rh.map List.length).getD 0 := by
  have hk := step_ok hs hg hl h
  generalize ho : Obs.results RDEOK rw cw rh ch = o at hk
  cases hk with
  | analyze => cases ho
  | results ptr e out L' hop hres =>
    injection ho with h1 h2 h3 h4 h5
    subst h1
    generalize hr : (RDEOK, out, some a) = r at hres
    cases hres with
    | param => simp [RDEOK, RDEPARAM] at hr
    | noimg => simp [RDEOK, RDENOIMG] at hr
    | nomem => simp [RDEOK, RDENOMEM] at hr
    | ok rw' rh' _ hb hn e1 e2 _ =>
      cases hr
      refine ⟨ptr, hop, ?_, ?_, rfl, hn, by rw [h2]; exact e1, by rw [h4]; exact e2, ?_, ?_⟩
      · intro h; by_contra h'; exact hb (by simp [h, h'])
      · intro h; by_contra h'; exact hb (by simp [h, h'])
      · rw [h3, h2]; cases rw' <;> rfl
      · rw [h5, h4]; cases rh' <;> rfl

end Verif
