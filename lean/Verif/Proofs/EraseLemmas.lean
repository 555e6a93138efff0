import Verif.Proofs.ScoreLemmas

/-! Analyses that differ only in the contents of the coefficient buffer behave alike. -/

namespace Verif

open Spec

/-- Equal up to the contents of the coefficient buffer. -/
def EqF (a b : Analysis) : Prop :=
  ∃ fa fb : Buf Fl, a.f = some fa ∧ b.f = some fb ∧ fa.id = fb.id ∧ fa.data.length = fb.data.length ∧
    b = { a with f := some fb }

theorem EqF.refl {a : Analysis} {fb : Buf Fl} (h : a.f = some fb) : EqF a a :=
  ⟨fb, fb, h, h, rfl, rfl, by rw [← h]⟩

theorem EqF.set {a : Analysis} {fb : Buf Fl} (h : a.f = some fb) {d : List Fl} (hd : d.length = fb.data.length) :
    EqF a { a with f := some { fb with data := d } } :=
  ⟨fb, _, h, rfl, rfl, hd.symm, rfl⟩

theorem EqF.symm {a b : Analysis} (h : EqF a b) : EqF b a := by
  obtain ⟨fa, fb, h1, h2, h3, h4, rfl⟩ := h
  exact ⟨fb, fa, h2, h1, h3.symm, h4.symm, by rw [← h1]⟩

theorem EqF.trans {a b c : Analysis} (h : EqF a b) (h' : EqF b c) : EqF a c := by
  obtain ⟨fa, fb, h1, h2, h3, h4, rfl⟩ := h
  obtain ⟨fb', fc, g1, g2, g3, g4, rfl⟩ := h'
  rw [h2] at g1
  cases g1
  exact ⟨fa, fc, h1, rfl, h3.trans g3, h4.trans g4, rfl⟩

theorem EqF.good {s : Sys} {a b : Analysis} (h : EqF a b) (hg : Good s a) : Good s b := by
  obtain ⟨fa, fb, h1, h2, h3, h4, rfl⟩ := h
  obtain ⟨f', e1, e2⟩ := hg.f
  rw [h1] at e1; cases e1
  exact hg.setF (by rw [← h4, e2])

theorem EqF.owned {a b : Analysis} (h : EqF a b) : owned b = owned a := by
  obtain ⟨fa, fb, h1, h2, h3, h4, rfl⟩ := h
  unfold Spec.owned
  rw [h1]
  simp [h3]

theorem EqF.legal {a b : Analysis} (h : EqF a b) {c : Call} (hl : Legal a c) : Legal b c := by
  have ho := h.owned
  obtain ⟨fa, fb, h1, h2, h3, h4, rfl⟩ := h
  refine ⟨hl.1, ?_, hl.2.2⟩
  rw [ho]; exact hl.2.1

theorem Same.owned_legal {a a' : Analysis} (h : Same a a') (hb : owned a' = owned a) {c : Call} (hl : Legal a c) :
    Legal a' c := by
  refine ⟨hl.1, by rw [hb]; exact hl.2.1, ?_⟩
  have := hl.2.2
  rw [h.width, h.height]
  exact this

theorem AnalyzeOk.owned {s : Sys} {a a' : Analysis} {image : Option (List Fl)} {w : World} {e : RDError}
    (h : AnalyzeOk s a image w e a') : Spec.owned a' = Spec.owned a := by
  cases h with
  | param _ => rfl
  | inval im fb f' _ _ hfb hl => unfold Spec.owned; rw [hfb]; rfl
  | frame im fb p f w' _ _ _ _ hfb _ hl _ hx =>
    cases hx with
    | ok => unfold Spec.owned addFrame addX; rw [hfb, updBuf_id, updBuf_id]; rfl
    | nomemX _ _ => unfold Spec.owned; rw [hfb]; rfl
    | nomemY _ _ => unfold Spec.owned addX; rw [hfb, updBuf_id]; rfl

theorem StepOk.legal {s : Sys} {a a' : Analysis} {c c' : Call} {o : Obs} (h : StepOk s a c o a') (hl : Legal a c') :
    Legal a' c' := by
  cases h with
  | analyze _ _ _ _ h => exact h.same.owned_legal h.owned hl
  | results => exact hl

/-- `afterTransform` only looks at the block of the coefficient buffer. -/
theorem afterTransform_congr {s : Sys} {a : Analysis} {fa fb : Buf Fl} (h : fa.id = fb.id) {f : List Fl} :
    afterTransform s { a with f := some fb } fb f = afterTransform s a fa f := by
  have : ({ fb with data := f } : Buf Fl) = { fa with data := f } := by rw [h]
  unfold afterTransform
  simp only [this]

theorem step_eqF {s : Sys} (hs : Build s) {a b a' : Analysis} (hg : Good s a) (hab : EqF a b) {c : Call} (hl : Legal a c)
    {o : Obs} (h : step s a c = some (o, a')) : ∃ b', step s b c = some (o, b') ∧ EqF a' b' := by
  have hlb := EqF.legal hab hl
  have hgb := EqF.good hab hg
  have liveA := Legal.live hl
  have liveB := Legal.live hlb
  obtain ⟨fa, fb, h1, h2, h3, h4, hb⟩ := hab
  obtain ⟨op, w⟩ := c
  have hab : EqF a b := ⟨fa, fb, h1, h2, h3, h4, hb⟩
  have wid : b.width = a.width := by rw [hb]
  have hei : b.height = a.height := by rw [hb]
  cases op with
  | results ptr =>
    have e1 := analysisResults_eq hs hg (ptr := ptr) liveA
    have e2 := analysisResults_eq hs hgb (ptr := ptr) liveB
    simp only at e1 e2
    unfold step at h ⊢
    simp only at h ⊢
    rw [e1] at h
    rw [e2]
    -- the two programs differ only in the analysis they hand back
    have hprog : resultsProg s b ptr w = (resultsProg s a ptr w).map (fun r => ((r.1.1, r.1.2.1, some b), r.2)) := by
      have dx : dimList s b b.width b.xresult = dimList s a a.width a.xresult := by rw [hb]; rfl
      have dy : dimList s b b.height b.yresult = dimList s a a.height a.yresult := by rw [hb]; rfl
      have dn : b.nimages = a.nimages := by rw [hb]
      rw [resultsProg_eq, resultsProg_eq, dx, dy, dn]
      split
      · rfl
      · split
        · rfl
        · rw [M.bind_apply, M.bind_apply]
          cases hx : (if ptr.rw = true then allocList (dimList s a a.width a.xresult) else pure (RDEOK, none)) w with
          | none => rfl
          | some v =>
            obtain ⟨r, w2⟩ := v
            simp only
            split
            · rw [M.bind_apply, M.bind_apply]
              cases freeBuf r.2 w2 <;> rfl
            · rw [M.bind_apply, M.bind_apply]
              cases hy : (if ptr.rh = true then allocList (dimList s a a.height a.yresult) else pure (RDEOK, none)) w2 with
              | none => rfl
              | some v =>
                obtain ⟨q, w3⟩ := v
                simp only
                split
                · rw [M.bind_apply, M.bind_apply]
                  cases freeBuf r.2 w3 with
                  | none => rfl
                  | some v =>
                    obtain ⟨_, w4⟩ := v
                    simp only
                    rw [M.bind_apply, M.bind_apply]
                    cases freeBuf q.2 w4 <;> rfl
                · rfl
    rw [hprog]
    obtain ⟨r, w', L', e3, e4⟩ := results_cases hs hg (ptr := ptr) (w := w) hl.1 liveA
    rw [e1] at e3
    rw [e3] at h ⊢
    have : r.2.2 = some a := by cases e4 <;> rfl
    obtain ⟨e, out, a''⟩ := r
    simp only at this
    subst this
    simp only [Option.some.injEq, Prod.mk.injEq] at h
    obtain ⟨rfl, rfl⟩ := h
    exact ⟨b, rfl, hab⟩
  | analyze image =>
    unfold step at h ⊢
    simp only at h ⊢
    cases image with
    | none =>
      simp only [analyzeImage, M.pure_apply, Option.some.injEq, Prod.mk.injEq] at h
      obtain ⟨rfl, rfl⟩ := h
      exact ⟨b, rfl, hab⟩
    | some im =>
      have hi : a.width * a.height ≤ im.length := hl.2.2
      have hib : b.width * b.height ≤ im.length := by rw [wid, hei]; exact hi
      obtain ⟨p, hp, _⟩ := hg.p
      have hpb : b.p = some p := by rw [hb]; exact hp
      by_cases hall : AllFinite im (a.width * a.height)
      · rw [analyzeImage_finite hs.wf hg hi hall h1 hp liveA] at h
        rw [analyzeImage_finite hs.wf hgb hib (by rw [wid, hei]; exact hall) h2 hpb liveB]
        have hfr : frame s b im = frame s a im := by unfold frame; rw [wid, hei]
        have haft : ∀ f, afterTransform s b fb f = afterTransform s a fa f := by
          intro f; rw [hb]; exact afterTransform_congr h3
        rw [hfr, funext haft]
        have : ∃ f', a'.f = some f' := by
          obtain ⟨o', a'', e1, e2⟩ := step_cases hs hg hl
          unfold step at e1
          simp only at e1
          rw [analyzeImage_finite hs.wf hg hi hall h1 hp liveA, h] at e1
          cases e1
          obtain ⟨f', e3, _⟩ := (e2.good hg).1.f
          exact ⟨f', e3⟩
        obtain ⟨f', hf'⟩ := this
        exact ⟨a', h, EqF.refl hf'⟩
      · obtain ⟨f1, l1, e1⟩ := analyzeImage_bad hs.wf hg hi hall h1 liveA
        obtain ⟨f2, l2, e2⟩ := analyzeImage_bad hs.wf hgb hib (by rw [wid, hei]; exact hall) h2 liveB
        rw [e1] at h
        rw [e2]
        simp only [Option.some.injEq, Prod.mk.injEq] at h
        obtain ⟨rfl, rfl⟩ := h
        refine ⟨_, rfl, ?_⟩
        refine ⟨_, _, rfl, rfl, h3, ?_, ?_⟩
        · simp only; rw [l1, l2, h4]
        · rw [hb]

/-- Executing the same calls on two such analyses gives the same observations. -/
theorem run_eqF {s : Sys} (hs : Build s) {cs : List Call} {a b a' : Analysis} (hg : Good s a) (hab : EqF a b)
    (hl : ∀ c ∈ cs, Legal a c) {os : List Obs} (h : run s a cs = some (os, a')) :
    ∃ b', run s b cs = some (os, b') ∧ EqF a' b' := by
  induction cs generalizing a b os with
  | nil =>
    simp only [run, Option.some.injEq, Prod.mk.injEq] at h
    obtain ⟨rfl, rfl⟩ := h
    exact ⟨b, rfl, hab⟩
  | cons c cs ih =>
    unfold run at h ⊢
    simp only [Option.bind_eq_bind, Option.bind_eq_some_iff] at h
    obtain ⟨⟨o, a1⟩, e1, ⟨os', a2⟩, e2, e3⟩ := h
    simp only [Option.pure_def, Option.some.injEq, Prod.mk.injEq] at e3
    obtain ⟨rfl, rfl⟩ := e3
    obtain ⟨b1, f1, f2⟩ := step_eqF hs hg hab (hl c (by simp)) e1
    have hk := step_ok hs hg (hl c (by simp)) e1
    obtain ⟨b2, f3, f4⟩ := ih (hk.good hg).1 f2 (fun c' hc' => hk.legal (hl c' (by simp [hc']))) e2
    exact ⟨b2, by rw [f1]; simp [f3], f4⟩

/-- Legal calls can always be executed. -/
theorem run_defined {s : Sys} (hs : Build s) {cs : List Call} {a : Analysis} (hg : Good s a)
    (hl : ∀ c ∈ cs, Legal a c) : ∃ os a', run s a cs = some (os, a') ∧ Good s a' ∧ os.length = cs.length ∧
      ∀ c, Legal a c → Legal a' c := by
  induction cs generalizing a with
  | nil => exact ⟨[], a, rfl, hg, rfl, fun _ h => h⟩
  | cons c cs ih =>
    obtain ⟨o, a1, e1, hk⟩ := step_cases hs hg (hl c (by simp))
    obtain ⟨os, a2, e2, g2, l2, k2⟩ := ih (hk.good hg).1 (fun c' hc' => hk.legal (hl c' (by simp [hc'])))
    refine ⟨o :: os, a2, by unfold run; rw [e1]; simp [e2], g2, by simp [l2], fun c' hc' => k2 _ (hk.legal hc')⟩

theorem run_append {s : Sys} {cs cs' : List Call} {a : Analysis} :
    run s a (cs ++ cs') = (run s a cs).bind (fun r => (run s r.2 cs').map (fun q => (r.1 ++ q.1, q.2))) := by
  induction cs generalizing a with
  | nil => simp [run]
  | cons c cs ih =>
    simp only [List.cons_append, run, Option.bind_eq_bind, Option.pure_def]
    cases hs : step s a c with
    | none => rfl
    | some v =>
      obtain ⟨o, a1⟩ := v
      simp only [Option.bind_some]
      rw [ih]
      cases hr : run s a1 cs with
      | none => rfl
      | some v =>
        obtain ⟨os, a2⟩ := v
        simp only [Option.bind_some]
        cases run s a2 cs' <;> rfl

/-- Calls may be left out if they leave the analysis equal up to the coefficient buffer. -/
theorem run_erase {s : Sys} (hs : Build s) {cs cs' : List Call} {r : Call} {a a' : Analysis} (hg : Good s a)
    (hl : ∀ c ∈ cs ++ r :: cs', Legal a c) {os : List Obs} (h : run s a (cs ++ r :: cs') = some (os, a'))
    (hr : ∀ b b' o, Good s b → Legal b r → os[cs.length]? = some o → step s b r = some (o, b') → EqF b b') :
    ∃ b', run s a (cs ++ cs') = some (os.eraseIdx cs.length, b') := by
  rw [run_append] at h ⊢
  obtain ⟨o1, a1, e1, g1, l1, k1⟩ := run_defined hs hg (fun c hc => hl c (List.mem_append_left _ hc))
  rw [e1] at h ⊢
  simp only [Option.bind_some] at h ⊢
  unfold run at h
  have lr := k1 r (hl r (by simp))
  obtain ⟨o, a2, e2, hk⟩ := step_cases hs g1 lr
  rw [e2] at h
  simp only [Option.bind_eq_bind, Option.bind_some] at h
  have hl2 : ∀ c ∈ cs', Legal a2 c := fun c hc => hk.legal (k1 c (hl c (by simp [hc])))
  obtain ⟨o3, a3, e3, g3, l3, _⟩ := run_defined hs (hk.good g1).1 hl2
  rw [e3] at h
  simp only [Option.bind_some, Option.pure_def, Option.map_some, Option.some.injEq, Prod.mk.injEq] at h
  obtain ⟨rfl, rfl⟩ := h
  have hE := hr a1 a2 o g1 lr (by rw [← l1]; simp) e2
  obtain ⟨b3, f3, _⟩ := run_eqF hs (hk.good g1).1 hE.symm hl2 e3
  refine ⟨b3, ?_⟩
  rw [f3]
  simp only [Option.map_some, Option.some.injEq, Prod.mk.injEq, and_true]
  rw [← l1]
  simp [List.eraseIdx_append_of_length_le]

end Verif
