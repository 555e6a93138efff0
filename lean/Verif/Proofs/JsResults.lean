import Verif.Spec.JsResults
import Verif.Proofs.PyResults

/-! What is known of the analyses of a JavaScript program is true. -/

namespace Verif

open Spec Props

variable {s : Sys} {v : JsConv} {d : JsObject} {m : Option Method} {p : Option Params} {W H : ℕ} {L S : List ℕ} {a : Analysis} {ev : List (Call × Obs)}
  {base w w' : World} {kn : List (Option JsUsed)} {st : List (Option Analysis)} {op : JsOp}

/-! ## The functions of the binding when memory suffices -/

theorem jsMeans_exists (hs : Build s) (hv : ∀ x, v.size x ≤ s.cfg.sizeMax) (hd : d.unknown = false) (hsane : SaneJs v d) :
    ∃ p, JsMeans s.cfg v d p ∧ ValidParams? s.cfg p := by
  obtain ⟨q, w1, h1, h2⟩ := jsParameters_means (c := s.cfg) hd hsane Demo.w0_wf Demo.w0_plenty
  exact ⟨_, h2, (jsParameters_own (F := True) hs hv Demo.w0_wf (fun _ _ => trivial) h1).1⟩

theorem jsParameters_act (hd : d.unknown = false) (hsane : SaneJs v d) (hp : JsMeans s.cfg v d p) :
    Act False False L S (jsParameters s.cfg v d) (fun r L' S' => ∃ q, r = .ok q ∧ q.map Prod.snd = p ∧ L' = (q.map Prod.fst).toList ++ L ∧ S' = S) := by
  by_cases he : d.isEmpty = true
  · have e : d = {} := by
      obtain ⟨r, t, f, u⟩ := d
      simpa [JsObject.isEmpty, and_assoc] using he
    subst e
    rcases hp with ⟨_, rfl⟩ | ⟨h, _⟩
    · exact Act.pure ⟨none, rfl, rfl, rfl, rfl⟩
    · exact absurd rfl h
  · have he' : d.isEmpty = false := by simpa using he
    obtain ⟨q, w1, h1, h2⟩ := jsParameters_means (c := s.cfg) hd hsane Demo.w0_wf Demo.w0_plenty
    obtain ⟨b, w2, h3, _⟩ := jsParameters_eq (c := s.cfg) (v := v) hd he' Demo.w0_wf Demo.w0_plenty
    rw [h1] at h3
    unfold jsParameters
    rw [if_neg he, if_neg (by simp [hd])]
    have hal : Act False False L S (resdetAllocDefaultParameters s.cfg) (fun r L' S' => ∃ b, r = some (b, defaultParams s.cfg) ∧ L' = b :: L ∧ S' = S) := by
      unfold resdetAllocDefaultParameters
      refine Act.bind Act.malloc ?_
      rintro r L' S' ⟨rfl, ⟨rfl, _, h⟩ | ⟨b, rfl, rfl⟩⟩
      · exact h.elim
      · exact Act.pure ⟨b, rfl, rfl, rfl⟩
    refine Act.bind hal ?_
    rintro _ _ _ ⟨b', rfl, rfl, rfl⟩
    simp only
    split_ifs at h3 with h4
    · cases (Prod.mk.inj (Option.some.inj h3)).1
    · rw [if_neg h4]
      have h5 := (Prod.mk.inj (Option.some.inj h3)).1
      cases h5
      rw [jsMeans_unique hp h2]
      refine Act.pure ?_
      rcases h2 with ⟨h, _⟩ | ⟨_, q, hq, _⟩
      · subst h
        cases he'
      · rw [Option.map_map] at hq
        obtain ⟨q', h6, _⟩ := Option.map_eq_some_iff.mp hq
        rw [h6]
        exact ⟨some (b', q'), rfl, rfl, rfl, rfl⟩

theorem jsAnalysis_act (hs : Build s) (hm : ValidMethod? m) (hd : d.unknown = false) (hsane : SaneJs v d) (hp : JsMeans s.cfg v d p) (hpv : ValidParams? s.cfg p)
    {wf hf : Fl} (hW : v.size wf = W) (hH : v.size hf = H) (hsc : LinesTooBig s.cfg W H → False) :
    Act False False L S (jsAnalysis s v m wf hf d) (fun r L' S' => S' = S ∧
      ((expected s W H ≠ RDEOK ∧ r = .raised (some (expected s W H)) ∧ L' = L) ∨
       (expected s W H = RDEOK ∧ ∃ a, r = .ok (some a) ∧ InLoop s m p W H (a.blocks ++ L) [] a ∧ L' = a.blocks ++ L))) := by
  unfold jsAnalysis
  refine Act.bind (jsParameters_act hd hsane hp) ?_
  rintro _ _ _ ⟨q, rfl, hq, rfl, rfl⟩
  simp only
  refine Act.bind Act.malloc ?_
  rintro r L' S' ⟨rfl, ⟨rfl, _, h⟩ | ⟨eb, rfl, rfl⟩⟩
  · exact h.elim
  simp only
  rw [hW, hH, hq]
  refine Act.bind (Act.seen (Act.ofTri (createAnalysis_tri hs hm hpv (fun h => hsc h.lines)))) ?_
  rintro ⟨oa, e⟩ L1 S1 ⟨⟨rfl, hc⟩, w1, w1', hw1, _, he1⟩
  simp only
  have fail : ∀ e : RDError, L1 = eb :: ((q.map Prod.fst).toList ++ L) → e ≠ RDEOK → expected s W H = e →
      Act False False L1 S1 (do
        free (q.map Prod.fst)
        free (some eb)
        if e ≠ 0 then return .raised (some e)
        else return .ok oa : M (Raises (Option Analysis))) (fun r L' S' => S' = S1 ∧
      ((expected s W H ≠ RDEOK ∧ r = .raised (some (expected s W H)) ∧ L' = L) ∨
       (expected s W H = RDEOK ∧ ∃ a, r = .ok (some a) ∧ InLoop s m p W H (a.blocks ++ L) [] a ∧ L' = a.blocks ++ L))) := by
    rintro e rfl he hx
    refine Act.bind (Act.freeOpt (R := eb :: L) (by perm_count)) ?_
    rintro _ _ _ ⟨rfl, rfl⟩
    refine Act.bind (Act.free (List.Perm.refl _)) ?_
    rintro _ _ _ ⟨rfl, rfl⟩
    rw [if_pos (by exact he)]
    exact Act.pure ⟨rfl, Or.inl ⟨hx ▸ he, by rw [hx], rfl⟩⟩
  cases hc with
  | zero h => exact fail RDEINVAL rfl (by decide) (by unfold expected; rw [if_pos h])
  | toobig h1 h2 h3 =>
    refine fail RDETOOBIG rfl (by decide) ?_
    unfold expected
    rw [if_neg (by omega), if_pos]
    rcases h3 with h3 | h3 | h3
    · unfold Fits at h3; omega
    · exact Or.inr (Or.inr (Or.inl h3))
    · exact Or.inr (Or.inr (Or.inr h3))
  | internal h1 h2 h3 h4 h5 h6 h7 =>
    refine fail RDEINTERNAL rfl (by decide) ?_
    unfold expected
    rw [if_neg (by omega), if_neg, if_pos ⟨h6, h7⟩]
    unfold Fits at h3; omega
  | nomem _ h _ => exact h.elim
  | ok a _ hf hperm _ _ _ =>
    refine Act.bind (Act.freeOpt (R := eb :: (a.blocks ++ L)) (hperm.trans (by perm_count))) ?_
    rintro _ _ _ ⟨rfl, rfl⟩
    refine Act.bind (Act.free (List.Perm.refl _)) ?_
    rintro _ _ _ ⟨rfl, rfl⟩
    have hr : Reach s m W H p [] a := Reach.create hw1 he1
    rw [if_neg (by decide)]
    exact Act.pure ⟨rfl, Or.inr ⟨reach_expected hs hm hpv hr, a, rfl,
      ⟨hr, hf.good, hf.width, hf.height, fun b hb => List.mem_append_left _ hb⟩, rfl⟩⟩

theorem jsAnalyze_act (hs : Build s) {L1 : List ℕ} (ha : InLoop s m p W H L ev a) (hL : ∀ b ∈ L, b ∈ L1) {f : List Fl} (hf : W * H ≤ f.length)
    (hsize : f.length * 4 ≤ s.cfg.sizeMax) (hsc : LinesTooBig s.cfg W H → False) :
    Act False False L1 S (jsAnalyze s a f) (fun v L' S' => L' = L1 ∧ S' = S ∧ ∃ e a' w, v = (if e = RDEOK then .ok () else .raised (some e), some a') ∧
      a'.blocks = a.blocks ∧ e ≠ RDENOMEM ∧ InLoop s m p W H L (ev ++ [(⟨.analyze (some f), w⟩, .analyzed e)]) a' ∧ Plenty w) := by
  unfold jsAnalyze
  rw [if_pos hsize]
  refine Act.bind (P := fun _ l s' => l = L1 ∧ s' = S) (Act.need rfl ⟨rfl, rfl⟩) ?_
  rintro _ _ _ ⟨rfl, rfl⟩
  refine Act.bind Act.malloc ?_
  rintro r L' S' ⟨rfl, ⟨rfl, _, h⟩ | ⟨b, rfl, rfl⟩⟩
  · exact h.elim
  simp only
  refine Act.bind (analyze_world (F := False) hs ha (fun b hb => List.mem_cons_of_mem _ (hL b hb)) hf) ?_
  rintro ⟨e, oa⟩ _ _ ⟨rfl, rfl, a', wd, rfl, hbl, hnm, ha', hwd⟩
  have hne : e ≠ RDENOMEM := fun h => hnm.2 h hsc
  have hpl : Plenty wd := fun j => by
    by_contra h
    exact hwd j (by simpa using h)
  simp only
  refine Act.bind (Act.free (List.Perm.refl _)) ?_
  rintro _ _ _ ⟨rfl, rfl⟩
  by_cases he : e = RDEOK
  · subst he
    rw [if_neg (show ¬ RDEOK ≠ 0 by decide)]
    exact Act.pure ⟨rfl, rfl, _, a', wd, rfl, hbl, hne, ha', hpl⟩
  · rw [if_pos (show e ≠ 0 from he)]
    exact Act.pure ⟨rfl, rfl, e, a', wd, by rw [if_neg he], hbl, hne, ha', hpl⟩

/-- The four cells. -/
theorem cells_act {α : Type} {g : Option ℕ → Option ℕ → Option ℕ → Option ℕ → M (Raises α)} {Q : Raises α → List ℕ → List ℕ → Prop}
    (h : ∀ a b c d : ℕ, Act False False (d :: c :: b :: a :: L) S (g (some a) (some b) (some c) (some d)) Q) :
    Act False False L S (do
      let countw ← malloc
      let counth ← malloc
      let resw ← malloc
      let resh ← malloc
      if !(countw.isSome && counth.isSome && resw.isSome && resh.isSome) then return .raised none
      else g countw counth resw resh) Q := by
  refine Act.bind Act.malloc ?_
  rintro r L' S' ⟨rfl, ⟨rfl, _, h'⟩ | ⟨a, rfl, rfl⟩⟩
  · exact h'.elim
  refine Act.bind Act.malloc ?_
  rintro r L' S' ⟨rfl, ⟨rfl, _, h'⟩ | ⟨b, rfl, rfl⟩⟩
  · exact h'.elim
  refine Act.bind Act.malloc ?_
  rintro r L' S' ⟨rfl, ⟨rfl, _, h'⟩ | ⟨c, rfl, rfl⟩⟩
  · exact h'.elim
  refine Act.bind Act.malloc ?_
  rintro r L' S' ⟨rfl, ⟨rfl, _, h'⟩ | ⟨d, rfl, rfl⟩⟩
  · exact h'.elim
  exact h a b c d

theorem jsResults_act (hs : Build s) (hm : ValidMethod? m) (hp : ValidParams? s.cfg p) {L0 : List ℕ} (ha : InLoop s m p W H L0 ev a) (hL : ∀ b ∈ L0, b ∈ L) :
    Act False False L S (jsResults s a) (fun r L' S' => L' = L ∧ S' = S ∧ ∃ e out c, Legal a c ∧ c.op = .results .all ∧
      step s a c = some (.results e (out.rw.map Buf.data) out.cw (out.rh.map Buf.data) out.ch, a) ∧ e ≠ RDENOMEM ∧ r = answer (e, out) ∧
      (e = RDEOK → out.rw.isSome ∧ out.rh.isSome)) := by
  unfold jsResults
  refine cells_act (g := fun countw counth resw resh => do
    let (e, o, _) ← analysisResults s (some a) .all
    jsCollect countw counth resw resh e o) fun c1 c2 c3 c4 => ?_
  have hsub : ∀ b ∈ a.blocks, b ∈ c4 :: c3 :: c2 :: c1 :: L := fun b hb => by
    have := hL b (ha.blocks b hb)
    simp [this]
  refine Act.bind (Act.seen (Act.ofTri (results_tri_eq (F := False) hs ha.good (ptr := .all) hsub))) ?_
  rintro ⟨e3, out, oa3⟩ L3 S3 ⟨⟨rfl, k3⟩, w3, w3', hw3, hlive3, he3⟩
  have hoa : oa3 = some a := by cases k3 <;> rfl
  subst hoa
  simp only
  have hleg : Legal a ⟨.results .all, w3⟩ := ⟨hw3, fun b hb => hlive3 b (hsub b (ha.good.owned_blocks b hb)), trivial⟩
  have hstep : step s a ⟨.results .all, w3⟩ = some (.results e3 (out.rw.map Buf.data) out.cw (out.rh.map Buf.data) out.ch, a) := by
    simp only [step, he3]
  obtain ⟨v, w2, h1, hc⟩ := results_called hs hm hp (oa := some a) (w1 := w3) (by rintro _ h; cases h; exact ⟨ev, ha.reach⟩) hw3
    (by rintro _ h; cases h; exact fun b hb => hlive3 b (hsub b (ha.good.owned_blocks b hb)))
  rw [he3] at h1
  obtain ⟨e, o⟩ := v
  simp only [Option.some.injEq, Prod.mk.injEq, and_true] at h1
  obtain ⟨⟨rfl, rfl⟩, rfl⟩ := h1
  have hne : e3 ≠ RDENOMEM := by
    cases k3 with
    | ok => decide
    | param => decide
    | noimg => decide
    | nomem _ _ h => exact h.elim
  have hperm : L3.Perm (lists (e3, out) ++ (c4 :: c3 :: c2 :: c1 :: L)) := by
    unfold lists
    cases k3 with
    | ok rw rh L' _ _ _ _ hp3 => exact hp3
    | param => exact List.Perm.refl _
    | noimg => exact List.Perm.refl _
    | nomem => exact List.Perm.refl _
  refine Act.mono (Act.of_perm (jsCollect_act (L := L) (F := False) (U := False) hc (a := some c1) (b := some c2) (x := some c3) (y := some c4))
    (hperm.trans (by simp only [Option.toList_some]; perm_count)) (List.Perm.refl _)) ?_
  rintro _ _ _ ⟨rfl, rfl, rfl⟩
  exact ⟨rfl, rfl, e3, out, _, hleg, rfl, hstep, hne, rfl, fun he => ⟨(hc.outputs.rw he).1.mpr rfl, (hc.outputs.rh he).1.mpr rfl⟩⟩

theorem resdetect_act (hs : Build s) (hm : ValidMethod? m) (hp : ValidParams? s.cfg p) {n : ℕ} {image : List Fl} (himg : image.length ≤ s.cfg.sizeMax)
    (hlen : n * (W * H) ≤ image.length) (hsc : ¬ HugeScores s W H) :
    Act False False L S (resdetect s (some image) n W H .all m p) (fun r L' S' => L' = lists r ++ L ∧ S' = S ∧ ∃ w1 w2, w1.WF ∧ Plenty w1 ∧
      resdetect s (some image) n W H .all m p w1 = some (r, w2) ∧ Called r w1 w2) := by
  intro base w ow
  have hpl := plenty_own ow
  have hi : ∀ im, some image = some im → im.length ≤ s.cfg.sizeMax ∧ n * (W * H) ≤ im.length := by rintro _ h; cases h; exact ⟨himg, hlen⟩
  obtain ⟨r, w2, k1, hc⟩ := resdetect_called hs hm hp (Or.inr (Or.inr ⟨hpl, hsc⟩)) hi ow.wf
  obtain ⟨r', w2', L', h5, h6, _⟩ := resdetect_tri (F := False) (L := []) hs hm hp (w := W) (h := H) (n := n)
    (image := some image) (ptr := .all) hi (no_huge hsc) w w (Rel.init ow.wf (plenty_false hpl))
  rw [k1] at h5
  cases h5
  exact Or.inr ⟨r, w2, _, S, k1, { ow.called hc with sched := h6.sched }, rfl, rfl, w, w2, ow.wf, hpl, k1, hc⟩

theorem jsResDetect_act (hs : Build s) (hm : ValidMethod? m) (hd : d.unknown = false) (hsane : SaneJs v d) (hp : JsMeans s.cfg v d p) (hpv : ValidParams? s.cfg p)
    {nf wf hf : Fl} {n : ℕ} (hn : v.size nf = n) (hW : v.size wf = W) (hH : v.size hf = H) {image : List Fl} (himg : image.length * 4 ≤ s.cfg.sizeMax)
    (hlen : n * (W * H) ≤ image.length) (hsc : ¬ HugeScores s W H) :
    Act False False L S (jsResDetect s v image nf wf hf m d) (fun r L' S' => L' = L ∧ S' = S ∧
      (n = 0 → r = .raised (some RDENOIMG)) ∧ (n ≠ 0 → PyOutcome s m p W H (framesOf image W H n) r)) := by
  unfold jsResDetect
  refine Act.bind (jsParameters_act hd hsane hp) ?_
  rintro _ _ _ ⟨q, rfl, hq, rfl, rfl⟩
  simp only
  rw [if_pos himg]
  refine Act.bind (Act.need (Q := fun _ l s' => l = _ ∧ s' = _) rfl ⟨rfl, rfl⟩) ?_
  rintro _ _ _ ⟨rfl, rfl⟩
  refine Act.bind Act.malloc ?_
  rintro r L' S' ⟨rfl, ⟨rfl, _, h⟩ | ⟨b, rfl, rfl⟩⟩
  · exact h.elim
  simp only
  rw [hn, hW, hH, hq]
  refine cells_act (g := fun countw counth resw resh => do
    let (e, o) ← resdetect s (some image) n W H .all m p
    free (q.map Prod.fst)
    free (some b)
    jsCollect countw counth resw resh e o) fun c1 c2 c3 c4 => ?_
  have himg' : image.length ≤ s.cfg.sizeMax := by omega
  refine Act.bind (resdetect_act hs hm hpv himg' hlen hsc) ?_
  rintro ⟨e, o⟩ _ _ ⟨rfl, rfl, w1, w2, hw1, hpl, k1, hc⟩
  simp only
  refine Act.bind (Act.freeOpt (R := lists (e, o) ++ (c4 :: c3 :: c2 :: c1 :: b :: L)) (by perm_count)) ?_
  rintro _ _ _ ⟨rfl, rfl⟩
  refine Act.bind (Act.free (R := lists (e, o) ++ (c4 :: c3 :: c2 :: c1 :: L)) (by perm_count)) ?_
  rintro _ _ _ ⟨rfl, rfl⟩
  refine Act.mono (Act.of_perm (jsCollect_act (L := L) (F := False) (U := False) hc (a := some c1) (b := some c2) (x := some c3) (y := some c4))
    (by simp only [Option.toList_some]; perm_count) (List.Perm.refl _)) ?_
  rintro _ _ _ ⟨rfl, rfl, rfl⟩
  obtain ⟨out, w2', k2⟩ := C14_error (ptr := .all) (p := p) hs hm hpv himg' hlen (fun _ => rfl) (fun _ => rfl) hw1 hpl hsc
  have k3 := k1
  rw [k2] at k3
  obtain ⟨h1, -⟩ := Prod.mk.inj (Option.some.inj k3)
  replace h1 := (Prod.mk.inj h1).1
  refine ⟨rfl, rfl, fun h0 => ?_, fun h0 => ?_⟩
  · rw [if_pos h0] at h1
    subst h1
    rfl
  · rw [if_neg h0] at h1
    refine outcome_of_answer (w1 := w1) (w2 := w2) ?_ ?_ hc.outputs
    · have hne : framesOf image W H n ≠ [] := fun h => h0 (by simpa [framesOf] using h)
      rw [← h1, if_neg hne]
      split
      · rfl
      · split
        · rfl
        · exact not_not.mp ‹_›
    · rintro rfl
      obtain ⟨ev, a, g1, _, g2, g3, g4⟩ := C14_resdetect_history hs hm hpv himg' hlen hw1 k1
      exact ⟨ev, a, g1, by rw [g2]; simp [framesOf], g3, g4 hpl hsc⟩

/-! ## The invariant -/

/-- What is known of an analysis is true. -/
def JAna (s : Sys) (v : JsConv) (x : Option JsUsed) (oa : Option Analysis) : Prop :=
  match x with
  | none => oa = none
  | some u => ∃ a ev p, oa = some a ∧ JsMeans s.cfg v u.dict p ∧ ValidParams? s.cfg p ∧ InLoop s (pyMethod u.method) p u.width u.height a.blocks ev a ∧ NoOom ev ∧
    (analysed ev).map (fun x => x.1.op) = u.frames.map (fun f => Op.analyze (some f)) ∧ (∀ x ∈ analysed ev, Plenty x.1.world) ∧
    (LinesTooBig s.cfg u.width u.height → False)

structure JsHolds (s : Sys) (v : JsConv) (base : World) (kn : List (Option JsUsed)) (st : List (Option Analysis)) (w : World) : Prop where
  own : Own False base (st.flatMap anaBlocks) [] w
  known : List.Forall₂ (JAna s v) kn st

theorem jsGiven_eq (m : Option String) : jsGiven m = pyMethod m := by cases m <;> rfl

/-- A statement does what it must. -/
def JsGoes (s : Sys) (v : JsConv) (base : World) (kn : List (Option JsUsed)) (st : List (Option Analysis)) (op : JsOp) (w : World) : Prop :=
  ∃ o st' w', jsStep s v st op w = some ((o, st'), w') ∧ jsExpects s v kn op o ∧ JsHolds s v base (jsLearn s v kn op) st' w'

theorem JsGoes.analysis (hs : Build s) (hv : ∀ x, v.size x ≤ s.cfg.sizeMax) {wf hf : Fl} {mn : Option String} (h : JsHolds s v base kn st w)
    (hp : jsProper s v kn (.analysis wf hf mn d)) : JsGoes s v base kn st (.analysis wf hf mn d) w := by
  obtain ⟨hmod, hd⟩ := hp
  unfold JsGoes jsStep
  simp only [jsGiven_eq]
  by_cases hu : d.unknown = true
  · have e : jsAnalysis s v (pyMethod mn) wf hf d w = some (.raised none, w) := by
      unfold jsAnalysis
      rw [M.bind_some ((C51_js_partial (c := s.cfg) (w := w)).1 hu)]
      rfl
    refine ⟨_, _, w, M.bind_some e, by simp [jsExpects, hu], ?_⟩
    simp only [jsLearn]
    rw [if_neg (by simp [hu])]
    exact h
  · have hu' : d.unknown = false := by simpa using hu
    have hsane := hd.resolve_left hu
    obtain ⟨p, hp, hpv⟩ := jsMeans_exists hs hv hu' hsane
    obtain ⟨_, w1, L1, S1, e1, ow, rfl, h5⟩ := (jsAnalysis_act (L := st.flatMap anaBlocks) (S := []) (m := pyMethod mn) hs (pyMethod_valid mn) hu' hsane hp hpv rfl rfl
      (moderate_lines hmod)).run h.own
    rcases h5 with ⟨h5, rfl, rfl⟩ | ⟨h5, a, rfl, ha, rfl⟩
    · refine ⟨_, _, w1, M.bind_some e1, ?_, ?_⟩
      · simp [jsExpects, hu', raising, h5]
      · simp only [jsLearn]
        rw [if_neg (fun h => h5 h.2)]
        exact ⟨ow, h.known⟩
    · refine ⟨_, _, w1, M.bind_some e1, ?_, ?_⟩
      · simp [jsExpects, hu', raising, h5]
      · simp only [jsLearn]
        rw [if_pos ⟨hu', h5⟩]
        refine ⟨ow.perm ?_ (List.Perm.refl _), forall₂_push h.known ?_⟩
        · simp only [List.flatMap_append, List.flatMap_cons, List.flatMap_nil, anaBlocks, List.append_nil]
          exact List.perm_append_comm
        · exact ⟨a, [], p, rfl, hp, hpv, ⟨ha.reach, ha.good, ha.width, ha.height, fun _ h => h⟩, fun x hx => (by cases hx), rfl, fun x hx => (by cases hx),
            moderate_lines hmod⟩

theorem join_some {k : ℕ} (hk : st[k]? = some (some a)) : need st[k]?.join w = some (a, w) := by
  rw [hk]
  rfl

theorem JsGoes.analyze (hs : Build s) {k : ℕ} {f : List Fl} (h : JsHolds s v base kn st w) (hp : jsProper s v kn (.analyze k f)) :
    JsGoes s v base kn st (.analyze k f) w := by
  obtain ⟨u, hk, hlen, hsize⟩ := hp
  obtain ⟨_, hk', a, ev, p, rfl, hm, hpv, ha, hno, hops, hpw, hsc⟩ := forall₂_get h.known hk
  have ow := h.own.perm (flatMap_pick anaBlocks hk') (List.Perm.refl _)
  obtain ⟨_, w1, _, _, e1, ow', rfl, rfl, e, a', wd, rfl, hbl, hne, ha', hwd⟩ := (jsAnalyze_act (L1 := anaBlocks (some a) ++ (st.eraseIdx k).flatMap anaBlocks) hs ha
    (fun b hb => List.mem_append_left _ hb) hlen hsize hsc).run ow
  have hcode : e = frameError u.width u.height [f] := by
    unfold frameError
    rcases reach_frame hs (pyMethod_valid _) hpv ha'.reach (c := ⟨.analyze (some f), wd⟩) (e := e) (f := f) (by simp) rfl with h1 | ⟨h1, h2⟩ | ⟨h1, h2⟩
    · exact absurd h1 hne
    · rw [h1, if_pos (fun f' hf' => by rw [List.mem_singleton.mp hf']; exact h2)]
    · rw [h1, if_neg (fun hh => h2 (hh f (by simp)))]
  refine ⟨_, _, w1, (M.bind_some (join_some hk')).trans (M.bind_some e1), ?_, ?_⟩
  · intro u' hu'
    rw [hk] at hu'
    cases hu'
    rw [raising_answer, hcode]
  have hno' : NoOom (ev ++ [(⟨.analyze (some f), wd⟩, .analyzed e)]) := by
    intro x hx
    rcases List.mem_append.mp hx with hx | hx
    · exact hno x hx
    · rw [List.mem_singleton.mp hx]
      intro h
      exact hne (Obs.analyzed.inj h)
  have hloop : InLoop s (pyMethod u.method) p u.width u.height a'.blocks (ev ++ [(⟨.analyze (some f), wd⟩, .analyzed e)]) a' :=
    ⟨ha'.reach, ha'.good, ha'.width, ha'.height, fun _ h => h⟩
  have han : analysed (ev ++ [(⟨.analyze (some f), wd⟩, .analyzed e)]) = analysed ev ++ (if e = RDEOK then [(⟨.analyze (some f), wd⟩, .analyzed e)] else []) := by
    unfold analysed
    rw [List.filter_append]
    congr 1
    by_cases he : e = RDEOK
    · simp [he]
    · simp [he]
  have hmod : jsLearn s v kn (.analyze k f) = kn.set k (some (if e = RDEOK then { u with frames := u.frames ++ [f] } else u)) := by
    simp only [jsLearn]
    rw [List.modify_eq_set_getElem?, hk, hcode]
    rfl
  rw [hmod]
  refine ⟨ow'.perm ?_ (List.Perm.refl _), forall₂_set h.known ?_⟩
  · refine List.Perm.trans ?_ (flatMap_set anaBlocks hk').symm
    simp only [anaBlocks, hbl]
    exact List.Perm.refl _
  · by_cases he : e = RDEOK
    · rw [if_pos he] at han ⊢
      refine ⟨a', _, p, rfl, hm, hpv, hloop, hno', ?_, ?_, hsc⟩
      · rw [han, List.map_append, hops]
        simp
      · rw [han]
        intro x hx
        rcases List.mem_append.mp hx with hx | hx
        · exact hpw x hx
        · rw [List.mem_singleton.mp hx]
          exact hwd
    · rw [if_neg he] at han ⊢
      rw [List.append_nil] at han
      exact ⟨a', _, p, rfl, hm, hpv, hloop, hno', by rw [han]; exact hops, by rw [han]; exact hpw, hsc⟩

theorem JsGoes.results (hs : Build s) {k : ℕ} (h : JsHolds s v base kn st w) (hp : jsProper s v kn (.results k)) :
    JsGoes s v base kn st (.results k) w := by
  obtain ⟨u, hk, hlen⟩ := hp
  obtain ⟨_, hk', a, ev, p, rfl, hm, hpv, ha, hno, hops, hpw, hsc⟩ := forall₂_get h.known hk
  have ow := h.own.perm (flatMap_pick anaBlocks hk') (List.Perm.refl _)
  obtain ⟨_, w2, _, _, e2, ow', rfl, rfl, e, out, c, hleg, hop, hstep, hnm, rfl, hout⟩ := (jsResults_act (L := anaBlocks (some a) ++ (st.eraseIdx k).flatMap anaBlocks) hs
    (pyMethod_valid u.method) hpv ha (fun b hb => List.mem_append_left _ hb)).run ow
  refine ⟨_, _, w2, (M.bind_some (join_some hk')).trans (M.bind_some e2), ?_, ow'.perm (flatMap_pick anaBlocks hk').symm (List.Perm.refl _), h.known⟩
  intro u' p' hu' hp'
  rw [hk] at hu'
  cases hu'
  rw [jsMeans_unique hp' hm]
  show Answers s (pyMethod u.method) _ _ _ _ _
  have hl : (analysed ev).length = u.frames.length := by
    have := congrArg List.length hops
    simpa using this
  have hn := C10_noimg_iff hs (pyMethod_valid u.method) hpv ha.reach (by omega) hleg hop (fun _ => rfl) (fun _ => rfl) hstep
  rw [← List.length_eq_zero_iff, hl, List.length_eq_zero_iff] at hn
  rcases results_code hs ha.good hleg hop hstep with h2 | h2 | h2 | h2
  · exact absurd h2.2 (by decide)
  · subst h2
    exact .empty (hn.mp rfl)
  · exact absurd h2 hnm
  · subst h2
    obtain ⟨o1, o2⟩ := hout rfl
    obtain ⟨b1, o1⟩ := Option.isSome_iff_exists.mp o1
    obtain ⟨b2, o2⟩ := Option.isSome_iff_exists.mp o2
    have hret : Returned s (pyMethod u.method) u.width u.height p ev a (out.rw.map Buf.data) out.cw (out.rh.map Buf.data) out.ch :=
      ⟨ha.reach, c, a, hleg, hstep⟩
    rw [o1, o2] at hret
    have : answer (RDEOK, out) = .ok (b1.data, b2.data) := by
      unfold answer
      rw [if_pos rfl, o1, o2]
      rfl
    rw [this]
    exact .lists (fun h => absurd (hn.mpr h) (by decide)) hret hno hops hpw

theorem JsGoes.collected {k : ℕ} (h : JsHolds s v base kn st w) (hp : jsProper s v kn (.collected k)) : JsGoes s v base kn st (.collected k) w := by
  obtain ⟨u, hk⟩ := hp
  obtain ⟨_, hk', a, ev, p, rfl, _⟩ := forall₂_get h.known hk
  have ow := h.own.perm (flatMap_pick anaBlocks hk') (List.Perm.refl _)
  obtain ⟨_, w2, _, _, e2, ow', rfl, rfl⟩ := (Act.ofTri (destroyAnalysis_tri (F := False) (R := (st.eraseIdx k).flatMap anaBlocks) (a := a) (List.Perm.refl _))).run ow
  refine ⟨_, _, w2, (M.bind_some (join_some hk')).trans (M.bind_some e2), rfl, ow'.perm ?_ (List.Perm.refl _), forall₂_set h.known rfl⟩
  exact (flatMap_set anaBlocks (b := none) hk').symm

theorem JsGoes.resDetect (hs : Build s) (hv : ∀ x, v.size x ≤ s.cfg.sizeMax) {image : List Fl} {nf wf hf : Fl} {mn : Option String} (h : JsHolds s v base kn st w)
    (hp : jsProper s v kn (.resDetect image nf wf hf mn d)) : JsGoes s v base kn st (.resDetect image nf wf hf mn d) w := by
  obtain ⟨hmod, hd, hlen, himg⟩ := hp
  unfold JsGoes jsStep
  simp only [jsGiven_eq]
  by_cases hu : d.unknown = true
  · have e : jsResDetect s v image nf wf hf (pyMethod mn) d w = some (.raised none, w) := by
      unfold jsResDetect
      rw [M.bind_some ((C51_js_partial (c := s.cfg) (w := w)).1 hu)]
      rfl
    exact ⟨_, _, w, M.bind_some e, by simp [jsExpects, hu, Raises.to], h⟩
  · have hu' : d.unknown = false := by simpa using hu
    have hsane := hd.resolve_left hu
    obtain ⟨p, hp, hpv⟩ := jsMeans_exists hs hv hu' hsane
    obtain ⟨r, w1, L1, S1, e1, ow, rfl, rfl, h5, h6⟩ := (jsResDetect_act (L := st.flatMap anaBlocks) (S := []) (m := pyMethod mn) hs (pyMethod_valid mn) hu' hsane hp hpv
      rfl rfl rfl himg hlen (moderate_huge hmod)).run h.own
    refine ⟨_, _, w1, M.bind_some e1, ?_, ow, h.known⟩
    unfold jsExpects
    simp only
    rw [if_neg hu]
    split_ifs with h0
    · rw [h5 h0]
      rfl
    · intro p' hp'
      rw [jsMeans_unique hp' hp]
      exact detects_of_outcome (h6 h0)

theorem js_step (hs : Build s) (hv : ∀ x, v.size x ≤ s.cfg.sizeMax) (h : JsHolds s v base kn st w) (hp : jsProper s v kn op) : JsGoes s v base kn st op w := by
  cases op with
  | analysis => exact .analysis hs hv h hp
  | analyze => exact .analyze hs h hp
  | results => exact .results hs h hp
  | collected => exact .collected h hp
  | resDetect => exact .resDetect hs hv h hp

theorem js_run (hs : Build s) (hv : ∀ x, v.size x ≤ s.cfg.sizeMax) (ops : List JsOp) (h : JsHolds s v base kn st w) (hp : jsProperly s v kn ops) :
    ∃ obs st' w', jsRun s v st ops w = some ((obs, st'), w') ∧ jsFulfils s v kn ops obs ∧ JsHolds s v base (ops.foldl (jsLearn s v) kn) st' w' := by
  induction ops generalizing kn st w with
  | nil => exact ⟨[], st, w, rfl, trivial, h⟩
  | cons op ops ih =>
    obtain ⟨o, st1, w1, e1, h1, h2⟩ := js_step hs hv h hp.1
    obtain ⟨obs, st2, w2, e2, h3, h4⟩ := ih h2 hp.2
    exact ⟨o :: obs, st2, w2, (M.bind_some e1).trans (M.bind_some e2), ⟨h1, h3⟩, h4⟩

/-! ## The values are settled -/

/-- Parameters are acceptable. -/
def JsSound (v : JsConv) (kn : List (Option JsUsed)) : Prop := ∀ u, some u ∈ kn → u.dict.unknown = false ∧ SaneJs v u.dict

theorem JsSound.learn (h : JsSound v kn) (hp : jsProper s v kn op) : JsSound v (jsLearn s v kn op) := by
  intro u hu
  cases op with
  | results => exact h u hu
  | resDetect => exact h u hu
  | collected k =>
    simp only [jsLearn] at hu
    rcases List.mem_or_eq_of_mem_set hu with hu | hu
    · exact h u hu
    · cases hu
  | analysis wf hf mn d =>
    simp only [jsLearn] at hu
    split_ifs at hu with h1
    · rcases List.mem_append.mp hu with hu | hu
      · exact h u hu
      · cases List.mem_singleton.mp hu
        exact ⟨h1.1, hp.2.resolve_left (by simp [h1.1])⟩
    · exact h u hu
  | analyze k f =>
    obtain ⟨u', hk, _⟩ := hp
    simp only [jsLearn] at hu
    rw [List.modify_eq_set_getElem?, hk] at hu
    rcases List.mem_or_eq_of_mem_set hu with hu | hu
    · exact h u hu
    · cases hu
      simp only
      split_ifs <;> exact h u' (List.mem_of_getElem? hk)

theorem jsExpects_unique (hs : Build s) (hv : ∀ x, v.size x ≤ s.cfg.sizeMax) (hk : JsSound v kn) (hp : jsProper s v kn op) {o o' : Raises PyVal}
    (h : jsExpects s v kn op o) (h' : jsExpects s v kn op o') : o = o' := by
  cases op with
  | analysis => exact h.trans h'.symm
  | analyze k f =>
    obtain ⟨u, h1, _⟩ := hp
    exact (h u h1).trans (h' u h1).symm
  | results k =>
    obtain ⟨u, h1, _⟩ := hp
    obtain ⟨h2, h3⟩ := hk u (List.mem_of_getElem? h1)
    obtain ⟨p, h4, h5⟩ := jsMeans_exists hs hv h2 h3
    exact (h u p h1 h4).unique hs (pyMethod_valid u.method) h5 (h' u p h1 h4)
  | collected => exact h.trans h'.symm
  | resDetect image nf wf hf mn d =>
    simp only [jsExpects] at h h'
    by_cases hu : d.unknown = true
    · rw [if_pos hu] at h h'
      exact h.trans h'.symm
    · rw [if_neg hu] at h h'
      by_cases h0 : v.size nf = 0
      · rw [if_pos h0] at h h'
        exact h.trans h'.symm
      · rw [if_neg h0] at h h'
        obtain ⟨p, h4, h5⟩ := jsMeans_exists hs hv (by simpa using hu) (hp.2.1.resolve_left hu)
        exact (h p h4).unique hs (pyMethod_valid mn) h5 (h' p h4)

theorem jsFulfils_unique (hs : Build s) (hv : ∀ x, v.size x ≤ s.cfg.sizeMax) {ops : List JsOp} (hk : JsSound v kn) (hp : jsProperly s v kn ops)
    {obs obs' : List (Raises PyVal)} (h : jsFulfils s v kn ops obs) (h' : jsFulfils s v kn ops obs') : obs = obs' := by
  induction ops generalizing kn obs obs' with
  | nil =>
    cases obs with
    | nil => cases obs' with
      | nil => rfl
      | cons => exact h'.elim
    | cons => exact h.elim
  | cons op ops ih =>
    cases obs with
    | nil => exact h.elim
    | cons o obs => cases obs' with
      | nil => exact h'.elim
      | cons o' obs' => rw [jsExpects_unique hs hv hk hp.1 h.1 h'.1, ih (hk.learn hp.1) hp.2 h.2 h'.2]

/-- The same analyses, but fewer of them collected. -/
def Fewer : List (Option JsUsed) → List (Option JsUsed) → Prop := List.Forall₂ (fun x y => x = none ∨ x = y)

theorem Fewer.refl : Fewer kn kn := List.forall₂_same.mpr fun _ _ => Or.inr rfl

variable {kn' : List (Option JsUsed)}

theorem Fewer.get {k : ℕ} {u : JsUsed} (h : Fewer kn kn') (hk : kn[k]? = some (some u)) : kn'[k]? = some (some u) := by
  obtain ⟨y, h1, h2 | h2⟩ := forall₂_get h hk
  · cases h2
  · rw [h1, h2]

theorem Fewer.learn (h : Fewer kn kn') (hp : jsProper s v kn op) (hop : JsOp.Stated op = true) : Fewer (jsLearn s v kn op) (jsLearn s v kn' op) := by
  cases op with
  | results => exact h
  | resDetect => exact h
  | collected k => cases hop
  | analysis wf hf mn d =>
    simp only [jsLearn]
    split_ifs
    · exact forall₂_push h (Or.inr rfl)
    · exact h
  | analyze k f =>
    obtain ⟨u', hk, _⟩ := hp
    simp only [jsLearn]
    rw [List.modify_eq_set_getElem?, List.modify_eq_set_getElem?, hk, h.get hk]
    exact forall₂_set h (Or.inr rfl)

theorem Fewer.collect {k : ℕ} (h : Fewer kn kn') : Fewer (jsLearn s v kn (.collected k)) kn' := forall₂_forget h fun _ => Or.inl rfl

theorem Fewer.proper (h : Fewer kn kn') (hp : jsProper s v kn op) : jsProper s v kn' op := by
  cases op with
  | analysis => exact hp
  | resDetect => exact hp
  | analyze => obtain ⟨u, h1, h2⟩ := hp; exact ⟨u, h.get h1, h2⟩
  | results => obtain ⟨u, h1, h2⟩ := hp; exact ⟨u, h.get h1, h2⟩
  | collected => obtain ⟨u, h1⟩ := hp; exact ⟨u, h.get h1⟩

theorem Fewer.expects (h : Fewer kn kn') (hp : jsProper s v kn op) {o : Raises PyVal} (he : jsExpects s v kn op o) : jsExpects s v kn' op o := by
  cases op with
  | analysis => exact he
  | resDetect => exact he
  | analyze =>
    obtain ⟨u, h1, h2⟩ := hp
    intro u' h3
    rw [h.get h1] at h3
    cases h3
    exact he u h1
  | results =>
    obtain ⟨u, h1, h2⟩ := hp
    intro u' p h3
    rw [h.get h1] at h3
    cases h3
    exact he u p h1
  | collected => exact he

theorem Fewer.properly {ops : List JsOp} (h : Fewer kn kn') (hp : jsProperly s v kn ops) : jsProperly s v kn' (ops.filter JsOp.Stated) := by
  induction ops generalizing kn kn' with
  | nil => trivial
  | cons op ops ih =>
    by_cases hop : JsOp.Stated op = true
    · rw [List.filter_cons_of_pos hop]
      exact ⟨h.proper hp.1, ih (h.learn hp.1 hop) hp.2⟩
    · rw [List.filter_cons_of_neg hop]
      cases op with
      | collected k => exact ih h.collect hp.2
      | _ => exact absurd rfl hop

theorem Fewer.fulfils {ops : List JsOp} (h : Fewer kn kn') (hp : jsProperly s v kn ops) {obs : List (Raises PyVal)} (hf : jsFulfils s v kn ops obs) :
    jsFulfils s v kn' (ops.filter JsOp.Stated) (jsSeen ops obs) := by
  induction ops generalizing kn kn' obs with
  | nil =>
    cases obs with
    | nil => trivial
    | cons => exact hf.elim
  | cons op ops ih =>
    cases obs with
    | nil => exact hf.elim
    | cons o obs =>
      by_cases hop : JsOp.Stated op = true
      · have e : jsSeen (op :: ops) (o :: obs) = o :: jsSeen ops obs := by simp [jsSeen, hop]
        rw [List.filter_cons_of_pos hop, e]
        exact ⟨h.expects hp.1 hf.1, ih (h.learn hp.1 hop) hp.2 hf.2⟩
      · have e : jsSeen (op :: ops) (o :: obs) = jsSeen ops obs := by simp [jsSeen, hop]
        rw [List.filter_cons_of_neg hop, e]
        cases op with
        | collected k => exact ih h.collect hp.2 hf.2
        | _ => exact absurd rfl hop

end Verif
