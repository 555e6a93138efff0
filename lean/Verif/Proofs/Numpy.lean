import Verif.Model.Numpy
import Verif.Props.Repeat
import Verif.Proofs.PyObjects

/-! Programs with numpy arrays and PIL images, when memory suffices. -/

namespace Verif

open Spec Props

variable {s : Sys} {io : Io} {r : Reader} {Ok : Ctx → ℕ → ℕ → Prop} {L S : List ℕ} {W H : ℕ} {i : RDImage} {x : Ctx}
  {G : Ctx → List (List Fl) → RDError → Prop} {m : Option Method} {p : Option Params} {d : PyDict}
  {ev : List (Call × Obs)} {a : Analysis} {frames : List (List Fl)}

/-- The parameters made from a dictionary when memory suffices. -/
def pyEff (c : Cfg) (d : PyDict) : Option Params := if d.isEmpty then none else pySet c d (some (defaultParams c))

theorem pyEff_valid (hs : Build s) : ValidParams? s.cfg (pyEff s.cfg d) := by
  unfold pyEff
  split
  · rintro _ h; cases h
  · obtain ⟨q, h1, h2⟩ := pySet_valid hs (d := d)
    rw [h1]
    rintro _ h; cases h; exact h2

theorem pyParameters_act (hs : Build s) (hd : d.unknown = false) :
    Act False False L S (pyParameters s.cfg d) (fun r L' S' => ∃ q, r = .ok q ∧ q.map Prod.snd = pyEff s.cfg d ∧ L' = (q.map Prod.fst).toList ++ L ∧ S' = S) := by
  unfold pyParameters pyEff
  by_cases he : d.isEmpty = true
  · rw [if_pos he, if_pos he]
    exact Act.pure ⟨none, rfl, rfl, rfl, rfl⟩
  · rw [if_neg he, if_neg he, if_neg (by simp [hd])]
    have hal : Act False False L S (resdetAllocDefaultParameters s.cfg) (fun r L' S' => ∃ b, r = some (b, defaultParams s.cfg) ∧ L' = b :: L ∧ S' = S) := by
      unfold resdetAllocDefaultParameters
      refine Act.bind Act.malloc ?_
      rintro r L' S' ⟨rfl, ⟨rfl, _, h⟩ | ⟨b, rfl, rfl⟩⟩
      · exact h.elim
      · exact Act.pure ⟨b, rfl, rfl, rfl⟩
    refine Act.bind hal ?_
    rintro _ _ _ ⟨b, rfl, rfl, rfl⟩
    obtain ⟨q, h1, h2⟩ := pySet_valid hs (d := d)
    simp only
    rw [h1]
    exact Act.pure ⟨some (b, q), rfl, rfl, rfl, rfl⟩

theorem pyAnalysis_act (hs : Build s) (hm : ValidMethod? m) (hd : d.unknown = false) (hW : W ≤ s.cfg.sizeMax) (hH : H ≤ s.cfg.sizeMax)
    (hsc : LinesTooBig s.cfg W H → False) :
    Act False False L S (pyAnalysis s m W H d) (fun r L' S' => S' = S ∧
      ((expected s W H ≠ RDEOK ∧ r = .raised (some (expected s W H)) ∧ L' = L) ∨
       (expected s W H = RDEOK ∧ ∃ a, r = .ok a ∧ InLoop s m (pyEff s.cfg d) W H (a.blocks ++ L) [] a ∧ L' = a.blocks ++ L))) := by
  unfold pyAnalysis
  refine Act.bind (pyParameters_act hs hd) ?_
  rintro _ _ _ ⟨q, rfl, hq, rfl, rfl⟩
  simp only
  rw [pySize_of_le hW, pySize_of_le hH, hq]
  refine Act.bind (Act.seen (Act.ofTri (createAnalysis_tri hs hm (pyEff_valid hs) (fun h => hsc h.lines)))) ?_
  rintro ⟨oa, e⟩ L1 S1 ⟨⟨rfl, hc⟩, w1, w1', hw1, _, he1⟩
  simp only
  have fail : ∀ e : RDError, L1 = (q.map Prod.fst).toList ++ L → oa = none → e ≠ RDEOK → expected s W H = e →
      Act False False L1 S1 (do
        free (q.map Prod.fst)
        match oa with
        | none => return .raised (some e)
        | some a => return .ok a : M (Raises Analysis)) (fun r L' S' => S' = S1 ∧
      ((expected s W H ≠ RDEOK ∧ r = .raised (some (expected s W H)) ∧ L' = L) ∨
       (expected s W H = RDEOK ∧ ∃ a, r = .ok a ∧ InLoop s m (pyEff s.cfg d) W H (a.blocks ++ L) [] a ∧ L' = a.blocks ++ L))) := by
    rintro e rfl rfl he hx
    refine Act.bind (Act.freeOpt (List.Perm.refl _)) ?_
    rintro _ _ _ ⟨rfl, rfl⟩
    exact Act.pure ⟨rfl, Or.inl ⟨hx ▸ he, by rw [hx], rfl⟩⟩
  cases hc with
  | zero h => exact fail RDEINVAL rfl rfl (by decide) (by unfold expected; rw [if_pos h])
  | toobig h1 h2 h3 =>
    refine fail RDETOOBIG rfl rfl (by decide) ?_
    unfold expected
    rw [if_neg (by omega), if_pos]
    rcases h3 with h3 | h3 | h3
    · unfold Fits at h3; omega
    · exact Or.inr (Or.inr (Or.inl h3))
    · exact Or.inr (Or.inr (Or.inr h3))
  | internal h1 h2 h3 h4 h5 h6 h7 =>
    refine fail RDEINTERNAL rfl rfl (by decide) ?_
    unfold expected
    rw [if_neg (by omega), if_neg, if_pos ⟨h6, h7⟩]
    unfold Fits at h3; omega
  | nomem _ h _ => exact h.elim
  | ok a _ hf hperm _ _ _ =>
    refine Act.bind (Act.freeOpt (R := a.blocks ++ L) (hperm.trans (by perm_count))) ?_
    rintro _ _ _ ⟨rfl, rfl⟩
    have hr : Reach s m W H (pyEff s.cfg d) [] a := Reach.create hw1 he1
    exact Act.pure ⟨rfl, Or.inr ⟨reach_expected hs hm (pyEff_valid hs) hr, a, rfl,
      ⟨hr, hf.good, hf.width, hf.height, fun b hb => List.mem_append_left _ hb⟩, rfl⟩⟩

theorem pyResults_act (hs : Build s) (hm : ValidMethod? m) (hp : ValidParams? s.cfg p) {L0 : List ℕ} (ha : InLoop s m p W H L0 ev a) (hL : ∀ b ∈ L0, b ∈ L)
    (hsc : LinesTooBig s.cfg W H → False) :
    Act False False L S (pyResults s (some a)) (fun r L' S' => L' = L ∧ S' = S ∧ ∃ e out c, Legal a c ∧ c.op = .results .all ∧
      step s a c = some (.results e (out.rw.map Buf.data) out.cw (out.rh.map Buf.data) out.ch, a) ∧ e ≠ RDENOMEM ∧ r = answer (e, out) ∧
      (e = RDEOK → out.rw.isSome ∧ out.rh.isSome)) := by
  unfold pyResults
  have hsub : ∀ b ∈ a.blocks, b ∈ L := fun b hb => hL b (ha.blocks b hb)
  refine Act.bind (Act.seen (Act.ofTri (results_tri_eq (F := False) hs ha.good (ptr := .all) hsub))) ?_
  rintro ⟨e3, out, oa3⟩ L3 S3 ⟨⟨rfl, k3⟩, w3, w3', hw3, hlive3, he3⟩
  have hoa : oa3 = some a := by cases k3 <;> rfl
  subst hoa
  simp only
  have hleg : Legal a ⟨.results .all, w3⟩ := ⟨hw3, fun b hb => hlive3 b (hsub b (ha.good.owned_blocks b hb)), trivial⟩
  have hstep : step s a ⟨.results .all, w3⟩ = some (.results e3 (out.rw.map Buf.data) out.cw (out.rh.map Buf.data) out.ch, a) := by
    simp only [step, he3]
  obtain ⟨v, w2, h1, hc⟩ := results_called hs hm hp (oa := some a) (w1 := w3) (by rintro _ h; cases h; exact ⟨ev, ha.reach⟩) hw3
    (by rintro _ h; cases h; exact fun b hb => hlive3 b (hsub b (ha.good.owned_blocks b hb)))
  rw [he3] at h1
  obtain ⟨e, o⟩ := v
  simp only [Option.some.injEq, Prod.mk.injEq, and_true] at h1
  obtain ⟨⟨rfl, rfl⟩, rfl⟩ := h1
  have hne : e3 ≠ RDENOMEM := by
    cases k3 with
    | ok => decide
    | param => decide
    | noimg => decide
    | nomem _ _ h => exact h.elim
  have hperm : L3.Perm (lists (e3, out) ++ L) := by
    unfold lists
    cases k3 with
    | ok rw rh L' _ _ _ _ hp3 => exact hp3
    | param => exact List.Perm.refl _
    | noimg => exact List.Perm.refl _
    | nomem => exact List.Perm.refl _
  refine Act.mono (Act.of_perm (pyCollect_act (L := L) (F := False) (U := False) hc) hperm (List.Perm.refl _)) ?_
  rintro _ _ _ ⟨rfl, rfl, rfl⟩
  exact ⟨rfl, rfl, e3, out, _, hleg, rfl, hstep, hne, rfl, fun he => ⟨(hc.outputs.rw he).1.mpr rfl, (hc.outputs.rh he).1.mpr rfl⟩⟩

/-- A result of the Python functions, given as an outcome of the library on some frames. -/
inductive PyOutcome (s : Sys) (m : Option Method) (p : Option Params) (W H : ℕ) (frames : List (List Fl)) : Raises (List Res × List Res) → Prop where
  | size : expected s W H ≠ RDEOK → PyOutcome s m p W H frames (.raised (some (expected s W H)))
  | frame : expected s W H = RDEOK → frameError W H frames ≠ RDEOK → PyOutcome s m p W H frames (.raised (some (frameError W H frames)))
  | empty : expected s W H = RDEOK → frames = [] → PyOutcome s m p W H frames (.raised (some RDENOIMG))
  | ok {ev : List (Call × Obs)} {a : Analysis} {l1 l2 : List Res} {c1 c2 : ℕ} : expected s W H = RDEOK → frameError W H frames = RDEOK → frames ≠ [] →
      Returned s m W H p ev a (some l1) c1 (some l2) c2 → ev.map (fun x => x.2) = List.replicate frames.length (.analyzed RDEOK) →
      ev.map (fun x => x.1.op) = frames.map (fun f => Op.analyze (some f)) → (∀ x ∈ ev, Plenty x.1.world) → PyOutcome s m p W H frames (.ok (l1, l2))

theorem PyOutcome.unique (hs : Build s) (hm : ValidMethod? m) (hp : ValidParams? s.cfg p) {r r' : Raises (List Res × List Res)}
    (h : PyOutcome s m p W H frames r) (h' : PyOutcome s m p W H frames r') : r = r' := by
  have nil : frames = [] → frameError W H frames = RDEOK := by
    rintro rfl
    unfold frameError
    rw [if_pos (by simp)]
  cases h with
  | size h1 => cases h' with
    | size => rfl
    | frame h2 => exact absurd h2 h1
    | empty h2 => exact absurd h2 h1
    | ok h2 => exact absurd h2 h1
  | frame h1 h2 => cases h' with
    | size h3 => exact absurd h1 h3
    | frame => rfl
    | empty _ h3 => exact absurd (nil h3) h2
    | ok _ h3 => exact absurd h3 h2
  | empty h1 h2 => cases h' with
    | size h3 => exact absurd h1 h3
    | frame _ h3 => exact absurd (nil h2) h3
    | empty => rfl
    | ok _ _ h3 => exact absurd h2 h3
  | ok h1 h2 h3 g1 g2 g3 g4 => cases h' with
    | size h4 => exact absurd h1 h4
    | frame _ h4 => exact absurd h2 h4
    | empty _ h4 => exact absurd h4 h3
    | ok _ _ _ k1 k2 k3 k4 =>
      obtain ⟨e1, e2⟩ := C84_repeatable hs hm hp (all_analysed g2).2 (all_analysed k2).2 g1 k1
        (by rw [(all_analysed g2).1, (all_analysed k2).1]; exact sameFrames (List.forall₂_same.mpr fun _ _ => rfl) g3 k3)
        (Or.inr (Or.inr (by
          rw [(all_analysed g2).1, (all_analysed k2).1]
          intro x hx
          rcases List.mem_append.mp hx with hx | hx
          · exact g4 x hx
          · exact k4 x hx)))
      rw [e1 _ _ rfl rfl, e2 _ _ rfl rfl]

/-- The end of a program that fed frames to an analysis: what `analysis_results` gives, or the error that stopped it. -/
theorem fed_outcome (hs : Build s) (hm : ValidMethod? m) (hp : ValidParams? s.cfg p) (hlen : frames.length ≤ s.cfg.sizeMax) {e : RDError}
    (hr : Reach s m W H p ev a) (hf : Fed frames e ev) (hne : e ≠ RDENOMEM) (hplenty : ∀ x ∈ ev, Plenty x.1.world) :
    (e ≠ RDEOK → PyOutcome s m p W H frames (.raised (some e))) ∧
    (e = RDEOK → ∀ e' out c, Legal a c → c.op = .results .all →
      step s a c = some (.results e' (out.rw.map Buf.data) out.cw (out.rh.map Buf.data) out.ch, a) → e' ≠ RDENOMEM →
      (e' = RDEOK → out.rw.isSome ∧ out.rh.isSome) → PyOutcome s m p W H frames (answer (e', out))) := by
  have hx := reach_expected hs hm hp hr
  have hfe : e = frameError W H frames := (fed_code hs hm hp hr hf).elim (fun h => absurd h hne) id
  refine ⟨fun h0 => ?_, ?_⟩
  · rw [hfe] at h0 ⊢
    exact .frame hx h0
  · rintro rfl e' out c hleg hop hstep hnm hout
    obtain ⟨f1, f2⟩ := fed_ok hf
    have han := (all_analysed f1).1
    have hl : (analysed ev).length = frames.length := by
      rw [han, ← List.length_map (fun x : Call × Obs => x.2), f1, List.length_replicate]
    have hn := C10_noimg_iff hs hm hp hr (by omega) hleg hop (fun _ => rfl) (fun _ => rfl) hstep
    rw [← List.length_eq_zero_iff, hl, List.length_eq_zero_iff] at hn
    rcases results_code hs (reach_inv hs hm hp hr).good hleg hop hstep with h2 | h2 | h2 | h2
    · exact absurd h2.2 (by decide)
    · subst h2
      exact .empty hx (hn.mp rfl)
    · exact absurd h2 hnm
    · subst h2
      obtain ⟨o1, o2⟩ := hout rfl
      obtain ⟨b1, o1⟩ := Option.isSome_iff_exists.mp o1
      obtain ⟨b2, o2⟩ := Option.isSome_iff_exists.mp o2
      have hne : frames ≠ [] := fun h => absurd (hn.mpr h) (by decide)
      have : answer (RDEOK, out) = .ok (b1.data, b2.data) := by
        unfold answer
        rw [if_pos rfl, o1, o2]
        rfl
      rw [this]
      refine .ok hx hfe.symm hne (ev := ev) (a := a) (c1 := out.cw) (c2 := out.ch) ?_ f1 f2 hplenty
      have hret : Returned s m W H p ev a (out.rw.map Buf.data) out.cw (out.rh.map Buf.data) out.ch := ⟨hr, c, a, hleg, hstep⟩
      rw [o1, o2] at hret
      exact hret

/-- The buffer of an open `resdet_numpy.Image`. -/
def ndBuf (W H : ℕ) (buf : Buf Fl) : PyBuf := { data := some buf, param := none, size := some (W, H, 1) }

theorem ndRead_act (hb : Feed s r W H Ok False G) (hi : Handle s r Ok W H i x) (hfr : G x frames RDEOK) {buf : Buf Fl} (hl : buf.data.length = W * H) :
    Act False False (held buf.id i x L) (x.files ++ S) (ndRead ⟨some i, ndBuf W H buf⟩) (fun v L' S' => ∃ x' data,
      v = (.ok (frames.head?.map (fun f => ⟨[W, H], f⟩)), ⟨some { i with ctx := some x' }, ndBuf W H ⟨buf.id, data⟩⟩) ∧
        (∀ f fs, frames = f :: fs → data = f ∧ f.length = W * H ∧ G x' fs RDEOK) ∧
        Handle s r Ok W H { i with ctx := some x' } x' ∧ L' = held buf.id i x' L ∧ S' = x'.files ++ S) := by
  unfold ndRead
  refine Act.bind (hb.frame_act (L := L) (S := S) hi hfr (buf := buf) hl) ?_
  rintro v L1 S1 ⟨x', data, rfl, hdata, hi', rfl, rfl⟩
  simp only [ite_self]
  rw [if_neg (show ¬ RDEOK ≠ 0 by decide)]
  cases frames with
  | nil =>
    simp only [List.isEmpty_nil, Bool.not_true, Bool.not_false, if_true]
    exact Act.pure ⟨x', data, rfl, fun f fs h => (by cases h), hi', rfl, rfl⟩
  | cons f rest =>
    obtain ⟨rfl, hf2, hfr2⟩ := hdata f rest rfl
    simp only [List.isEmpty_cons, Bool.not_false, Bool.not_true, Bool.false_eq_true, if_false]
    refine Act.bind (P := fun v L' S' => v = some data ∧ L' = held buf.id i x' L ∧ S' = x'.files ++ S) ?_ ?_
    · unfold pySamples
      refine Act.bind (Act.touch (by simp [held])) ?_
      rintro _ _ _ ⟨rfl, rfl⟩
      exact Act.pure ⟨rfl, rfl, rfl⟩
    · rintro _ _ _ ⟨rfl, rfl, rfl⟩
      simp only [ndBuf, Int.toNat_natCast]
      rw [if_pos (le_of_eq hf2.symm)]
      refine Act.bind (Act.need (Q := fun a l s' => a = data ∧ l = held buf.id i x' L ∧ s' = x'.files ++ S) rfl ⟨List.take_of_length_le (le_of_eq hf2), rfl, rfl⟩) ?_
      rintro _ _ _ ⟨rfl, rfl, rfl⟩
      exact Act.pure ⟨x', _, rfl, fun g gs h => (by obtain ⟨rfl, rfl⟩ := List.cons.inj h; exact ⟨rfl, hf2, hfr2⟩), hi', rfl, rfl⟩

theorem pyAnalyze_act (hs : Build s) {L1 : List ℕ} (ha : InLoop s m p W H L ev a) (hL : ∀ b ∈ L, b ∈ L1) {f : List Fl} (hf : W * H ≤ f.length)
    (hsc : LinesTooBig s.cfg W H → False) :
    Act False False L1 S (pyAnalyze s (some a) (some f)) (fun v L' S' => L' = L1 ∧ S' = S ∧ ∃ e a' w, v = (if e = RDEOK then .ok () else .raised (some e), some a') ∧
      a'.blocks = a.blocks ∧ e ≠ RDENOMEM ∧ InLoop s m p W H L (ev ++ [(⟨.analyze (some f), w⟩, .analyzed e)]) a' ∧ Plenty w) := by
  unfold pyAnalyze
  refine Act.bind (analyze_world (F := False) hs ha hL hf) ?_
  rintro ⟨e, oa⟩ _ _ ⟨rfl, rfl, a', wd, rfl, hbl, hnm, ha', hwd⟩
  have hne : e ≠ RDENOMEM := fun h => hnm.2 h hsc
  have hpl : Plenty wd := fun j => by
    by_contra h
    exact hwd j (by simpa using h)
  simp only
  by_cases he : e = RDEOK
  · subst he
    rw [if_neg (show ¬ RDEOK ≠ 0 by decide)]
    exact Act.pure ⟨rfl, rfl, _, a', wd, rfl, hbl, hne, ha', hpl⟩
  · rw [if_pos (show e ≠ 0 from he)]
    exact Act.pure ⟨rfl, rfl, e, a', wd, by rw [if_neg he], hbl, hne, ha', hpl⟩

/-- What a program that feeds `frames` to an analysis leaves of it. -/
structure FedBy (s : Sys) (m : Option Method) (p : Option Params) (W H : ℕ) (L0 : List ℕ) (frames : List (List Fl)) (ev : List (Call × Obs)) (a : Analysis)
    (e : RDError) (ev' : List (Call × Obs)) (a' : Analysis) : Prop where
  fed : Fed frames e ev'
  loop : InLoop s m p W H L0 (ev ++ ev') a'
  blocks : a'.blocks = a.blocks
  error : e ≠ RDENOMEM
  plenty : ∀ x ∈ ev', Plenty x.1.world

theorem ndLoop_act {convert : NdArray → Option NdArray} (hconv : ∀ f, ∃ y, convert ⟨[W, H], f⟩ = some y ∧ y.memory = f) (hs : Build s)
    (hb : Feed s r W H Ok False G) {L0 : List ℕ} (hL0 : ∀ b ∈ L0, b ∈ L) (hi : Handle s r Ok W H i x) {buf : Buf Fl} (hl : buf.data.length = W * H)
    (hfr : G x frames RDEOK) {fuel : ℕ} (hfuel : frames.length < fuel) (ha : InLoop s m p W H L0 ev a) (hsc : LinesTooBig s.cfg W H → False) :
    Act False False (held buf.id i x L) (x.files ++ S) (ndLoop s convert fuel ⟨some i, ndBuf W H buf⟩ (some a)) (fun v L' S' => ∃ e ev1 x' data a',
      v = (if e = RDEOK then .ok () else .raised (some e), ⟨some { i with ctx := some x' }, ndBuf W H ⟨buf.id, data⟩⟩, some a') ∧
        FedBy s m p W H L0 frames ev a e ev1 a' ∧ Handle s r Ok W H { i with ctx := some x' } x' ∧ L' = held buf.id i x' L ∧ S' = x'.files ++ S) := by
  induction fuel generalizing i x buf a ev frames with
  | zero => omega
  | succ fuel ih =>
    unfold ndLoop
    refine Act.bind (ndRead_act (L := L) (S := S) hb hi hfr (buf := buf) hl) ?_
    rintro v L1 S1 ⟨x', data, rfl, hdata, hi', rfl, rfl⟩
    cases frames with
    | nil => exact Act.pure ⟨RDEOK, [], x', data, a, rfl, ⟨Fed.done, by rw [List.append_nil]; exact ha, rfl, by decide, fun _ h => by cases h⟩, hi', rfl, rfl⟩
    | cons f rest =>
      obtain ⟨rfl, hf2, hfr2⟩ := hdata f rest rfl
      obtain ⟨y, hy, hm'⟩ := hconv data
      simp only [List.head?_cons, Option.map_some, hy]
      unfold ndAnalyze
      rw [hm']
      refine Act.bind (pyAnalyze_act hs ha (by intro b hb; simp [held, hL0 b hb]) hf2.ge hsc) ?_
      rintro _ _ _ ⟨rfl, rfl, e, a', wd, rfl, hbl, hne, ha', hpl⟩
      simp only
      by_cases he : e = RDEOK
      · subst he
        rw [if_pos rfl]
        have := ih (i := { i with ctx := some x' }) hi' (buf := ⟨buf.id, data⟩) hf2 hfr2 (by simp only [List.length_cons] at hfuel; omega) ha'
        refine Act.mono this ?_
        rintro v L' S' ⟨e, ev1, x2, data2, a2, rfl, h1, h2, rfl, rfl⟩
        refine ⟨e, _ :: ev1, x2, data2, a2, rfl, ⟨Fed.next _ _ _ _ _ h1.fed, ?_, h1.blocks.trans hbl, h1.error, List.forall_mem_cons.mpr ⟨hpl, h1.plenty⟩⟩, h2, rfl, rfl⟩
        have := h1.loop
        rw [List.append_assoc] at this
        exact this
      · rw [if_neg he]
        refine Act.pure ⟨e, [_], x', data, a', by rw [if_neg he], ⟨Fed.refused _ _ _ _ he, ha', hbl, hne, ?_⟩, hi', rfl, rfl⟩
        simpa using hpl

theorem pilLoop_act (hs : Build s) {L0 : List ℕ} (hL0 : ∀ b ∈ L0, b ∈ L) {fs : List PilFrame} (hfs : ∀ f ∈ fs, f.samples.length = W * H)
    (ha : InLoop s m p W H L0 ev a) (hsc : LinesTooBig s.cfg W H → False) :
    Act False False L S (pilLoop s fs (some a)) (fun v L' S' => L' = L ∧ S' = S ∧ ∃ e ev1 a',
      v = (if e = RDEOK then .ok () else .raised (some e), some a') ∧ FedBy s m p W H L0 (fs.map PilFrame.samples) ev a e ev1 a') := by
  induction fs generalizing a ev with
  | nil => exact Act.pure ⟨rfl, rfl, RDEOK, [], a, rfl, ⟨Fed.done, by rw [List.append_nil]; exact ha, rfl, by decide, fun _ h => by cases h⟩⟩
  | cons f fs ih =>
    unfold pilLoop ndAnalyze pilArray
    refine Act.bind (pyAnalyze_act hs ha hL0 (hfs f (by simp)).ge hsc) ?_
    rintro _ _ _ ⟨rfl, rfl, e, a', wd, rfl, hbl, hne, ha', hpl⟩
    simp only
    by_cases he : e = RDEOK
    · subst he
      rw [if_pos rfl]
      refine Act.mono (ih (fun g hg => hfs g (by simp [hg])) ha') ?_
      rintro v L' S' ⟨rfl, rfl, e, ev1, a2, rfl, h1⟩
      refine ⟨rfl, rfl, e, _ :: ev1, a2, rfl, ⟨Fed.next _ _ _ _ _ h1.fed, ?_, h1.blocks.trans hbl, h1.error, List.forall_mem_cons.mpr ⟨hpl, h1.plenty⟩⟩⟩
      have := h1.loop
      rw [List.append_assoc] at this
      exact this
    · rw [if_neg he]
      refine Act.pure ⟨rfl, rfl, e, [_], a', by rw [if_neg he], ⟨Fed.refused _ _ _ _ he, ha', hbl, hne, ?_⟩⟩
      simpa using hpl

/-- Asking for the results if nothing went wrong. -/
theorem finish_act (hs : Build s) (hm : ValidMethod? m) (hp : ValidParams? s.cfg p) {L0 : List ℕ} (hL : ∀ b ∈ L0, b ∈ L) (hlen : frames.length ≤ s.cfg.sizeMax)
    {e : RDError} {a' : Analysis} (h : FedBy s m p W H L0 frames [] a e ev a') (hsc : LinesTooBig s.cfg W H → False) :
    Act False False L S (match (if e = RDEOK then .ok () else .raised (some e) : Raises Unit) with
      | .raised e => pure (.raised e)
      | .ok _ => pyResults s (some a')) (fun r L' S' => L' = L ∧ S' = S ∧ PyOutcome s m p W H frames r) := by
  have hloop := h.loop
  rw [List.nil_append] at hloop
  obtain ⟨k1, k2⟩ := fed_outcome hs hm hp hlen hloop.reach h.fed h.error h.plenty
  by_cases he : e = RDEOK
  · rw [if_pos he]
    refine Act.mono (pyResults_act hs hm hp hloop hL hsc) ?_
    rintro r L' S' ⟨rfl, rfl, e', out, c, h1, h2, h3, h4, rfl, h5⟩
    exact ⟨rfl, rfl, k2 he e' out c h1 h2 h3 h4 h5⟩
  · rw [if_neg he]
    exact Act.pure ⟨rfl, rfl, k1 he⟩

/-- The finalisers of an image. -/
theorem ndClose_act (hr : r.Sound s.cfg (fun _ => True) True False Ok) (hi : Handle s r Ok W H i x) {buf : Buf Fl} {L1 : List ℕ} (hp : L1.Perm (held buf.id i x L)) :
    Act False False L1 (x.files ++ S) (NdImage.close ⟨some i, ndBuf W H buf⟩) (fun _ L' S' => L' = L ∧ S' = S) := by
  unfold NdImage.close PyBuf.close ndBuf
  refine Act.bind (P := fun _ L' S' => L' = i.block :: (x.blocks ++ L) ∧ S' = x.files ++ S) ?_ ?_
  · refine Act.bind (P := fun _ L' S' => L' = i.block :: (x.blocks ++ L) ∧ S' = x.files ++ S) (Act.free hp) ?_
    rintro _ _ _ ⟨rfl, rfl⟩
    exact Act.pure ⟨rfl, rfl⟩
  · rintro _ _ _ ⟨rfl, rfl⟩
    exact closeImage_act hr hi.reader hi.ctx hi.ok (List.Perm.refl _) (List.Perm.refl _)

theorem ndDetect_act {convert : NdArray → Option NdArray} (hconv : ∀ f, ∃ y, convert ⟨[W, H], f⟩ = some y ∧ y.memory = f) (hs : Build s) (hm : ValidMethod? m)
    (hd : d.unknown = false) {fn : List UInt8} {ft rn : Option (List UInt8)}
    (hx : Fount s (pyOpen s io fn ft rn true) W H r Ok False G (fun x => G x frames RDEOK)) {fuel : ℕ} (hfuel : frames.length < fuel)
    (hlen : frames.length ≤ s.cfg.sizeMax) (hsc : LinesTooBig s.cfg W H → False) :
    Act False False L S (ndDetect s io fuel convert fn ft rn m d) (fun r L' S' => L' = L ∧ S' = S ∧ PyOutcome s m (pyEff s.cfg d) W H frames r) := by
  have hp := pyEff_valid hs (d := d)
  unfold ndDetect ndOpen
  refine Act.bind (P := fun v L' S' => ∃ i x b, v = .ok ⟨some i, ndBuf W H ⟨b, List.replicate (W * H) s.env.junk⟩⟩ ∧ Handle s r Ok W H i x ∧ G x frames RDEOK ∧
      Within s.cfg W H ∧ L' = held b i x L ∧ S' = x.files ++ S) ?_ ?_
  · refine Act.bind (hx.opening L S) ?_
    rintro o L1 S1 (⟨i, x1, b, ho, hG, hW, hH, hbuf, rfl, rfl⟩ | ⟨_, h, _⟩)
    · have hi := ho.handle
      have hwi := ho.within
      rw [hW, hH] at hi hwi
      simp only [ho.image, hW, hH, hbuf]
      exact Act.pure ⟨i, x1, b, rfl, hi, hG, hwi, rfl, rfl⟩
    · exact h.elim
  · rintro _ _ _ ⟨i, x, b, rfl, hi, hG, hwi, rfl, rfl⟩
    simp only [ndBuf]
    obtain ⟨hW0, hH0, _, hsz⟩ := hwi
    have hW1 : W ≤ s.cfg.sizeMax := le_trans (by nlinarith) hsz
    have hH1 : H ≤ s.cfg.sizeMax := le_trans (by nlinarith) hsz
    refine Act.bind (pyAnalysis_act hs hm hd hW1 hH1 hsc) ?_
    rintro v _ _ ⟨rfl, ⟨h1, rfl, rfl⟩ | ⟨h1, a, rfl, ha, rfl⟩⟩
    · simp only
      refine Act.bind (ndClose_act (L := L) (S := S) hx.feed.sound hi (buf := ⟨b, List.replicate (W * H) s.env.junk⟩) (List.Perm.refl _)) ?_
      rintro _ _ _ ⟨rfl, rfl⟩
      exact Act.pure ⟨rfl, rfl, .size h1⟩
    · simp only
      have hL : (a.blocks ++ held b i x L).Perm (held b i x (a.blocks ++ L)) := by
        unfold held
        perm_count
      have ha : InLoop s m (pyEff s.cfg d) W H (a.blocks ++ L) [] a := ⟨ha.reach, ha.good, ha.width, ha.height, fun b hb => List.mem_append_left _ hb⟩
      refine Act.of_perm ?_ hL (List.Perm.refl _)
      refine Act.bind (ndLoop_act hconv hs hx.feed (L0 := a.blocks ++ L) (fun _ h => h) hi (buf := ⟨b, List.replicate (W * H) s.env.junk⟩) (by simp) hG hfuel ha hsc) ?_
      rintro _ _ _ ⟨e, ev1, x', data, a', rfl, hf, hi', rfl, rfl⟩
      simp only
      refine Act.bind (finish_act hs hm hp (L0 := a.blocks ++ L) (fun b hb => by simp only [held, List.mem_cons, List.mem_append] at hb ⊢; tauto) hlen hf hsc) ?_
      rintro r _ _ ⟨rfl, rfl, hr⟩
      refine Act.bind (ndClose_act (L := a.blocks ++ L) (S := S) hx.feed.sound hi' (buf := ⟨b, data⟩) (List.Perm.refl _)) ?_
      rintro _ _ _ ⟨rfl, rfl⟩
      refine Act.bind (Act.ofTri (destroyAnalysis_tri (F := False) (R := L) (by rw [hf.blocks]))) ?_
      rintro _ _ _ ⟨rfl, rfl⟩
      exact Act.pure ⟨rfl, rfl, hr⟩

theorem pilResdetect_act (hs : Build s) (hm : ValidMethod? m) (hd : d.unknown = false) {im : PilImage} (ht : im.tell < im.frames.length)
    (hfs : ∀ f ∈ im.frames.drop im.tell, f.width = W ∧ f.height = H ∧ f.samples.length = W * H) (hW : W ≤ s.cfg.sizeMax) (hH : H ≤ s.cfg.sizeMax)
    (hlen : im.frames.length ≤ s.cfg.sizeMax) (hsc : LinesTooBig s.cfg W H → False) :
    Act False False L S (pilResdetect s im m d)
      (fun r L' S' => L' = L ∧ S' = S ∧ PyOutcome s m (pyEff s.cfg d) W H ((im.frames.drop im.tell).map PilFrame.samples) r) := by
  have hp := pyEff_valid hs (d := d)
  unfold pilResdetect
  have h0 : im.frames[im.tell]? = some im.frames[im.tell] := List.getElem?_eq_getElem ht
  rw [h0]
  simp only
  obtain ⟨e1, e2, _⟩ := hfs im.frames[im.tell] (by
    have h1 := List.drop_eq_getElem_cons ht
    rw [h1]
    exact List.mem_cons_self)
  rw [e1, e2]
  refine Act.bind (pyAnalysis_act hs hm hd hW hH hsc) ?_
  rintro v _ _ ⟨rfl, ⟨h1, rfl, rfl⟩ | ⟨h1, a, rfl, ha, rfl⟩⟩
  · exact Act.pure ⟨rfl, rfl, .size h1⟩
  · simp only
    refine Act.bind (pilLoop_act hs (fun _ h => h) (fun f hf => (hfs f hf).2.2) ha hsc) ?_
    rintro _ _ _ ⟨rfl, rfl, e, ev1, a', rfl, hf⟩
    simp only
    refine Act.bind (finish_act hs hm hp (fun _ h => h) (by rw [List.length_map, List.length_drop]; omega) hf hsc) ?_
    rintro r _ _ ⟨rfl, rfl, hr⟩
    refine Act.bind (Act.ofTri (destroyAnalysis_tri (F := False) (by rw [hf.blocks]))) ?_
    rintro _ _ _ ⟨rfl, rfl⟩
    exact Act.pure ⟨rfl, rfl, hr⟩

theorem ndFirst_act {fn : List UInt8} {ft rn : Option (List UInt8)} (hx : Fount s (pyOpen s io fn ft rn true) W H r Ok False G (fun x => G x frames RDEOK)) :
    Act False False L S (ndFirst s io fn ft rn) (fun v L' S' => v = .ok (frames.head?.map (fun f => ⟨[W, H], f⟩)) ∧ L' = L ∧ S' = S) := by
  unfold ndFirst ndOpen
  refine Act.bind (P := fun v L' S' => ∃ i x b, v = .ok ⟨some i, ndBuf W H ⟨b, List.replicate (W * H) s.env.junk⟩⟩ ∧ Handle s r Ok W H i x ∧ G x frames RDEOK ∧
      L' = held b i x L ∧ S' = x.files ++ S) ?_ ?_
  · refine Act.bind (hx.opening L S) ?_
    rintro o L1 S1 (⟨i, x1, b, ho, hG, hW, hH, hbuf, rfl, rfl⟩ | ⟨_, h, _⟩)
    · have hi := ho.handle
      rw [hW, hH] at hi
      simp only [ho.image, hW, hH, hbuf]
      exact Act.pure ⟨i, x1, b, rfl, hi, hG, rfl, rfl⟩
    · exact h.elim
  · rintro _ _ _ ⟨i, x, b, rfl, hi, hG, rfl, rfl⟩
    simp only
    refine Act.bind (ndRead_act hx.feed hi hG (buf := ⟨b, List.replicate (W * H) s.env.junk⟩) (by simp)) ?_
    rintro _ _ _ ⟨x', data, rfl, _, hi', rfl, rfl⟩
    simp only
    refine Act.bind (ndClose_act (L := L) (S := S) hx.feed.sound hi' (buf := ⟨b, data⟩) (List.Perm.refl _)) ?_
    rintro _ _ _ ⟨rfl, rfl⟩
    exact Act.pure ⟨rfl, rfl, rfl⟩

variable {w : World}

theorem no_huge (hsc : ¬ HugeScores s W H) : LinesTooBig s.cfg W H → False := by
  rintro (h | h)
  · exact hsc ⟨W, Or.inl rfl, h⟩
  · exact hsc ⟨H, Or.inr rfl, h⟩

theorem plenty_false (hpl : Plenty w) : ∀ j, w.sched j = false → False := fun j hj => by rw [hpl j] at hj; cases hj

theorem plenty_own {w0 w : World} {L S : List ℕ} (ow : Own False w0 L S w) : Plenty w := fun j => by
  cases h : w.sched j with
  | true => rfl
  | false => exact (ow.sched j h).elim

theorem outcome_of_answer {e : RDError} {out : Out} {w1 w2 : World}
    (he : e = (if expected s W H ≠ RDEOK then expected s W H else if frameError W H frames ≠ RDEOK then frameError W H frames
        else if frames = [] then RDENOIMG else RDEOK))
    (hr : e = RDEOK → ∃ ev a, Returned s m W H p ev a (out.rw.map Buf.data) out.cw (out.rh.map Buf.data) out.ch ∧
        ev.map (fun x => x.2) = List.replicate frames.length (.analyzed RDEOK) ∧
        ev.map (fun x => x.1.op) = frames.map (fun f => Op.analyze (some f)) ∧ ∀ x ∈ ev, Plenty x.1.world)
    (ho : Outputs .all e out w1 w2) : PyOutcome s m p W H frames (answer (e, out)) := by
  unfold answer
  by_cases h1 : expected s W H = RDEOK
  · rw [if_neg (not_not.mpr h1)] at he
    by_cases h2 : frameError W H frames = RDEOK
    · rw [if_neg (not_not.mpr h2)] at he
      by_cases h3 : frames = []
      · rw [if_pos h3] at he
        subst he
        rw [if_neg (show ¬ RDENOIMG = RDEOK by decide)]
        exact .empty h1 h3
      · rw [if_neg h3] at he
        rw [if_pos he]
        obtain ⟨ev, a, g1, g2, g3, g4⟩ := hr he
        obtain ⟨b1, o1⟩ := Option.isSome_iff_exists.mp ((ho.rw he).1.mpr rfl)
        obtain ⟨b2, o2⟩ := Option.isSome_iff_exists.mp ((ho.rh he).1.mpr rfl)
        simp only
        rw [o1, o2] at g1 ⊢
        exact .ok h1 h2 h3 g1 g2 g3 g4
    · rw [if_pos h2] at he
      subst he
      rw [if_neg h2]
      exact .frame h1 h2
  · rw [if_pos h1] at he
    subst he
    rw [if_neg h1]
    exact .size h1

theorem pyParameters_run (hs : Build s) (hd : d.unknown = false) (hw : w.WF) (hpl : Plenty w) :
    ∃ q w1, pyParameters s.cfg d w = some (.ok q, w1) ∧ q.map Prod.snd = pyEff s.cfg d ∧ Own False w (q.map Prod.fst).toList [] w1 := by
  obtain ⟨_, w1, _, _, h1, h2, q, rfl, h3, rfl, rfl⟩ := (pyParameters_act (L := []) (S := []) hs hd).run (Own.init hw (plenty_false hpl))
  rw [List.append_nil] at h2
  exact ⟨q, w1, h1, h3, h2⟩

theorem pyFile_outcome (hs : Build s) (hm : ValidMethod? m) (hd : d.unknown = false) {fn ft : Option (List UInt8)} {fuel : ℕ}
    (hy : Presents s io (resdetOpenImage s io fn ft true true true) 0 W H frames) (hfuel : frames.length < fuel) (hlen : frames.length ≤ s.cfg.sizeMax) (hw : w.WF)
    (hpl : Plenty w) (hsc : ¬ HugeScores s W H) :
    ∃ r w', pyResdetectFile s io fuel fn ft m d w = some (r, w') ∧ PyOutcome s m (pyEff s.cfg d) W H frames r := by
  obtain ⟨q, w1, h1, h2, ow⟩ := pyParameters_run hs hd hw hpl
  obtain ⟨e, out, w2, k1, k2, k3, k4, k5, k6, k7, k8⟩ := C15_readers (ptr := .all) (fuel := fuel) (p := pyEff s.cfg d) hs hm (pyEff_valid hs) hy (fun _ => rfl)
    (fun _ => rfl) hfuel hlen ow.wf (plenty_own ow) hsc
  obtain ⟨w', h6, _⟩ := pyFinish_run (v := (e, out)) ow ⟨k5, k6, k4, k7, k8⟩
  refine ⟨_, w', ?_, outcome_of_answer k2 k3 k4⟩
  unfold pyResdetectFile
  rw [M.bind_some h1]
  simp only
  rw [h2]
  exact (M.bind_some k1).trans h6

theorem pyResdetect_outcome (hs : Build s) (hm : ValidMethod? m) (hd : d.unknown = false) {image : List Fl} {n : ℕ} (hn : n ≠ 0) (hns : n ≤ s.cfg.sizeMax)
    (hW : W ≤ s.cfg.sizeMax) (hH : H ≤ s.cfg.sizeMax)
    (himg : image.length ≤ s.cfg.sizeMax) (hlen : n * (W * H) ≤ image.length) (hw : w.WF) (hpl : Plenty w) (hsc : ¬ HugeScores s W H) :
    ∃ r w', pyResdetect s (some image) n W H m d w = some (r, w') ∧ PyOutcome s m (pyEff s.cfg d) W H (framesOf image W H n) r ∧ Unchanged w w' := by
  obtain ⟨q, w1, h1, h2, ow⟩ := pyParameters_run hs hd hw hpl
  obtain ⟨v, w2, k1, hc⟩ := resdetect_called hs hm (pyEff_valid hs (d := d)) (Or.inr (Or.inr ⟨plenty_own ow, hsc⟩)) (image := some image) (n := n)
    (by rintro _ h; cases h; exact ⟨himg, hlen⟩) ow.wf
  obtain ⟨out, w2', k2⟩ := C14_error (ptr := .all) (p := pyEff s.cfg d) hs hm (pyEff_valid hs) himg hlen (fun _ => rfl) (fun _ => rfl) ow.wf (plenty_own ow) hsc
  rw [k1] at k2
  obtain ⟨rfl, rfl⟩ := Prod.mk.inj (Option.some.inj k2)
  obtain ⟨w', h6, h7⟩ := pyFinish_run ow hc
  refine ⟨_, w', ?_, outcome_of_answer (w1 := w1) (w2 := w2) ?_ ?_ hc.outputs, h7.same⟩
  · unfold pyResdetect
    rw [M.bind_some h1]
    simp only
    rw [h2, pySize_of_le hW, pySize_of_le hH, pySize_of_le hns]
    exact (M.bind_some k1).trans h6
  · have hne : framesOf image W H n ≠ [] := fun h => hn (by simpa [framesOf] using h)
    rw [if_neg hn, if_neg hne]
    split
    · rfl
    · split
      · rfl
      · exact not_not.mp ‹_›
  · intro he
    simp only at he
    rw [he] at k1
    obtain ⟨ev, a, g1, _, g2, g3, g4⟩ := C14_resdetect_history hs hm (pyEff_valid hs) himg hlen ow.wf k1
    exact ⟨ev, a, g1, by rw [g2]; simp [framesOf], g3, g4 (plenty_own ow) hsc⟩

/-- Successful answers for different sizes differ. -/
theorem PyOutcome.apart {m' : Option Method} {p' : Option Params} {W' H' : ℕ} {frames' : List (List Fl)} (hs : Build s) (hm : ValidMethod? m)
    (hm' : ValidMethod? m') (hp : ValidParams? s.cfg p) (hp' : ValidParams? s.cfg p') {l1 l2 : List Res} (h : PyOutcome s m p W H frames (.ok (l1, l2)))
    (h' : PyOutcome s m' p' W' H' frames' (.ok (l1, l2))) : W = W' ∧ H = H' := by
  cases h with
  | ok _ _ _ g1 =>
    cases h' with
    | ok _ _ _ k1 =>
      obtain ⟨a1, a2⟩ := C01_sorted_sentinel hs hm hp g1
      obtain ⟨b1, b2⟩ := C01_sorted_sentinel hs hm' hp' k1
      obtain ⟨_, i1, e1, _⟩ := a1 _ rfl
      obtain ⟨_, i2, e2, _⟩ := b1 _ rfl
      obtain ⟨_, j1, f1, _⟩ := a2 _ rfl
      obtain ⟨_, j2, f2, _⟩ := b2 _ rfl
      have key : ∀ {x y : ℕ} {u v : List Res}, u ++ [(⟨x, .fin true (-1)⟩ : Res)] = v ++ [⟨y, .fin true (-1)⟩] → x = y := by
        intro x y u v h
        have := (List.append_inj' h rfl).2
        simpa using this
      exact ⟨key (e1.symm.trans e2), key (f1.symm.trans f2)⟩

end Verif
