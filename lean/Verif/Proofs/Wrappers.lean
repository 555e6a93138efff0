import Verif.Model.Bindings
import Verif.Props.Bulk
import Verif.Props.Bindings
import Verif.Spec.Wrappers

/-! # Collecting the results of the library in a binding -/

namespace Verif

open Spec Props

variable {s : Sys} {io : Io} {c : Cfg} {w w0 w1 w2 w' : World} {F : Prop} {L S : List ℕ} {v : RDError × Out} {m : Option Method} {p : Option Params}

/-- What a library function that returns lists did. -/
structure Called (v : RDError × Out) (w1 w2 : World) : Prop where
  wf : w2.WF
  next : w1.next ≤ w2.next
  outputs : Outputs .all v.1 v.2 w1 w2
  heap : ∀ b, b ∈ w2.live ↔ b ∈ w1.live ∨ v.2.rw.map Buf.id = some b ∨ v.2.rh.map Buf.id = some b
  files : ∀ f, f ∈ w2.files ↔ f ∈ w1.files

theorem resdetect_called (hs : Build s) (hm : ValidMethod? m) (hp : ValidParams? s.cfg p) {W H n : ℕ}
    (hb : s.cfg.backend = .fftw ∨ W = H ∨ (Plenty w1 ∧ ¬ HugeScores s W H)) {image : Option (List Fl)}
    (himg : ∀ im, image = some im → im.length ≤ s.cfg.sizeMax ∧ n * (W * H) ≤ im.length) (hw : w1.WF) :
    ∃ v w2, resdetect s image n W H .all m p w1 = some (v, w2) ∧ Called v w1 w2 := by
  obtain ⟨e, out, w2, h1, h2⟩ := C16_resdetect_outputs hs hm hp himg .all hw
  obtain ⟨e', out', w2', h3, h4⟩ := C20_resdetect_partial hs hm hp himg .all hb hw
  obtain ⟨v, w2'', L', h5, h6, _⟩ := resdetect_tri (F := True) (L := []) hs hm hp (w := W) (h := H) (n := n)
    (image := image) (ptr := .all) himg (fun _ => trivial) w1 w1 (Rel.init hw (fun _ _ => trivial))
  rw [h1] at h3 h5
  cases h3
  cases h5
  exact ⟨_, _, h1, h6.wf, h6.next, h2, h4, fun f => by rw [h6.files]⟩

theorem file_called (hio : io.Contract s.cfg) (hs : Build s) (hm : ValidMethod? m) (hp : ValidParams? s.cfg p) {fuel : ℕ}
    {fn ft : Option (List UInt8)} (hw : w1.WF) (h : resdetectFile s io fuel fn ft .all m p w1 = some (v, w2))
    (h4 : ∀ b, b ∈ w2.live ↔ b ∈ w1.live ∨ v.2.rw.map Buf.id = some b ∨ v.2.rh.map Buf.id = some b) (h5 : ∀ f, f ∈ w2.files ↔ f ∈ w1.files) :
    Called v w1 w2 := by
  rcases file_safe (F := True) (L := []) (S := []) (fn := fn) (ft := ft) (ptr := .all) hio hs hm hp trivial (fuel := fuel) w1 w1
    (Own.init hw (fun _ _ => trivial)) with ⟨h1, _⟩ | ⟨a, w', L', S', h1, ow, _⟩
  · rw [h] at h1; cases h1
  rw [h] at h1
  cases h1
  exact ⟨ow.wf, ow.next, C16_file_outputs hio hs hm hp hw h, h4, h5⟩

theorem results_called (hs : Build s) (hm : ValidMethod? m) (hp : ValidParams? s.cfg p) {W H : ℕ} {oa : Option Analysis}
    (hr : ∀ a, oa = some a → ∃ ev, Reach s m W H p ev a) (hw : w1.WF) (hl : ∀ a, oa = some a → ∀ b ∈ owned a, b ∈ w1.live) :
    ∃ v w2, analysisResults s oa .all w1 = some ((v.1, v.2, oa), w2) ∧ Called v w1 w2 := by
  obtain ⟨e, out, w2, h1, h2⟩ := C16_results_outputs hs hm hp hr hw hl .all
  refine ⟨(e, out), w2, h1, ?_⟩
  cases oa with
  | none =>
    have : analysisResults s none .all w1 = some ((RDEPARAM, Out.nothing, none), w1) := rfl
    rw [h1] at this
    cases this
    exact ⟨hw, le_rfl, h2, by simp [Out.nothing], fun _ => Iff.rfl⟩
  | some a =>
    obtain ⟨ev, hr⟩ := hr a rfl
    have hinv := reach_inv hs hm hp hr
    have hlive : ∀ b ∈ a.blocks, b ∈ w1.live := fun b hb => hl a rfl b (blocks_owned b hb)
    obtain ⟨e', out', a', wd', h3, h4⟩ := (C20_calls hs hm hp hr hw (hl a rfl)).2 .all
    rw [h1] at h3
    cases h3
    rw [analysisResults_eq hs hinv.good hlive] at h1
    obtain ⟨r, wd', L', h5, h6, _⟩ := resultsProg_tri (F := True) (L := []) (s := s) (a := a) (ptr := .all)
      w1 w1 (Rel.init hw (fun _ _ => trivial))
    rw [h1] at h5
    cases h5
    exact ⟨h6.wf, h6.next, h2, h4, fun f => by rw [h6.files]⟩

/-- The blocks of the lists. -/
def lists (v : RDError × Out) : List ℕ := (v.2.rw.map Buf.id).toList ++ (v.2.rh.map Buf.id).toList

theorem Own.anyway (h : Own F w0 L S w1) : Own True w0 L S w1 := { h with sched := fun _ _ => trivial }

theorem Own.called (h : Own F w0 L S w1) (hc : Called v w1 w2) : Own True w0 (lists v ++ L) S w2 := by
  have hl : ∀ b, b ∈ lists v ↔ v.2.rw.map Buf.id = some b ∨ v.2.rh.map Buf.id = some b := by
    intro b; simp [lists]
  have fresh : ∀ b ∈ lists v, b ∉ w1.live ∧ b ∈ w2.live := by
    intro b hb
    apply hc.outputs.fresh
    rcases (hl b).mp hb with h | h <;> obtain ⟨r, h1, h2⟩ := Option.map_eq_some_iff.mp h
    · exact ⟨r, Or.inl h1, h2⟩
    · exact ⟨r, Or.inr h1, h2⟩
  refine ⟨h.base_wf, le_trans h.next hc.next, ?_, ?_, ?_, hc.wf.nodup, h.snodup, ?_, ?_, hc.wf.files_nodup, fun _ _ => trivial⟩
  · rw [List.nodup_append]
    refine ⟨?_, h.nodup, ?_⟩
    · unfold lists
      have hd := hc.outputs.distinct
      cases h1 : v.2.rw <;> cases h2 : v.2.rh <;> simp [h1, h2] at hd ⊢
      exact hd
    · rintro a ha _ hb rfl
      exact (fresh a ha).1 ((h.live a).mpr (Or.inr hb))
  · intro b hb
    rcases List.mem_append.mp hb with hb | hb
    · exact ⟨fun h' => (fresh b hb).1 ((h.live b).mpr (Or.inl h')), hc.wf.live_lt b (fresh b hb).2⟩
    · exact ⟨(h.new b hb).1, lt_of_lt_of_le (h.new b hb).2 hc.next⟩
  · intro b
    rw [hc.heap b, h.live b, List.mem_append, hl]
    tauto
  · exact fun b hb => ⟨(h.snew b hb).1, lt_of_lt_of_le (h.snew b hb).2 hc.next⟩
  · exact fun b => by rw [hc.files b, h.files b]

theorem copyList_act {U : Prop} {r : Option (Buf Res)} {n : ℕ} (hr : r.isSome = true) (hn : n = ((r.map Buf.data).map List.length).getD 0)
    (hl : ∀ b ∈ (r.map Buf.id).toList, b ∈ L) :
    Act U F L S (copyList r n) (fun l L' S' => l = (r.map Buf.data).getD [] ∧ L' = L ∧ S' = S) := by
  obtain ⟨b, rfl⟩ := Option.isSome_iff_exists.mp hr
  simp only [Option.map_some, Option.getD_some] at hn
  subst hn
  unfold copyList
  by_cases h : b.data.length = 0
  · rw [if_pos h]
    exact Act.pure ⟨(List.length_eq_zero_iff.mp h).symm, rfl, rfl⟩
  · rw [if_neg h]
    refine Act.bind (Act.need (Q := fun a l s' => a = b ∧ l = L ∧ s' = S) rfl ⟨rfl, rfl, rfl⟩) ?_
    rintro _ _ _ ⟨rfl, rfl, rfl⟩
    refine Act.bind (Act.touch (hl _ (by simp))) ?_
    rintro _ _ _ ⟨rfl, rfl⟩
    rw [if_pos le_rfl]
    exact Act.need rfl ⟨by simp, rfl, rfl⟩

theorem pyCollect_act {U : Prop} (hc : Called v w1 w2) :
    Act U F (lists v ++ L) S (pyCollect v.1 v.2) (fun r L' S' => r = answer v ∧ L' = L ∧ S' = S) := by
  obtain ⟨e, o⟩ := v
  unfold pyCollect
  simp only
  by_cases he : e ≠ 0
  · rw [if_pos he]
    have := hc.outputs.error he
    simp only at this
    subst this
    exact Act.pure ⟨by simp only [answer]; rw [if_neg (show e ≠ RDEOK from he)], rfl, rfl⟩
  · rw [if_neg he]
    have he : e = 0 := not_not.mp he
    subst he
    obtain ⟨h1, h2⟩ := hc.outputs.rw rfl
    obtain ⟨h3, h4⟩ := hc.outputs.rh rfl
    simp only at h1 h2 h3 h4
    refine Act.bind (copyList_act (h1.mpr rfl) h2 (fun b hb => List.mem_append_left _ (List.mem_append_left _ hb))) ?_
    rintro _ _ _ ⟨rfl, rfl, rfl⟩
    refine Act.bind (Act.freeOpt (R := (o.rh.map Buf.id).toList ++ L) (by unfold lists; rw [List.append_assoc])) ?_
    rintro _ _ _ ⟨rfl, rfl⟩
    refine Act.bind (copyList_act (h3.mpr rfl) h4 (fun b hb => List.mem_append_left _ hb)) ?_
    rintro _ _ _ ⟨rfl, rfl, rfl⟩
    refine Act.bind (Act.freeOpt (List.Perm.refl _)) ?_
    rintro _ _ _ ⟨rfl, rfl⟩
    exact Act.pure ⟨rfl, rfl, rfl⟩

theorem pySet_valid (hs : Build s) {d : PyDict} : ∃ q, pySet s.cfg d (some (defaultParams s.cfg)) = some q ∧ ValidParams s.cfg q := by
  rw [pySet_eq]
  obtain ⟨b, w', h⟩ := alloc_plenty (c := s.cfg) Demo.w0_wf Demo.w0_plenty
  refine C21_always_valid hs h _ ?_
  intro k hk
  unfold pyCalls at hk
  simp only [List.mem_append, Option.mem_toList, Option.map_eq_some_iff] at hk
  rcases hk with ⟨n, _, rfl⟩ | ⟨t, _, rfl⟩ | ⟨n, _, rfl⟩
  · show pySize s.cfg n ≤ s.cfg.sizeMax
    unfold pySize
    have h1 := Int.emod_lt_of_pos n (show (0 : ℤ) < s.cfg.sizeMax + 1 by omega)
    omega
  · trivial
  · show pyByte n ≤ 255
    unfold pyByte
    omega

theorem pyParameters_own (hs : Build s) {d : PyDict} (hd : d.unknown = false) (hw : w.WF) (hF : ∀ j, w.sched j = false → F) :
    ∃ q w1, pyParameters s.cfg d w = some (.ok q, w1) ∧ ValidParams? s.cfg (q.map Prod.snd) ∧ Own F w (q.map Prod.fst).toList [] w1 := by
  unfold pyParameters
  by_cases he : d.isEmpty = true
  · rw [if_pos he]
    exact ⟨none, w, rfl, (by rintro q h; cases h), Own.init hw hF⟩
  · rw [if_neg he, if_neg (by simp [hd])]
    rcases Act.malloc (U := False) (F := F) (L := []) (S := []) w w (Own.init hw hF) with
      ⟨_, h⟩ | ⟨r, w1, L1, S1, k1, ow, rfl, ⟨rfl, rfl, _⟩ | ⟨b, rfl, rfl⟩⟩
    · exact h.elim
    · have k : resdetAllocDefaultParameters s.cfg w = some (none, w1) := by unfold resdetAllocDefaultParameters; rw [M.bind_some k1]; rfl
      rw [M.bind_some k]
      have : pySet s.cfg d none = none := by
        rw [pySet_eq]
        generalize pyCalls s.cfg d = l
        induction l with
        | nil => rfl
        | cons k l ih => simp only [setAll]; rw [(C21_setter none k).2 (Or.inl rfl)]; exact ih
      simp only [this]
      exact ⟨none, w1, rfl, (by rintro q h; cases h), ow⟩
    · have k : resdetAllocDefaultParameters s.cfg w = some (some (b, defaultParams s.cfg), w1) := by unfold resdetAllocDefaultParameters; rw [M.bind_some k1]; rfl
      rw [M.bind_some k]
      obtain ⟨q, h1, h2⟩ := pySet_valid (d := d) hs
      simp only [h1]
      exact ⟨some (b, q), w1, rfl, (by rintro q' h; cases h; exact h2), ow⟩

theorem pyFinish_run {o : Option ℕ} (ow : Own F w0 o.toList S w1) (hc : Called v w1 w2) :
    ∃ w', (do free o; pyCollect v.1 v.2 : M _) w2 = some (answer v, w') ∧ Own True w0 [] S w' := by
  rcases (Act.bind (U := False) (Act.freeOpt (R := lists v) (S := S) (F := True) (o := o) (List.perm_append_comm)) (by
    rintro _ _ _ ⟨rfl, rfl⟩
    refine Act.mono (Act.of_perm (pyCollect_act (U := False) (L := []) hc) (by simp) (List.Perm.refl _)) ?_
    exact fun r L' S' h => h) : Act False True (lists v ++ o.toList) S (do free o; pyCollect v.1 v.2 : M _)
      (fun r L' S' => r = answer v ∧ L' = [] ∧ S' = S)) w0 w2 (ow.called hc) with ⟨_, h⟩ | ⟨r, w', L', S', h1, h2, rfl, rfl, rfl⟩
  · exact h.elim
  · exact ⟨w', h1, h2⟩

theorem malloc_own (ow : Own F w0 L S w) : ∃ o w', malloc w = some (o, w') ∧ Own F w0 (o.toList ++ L) S w' ∧ (o = none → F) := by
  rcases Act.malloc (U := False) w0 w ow with ⟨_, h⟩ | ⟨r, w1, L1, S1, k1, ow', rfl, ⟨rfl, rfl, h⟩ | ⟨b, rfl, rfl⟩⟩
  · exact h.elim
  · exact ⟨none, w1, k1, ow', fun _ => h⟩
  · exact ⟨some b, w1, k1, ow', fun h => by cases h⟩

theorem jsCollect_act {U : Prop} (hc : Called v w1 w2) {a b x y : Option ℕ} :
    Act U F (lists v ++ (x.toList ++ (y.toList ++ (a.toList ++ (b.toList ++ L))))) S (jsCollect a b x y v.1 v.2)
      (fun r L' S' => r = answer v ∧ L' = L ∧ S' = S) := by
  obtain ⟨e, o⟩ := v
  have cells : ∀ r : Raises (List Res × List Res), Act U F (x.toList ++ (y.toList ++ (a.toList ++ (b.toList ++ L)))) S (do
      free x
      free y
      free a
      free b
      return r : M _) (fun r' L' S' => r' = r ∧ L' = L ∧ S' = S) := by
    intro r
    refine Act.bind (Act.freeOpt (List.Perm.refl _)) ?_
    rintro _ _ _ ⟨rfl, rfl⟩
    refine Act.bind (Act.freeOpt (List.Perm.refl _)) ?_
    rintro _ _ _ ⟨rfl, rfl⟩
    refine Act.bind (Act.freeOpt (List.Perm.refl _)) ?_
    rintro _ _ _ ⟨rfl, rfl⟩
    refine Act.bind (Act.freeOpt (List.Perm.refl _)) ?_
    rintro _ _ _ ⟨rfl, rfl⟩
    exact Act.pure ⟨rfl, rfl, rfl⟩
  unfold jsCollect
  simp only
  by_cases he : e ≠ 0
  · rw [if_pos he]
    have := hc.outputs.error he
    simp only at this
    subst this
    refine Act.mono (cells _) ?_
    rintro _ _ _ ⟨rfl, rfl, rfl⟩
    exact ⟨by simp only [answer]; rw [if_neg (show e ≠ RDEOK from he)], rfl, rfl⟩
  · rw [if_neg he]
    have he : e = 0 := not_not.mp he
    subst he
    obtain ⟨h1, h2⟩ := hc.outputs.rw rfl
    obtain ⟨h3, h4⟩ := hc.outputs.rh rfl
    simp only at h1 h2 h3 h4
    refine Act.bind (copyList_act (h1.mpr rfl) h2 (fun b hb => List.mem_append_left _ (List.mem_append_left _ hb))) ?_
    rintro _ _ _ ⟨rfl, rfl, rfl⟩
    refine Act.bind (copyList_act (h3.mpr rfl) h4 (fun b hb => List.mem_append_left _ (List.mem_append_right _ hb))) ?_
    rintro _ _ _ ⟨rfl, rfl, rfl⟩
    refine Act.bind (Act.freeOpt (R := (o.rh.map Buf.id).toList ++ _) (by unfold lists; rw [List.append_assoc])) ?_
    rintro _ _ _ ⟨rfl, rfl⟩
    refine Act.bind (Act.freeOpt (List.Perm.refl _)) ?_
    rintro _ _ _ ⟨rfl, rfl⟩
    exact Act.mono (cells _) (fun _ _ _ h => h)

theorem Act.run {α : Type} {f : M α} {Q : α → List ℕ → List ℕ → Prop} (h : Act False F L S f Q) (ow : Own F w0 L S w) :
    ∃ a w' L' S', f w = some (a, w') ∧ Own F w0 L' S' w' ∧ Q a L' S' := by
  rcases h w0 w ow with ⟨_, h⟩ | h
  · exact h.elim
  · exact h

theorem setAll_valid {p : Params} (h0 : ValidParams c p) (cs : List Setter) (hc : ∀ n, Setter.range n ∈ cs → n ≤ c.sizeMax) :
    ∃ q, (setAll (some p) cs).2 = some q ∧ ValidParams c q := by
  induction cs generalizing p with
  | nil => exact ⟨p, rfl, h0⟩
  | cons k cs ih =>
    by_cases hA : k.Acceptable
    · simp only [setAll, (C21_setter (some p) k).1 p rfl hA]
      refine ih ?_ (fun n h => hc n (by simp [h]))
      cases k with
      | range n => exact ⟨hA, hc n (by simp), h0.threshold, h0.filter⟩
      | threshold t => exact ⟨h0.range_pos, h0.range_le, Or.inr hA, h0.filter⟩
      | filter v => exact ⟨h0.range_pos, h0.range_le, h0.threshold, hA⟩
    · simp only [setAll, (C21_setter (some p) k).2 (Or.inr hA)]
      exact ih h0 (fun n h => hc n (by simp [h]))

theorem jsParameters_own (hs : Build s) {v : JsConv} (hv : ∀ x, v.size x ≤ s.cfg.sizeMax) {d : JsObject} {q : Option (ℕ × Params)} (hw : w.WF)
    (hF : ∀ j, w.sched j = false → F) (h : jsParameters s.cfg v d w = some (.ok q, w1)) :
    ValidParams? s.cfg (q.map Prod.snd) ∧ Own F w (q.map Prod.fst).toList [] w1 := by
  unfold jsParameters at h
  split_ifs at h with h1 h2
  · cases h
    exact ⟨(by rintro q h; cases h), Own.init hw hF⟩
  · cases h
  · obtain ⟨o, w2, k1, ow, _⟩ := malloc_own (Own.init hw hF)
    cases o with
    | none =>
      have k : resdetAllocDefaultParameters s.cfg w = some (none, w2) := by unfold resdetAllocDefaultParameters; rw [M.bind_some k1]; rfl
      rw [M.bind_some k] at h
      cases h
    | some b =>
      have k : resdetAllocDefaultParameters s.cfg w = some (some (b, defaultParams s.cfg), w2) := by unfold resdetAllocDefaultParameters; rw [M.bind_some k1]; rfl
      rw [M.bind_some k] at h
      simp only [jsSet_eq] at h
      obtain ⟨p, e1, e2⟩ := setAll_valid (c := s.cfg) (p := defaultParams s.cfg) ⟨hs.wf.range_pos, hs.wf.range_le, Or.inl rfl, by simp [defaultParams]⟩ (jsCalls v d) (by
        intro n hn
        unfold jsCalls at hn
        simp only [List.mem_append, Option.mem_toList, Option.map_eq_some_iff] at hn
        rcases hn with ⟨n, _, h⟩ | ⟨t, _, h⟩ | ⟨n, _, h⟩ <;> cases h
        exact hv _)
      rw [e1] at h
      split_ifs at h
      · cases h
      · cases h
        exact ⟨(by rintro q h; cases h; exact e2), ow⟩

end Verif
