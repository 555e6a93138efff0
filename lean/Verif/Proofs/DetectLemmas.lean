import Verif.Proofs.EraseLemmas
import Verif.Spec.Sequential

/-! `resdetect` as a sequence of calls. -/

namespace Verif

open Spec

theorem Good.owned_blocks {s : Sys} {a : Analysis} (hg : Good s a) : ∀ b ∈ owned a, b ∈ a.blocks := by
  intro b hb
  obtain ⟨p, hp, hgood⟩ := hg.p
  unfold owned at hb
  unfold Analysis.blocks
  rw [hp] at hb ⊢
  cases hgood with
  | fftw b q =>
    simp only [List.mem_append, Option.map, Option.getD, Plan.blocks] at hb ⊢
    tauto
  | kiss p g =>
    have h1 : ∀ x, x ∈ (blk p.cfg1).toList → x ∈ p.blocks := by
      intro x hx
      unfold KissPlan.blocks
      by_cases e : p.width = p.height
      · rw [g.cfg1_eq, (g.same (by rw [← g.width, ← g.height]; exact e)).2, ← g.cfg0_eq] at hx
        simp [hx]
      · rw [if_neg e]; simp [hx]
    have h2 : ∀ x, x ∈ (blk p.shift1).toList → x ∈ p.blocks := by
      intro x hx
      unfold KissPlan.blocks
      by_cases e : p.width = p.height
      · rw [g.shift1_eq, (g.same (by rw [← g.width, ← g.height]; exact e)).1, ← g.shift0_eq] at hx
        simp [hx]
      · rw [if_neg e]; simp [hx]
    have h3 : ∀ x, x ∈ [p.block] ++ (blk p.cfg0).toList ++ (blk p.shift0).toList ++ (blk p.mirror).toList ++
        (blk p.F).toList → x ∈ p.blocks := by
      intro x hx
      unfold KissPlan.blocks
      simp only [List.mem_append] at hx ⊢
      tauto
    simp only [List.mem_append, Option.map, Option.getD, Plan.blocks] at hb h3 ⊢
    have h1 := h1 b
    have h2 := h2 b
    have h3 := h3 b
    tauto

theorem Rel.skip {F : Prop} {base w : World} {L : List ℕ} (hw : Rel F base L w) (i j : ℕ) : Rel F base L (w.skip i j) :=
  { base_wf := hw.base_wf
    next := le_trans hw.next (Nat.le_add_right _ _)
    files := hw.files
    nodup := hw.nodup
    new := fun b hb => ⟨(hw.new b hb).1, lt_of_lt_of_le (hw.new b hb).2 (Nat.le_add_right _ _)⟩
    live := hw.live
    live_nodup := hw.live_nodup
    sched := fun _ hj => hw.sched _ hj }

theorem M.bind_inv {α β : Type} {m : M α} {f : α → M β} {w w' : World} {b : β} (h : (m >>= f) w = some (b, w')) :
    ∃ a w1, m w = some (a, w1) ∧ f a w1 = some (b, w') := by
  cases hm : m w with
  | none => rw [M.bind_none hm] at h; cases h
  | some v =>
    obtain ⟨a, w1⟩ := v
    rw [M.bind_some hm] at h
    exact ⟨a, w1, rfl, h⟩

/-- One of the two arrays of a score per line would exceed the address space. -/
def LinesTooBig (c : Cfg) (w h : ℕ) : Prop := c.sizeMax < w * c.szInter ∨ c.sizeMax < h * c.szInter

theorem ScoresTooBig.lines {c : Cfg} {w h range : ℕ} (hb : ScoresTooBig c w h range) : LinesTooBig c w h :=
  hb.imp (fun h => lt_of_lt_of_le h (Nat.mul_le_mul_right _ (Nat.sub_le _ _))) (fun h => lt_of_lt_of_le h (Nat.mul_le_mul_right _ (Nat.sub_le _ _)))

theorem detectDim_plenty {s : Sys} {d : Detect} {f : List Fl} {length n stride dist range : ℕ} {result : Option (Buf Fl)} {bound : Option (ℕ × ℕ)} {w w' : World}
    (hp : ∀ j, w.sched j = true) (hl : length * s.cfg.szInter ≤ s.cfg.sizeMax) {r : RDError × Option (Buf Fl) × Option (ℕ × ℕ)}
    (h : detectDim s d f length n stride dist range result bound w = some (r, w')) : r.1 = RDEOK := by
  unfold detectDim at h
  cases result with
  | none => cases h; rfl
  | some b =>
    obtain ⟨_, w1, h1, k1⟩ := M.bind_inv h
    have : w1 = w := by
      unfold touch at h1
      split_ifs at h1
      cases h1
      rfl
    subst this
    obtain ⟨b0, w2, h2, k2⟩ := M.bind_inv k1
    have : w2 = w1 := by
      cases bound with
      | none => cases h2
      | some _ => cases h2; rfl
    subst this
    obtain ⟨⟨e, data, b1⟩, w3, h3, k3⟩ := M.bind_inv k2
    cases k3
    show e = RDEOK
    unfold detect at h3
    cases d with
    | sign =>
      obtain ⟨_, _, _, h⟩ := M.bind_inv h3
      cases h
      rfl
    | mag =>
      obtain ⟨_, _, _, h⟩ := M.bind_inv h3
      cases h
      rfl
    | zerox =>
      obtain ⟨_, _, _, h⟩ := M.bind_inv h3
      cases h
      rfl
    | orig =>
      simp only at h3
      unfold detectOrig at h3
      simp only at h3
      split_ifs at h3 with h0
      · cases h3
        rfl
      obtain ⟨o, w4, h4, h⟩ := M.bind_inv h3
      cases o with
      | none =>
        unfold calloc at h4
        rw [if_pos hl] at h4
        unfold malloc at h4
        rw [if_pos (hp 0)] at h4
        cases h4
      | some blk =>
        simp only at h
        obtain ⟨_, _, _, h⟩ := M.bind_inv h
        obtain ⟨_, _, _, h⟩ := M.bind_inv h
        obtain ⟨_, _, _, h⟩ := M.bind_inv h
        cases h
        rfl

/-- Only lack of memory makes analysing a frame fail for lack of memory. -/
theorem analyze_plenty {s : Sys} (hs : s.cfg.WF) {a : Analysis} (hg : Good s a) {im : List Fl} {w w' : World} (hlive : ∀ b ∈ a.blocks, b ∈ w.live)
    (hi : a.width * a.height ≤ im.length) (hp : ∀ j, w.sched j = true) (hb : ¬ LinesTooBig s.cfg a.width a.height) {e : RDError} {oa : Option Analysis}
    (h : analyzeImage s (some a) (some im) w = some ((e, oa), w')) : e ≠ RDENOMEM := by
  unfold LinesTooBig at hb
  push Not at hb
  obtain ⟨fb, hfb, hlen⟩ := hg.f
  obtain ⟨p, hpl, hgood⟩ := hg.p
  by_cases hall : AllFinite im (a.width * a.height)
  · rw [analyzeImage_finite hs hg hi hall hfb hpl hlive] at h
    have hfr : (frame s a im).length = a.width * a.height := by
      unfold frame; rw [List.length_map, List.length_take]; omega
    obtain ⟨g, h1, h2⟩ := transform_temp s hgood hfr
    have h3 := h2 w (fun b hb => hlive b (by simp [Analysis.blocks, hpl, hb]))
    rw [M.bind_some h3] at h
    have hp1 : ∀ j, (w.skip (g w.sched).2.1 (g w.sched).2.2).sched j = true := fun j => hp _
    have hl1 : ∀ b ∈ a.blocks, b ∈ (w.skip (g w.sched).2.1 (g w.sched).2.2).live := hlive
    have hf1 := h1 w.sched
    generalize (g w.sched).1 = f at h hf1
    generalize w.skip (g w.sched).2.1 (g w.sched).2.2 = w1 at h hp1 hl1
    unfold afterTransform at h
    simp only at h
    obtain ⟨⟨e1, xr, xb⟩, w2, h4, h⟩ := M.bind_inv h
    have e1z : e1 = RDEOK := detectDim_plenty hp1 hb.1 h4
    subst e1z
    simp only [ne_eq, not_true_eq_false] at h
    have hx := detectDim_temp (s := s) (fun hr => hg.geomX hs hf1 hr) hg.zerox hg.x (L := a.blocks) (by intro r hr; simp [Analysis.blocks, hr])
    obtain ⟨g2, _, h5⟩ := hx
    have hw2 : ∀ j, w2.sched j = true := by
      have := h5 w1 hl1
      rw [h4] at this
      simp only [Option.some.injEq, Prod.mk.injEq] at this
      rw [this.2]
      exact fun j => hp1 _
    obtain ⟨⟨e2, yr, yb⟩, w3, h6, h⟩ := M.bind_inv h
    have e2z : e2 = RDEOK := detectDim_plenty hw2 hb.2 h6
    subst e2z
    cases h
    decide
  · obtain ⟨f', e1, e2⟩ := analyzeImage_bad hs hg hi hall hfb hlive
    rw [e2] at h
    cases h
    decide

/-- Analysing one frame, as a call in a history. -/
theorem analyzeImage_rel {s : Sys} (hs : Build s) {a : Analysis} (hg : Good s a) {F : Prop} {base : World} {L : List ℕ}
    {w : World} (hw : Rel F base L w) (hL : ∀ b ∈ a.blocks, b ∈ L) {image : List Fl}
    (hi : a.width * a.height ≤ image.length) :
    ∃ e a' w', analyzeImage s (some a) (some image) w = some ((e, some a'), w') ∧ Rel F base L w' ∧
      Legal a ⟨.analyze (some image), w⟩ ∧ step s a ⟨.analyze (some image), w⟩ = some (.analyzed e, a') ∧
      AnalyzeOk s a (some image) w e a' ∧ (e = RDENOMEM → (LinesTooBig s.cfg a.width a.height → F) → F) := by
  have hlive : ∀ b ∈ a.blocks, b ∈ w.live := fun b hb => (hw.live b).mpr (Or.inr (hL b hb))
  obtain ⟨e, a', w', h1, h2, i, j, rfl⟩ := analyze_cases hs.wf hg (image := some image) (w := w) hlive
    (by rintro _ h; cases h; exact hi)
  refine ⟨e, a', _, h1, hw.skip i j, ⟨hw.wf, fun b hb => hlive b (hg.owned_blocks b hb), hi⟩, by simp only [step, h1], h2, ?_⟩
  intro he hF
  by_contra hnF
  refine analyze_plenty hs.wf hg hlive hi (fun j => ?_) (fun h => hnF (hF h)) h1 he
  cases hj : w.sched j with
  | true => rfl
  | false => exact absurd (hw.sched j hj) hnF

/-- Only the first `width*height` samples of an image matter. -/
theorem analyzeImage_take {s : Sys} (hs : Build s) {a : Analysis} (hg : Good s a) {image : List Fl} :
    analyzeImage s (some a) (some image) = analyzeImage s (some a) (some (image.take (a.width * a.height))) := by
  have key : ∀ todo i f, i + todo ≤ a.width * a.height →
      loadImage s.cfg image todo i f = loadImage s.cfg (image.take (a.width * a.height)) todo i f := by
    intro todo
    induction todo with
    | zero => intros; rfl
    | succ todo ih =>
      intro i f h
      unfold loadImage
      have e : rd (image.take (a.width * a.height)) i = rd image i := by
        unfold rd; rw [List.getElem?_take]; rw [if_pos (by omega)]
      rw [e]
      cases rd image i with
      | none => rfl
      | some v =>
        simp only [Option.bind_eq_bind, Option.bind_some]
        split
        · cases wr f i (s.cfg.coeff.conv v) with
          | none => rfl
          | some f' => exact ih (i + 1) f' (by omega)
        · rfl
  unfold analyzeImage
  dsimp only
  have ht := hg.total hs.wf
  simp only [ht]
  simp only [key (a.width * a.height) 0 _ (by omega)]

theorem frameOf_length {image : List Fl} {w h n i : ℕ} (hi : i < n) (hl : n * (w * h) ≤ image.length) :
    (frameOf image w h i).length = w * h := by
  unfold frameOf
  rw [List.length_take, List.length_drop]
  have : (i + 1) * (w * h) ≤ n * (w * h) := Nat.mul_le_mul_right _ hi
  rw [Nat.add_mul, Nat.one_mul] at this
  omega

/-- Feeding frames one after the other. -/
theorem analyzeAll_rel {s : Sys} (hs : Build s) {m : Option Method} {p : Option Params} {wd ht : ℕ} {F : Prop}
    {base : World} {L : List ℕ} {frames : List (List Fl)} {ev : List (Call × Obs)} {a : Analysis}
    (hr : Reach s m wd ht p ev a) (hg : Good s a) {w : World} (hw : Rel F base L w) (hL : ∀ b ∈ a.blocks, b ∈ L)
    (hi : ∀ f ∈ frames, a.width * a.height ≤ f.length) (hF : LinesTooBig s.cfg a.width a.height → F) :
    ∃ e a' w' ev', analyzeAll s frames a w = some ((e, a'), w') ∧ Rel F base L w' ∧ Reach s m wd ht p (ev ++ ev') a' ∧
      Fed frames e ev' ∧ Good s a' ∧ a'.blocks = a.blocks ∧ (e = RDENOMEM → F) ∧ ∀ x ∈ ev', ∀ j, x.1.world.sched j = false → F := by
  induction frames generalizing ev a w with
  | nil => exact ⟨RDEOK, a, w, [], rfl, hw, by simpa using hr, Fed.done, hg, rfl, fun h => absurd h (by decide), fun _ h => by cases h⟩
  | cons f fs ih =>
    obtain ⟨e, a1, w1, h1, h2, h3, h4, h5, h6⟩ := analyzeImage_rel hs hg hw hL (hi f (by simp))
    have hr1 := Reach.call hr h3 h4
    obtain ⟨hg1, hb1⟩ := h5.good hg
    have hsame := h5.same
    unfold analyzeAll
    rw [M.bind_some h1]
    simp only
    rw [M.bind_some (a := a1) (w' := w1) rfl]
    by_cases he : e = RDEOK
    · rw [if_pos he]
      obtain ⟨e', a2, w2, ev', g1, g2, g3, g4, g5, g6, g7, g8⟩ := ih hr1 hg1 h2 (by rw [hb1]; exact hL)
        (fun x hx => by rw [hsame.width, hsame.height]; exact hi x (by simp [hx])) (by rw [hsame.width, hsame.height]; exact hF)
      subst he
      refine ⟨e', a2, w2, _ :: ev', g1, g2, ?_, Fed.next f fs _ _ w g4, g5, g6.trans hb1, g7, List.forall_mem_cons.mpr ⟨hw.sched, g8⟩⟩
      rw [List.append_assoc] at g3
      exact g3
    · rw [if_neg he]
      exact ⟨e, a1, w1, [_], rfl, h2, hr1, Fed.refused f fs _ w he, hg1, hb1, fun h => h6 h hF, by simpa using hw.sched⟩

/-- The frame loop of `resdetect` feeds the consecutive frames. -/
theorem analyzeLoop_eq {s : Sys} (hs : Build s) {F : Prop} {base : World} {L : List ℕ} {image : List Fl} {n : ℕ}
    {todo i : ℕ} (hn : i + todo ≤ n) {a : Analysis} (hg : Good s a) (himg : image.length ≤ s.cfg.sizeMax)
    (hlen : n * (a.width * a.height) ≤ image.length) {w : World} (hw : Rel F base L w) (hL : ∀ b ∈ a.blocks, b ∈ L) :
    analyzeLoop s image a.width a.height todo i a w =
      analyzeAll s ((List.range' i todo).map (frameOf image a.width a.height)) a w := by
  induction todo generalizing i a w with
  | zero => rfl
  | succ todo ih =>
    rw [List.range'_succ, List.map_cons]
    unfold analyzeLoop analyzeAll
    have hle : i * (a.width * a.height) + a.width * a.height ≤ n * (a.width * a.height) := by
      have : (i + 1) * (a.width * a.height) ≤ n * (a.width * a.height) := Nat.mul_le_mul_right _ (by omega)
      rwa [Nat.add_mul, Nat.one_mul] at this
    have e1 : s.cfg.sz (i * a.width) = i * a.width := by
      apply Cfg.sz_eq
      have : i * a.width ≤ i * (a.width * a.height) := Nat.mul_le_mul_left _ (Nat.le_mul_of_pos_right _ hg.height_pos)
      omega
    have e2 : s.cfg.sz (s.cfg.sz (i * a.width) * a.height) = i * (a.width * a.height) := by
      rw [e1, Nat.mul_assoc]
      exact Cfg.sz_eq (by omega)
    rw [e2, analyzeImage_take hs hg]
    have hfl := frameOf_length (image := image) (w := a.width) (h := a.height) (n := n) (i := i) (by omega) hlen
    obtain ⟨e, a1, w1, h1, h2, h3, h4, h5, _⟩ := analyzeImage_rel hs hg hw hL (image := frameOf image a.width a.height i)
      (by rw [hfl])
    obtain ⟨hg1, hb1⟩ := h5.good hg
    have hsame := h5.same
    have h1' : analyzeImage s (some a) (some (List.take (a.width * a.height) (List.drop (i * (a.width * a.height)) image)))
      w = _ := h1
    rw [M.bind_some h1', M.bind_some h1]
    simp only
    rw [M.bind_some (a := a1) (w' := w1) rfl, M.bind_some (a := a1) (w' := w1) rfl]
    by_cases he : e = RDEOK
    · rw [if_pos he, if_neg (by rw [he]; simp [RDEOK])]
      rw [← hsame.width, ← hsame.height]
      exact ih (by omega) hg1 (by rw [hsame.width, hsame.height]; exact hlen) h2 (by rw [hb1]; exact hL)
    · rw [if_neg he, if_pos (by simpa [RDEOK] using he)]

theorem reach_frame {s : Sys} (hs : Build s) {m : Option Method} (hm : ValidMethod? m) {p : Option Params} (hp : ValidParams? s.cfg p) {w h : ℕ}
    {ev : List (Call × Obs)} {a : Analysis} (hr : Reach s m w h p ev a) {c : Call} {e : RDError} {f : List Fl} (hc : (c, Obs.analyzed e) ∈ ev)
    (hop : c.op = .analyze (some f)) : e = RDENOMEM ∨ e = RDEOK ∧ AllFinite f (w * h) ∨ e = RDEINVAL ∧ ¬ AllFinite f (w * h) := by
  induction hr with
  | create _ _ => simp at hc
  | @call ev a c' o a' hr hl hst ih =>
    rcases List.mem_append.mp hc with hc | hc
    · exact ih hc
    · rw [List.mem_singleton] at hc
      cases hc
      have hi := reach_inv hs hm hp hr
      obtain ⟨o, a1, h1, h2⟩ := step_cases hs hi.good hl
      rw [hst] at h1
      cases h1
      cases h2 with
      | analyze image _ _ h3 h4 =>
        rw [hop] at h3
        cases h3
        rw [← hi.width, ← hi.height]
        cases h4 with
        | param h => cases h
        | inval im fb f' h1 h2 _ _ =>
          cases h1
          exact Or.inr (Or.inr ⟨rfl, h2⟩)
        | frame im fb p f w' _ _ h1 h2 _ _ _ _ h3 =>
          cases h1
          cases h3 with
          | ok => exact Or.inr (Or.inl ⟨rfl, h2⟩)
          | nomemX => exact Or.inl rfl
          | nomemY => exact Or.inl rfl

/-- What feeding frames results in, apart from lack of memory. -/
theorem fed_code {s : Sys} (hs : Build s) {m : Option Method} (hm : ValidMethod? m) {p : Option Params} (hp : ValidParams? s.cfg p) {w h : ℕ}
    {ev : List (Call × Obs)} {a : Analysis} (hr : Reach s m w h p ev a) {frames : List (List Fl)} {e : RDError} (hf : Fed frames e ev) :
    e = RDENOMEM ∨ e = frameError w h frames := by
  have key := fun c e f => reach_frame hs hm hp hr (c := c) (e := e) (f := f)
  clear hr
  induction hf with
  | done => exact Or.inr (by simp [frameError])
  | refused f fs e w he =>
    rcases key _ _ f List.mem_cons_self rfl with h | ⟨h, _⟩ | ⟨h, h'⟩
    · exact Or.inl h
    · exact absurd h he
    · refine Or.inr ?_
      unfold frameError
      rw [if_neg (fun hh => h' (hh f List.mem_cons_self)), h]
  | next f fs e ev w _ ih =>
    rcases ih (fun c e f hc ho => key c e f (List.mem_cons_of_mem _ hc) ho) with h | h
    · exact Or.inl h
    · refine Or.inr ?_
      rcases key _ _ f List.mem_cons_self rfl with h' | ⟨_, h'⟩ | ⟨h', _⟩
      · exact absurd h' (by decide)
      · rw [h]
        unfold frameError
        refine if_congr ?_ rfl rfl
        simp only [List.forall_mem_cons]
        exact ⟨fun h => ⟨h', h⟩, fun h => h.2⟩
      · exact absurd h' (by decide)

/-- Outcomes of feeding frames to a fresh analysis and collecting the results. -/
inductive Detected (s : Sys) (F : Prop) (L : List ℕ) (frames : List (List Fl)) (w h : ℕ) (ptr : Ptrs) (m : Option Method)
    (p : Option Params) : RDError × Out → List ℕ → Prop where
  | create (e : RDError) (L' : List ℕ) : Created s F L m w h p (none, e) L' →
      Detected s F L frames w h ptr m p (e, Out.nothing) L'
  | refused (ev : List (Call × Obs)) (a : Analysis) (e : RDError) : Reach s m w h p ev a → Fed frames e ev → e ≠ RDEOK →
      (e = RDENOMEM → F) → Detected s F L frames w h ptr m p (e, Out.nothing) L
  | results (ev : List (Call × Obs)) (a : Analysis) (c : Call) (e : RDError) (out : Out) (L' : List ℕ) :
      Reach s m w h p ev a → Fed frames RDEOK ev → Legal a c → c.op = .results ptr →
      step s a c = some (.results e (out.rw.map Buf.data) out.cw (out.rh.map Buf.data) out.ch, a) →
      (e ≠ RDEOK → out = Out.nothing) → (e = RDENOMEM → F) →
      L'.Perm ((out.rw.map Buf.id).toList ++ (out.rh.map Buf.id).toList ++ L) → (∀ x ∈ ev, ∀ j, x.1.world.sched j = false → F) →
      Detected s F L frames w h ptr m p (e, out) L'

theorem sequential_tri {F : Prop} {L : List ℕ} {s : Sys} (hs : Build s) {m : Option Method} (hm : ValidMethod? m)
    {p : Option Params} (hp : ValidParams? s.cfg p) {w h : ℕ} {frames : List (List Fl)}
    (hi : ∀ f ∈ frames, w * h ≤ f.length) {ptr : Ptrs}
    (hF : LinesTooBig s.cfg w h → F) :
    Tri F L (sequential s frames w h ptr m p) (Detected s F L frames w h ptr m p) := by
  intro base wd hrel
  obtain ⟨r, w1, L1, e1, r1, q1⟩ := createAnalysis_tri hs hm hp (fun h => hF h.lines) base wd hrel
  unfold sequential
  rw [M.bind_some e1]
  obtain ⟨oa, e0⟩ := r
  cases oa with
  | none => exact ⟨_, _, _, rfl, r1, Detected.create e0 L1 q1⟩
  | some a =>
    cases q1 with
    | ok a L' hf hperm _ _ _ =>
      have hr0 : Reach s m w h p [] a := Reach.create hrel.wf e1
      have hL : ∀ b ∈ a.blocks, b ∈ L1 := fun b hb => hperm.mem_iff.mpr (List.mem_append_left _ hb)
      obtain ⟨e, a2, w2, ev, g1, g2, g3, g4, g5, g6, g7, g8⟩ := analyzeAll_rel hs (frames := frames) hr0 hf.good r1 hL
        (by rw [hf.width, hf.height]; exact hi) (by rw [hf.width, hf.height]; exact hF)
      simp only [List.nil_append] at g3
      dsimp only
      rw [M.bind_some g1]
      dsimp only
      by_cases he : e = RDEOK
      · subst he
        rw [if_pos rfl]
        obtain ⟨⟨e3, out, oa3⟩, w3, L3, k1, k2, k3⟩ := results_tri_eq hs g5 (ptr := ptr) (by rw [g6]; exact hL) base w2 g2
        rw [M.bind_some k1]
        have hlive : ∀ b ∈ a2.blocks, b ∈ w2.live := fun b hb => (g2.live b).mpr (Or.inr (by rw [g6] at hb; exact hL b hb))
        have hleg : Legal a2 ⟨.results ptr, w2⟩ := ⟨g2.wf, fun b hb => hlive b (g5.owned_blocks b hb), trivial⟩
        have hoa : oa3 = some a2 := by cases k3 <;> rfl
        subst hoa
        have hstep : step s a2 ⟨.results ptr, w2⟩ =
            some (.results e3 (out.rw.map Buf.data) out.cw (out.rh.map Buf.data) out.ch, a2) := by
          simp only [step, k1]
        have hperm3 : L3.Perm (a2.blocks ++ ((out.rw.map Buf.id).toList ++ (out.rh.map Buf.id).toList ++ L)) := by
          rw [g6]
          cases k3 with
          | ok rw rh L' _ _ _ _ hp3 =>
            refine hp3.trans ?_
            refine (List.Perm.append_left _ hperm).trans ?_
            perm_count
          | param => simpa [Out.nothing] using hperm
          | noimg => simpa [Out.nothing] using hperm
          | nomem => simpa [Out.nothing] using hperm
        obtain ⟨_, w4, L4, l1, l2, l3⟩ := destroyAnalysis_tri hperm3 base w3 k2
        rw [M.bind_some l1]
        refine ⟨_, _, _, rfl, l2, ?_⟩
        refine Detected.results ev a2 _ e3 out L4 g3 g4 hleg rfl hstep ?_ ?_ (by rw [l3]) g8
        · intro hne
          cases k3 with
          | ok => exact absurd rfl hne
          | param => rfl
          | noimg => rfl
          | nomem => rfl
        · intro hne
          cases k3 with
          | ok => simp [RDEOK, RDENOMEM] at hne
          | param => simp [RDEPARAM, RDENOMEM] at hne
          | noimg => simp [RDENOIMG, RDENOMEM] at hne
          | nomem _ _ h => exact h
      · rw [if_neg he]
        obtain ⟨_, w4, L4, l1, l2, l3⟩ := destroyAnalysis_tri (R := L) (by rw [g6]; exact hperm) base w2 g2
        rw [M.bind_some l1]
        refine ⟨_, _, _, rfl, l2, ?_⟩
        rw [l3]
        exact Detected.refused ev a2 e g3 g4 he g7

/-- `resdetect` is the sequential program. -/
theorem resdetect_eq {s : Sys} (hs : Build s) {m : Option Method} (hm : ValidMethod? m) {p : Option Params}
    (hp : ValidParams? s.cfg p) {w h n : ℕ} {image : List Fl} (himg : image.length ≤ s.cfg.sizeMax)
    (hlen : n * (w * h) ≤ image.length) (hn : n ≠ 0) {ptr : Ptrs}
    (hptr : ((ptr.rw && !ptr.cw) || (ptr.rh && !ptr.ch)) = false) {wd : World} (hwd : wd.WF) :
    resdetect s (some image) n w h ptr m p wd = sequential s (framesOf image w h n) w h ptr m p wd := by
  unfold resdetect sequential
  rw [if_neg (by rw [hptr]; simp)]
  dsimp only
  rw [if_neg hn]
  obtain ⟨⟨oa, e0⟩, w1, L1, e1, r1, q1⟩ := createAnalysis_tri (F := True) (L := []) hs hm hp (w := w) (h := h)
    (fun _ => trivial) wd wd (Rel.init hwd (fun _ _ => trivial))
  rw [M.bind_some e1, M.bind_some e1]
  cases oa with
  | none => rfl
  | some a =>
    cases q1 with
    | ok a L' hf hperm _ _ _ =>
      have hL : ∀ b ∈ a.blocks, b ∈ L1 := fun b hb => hperm.mem_iff.mpr (List.mem_append_left _ hb)
      have key := analyzeLoop_eq hs (n := n) (todo := n) (i := 0) (by omega) hf.good himg
        (by rw [hf.width, hf.height]; exact hlen) r1 hL
      rw [hf.width, hf.height, ← List.range_eq_range'] at key
      have hr0 : Reach s m w h p [] a := Reach.create hwd e1
      obtain ⟨e, a2, w2, ev, g1, _⟩ := analyzeAll_rel hs (frames := framesOf image w h n) hr0 hf.good r1 hL (by
        intro f hf'
        obtain ⟨i, hi, rfl⟩ := List.mem_map.mp hf'
        rw [hf.width, hf.height, frameOf_length (List.mem_range.mp hi) hlen]) (fun _ => trivial)
      dsimp only
      have key' : analyzeLoop s image w h n 0 a w1 = _ := key.trans g1
      rw [M.bind_some key', M.bind_some g1]
      dsimp only
      by_cases he : e = RDEOK
      · subst he
        rw [if_pos rfl, if_pos (show RDEOK = 0 from rfl)]
      · rw [if_neg he, if_neg (by simpa [RDEOK] using he)]
        rfl

/-- Outcomes of `resdetect`. -/
theorem resdetect_tri {F : Prop} {L : List ℕ} {s : Sys} (hs : Build s) {m : Option Method} (hm : ValidMethod? m)
    {p : Option Params} (hp : ValidParams? s.cfg p) {w h n : ℕ} {image : Option (List Fl)}
    (himg : ∀ im, image = some im → im.length ≤ s.cfg.sizeMax ∧ n * (w * h) ≤ im.length) {ptr : Ptrs}
    (hF : LinesTooBig s.cfg w h → F) :
    Tri F L (resdetect s image n w h ptr m p) (fun r L' =>
      (r = (RDEPARAM, Out.nothing) ∧ L' = L ∧
        (((ptr.rw && !ptr.cw) || (ptr.rh && !ptr.ch)) = true ∨ image = none)) ∨
      (((ptr.rw && !ptr.cw) || (ptr.rh && !ptr.ch)) = false ∧
        ((∃ im, image = some im) ∧ r = (RDENOIMG, Out.nothing) ∧ L' = L ∧ n = 0 ∨
        n ≠ 0 ∧ ∃ im, image = some im ∧ Detected s F L (framesOf im w h n) w h ptr m p r L'))) := by
  intro base wd hrel
  by_cases hptr : ((ptr.rw && !ptr.cw) || (ptr.rh && !ptr.ch)) = true
  · unfold resdetect
    rw [if_pos hptr]
    exact ⟨_, _, _, rfl, hrel, Or.inl ⟨rfl, rfl, Or.inl hptr⟩⟩
  cases image with
  | none =>
    unfold resdetect
    rw [if_neg hptr]
    exact ⟨_, _, _, rfl, hrel, Or.inl ⟨rfl, rfl, Or.inr rfl⟩⟩
  | some im =>
    obtain ⟨h1, h2⟩ := himg im rfl
    by_cases hn : n = 0
    · unfold resdetect
      rw [if_neg hptr]
      dsimp only
      rw [if_pos hn]
      exact ⟨_, _, _, rfl, hrel, Or.inr ⟨by simpa using hptr, Or.inl ⟨⟨im, rfl⟩, rfl, rfl, hn⟩⟩⟩
    · rw [resdetect_eq hs hm hp h1 h2 hn (by simpa using hptr) hrel.wf]
      obtain ⟨r, w', L', e, r1, q⟩ := sequential_tri hs hm hp (frames := framesOf im w h n) (ptr := ptr) (by
        intro f hf'
        obtain ⟨i, hi, rfl⟩ := List.mem_map.mp hf'
        rw [frameOf_length (List.mem_range.mp hi) h2]) hF base wd hrel
      exact ⟨r, w', L', e, r1, Or.inr ⟨by simpa using hptr, Or.inr ⟨hn, im, rfl, q⟩⟩⟩

theorem reach_blocks {s : Sys} (hs : Build s) {m : Option Method} (hm : ValidMethod? m) {p : Option Params}
    (hp : ValidParams? s.cfg p) {w h : ℕ} {ev : List (Call × Obs)} {a : Analysis} (hr : Reach s m w h p ev a) :
    a.blocks.Nodup := by
  induction hr with
  | @create a e wd wd' hwd hc =>
    obtain ⟨r, w2, L', e1, r1, q⟩ := createAnalysis_tri (F := True) (L := []) hs hm hp (w := w) (h := h) (fun _ => trivial)
      wd wd (Rel.init hwd (fun _ _ => trivial))
    rw [hc] at e1
    cases e1
    cases q with
    | ok a L' hf hperm _ _ _ =>
      have := hperm.nodup_iff.mp r1.nodup
      rw [List.append_nil] at this
      exact this
  | call hr hl hst ih =>
    have hg := (reach_inv hs hm hp hr).good
    rw [((step_ok hs hg hl hst).good hg).2]
    exact ih

/-- The part of a memory state that does not belong to the analysis. -/
theorem Rel.part {w : World} (hw : w.WF) {L : List ℕ} (hnd : L.Nodup) (hL : ∀ b ∈ L, b ∈ w.live) :
    Rel True { w with live := w.live.filter (fun b => decide (b ∉ L)) } L w where
  base_wf :=
    { live_lt := fun b hb => hw.live_lt b (List.mem_of_mem_filter hb)
      files_lt := hw.files_lt
      nodup := hw.nodup.filter _
      files_nodup := hw.files_nodup }
  next := le_rfl
  files := rfl
  nodup := hnd
  new := fun b hb => ⟨by simp [hb], hw.live_lt b (hL b hb)⟩
  live := by
    intro b
    simp only [List.mem_filter, decide_eq_true_eq]
    constructor
    · intro h
      by_cases hb : b ∈ L
      · exact Or.inr hb
      · exact Or.inl ⟨h, hb⟩
    · rintro (h | h)
      · exact h.1
      · exact hL b h
  live_nodup := hw.nodup
  sched := fun _ _ => trivial

end Verif
