import Verif.Props.Accuracy
import Verif.Proofs.Repeat
import Verif.Props.Library

/-! # The lists depend on the frames alone (C84) -/

namespace Verif.Props

open Spec

variable {s : Sys} {m : Option Method} {p : Option Params} {w h : ℕ} {ev ev' : List (Call × Obs)} {a a' : Analysis}
  {rw rh rw' rh' : Option (List Res)} {cw ch cw' ch' : ℕ}

/-- Both calls analyse an image, with the same `n` samples. -/
def SameFrame (n : ℕ) (x y : Call × Obs) : Prop :=
  ∃ image image', x.1.op = .analyze (some image) ∧ y.1.op = .analyze (some image') ∧ image.take n = image'.take n

theorem reach_samples (hs : Build s) (hm : ValidMethod? m) (hp : ValidParams? s.cfg p) (hr : Reach s m w h p ev a) :
    ∀ x ∈ ev, ∀ image, x.1.op = .analyze (some image) → w * h ≤ image.length := by
  induction hr with
  | create _ _ => intro x hx; cases hx
  | call hr hl hst ih =>
    intro x hx image hop
    rcases List.mem_append.mp hx with hx | hx
    · exact ih x hx image hop
    · rw [List.mem_singleton] at hx
      subst hx
      have hinv := reach_inv hs hm hp hr
      have := hl.2.2
      simp only at hop
      rw [hop, hinv.width, hinv.height] at this
      exact this

/-- The memory of two runs has no influence on the coefficients. -/
def Unaffected (s : Sys) (w h : ℕ) (xs : List (Call × Obs)) : Prop :=
  s.cfg.backend = .fftw ∨ (Smooth w ∧ Smooth h) ∨ ∀ x ∈ xs, Plenty x.1.world

theorem spectrum_repeats (hs : Build s) (hm : ValidMethod? m) (hp : ValidParams? s.cfg p) (hr : Reach s m w h p ev a) (hr' : Reach s m w h p ev' a')
    {x y : Call × Obs} (hx : x ∈ ev) (hsame : SameFrame (w * h) x y) {f f' : List Fl} (hf : Spectrum s a x.1 f) (hf' : Spectrum s a' y.1 f')
    (hsafe : Unaffected s w h [x, y]) : f = f' := by
  have hinv := reach_inv hs hm hp hr
  have hinv' := reach_inv hs hm hp hr'
  obtain ⟨image, image', o1, o2, o3⟩ := hsame
  have hlen := reach_samples hs hm hp hr x hx image o1
  by_cases hb : s.cfg.backend = .fftw
  · rw [fftw_spectrum hb hinv o1 hf, fftw_spectrum hb hinv' o2 hf', o3]
  obtain ⟨im, plan, wd, e1, e2, e3⟩ := hf
  obtain ⟨im', plan', wd', e1', e2', e3'⟩ := hf'
  rw [o1] at e1
  cases e1
  rw [o2] at e1'
  cases e1'
  obtain ⟨pl, e4, hgood⟩ := hinv.good.p
  rw [e2] at e4
  cases e4
  obtain ⟨pl, e4, hgood'⟩ := hinv'.good.p
  rw [e2'] at e4
  cases e4
  rw [hinv.width, hinv.height] at hgood e3
  rw [hinv'.width, hinv'.height] at hgood' e3'
  have hlen : ((image.take (w * h)).map s.cfg.coeff.conv).length = w * h := by rw [List.length_map, List.length_take, min_eq_left hlen]
  cases hgood with
  | fftw b q hb' => exact absurd hb' hb
  | kiss q g _ =>
    cases hgood' with
    | fftw b q hb' => exact absurd hb' hb
    | kiss q' g' _ =>
      rw [← o3] at e3'
      refine kiss_repeats g g' hlen e3 e3' ?_
      rcases hsafe with hsafe | ⟨sw, sh⟩ | hsafe
      · exact absurd hsafe hb
      · exact Or.inl ⟨C62_accuracy.smooth_factors (by rw [g.n0]; exact sw) g.fac0 g.stages0,
          C62_accuracy.smooth_factors (by rw [g.n1]; exact sh) g.fac1 g.stages1⟩
      · exact Or.inr (funext fun j => by rw [hsafe x (by simp) j, hsafe y (by simp) j])

/-- **C84** Two analyses of the same size with the same method and parameters, given the same frames in the same order, return the same
lists: whatever else is on the heap, whichever calls failed or asked for results in between, and whether one list is asked for or both. -/
theorem C84_repeatable (hs : Build s) (hm : ValidMethod? m) (hp : ValidParams? s.cfg p) (hno : NoOom ev) (hno' : NoOom ev')
    (hr : Returned s m w h p ev a rw cw rh ch) (hr' : Returned s m w h p ev' a' rw' cw' rh' ch')
    (hframes : List.Forall₂ (SameFrame (w * h)) (analysed ev) (analysed ev')) (hsafe : Unaffected s w h (analysed ev ++ analysed ev')) :
    (∀ l l', rw = some l → rw' = some l' → l = l') ∧ (∀ l l', rh = some l → rh' = some l' → l = l') := by
  have hg := returned_got hs hm hp hr
  have hg' := returned_got hs hm hp hr'
  obtain ⟨fs, h1, hX, hY⟩ := hg.inv.scores hno
  obtain ⟨fs', h1', hX', hY'⟩ := hg'.inv.scores hno'
  have hfs : fs = fs' := by
    have hsub : ∀ x ∈ analysed ev, x ∈ ev := fun x hx => List.mem_of_mem_filter hx
    generalize analysed ev = xs at h1 hframes hsafe hsub
    generalize analysed ev' = ys at h1' hframes hsafe
    clear hX hY hX' hY'
    induction hframes generalizing fs fs' with
    | nil => cases h1; cases h1'; rfl
    | cons h _ ih =>
      cases h1 with
      | cons k1 k2 =>
        cases h1' with
        | cons k1' k2' =>
          congr 1
          · refine spectrum_repeats hs hm hp hr.1 hr'.1 (hsub _ (by simp)) h k1 k1' ?_
            rcases hsafe with hb | hb | hb
            · exact Or.inl hb
            · exact Or.inr (Or.inl hb)
            · refine Or.inr (Or.inr fun x hx => hb x ?_)
              simp only [List.mem_cons, List.not_mem_nil, or_false] at hx
              rcases hx with rfl | rfl <;> simp
          · refine ih _ _ k2 (fun x hx => hsub x (by simp [hx])) k2' ?_
            rcases hsafe with hb | hb | hb
            · exact Or.inl hb
            · exact Or.inr (Or.inl hb)
            · refine Or.inr (Or.inr fun x hx => hb x ?_)
              rcases List.mem_append.mp hx with hx | hx <;> simp [hx]
  subst hfs
  have hn : a.nimages = a'.nimages := by rw [hg.inv.nimages, hg'.inv.nimages, hframes.length_eq]
  refine ⟨fun l l' e e' => ?_, fun l l' e e' => ?_⟩
  · rw [hg.listX l e, hg'.listX l' e']
    unfold dimList
    rw [hX, hX', hg.inv.params, hg'.inv.params, hn, hg.inv.method, hg'.inv.method, hg.inv.width, hg'.inv.width, hg.inv.height, hg'.inv.height]
  · rw [hg.listY l e, hg'.listY l' e']
    unfold dimList
    rw [hY, hY', hg.inv.params, hg'.inv.params, hn, hg.inv.method, hg'.inv.method, hg.inv.width, hg'.inv.width, hg.inv.height, hg'.inv.height]

theorem sameFrames {n : ℕ} {frames frames' : List (List Fl)} (hf : List.Forall₂ (fun f g => f.take n = g.take n) frames frames') :
    ∀ {ev ev' : List (Call × Obs)}, ev.map (fun x => x.1.op) = frames.map (fun f => Op.analyze (some f)) →
      ev'.map (fun x => x.1.op) = frames'.map (fun f => Op.analyze (some f)) → List.Forall₂ (SameFrame n) ev ev' := by
  induction hf with
  | nil =>
    intro ev ev' h h'
    rw [List.map_nil, List.map_eq_nil_iff] at h h'
    subst h h'
    exact .nil
  | cons h1 _ ih =>
    intro ev ev' h h'
    rw [List.map_cons, List.map_eq_cons_iff] at h h'
    obtain ⟨x, xs, rfl, h2, h3⟩ := h
    obtain ⟨y, ys, rfl, h4, h5⟩ := h'
    exact .cons ⟨_, _, h2, h4, h1⟩ (ih h3 h5)

/-- The same lists with the same lengths, wherever they lie. -/
def SameLists (o o' : Out) : Prop := o.rw.map Buf.data = o'.rw.map Buf.data ∧ o.cw = o'.cw ∧ o.rh.map Buf.data = o'.rh.map Buf.data ∧ o.ch = o'.ch

theorem same_of_outputs {ptr : Ptrs} {e : RDError} {o o' : Out} {w1 w2 w1' w2' : World} (h : Outputs ptr e o w1 w2) (h' : Outputs ptr e o' w1' w2')
    (hl : e = RDEOK → (∀ l l', o.rw.map Buf.data = some l → o'.rw.map Buf.data = some l' → l = l') ∧
      (∀ l l', o.rh.map Buf.data = some l → o'.rh.map Buf.data = some l' → l = l')) : SameLists o o' := by
  by_cases he : e = RDEOK
  · obtain ⟨k1, k2⟩ := hl he
    have same : ∀ {x y : Option (Buf Res)} {b : Bool}, (x.isSome ↔ b = true) → (y.isSome ↔ b = true) →
        (∀ l l', x.map Buf.data = some l → y.map Buf.data = some l' → l = l') → x.map Buf.data = y.map Buf.data := by
      intro x y b hx hy hk
      cases x with
      | none =>
        cases y with
        | none => rfl
        | some y => have := hx.mpr (hy.mp rfl); cases this
      | some x =>
        cases y with
        | none => have := hy.mpr (hx.mp rfl); cases this
        | some y => exact congrArg some (hk _ _ rfl rfl)
    have e1 := same (h.rw he).1 (h'.rw he).1 k1
    have e2 := same (h.rh he).1 (h'.rh he).1 k2
    exact ⟨e1, by rw [(h.rw he).2, (h'.rw he).2, e1], e2, by rw [(h.rh he).2, (h'.rh he).2, e2]⟩
  · rw [h.error he, h'.error he]
    exact ⟨rfl, rfl, rfl, rfl⟩

/-- **C84** With enough memory `resdetect` has the same outcome each time it is called with the same frames. -/
theorem C84_resdetect (hs : Build s) (hm : ValidMethod? m) (hp : ValidParams? s.cfg p) {n : ℕ} {image image' : List Fl}
    (himg : image.length ≤ s.cfg.sizeMax) (himg' : image'.length ≤ s.cfg.sizeMax) (hlen : n * (w * h) ≤ image.length)
    (hsame : image.take (n * (w * h)) = image'.take (n * (w * h))) {ptr : Ptrs} (hrw : ptr.rw = true → ptr.cw = true)
    (hrh : ptr.rh = true → ptr.ch = true) {wd wd' : World} (hw : wd.WF) (hw' : wd'.WF) (hpl : Plenty wd) (hpl' : Plenty wd') (hsc : ¬ HugeScores s w h) :
    ∃ e o o' w1 w1', resdetect s (some image) n w h ptr m p wd = some ((e, o), w1) ∧
      resdetect s (some image') n w h ptr m p wd' = some ((e, o'), w1') ∧ SameLists o o' := by
  have hlen' : n * (w * h) ≤ image'.length := by
    have := congrArg List.length hsame
    rw [List.length_take, List.length_take, min_eq_left hlen] at this
    omega
  have hfr : framesOf image w h n = framesOf image' w h n := by
    unfold framesOf frameOf
    refine List.map_congr_left fun i hi => ?_
    have hi : (i + 1) * (w * h) ≤ n * (w * h) := Nat.mul_le_mul_right _ (List.mem_range.mp hi)
    have key : ∀ l : List Fl, ((l.take (n * (w * h))).drop (i * (w * h))).take (w * h) = (l.drop (i * (w * h))).take (w * h) := by
      intro l
      rw [List.drop_take, List.take_take, min_eq_left]
      rw [Nat.add_mul, Nat.one_mul] at hi
      omega
    rw [← key image, ← key image', hsame]
  obtain ⟨o, w1, h1⟩ := C14_error (ptr := ptr) hs hm hp himg hlen hrw hrh hw hpl hsc
  obtain ⟨o', w1', h1'⟩ := C14_error (ptr := ptr) hs hm hp himg' hlen' hrw hrh hw' hpl' hsc
  rw [← hfr] at h1'
  generalize (if n = 0 then RDENOIMG else if expected s w h ≠ RDEOK then expected s w h else frameError w h (framesOf image w h n)) = e at h1 h1'
  refine ⟨e, o, o', w1, w1', h1, h1', ?_⟩
  obtain ⟨_, _, _, h2, h3⟩ := C16_resdetect_outputs hs hm hp (image := some image) (n := n) (w := w) (h := h)
    (by rintro _ h; cases h; exact ⟨himg, hlen⟩) ptr hw
  rw [h1] at h2
  cases h2
  obtain ⟨_, _, _, h2, h3'⟩ := C16_resdetect_outputs hs hm hp (image := some image') (n := n) (w := w) (h := h)
    (by rintro _ h; cases h; exact ⟨himg', hlen'⟩) ptr hw'
  rw [h1'] at h2
  cases h2
  refine same_of_outputs h3 h3' fun he => ?_
  subst he
  obtain ⟨ev, a, g1, g2, g3, g4, g5⟩ := C14_resdetect_history hs hm hp himg hlen hw h1
  obtain ⟨ev', a', g1', g2', g3', g4', g5'⟩ := C14_resdetect_history hs hm hp himg' hlen' hw' h1'
  refine C84_repeatable hs hm hp g2 g2' g1 g1' ?_ (Or.inr (Or.inr ?_))
  · rw [(all_analysed g3).1, (all_analysed g3').1]
    exact sameFrames (List.forall₂_same.mpr fun _ _ => rfl) g4 (by rw [g4', hfr])
  · rw [(all_analysed g3).1, (all_analysed g3').1]
    intro x hx
    rcases List.mem_append.mp hx with hx | hx
    · exact g5 hpl hsc x hx
    · exact g5' hpl' hsc x hx

/-- **C84** With enough memory `resdetect_file` on a file, of any format, has the same outcome as `resdetect` on its frames in memory. -/
theorem C84_file (hs : Build s) (hm : ValidMethod? m) (hp : ValidParams? s.cfg p) {io : Io} {fn ft : Option (List UInt8)} {frames : List (List Fl)}
    (hy : Presents s io (resdetOpenImage s io fn ft true true true) 0 w h frames) (hne : frames ≠ []) {image : List Fl}
    (himg : image.length ≤ s.cfg.sizeMax) (hlen : frames.length * (w * h) ≤ image.length) (hframes : framesOf image w h frames.length = frames)
    (hcount : frames.length ≤ s.cfg.sizeMax) {fuel : ℕ} (hfuel : frames.length < fuel) {ptr : Ptrs} (hrw : ptr.rw = true → ptr.cw = true)
    (hrh : ptr.rh = true → ptr.ch = true) {wd wd' : World} (hw : wd.WF) (hw' : wd'.WF) (hpl : Plenty wd) (hpl' : Plenty wd') (hsc : ¬ HugeScores s w h) :
    ∃ e o o' w1 w1', resdetectFile s io fuel fn ft ptr m p wd = some ((e, o), w1) ∧
      resdetect s (some image) frames.length w h ptr m p wd' = some ((e, o'), w1') ∧ SameLists o o' := by
  obtain ⟨e, o, w1, h1, h2, h3, h4, _⟩ := C15_readers (ptr := ptr) (fuel := fuel) hs hm hp hy hrw hrh hfuel hcount hw hpl hsc
  obtain ⟨o', w1', h1'⟩ := C14_error (ptr := ptr) hs hm hp himg hlen hrw hrh hw' hpl' hsc
  have hn : frames.length ≠ 0 := fun h => hne (List.length_eq_zero_iff.mp h)
  have he : (if frames.length = 0 then RDENOIMG else if expected s w h ≠ RDEOK then expected s w h else frameError w h (framesOf image w h frames.length)) = e := by
    rw [if_neg hn, hframes, h2, if_neg hne]
    split
    · rfl
    · split
      · rfl
      · exact not_not.mp ‹_›
  rw [he] at h1'
  refine ⟨e, o, o', w1, w1', h1, h1', ?_⟩
  obtain ⟨_, _, _, h5, h6⟩ := C16_resdetect_outputs hs hm hp (image := some image) (n := frames.length) (w := w) (h := h)
    (by rintro _ h; cases h; exact ⟨himg, hlen⟩) ptr hw'
  rw [h1'] at h5
  cases h5
  refine same_of_outputs h4 h6 fun he => ?_
  obtain ⟨ev, a, g1, g2, g3, g4⟩ := h3 he
  subst e
  rw [he] at h1'
  obtain ⟨ev', a', k1, k2, k3, k4, k5⟩ := C14_resdetect_history hs hm hp himg hlen hw' h1'
  refine C84_repeatable hs hm hp (all_analysed g2).2 k2 g1 k1 ?_ (Or.inr (Or.inr ?_))
  · rw [(all_analysed g2).1, (all_analysed k3).1]
    exact sameFrames (List.forall₂_same.mpr fun _ _ => rfl) g3 (by rw [k4, hframes])
  · rw [(all_analysed g2).1, (all_analysed k3).1]
    intro x hx
    rcases List.mem_append.mp hx with hx | hx
    · exact g4 x hx
    · exact k5 hpl' hsc x hx

namespace Demo

/-- The samples of the picture file of C83. -/
noncomputable def frame4 : List Fl := [255, 191, 64, 0].map (fun b : UInt8 => normal 255 b.toNat)

theorem frame4_frames : framesOf frame4 4 1 1 = [frame4] := by simp [framesOf, frameOf, frame4]

theorem frame4_fits : frame4.length ≤ Demo.sysN.cfg.sizeMax := show 4 ≤ (lp64 .kiss).sizeMax by decide +kernel

/-- A heap with another block on it. -/
def w3 : World := ⟨[0], [], 1, fun _ => true⟩

theorem w3_wf : w3.WF := by
  constructor <;> simp [w3]

end Demo

/-- The hypotheses of C84 for files and for `resdetect` can be met, with success. -/
example : ∃ o o' w1 w1', resdetectFile Demo.sysN (Demo.disk Demo.file4 true) 2 (some (cs "a.pgm")) none .all (some Demo.sign) (some Demo.rowParams) Demo.w0 =
      some ((RDEOK, o), w1) ∧
    resdetect Demo.sysN (some Demo.frame4) 1 4 1 .all (some Demo.sign) (some Demo.rowParams) Demo.w3 = some ((RDEOK, o'), w1') ∧ SameLists o o' := by
  obtain ⟨out, w', h1, _⟩ := C83_file (ptr := .all) (fuel := 2) Demo.row_suited Demo.row_size Demo.file4_presents (List.cons_ne_nil _ _) (fun _ => rfl)
    (fun _ => rfl) (by decide) (show 1 ≤ (lp64 .kiss).sizeMax by decide +kernel) Demo.w0_wf (fun _ => rfl) Demo.row_scores Demo.file4_depicts Demo.row_exact
  obtain ⟨e, o, o', w1, w1', h2, h3, h4⟩ := C84_file (ptr := .all) (fuel := 2) Demo.row_suited.build Demo.row_suited.method Demo.row_suited.params
    Demo.file4_presents (List.cons_ne_nil _ _) (image := Demo.frame4) Demo.frame4_fits le_rfl Demo.frame4_frames
    (show 1 ≤ (lp64 .kiss).sizeMax by decide +kernel) (by decide) (fun _ => rfl) (fun _ => rfl) Demo.w0_wf Demo.w3_wf (fun _ => rfl) (fun _ => rfl) Demo.row_scores
  rw [h1] at h2
  cases h2
  exact ⟨_, o', _, w1', h1, h3, h4⟩

/-- The hypotheses of C84 can be met by two histories. -/
example : ∃ ev a rw cw rh ch ev' a' rw' cw' rh' ch', Returned Demo.sysN (some Demo.sign) 4 1 (some Demo.rowParams) ev a rw cw rh ch ∧
    Returned Demo.sysN (some Demo.sign) 4 1 (some Demo.rowParams) ev' a' rw' cw' rh' ch' ∧ NoOom ev ∧ NoOom ev' ∧
    List.Forall₂ (SameFrame (4 * 1)) (analysed ev) (analysed ev') ∧ Unaffected Demo.sysN 4 1 (analysed ev ++ analysed ev') ∧
    ∃ l l', rw = some l ∧ rw' = some l' := by
  have himg : ramp4.length ≤ Demo.sysN.cfg.sizeMax := by have := Demo.row_image; omega
  have run : ∀ wd : World, wd.WF → Plenty wd → ∃ ev a rw cw rh ch, Returned Demo.sysN (some Demo.sign) 4 1 (some Demo.rowParams) ev a rw cw rh ch ∧
      NoOom ev ∧ analysed ev = ev ∧ ev.map (fun x => x.1.op) = [ramp4].map (fun f => Op.analyze (some f)) ∧ (∀ x ∈ ev, Plenty x.1.world) ∧ ∃ l, rw = some l := by
    intro wd hwd hpl
    obtain ⟨out, w', h1, h0⟩ := C83_resdetect (ptr := .all) Demo.row_suited Demo.row_size (image := ramp4) (n := 1) himg le_rfl
      one_ne_zero (fun _ => rfl) (fun _ => rfl) hwd hpl Demo.row_scores Demo.row_sampled Demo.row_exact
    obtain ⟨ev, a, h2, _, h3, h4, h5⟩ := C14_resdetect_history Demo.row_suited.build Demo.row_suited.method Demo.row_suited.params himg le_rfl hwd h1
    obtain ⟨han, hno⟩ := all_analysed h3
    obtain ⟨l, h6, _⟩ := h0.widths rfl
    exact ⟨ev, a, _, _, _, _, h2, hno, han, by rw [h4, Demo.row_frames], h5 hpl Demo.row_scores, l.data, by rw [h6]; rfl⟩
  obtain ⟨ev, a, rw, cw, rh, ch, h1, h2, h3, h4, h5, l, h6⟩ := run Demo.w0 Demo.w0_wf (fun _ => rfl)
  obtain ⟨ev', a', rw', cw', rh', ch', h1', h2', h3', h4', h5', l', h6'⟩ := run Demo.w3 Demo.w3_wf (fun _ => rfl)
  refine ⟨ev, a, rw, cw, rh, ch, ev', a', rw', cw', rh', ch', h1, h1', h2, h2', ?_, Or.inr (Or.inr ?_), l, l', h6, h6'⟩
  · rw [h3, h3']
    exact sameFrames (List.forall₂_same.mpr fun _ _ => rfl) h4 h4'
  · rw [h3, h3']
    intro x hx
    rcases List.mem_append.mp hx with hx | hx
    · exact h5 x hx
    · exact h5' x hx

end Verif.Props
