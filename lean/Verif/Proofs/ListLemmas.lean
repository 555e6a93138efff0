import Verif.Proofs.DetectLemmas

/-! # Result lists in terms of spectra -/

namespace Verif

open Spec

variable {s : Sys} {m : Option Method} {p : Option Params} {w h : ℕ} {ev : List (Call × Obs)} {a : Analysis}
  {rw rh : Option (List Res)} {cw ch : ℕ}

/-- The list reported for a dimension of size `len` with parameters `q` after frames with spectra `fs`. -/
structure Listed (s : Sys) (d : Detect) (q : Params) (len : ℕ) (g : List Fl → ℕ → ℕ → Fl) (n : ℕ) (fs : List (List Fl))
    (l : List Res) : Prop where
  eq : l = s.env.sorter (sentinel len :: candidates s.cfg q fs.length len
    ((List.range (len - 2 * q.range)).map (fun k => total s d g n q.range fs (q.range + k))))
  sorted : Descending l
  parts : ∃ init, l = init ++ [sentinel len] ∧ init.Nodup ∧ ∀ r, r ∈ init ↔
    q.range ≤ r.index ∧ r.index + q.range < len ∧ filteredOut len q.compressionFilter (r.index - q.range) = false ∧
    (meanAt s d g n q.range fs r.index).ge (s.cfg.inter.conv q.threshold) = true ∧
    r.confidence = binary32.conv (meanAt s d g n q.range fs r.index)

theorem Listed.of_scores {d : Detect} {q : Params} {len n : ℕ} {g : List Fl → ℕ → ℕ → Fl} {fs : List (List Fl)}
    {res : Option (Buf Fl)} (ht : InUnit a.params.threshold) (hq : a.params = q) (hn : a.nimages = fs.length)
    (hsc : scores res = (List.range (len - 2 * q.range)).map (fun k => total s d g n q.range fs (q.range + k))) :
    Listed s d q len g n fs (dimList s a len res) := by
  obtain ⟨init, h1, h2, h3⟩ := dimList_shape (s := s) (length := len) (result := res) ht
  refine ⟨by unfold dimList; rw [hsc, hq, hn], h3, init, h1,
    List.Nodup.of_map _ ((h2.map _).nodup_iff.mpr candidates_nodup), ?_⟩
  intro r
  rw [h2.mem_iff, mem_candidates, hsc]
  simp only [List.length_map, List.length_range, isKept, hq, List.getElem_map, List.getElem_range, reaches,
    Bool.and_eq_true, Bool.not_eq_true']
  constructor
  · rintro ⟨i, hi, ⟨hk, hk'⟩, rfl⟩
    rw [List.getElem?_eq_getElem (by simpa using hi)] at hk
    simp only [List.getElem_map, List.getElem_range, Option.getD_some] at hk
    refine ⟨by simp, by simp only; omega, ?_, ?_, ?_⟩
    · simpa using hk'
    · unfold meanAt; rw [← hn]; exact hk
    · unfold meanAt; rw [← hn]
  · rintro ⟨b1, b2, b0, b3, b4⟩
    have hi : r.index - q.range < len - 2 * q.range := by omega
    have hx : q.range + (r.index - q.range) = r.index := by omega
    refine ⟨r.index - q.range, hi, ⟨?_, b0⟩, ?_⟩
    · rw [List.getElem?_eq_getElem (by simpa using hi)]
      simp only [List.getElem_map, List.getElem_range, Option.getD_some]
      rw [hx]
      unfold meanAt at b3; rw [← hn] at b3; exact b3
    · rw [hx]
      unfold meanAt at b4; rw [← hn] at b4
      rw [← b4]

theorem returned_listed (hs : Build s) (hm : ValidMethod? m) (hp : ValidParams? s.cfg p) (hno : NoOom ev)
    (hk : (analysed ev).length ≤ s.cfg.sizeMax) (hr : Returned s m w h p ev a rw cw rh ch) {fs : List (List Fl)}
    (hfs : Spectra s a ev fs) :
    fs ≠ [] ∧ fs.length = (analysed ev).length ∧
    (∀ l, rw = some l → Listed s (effMethod m).func (effParams s.cfg (effMethod m) p) w (fun f => rows f w) h fs l) ∧
    (∀ l, rh = some l → Listed s (effMethod m).func (effParams s.cfg (effMethod m) p) h (fun f => cols f w) w fs l) := by
  have hg := returned_got hs hm hp hr
  obtain ⟨gs, h1, hX, hY⟩ := hg.inv.scores hno
  obtain rfl := spectra_unique h1 hfs
  have hlen : gs.length = (analysed ev).length := h1.length_eq.symm
  have hcount := hg.inv.count hk
  have eq : a.params = effParams s.cfg (effMethod m) p := hg.inv.params
  have ed : a.method.func = (effMethod m).func := by rw [hg.inv.method]
  rw [eq, ed, hg.inv.width, hg.inv.height] at hX hY
  refine ⟨?_, hlen, ?_, ?_⟩
  · rintro rfl
    rw [← hlen] at hcount
    exact hg.nimages hcount
  · intro l hl
    rw [hg.listX l hl]
    exact Listed.of_scores hg.inv.threshold eq (by omega) hX
  · intro l hl
    rw [hg.listY l hl]
    exact Listed.of_scores hg.inv.threshold eq (by omega) hY

/-- Facts about the sizes in a successful run. -/
theorem returned_sizes (hs : Build s) (hpr : Precise s.cfg) (hm : ValidMethod? m) (hp : ValidParams? s.cfg p)
    (hr : Returned s m w h p ev a rw cw rh ch) :
    0 < w ∧ 0 < h ∧ w ≤ 2 ^ s.cfg.inter.p ∧ h ≤ 2 ^ s.cfg.inter.p ∧ 0 < (effParams s.cfg (effMethod m) p).range ∧
    InUnit (effParams s.cfg (effMethod m) p).threshold := by
  have hg := returned_got hs hm hp hr
  have hgood := hg.inv.good
  obtain ⟨h1, h2⟩ := hg.inv.side hpr
  have h3 := hgood.width_pos
  have h4 := hgood.height_pos
  have h5 := hgood.range_pos
  have h6 := hg.inv.threshold
  rw [hg.inv.width] at h1 h3
  rw [hg.inv.height] at h2 h4
  rw [hg.inv.params] at h5 h6
  exact ⟨h3, h4, h1, h2, h5, h6⟩

/-- When memory suffices and the image is acceptable, creating an analysis with a method other than orig, analysing one
frame and asking for both lists succeeds. -/
theorem single_run (hs : Build s) (hm : ValidMethod? m) (hp : ValidParams? s.cfg p) (hd : (effMethod m).func ≠ .orig)
    (hw : 0 < w) (hh : 0 < h) (hfit : w * h ≤ s.cfg.pixelMax ∧ w * h * s.cfg.szCoeff ≤ s.cfg.sizeMax)
    (hsw : w ≤ sideMax s.cfg) (hsh : h ≤ sideMax s.cfg) (hplan : s.cfg.backend = .fftw → s.env.fftwPlans w h = true)
    (hsc : ¬ ScoresTooBig s.cfg w h (effParams s.cfg (effMethod m) p).range)
    {image : List Fl} (hlen : w * h ≤ image.length) (hfin : AllFinite image (w * h))
    {wd : World} (hwd : wd.WF) (hsched : ∀ j, wd.sched j = true) :
    ∃ (a : Analysis) (c : Call) (f : List Fl) (lw lh : List Res) (cw ch : ℕ),
      Returned s m w h p [(c, .analyzed RDEOK)] a (some lw) cw (some lh) ch ∧ c.op = .analyze (some image) ∧
      Spectra s a [(c, .analyzed RDEOK)] [f] := by
  obtain ⟨⟨oa, e⟩, w1, L1, e1, r1, q1⟩ := createAnalysis_tri (F := False) (L := []) hs hm hp (w := w) (h := h) hsc
    wd wd (Rel.init hwd (fun j hj => by rw [hsched j] at hj; cases hj))
  cases q1 with
  | zero h => omega
  | toobig _ _ h => rcases h with h | h | h; exacts [absurd hfit h, by omega, by omega]
  | internal _ _ _ _ _ hb hf => rw [hplan hb] at hf; cases hf
  | nomem _ hF => exact hF.elim
  | ok a L' hf hperm _ _ _ =>
    have hr0 : Reach s m w h p [] a := Reach.create hwd e1
    rw [List.append_nil] at hperm
    have hlive : ∀ b ∈ owned a, b ∈ w1.live := fun b hb =>
      (r1.live b).mpr (Or.inr (hperm.mem_iff.mpr (hf.good.owned_blocks b hb)))
    have hsch : ∀ j, w1.sched j = true := fun j => by
      by_contra hc
      exact (r1.sched j (by simpa using hc)).elim
    let c : Call := ⟨.analyze (some image), w1⟩
    have hl : Legal a c := ⟨r1.wf, hlive, by show a.width * a.height ≤ _; rw [hf.width, hf.height]; exact hlen⟩
    obtain ⟨o, a1, s1, k1⟩ := step_cases hs hf.good hl
    have hex : o = .analyzed RDEOK := by
      cases k1 with
      | results _ _ _ _ hop => cases hop
      | analyze image' e' a' hop hk =>
        cases hop
        cases hk with
        | param h => cases h
        | inval im fb f' him hnf => cases him; rw [hf.width, hf.height] at hnf; exact absurd hfin hnf
        | frame im fb pl f w' _ _ him _ _ _ _ _ hx =>
          cases hx with
          | ok => rfl
          | nomemX h => rw [hf.method] at h; exact absurd h hd
          | nomemY h => rw [hf.method] at h; exact absurd h hd
    subst hex
    have hr1 : Reach s m w h p [(c, .analyzed RDEOK)] a1 := Reach.call hr0 hl s1
    have hinv1 := reach_inv hs hm hp hr1
    let c2 : Call := ⟨.results .all, w1⟩
    have hl2 : Legal a1 c2 := k1.legal (c' := c2) ⟨r1.wf, hlive, trivial⟩
    obtain ⟨o2, a2, s2, k2⟩ := step_cases hs hinv1.good hl2
    have han : analysed [(c, .analyzed RDEOK)] = [(c, .analyzed RDEOK)] := by simp [analysed]
    have hno : NoOom [(c, .analyzed RDEOK)] := by
      intro x hx
      simp only [List.mem_singleton] at hx
      rw [hx]; show Obs.analyzed RDEOK ≠ _; decide
    have hsz : 1 ≤ s.cfg.sizeMax := by
      have := hs.wf.pixel_pos
      have := hs.wf.pixel_le
      omega
    have hn1 : a1.nimages = 1 := by
      rw [hinv1.count (by rw [han]; exact hsz), han]; rfl
    obtain ⟨fs, hfs, _⟩ := hinv1.scores hno
    rw [han] at hfs
    have hfs1 : ∃ f, fs = [f] := by
      have := hfs.length_eq
      match fs, this with
      | [f], _ => exact ⟨f, rfl⟩
    obtain ⟨f, rfl⟩ := hfs1
    have hres : ∃ lw lh cw ch, o2 = .results RDEOK (some lw) cw (some lh) ch := by
      cases k2 with
      | analyze _ _ _ hop => cases hop
      | results ptr e' out L' hop hk =>
        cases hop
        cases hk with
        | param h => simp [Ptrs.all] at h
        | noimg _ h => omega
        | nomem _ _ hF => obtain ⟨j, hj⟩ := hF; have := hsch j; rw [show c2.world.sched j = w1.sched j from rfl, this] at hj; cases hj
        | ok rw rh L' _ _ h1 h2 =>
          simp only [Ptrs.all, if_true] at h1 h2
          exact ⟨_, _, _, _, by rw [h1, h2]⟩
    obtain ⟨lw, lh, cw, ch, rfl⟩ := hres
    exact ⟨a1, c, f, lw, lh, cw, ch, ⟨hr1, c2, a2, hl2, s2⟩, rfl, by unfold Spectra; rw [han]; exact hfs⟩

/-- With FFTW the spectrum of a frame is FFTW's transform of the converted samples. -/
theorem fftw_spectrum (hb : s.cfg.backend = .fftw) {ev : List (Call × Obs)} {a : Analysis} (hinv : Inv s m w h p ev a)
    {c : Call} {image : List Fl} (hop : c.op = .analyze (some image)) {f : List Fl} (hf : Spectrum s a c f) :
    f = s.env.fftw w h ((image.take (w * h)).map s.cfg.coeff.conv) := by
  obtain ⟨image', plan, w', h1, h2, h3⟩ := hf
  rw [hop] at h1
  cases h1
  obtain ⟨pl, e1, e2⟩ := hinv.good.p
  rw [h2] at e1
  cases e1
  cases e2 with
  | kiss _ _ hk => rw [hb] at hk; cases hk
  | fftw b q _ =>
    rw [hinv.width, hinv.height] at h3
    simp only [transform] at h3
    by_cases l1 : b ∈ c.world.live
    · rw [M.bind_some (touch_live l1)] at h3
      rw [M.bind_some (show need (some q) c.world = some (q, c.world) from rfl)] at h3
      by_cases l2 : q ∈ c.world.live
      · rw [M.bind_some (touch_live l2)] at h3
        cases h3
        rfl
      · rw [M.bind_none (by unfold touch; rw [if_neg l2])] at h3
        cases h3
    · rw [M.bind_none (by unfold touch; rw [if_neg l1])] at h3
      cases h3

end Verif
