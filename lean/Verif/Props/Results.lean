import Verif.Proofs.ScoreLemmas
import Verif.Spec.Demo

/-!
# What a successful results call returns (C01 to C08)

`Returned s m w h p ev a rw cw rh ch`: an analysis `a` of `w` by `h` images was created with method `m` and parameters `p`,
the calls `ev` were made on it, and then a results call succeeded with these lists and counts.
-/

namespace Verif.Props

open Spec

variable {s : Sys} {m : Option Method} {p : Option Params} {w h : ℕ} {ev : List (Call × Obs)} {a : Analysis}
  {rw rh : Option (List Res)} {cw ch : ℕ}

/-- The demonstration call used in the examples below. -/
theorem demo_returned : Returned Demo.sys none 4 2 (some Demo.params) [(Demo.callA, .analyzed RDEOK)] Demo.analysis1
    (some Demo.listX) 3 (some [⟨2, .fin true (-1)⟩]) 1 :=
  ⟨Demo.reach1, Demo.callR, Demo.analysis1, Demo.legalR, Demo.stepR⟩

theorem demo_precise : Precise Demo.sys.cfg where
  sides := by norm_num [Demo.sys, lp64, binary64]
  room := by norm_num [Demo.sys, lp64, binary64]

/-- **C01** The list is in non-increasing order of confidence, ends with (input size, -1), and no other entry has
confidence -1. -/
theorem C01_sorted_sentinel (hs : Build s) (hm : ValidMethod? m) (hp : ValidParams? s.cfg p)
    (hr : Returned s m w h p ev a rw cw rh ch) :
    (∀ l, rw = some l → Descending l ∧ ∃ init, l = init ++ [⟨w, .fin true (-1)⟩] ∧
      ∀ r ∈ init, ∀ b, r.confidence ≠ .fin b (-1)) ∧
    (∀ l, rh = some l → Descending l ∧ ∃ init, l = init ++ [⟨h, .fin true (-1)⟩] ∧
      ∀ r ∈ init, ∀ b, r.confidence ≠ .fin b (-1)) := by
  have hg := returned_got hs hm hp hr
  have key : ∀ len res, Descending (dimList s a len res) ∧ ∃ init, dimList s a len res = init ++ [⟨len, .fin true (-1)⟩] ∧
      ∀ r ∈ init, ∀ b, r.confidence ≠ .fin b (-1) := by
    intro len res
    obtain ⟨init, h1, h2, h3⟩ := dimList_shape (s := s) (length := len) (result := res) hg.inv.threshold
    refine ⟨h3, init, h1, ?_⟩
    intro r hr b hb
    rcases candidates_nn hg.inv.threshold (h2.mem_iff.mp hr) with h | ⟨_, v, h, hv⟩
    · rw [hb] at h; cases h
    · rw [hb] at h; cases h; norm_num at hv
  refine ⟨?_, ?_⟩
  · intro l hl
    rw [hg.listX l hl]; exact key _ _
  · intro l hl
    rw [hg.listY l hl]; exact key _ _

/-- The hypotheses hold for a 4 by 2 analysis whose width list is (2, 0.5), (1, 0), (4, -1). -/
example : Descending Demo.listX ∧ ∃ init, Demo.listX = init ++ [⟨4, .fin true (-1)⟩] ∧
    ∀ r ∈ init, ∀ b, r.confidence ≠ .fin b (-1) :=
  (C01_sorted_sentinel Demo.sys_build Demo.none_method Demo.params_valid demo_returned).1 _ rfl

/-- **C02** Confidences lie in 0..1, in floating point, if no frame was refused for lack of memory, the intermediate type
is `double` or better, and there were at most `2^p` frames (`2^53` for `double`). -/
theorem C02_confidence_unit (hs : Build s) (hpr : Precise s.cfg) (hm : ValidMethod? m) (hp : ValidParams? s.cfg p)
    (hno : NoOom ev) (hk : (analysed ev).length ≤ 2 ^ s.cfg.inter.p) (hk' : (analysed ev).length ≤ s.cfg.sizeMax)
    (hr : Returned s m w h p ev a rw cw rh ch) :
    (∀ l, rw = some l → ∃ init, l = init ++ [⟨w, .fin true (-1)⟩] ∧ ∀ r ∈ init, InUnit r.confidence) ∧
    (∀ l, rh = some l → ∃ init, l = init ++ [⟨h, .fin true (-1)⟩] ∧ ∀ r ∈ init, InUnit r.confidence) := by
  have hg := returned_got hs hm hp hr
  have hF := hs.wf.inter_wf
  obtain ⟨fs, hfs, hX, hY⟩ := hg.inv.scores hno
  have hlen : fs.length = (analysed ev).length := hfs.length_eq.symm
  have hcount := hg.inv.count hk'
  have hpos : 0 < a.nimages := Nat.pos_of_ne_zero hg.nimages
  have key : ∀ len res, (∀ x ∈ scores res, ∃ v, x = .fin false v ∧ 0 ≤ v ∧ v ≤ (a.nimages : ℚ)) →
      ∃ init, dimList s a len res = init ++ [⟨len, .fin true (-1)⟩] ∧ ∀ r ∈ init, InUnit r.confidence := by
    intro len res hb
    obtain ⟨init, h1, h2, h3⟩ := dimList_shape (s := s) (length := len) (result := res) hg.inv.threshold
    refine ⟨init, h1, ?_⟩
    intro r hr
    obtain ⟨i, hi, _, rfl⟩ := mem_candidates.mp (h2.mem_iff.mp hr)
    obtain ⟨v, hv, hv0, hv1⟩ := hb _ (List.getElem_mem hi)
    refine conv_unit binary32_wf ?_
    rw [hv]
    obtain ⟨e, e0, e1⟩ := mean_unit hF hpr hpos (by omega) hv0 hv1
    rw [e]
    exact ⟨_, _, rfl, rnd_unit hF e0 e1⟩
  obtain ⟨sx, sy⟩ := hg.inv.side hpr
  have hgood := hg.inv.good
  have hn : a.nimages = fs.length := by omega
  refine ⟨?_, ?_⟩
  · intro l hl
    rw [hg.listX l hl]
    refine key _ _ ?_
    rw [hX]
    intro x hx
    obtain ⟨k, hk2, rfl⟩ := List.mem_map.mp hx
    rw [List.mem_range] at hk2
    rw [hn]
    exact total_le hF hpr sy (by omega) hgood.height_pos hgood.range_pos (by omega)
  · intro l hl
    rw [hg.listY l hl]
    refine key _ _ ?_
    rw [hY]
    intro x hx
    obtain ⟨k, hk2, rfl⟩ := List.mem_map.mp hx
    rw [List.mem_range] at hk2
    rw [hn]
    exact total_le hF hpr sx (by omega) hgood.width_pos hgood.range_pos (by omega)

example : ∃ init, Demo.listX = init ++ [⟨4, .fin true (-1)⟩] ∧ ∀ r ∈ init, InUnit r.confidence :=
  (C02_confidence_unit Demo.sys_build demo_precise Demo.none_method Demo.params_valid
    (by intro x hx; simp only [List.mem_singleton] at hx; rw [hx]; decide)
    (by decide +kernel) (by decide +kernel) demo_returned).1 _ rfl

/-- **C03** Candidates are distinct and lie in `[range, size - range)`. -/
theorem C03_candidates_inside (hs : Build s) (hm : ValidMethod? m) (hp : ValidParams? s.cfg p)
    (hr : Returned s m w h p ev a rw cw rh ch) :
    (∀ l, rw = some l → ∃ init, l = init ++ [⟨w, .fin true (-1)⟩] ∧ (init.map Res.index).Nodup ∧
      ∀ r ∈ init, (effParams s.cfg (effMethod m) p).range ≤ r.index ∧
        r.index + (effParams s.cfg (effMethod m) p).range < w) ∧
    (∀ l, rh = some l → ∃ init, l = init ++ [⟨h, .fin true (-1)⟩] ∧ (init.map Res.index).Nodup ∧
      ∀ r ∈ init, (effParams s.cfg (effMethod m) p).range ≤ r.index ∧
        r.index + (effParams s.cfg (effMethod m) p).range < h) := by
  have hg := returned_got hs hm hp hr
  rw [← hg.inv.params]
  have key : ∀ len res b, DimGood len a.params.range res b →
      ∃ init, dimList s a len res = init ++ [⟨len, .fin true (-1)⟩] ∧ (init.map Res.index).Nodup ∧
      ∀ r ∈ init, a.params.range ≤ r.index ∧ r.index + a.params.range < len := by
    intro len res b hd
    obtain ⟨init, h1, h2, h3⟩ := dimList_shape (s := s) (length := len) (result := res) hg.inv.threshold
    refine ⟨init, h1, (h2.map _).nodup_iff.mpr candidates_nodup, ?_⟩
    intro r hr
    obtain ⟨i, hi, _, rfl⟩ := mem_candidates.mp (h2.mem_iff.mp hr)
    unfold DimGood at hd
    split at hd
    · obtain ⟨r, rfl, hl, _⟩ := hd
      have hi : i < r.data.length := hi
      simp only
      omega
    · subst hd
      have : i < 0 := hi
      omega
  have hx := hg.inv.good.x
  have hy := hg.inv.good.y
  rw [hg.inv.width] at hx
  rw [hg.inv.height] at hy
  refine ⟨?_, ?_⟩
  · intro l hl
    rw [hg.listX l hl]; exact key _ _ _ hx
  · intro l hl
    rw [hg.listY l hl]; exact key _ _ _ hy

example : ∃ init, Demo.listX = init ++ [⟨4, .fin true (-1)⟩] ∧ (init.map Res.index).Nodup ∧
    ∀ r ∈ init, 1 ≤ r.index ∧ r.index + 1 < 4 :=
  (C03_candidates_inside Demo.sys_build Demo.none_method Demo.params_valid demo_returned).1 _ rfl

/-- **C04** With the filter off, exactly the positions whose mean score reaches the threshold are reported, with that
mean rounded to `float`.  `fs` are the spectra of the frames analysed. -/
theorem C04_complete (hs : Build s) (hm : ValidMethod? m) (hp : ValidParams? s.cfg p) (hno : NoOom ev)
    (hk : (analysed ev).length ≤ s.cfg.sizeMax) (hf : (effParams s.cfg (effMethod m) p).compressionFilter = 0)
    (hr : Returned s m w h p ev a rw cw rh ch) :
    let q := effParams s.cfg (effMethod m) p
    let d := (effMethod m).func
    ∃ fs, Spectra s a ev fs ∧
    (∀ l, rw = some l → ∃ init, l = init ++ [⟨w, .fin true (-1)⟩] ∧ init.Nodup ∧ ∀ r, r ∈ init ↔
      q.range ≤ r.index ∧ r.index + q.range < w ∧
      (meanAt s d (fun f => rows f w) h q.range fs r.index).ge (s.cfg.inter.conv q.threshold) = true ∧
      r.confidence = binary32.conv (meanAt s d (fun f => rows f w) h q.range fs r.index)) ∧
    (∀ l, rh = some l → ∃ init, l = init ++ [⟨h, .fin true (-1)⟩] ∧ init.Nodup ∧ ∀ r, r ∈ init ↔
      q.range ≤ r.index ∧ r.index + q.range < h ∧
      (meanAt s d (fun f => cols f w) w q.range fs r.index).ge (s.cfg.inter.conv q.threshold) = true ∧
      r.confidence = binary32.conv (meanAt s d (fun f => cols f w) w q.range fs r.index)) := by
  have hg := returned_got hs hm hp hr
  obtain ⟨fs, hfs, hX, hY⟩ := hg.inv.scores hno
  have hlen : fs.length = (analysed ev).length := hfs.length_eq.symm
  have hcount := hg.inv.count hk
  intro q d
  refine ⟨fs, hfs, ?_⟩
  have eq : a.params = q := hg.inv.params
  have ed : a.method.func = d := by rw [hg.inv.method]
  rw [eq, ed, hg.inv.width, hg.inv.height] at hX hY
  have hfq : q.compressionFilter = 0 := hf
  have key : ∀ len res g n, scores res = (List.range (len - 2 * q.range)).map
      (fun k => total s d g n q.range fs (q.range + k)) →
      ∃ init, dimList s a len res = init ++ [⟨len, .fin true (-1)⟩] ∧ init.Nodup ∧ ∀ r, r ∈ init ↔
      q.range ≤ r.index ∧ r.index + q.range < len ∧
      (meanAt s d g n q.range fs r.index).ge (s.cfg.inter.conv q.threshold) = true ∧
      r.confidence = binary32.conv (meanAt s d g n q.range fs r.index) := by
    intro len res g n hsc
    obtain ⟨init, h1, h2, h3⟩ := dimList_shape (s := s) (length := len) (result := res) hg.inv.threshold
    refine ⟨init, h1, List.Nodup.of_map _ ((h2.map _).nodup_iff.mpr candidates_nodup), ?_⟩
    intro r
    rw [h2.mem_iff, mem_candidates, hsc]
    simp only [List.length_map, List.length_range, isKept, eq, hfq, filteredOut, if_true, Bool.not_false, Bool.and_true,
      List.getElem_map, List.getElem_range, reaches]
    constructor
    · rintro ⟨i, hi, hk, rfl⟩
      rw [List.getElem?_eq_getElem (by simpa using hi)] at hk
      simp only [List.getElem_map, List.getElem_range, Option.getD_some] at hk
      refine ⟨by simp, by simp only; omega, ?_, ?_⟩
      · unfold meanAt; rw [hlen, ← hcount]; exact hk
      · unfold meanAt; rw [hlen, ← hcount]
    · rintro ⟨b1, b2, b3, b4⟩
      have hi : r.index - q.range < len - 2 * q.range := by omega
      have hx : q.range + (r.index - q.range) = r.index := by omega
      refine ⟨r.index - q.range, hi, ?_, ?_⟩
      · rw [List.getElem?_eq_getElem (by simpa using hi)]
        simp only [List.getElem_map, List.getElem_range, Option.getD_some]
        rw [hx]
        unfold meanAt at b3; rw [hlen, ← hcount] at b3; exact b3
      · rw [hx]
        unfold meanAt at b4; rw [hlen, ← hcount] at b4
        rw [← b4]
  refine ⟨?_, ?_⟩
  · intro l hl
    rw [hg.listX l hl]
    exact key _ _ (fun f => rows f w) h hX
  · intro l hl
    rw [hg.listY l hl]
    exact key _ _ (fun f => cols f w) w hY

example : ∃ fs, Spectra Demo.sys Demo.analysis1 [(Demo.callA, .analyzed RDEOK)] fs := by
  obtain ⟨fs, h, _⟩ := C04_complete Demo.sys_build Demo.none_method Demo.params_valid
    (by intro x hx; simp only [List.mem_singleton] at hx; rw [hx]; decide) (by decide +kernel) rfl demo_returned
  exact ⟨fs, h⟩

/-- **C05** With threshold 0 and no filter every analysed position is reported: `size - 2*range + 1` entries. -/
theorem C05_threshold_zero (hs : Build s) (hpr : Precise s.cfg) (hm : ValidMethod? m) (hp : ValidParams? s.cfg p)
    (hk : ev.length ≤ 2 ^ s.cfg.inter.p) (hk' : (analysed ev).length ≤ s.cfg.sizeMax) {b : Bool}
    (hf : (effParams s.cfg (effMethod m) p).compressionFilter = 0)
    (ht : (effParams s.cfg (effMethod m) p).threshold = .fin b 0) (hr : Returned s m w h p ev a rw cw rh ch) :
    (∀ l, rw = some l → 2 * (effParams s.cfg (effMethod m) p).range < w →
      l.length = w - 2 * (effParams s.cfg (effMethod m) p).range + 1) ∧
    (∀ l, rh = some l → 2 * (effParams s.cfg (effMethod m) p).range < h →
      l.length = h - 2 * (effParams s.cfg (effMethod m) p).range + 1) := by
  have hg := returned_got hs hm hp hr
  have hF := hs.wf.inter_wf
  obtain ⟨bx, by'⟩ := reach_bounded hs hpr hm hp hr.1 hk
  have hcount := hg.inv.count hk'
  have hpos : 0 < a.nimages := Nat.pos_of_ne_zero hg.nimages
  have hle : a.nimages ≤ ev.length := by rw [hcount]; exact List.length_filter_le _ _
  rw [← hg.inv.params] at *
  have hconv : s.cfg.inter.conv a.params.threshold = .fin b 0 := by rw [ht]; rfl
  have key : ∀ len res bd, DimGood len a.params.range res bd → 2 * a.params.range < len → Bounded ev.length (scores res) →
      (dimList s a len res).length = len - 2 * a.params.range + 1 := by
    intro len res bd hd hlt hb
    obtain ⟨init, h1, h2, h3⟩ := dimList_shape (s := s) (length := len) (result := res) hg.inv.threshold
    rw [h1, List.length_append, h2.length_eq, List.length_singleton]
    unfold DimGood at hd
    rw [if_pos hlt] at hd
    obtain ⟨r, rfl, hl, _⟩ := hd
    have hall : (List.range r.data.length).filter (fun i =>
        reaches s.cfg a.params.threshold (r.data[i]?.getD (.nan false)) a.nimages &&
          !filteredOut len a.params.compressionFilter i) = List.range r.data.length := by
      rw [List.filter_eq_self]
      intro i hi
      rw [List.mem_range] at hi
      obtain ⟨v, hv, hv0, _⟩ := hb r.data[i] (List.getElem_mem hi)
      rw [List.getElem?_eq_getElem hi, Option.getD_some, hv, hf]
      unfold reaches
      rw [hconv]
      have hn' : (0 : ℚ) < a.nimages := by exact_mod_cast hpos
      have hq : 0 ≤ v / a.nimages := div_nonneg hv0 hn'.le
      have hmean : NN (mean s.cfg (.fin false v) a.nimages) := by
        unfold mean
        rw [ofNat_exact hF hpr.p_lt (by omega)]
        unfold Fmt.div
        simp only
        rw [if_neg (ne_of_gt hn')]
        exact NN.deliver hq
      simp only [filteredOut, if_true, Bool.not_false, Bool.and_true]
      rcases hmean with h | ⟨b', v', h, hv'⟩ <;> rw [h] <;> simp [Fl.ge, Fl.lt]
      exact hv'
    show (List.map _ (List.filter _ (List.range r.data.length))).length + 1 = _
    rw [List.length_map]
    erw [hall]
    rw [List.length_range, hl]
  have hx := hg.inv.good.x
  have hy := hg.inv.good.y
  rw [hg.inv.width] at hx
  rw [hg.inv.height] at hy
  refine ⟨?_, ?_⟩
  · intro l hl hlt
    rw [hg.listX l hl]; exact key _ _ _ hx hlt bx
  · intro l hl hlt
    rw [hg.listY l hl]; exact key _ _ _ hy hlt by'

example : Demo.listX.length = 4 - 2 * 1 + 1 :=
  (C05_threshold_zero Demo.sys_build demo_precise Demo.none_method Demo.params_valid (by decide +kernel)
    (by decide +kernel) rfl (b := false) rfl demo_returned).1 _ rfl (by decide)

/-- **C06** Raising the threshold only removes results: for frames with the same spectra, analysed with parameters that
differ only in the threshold, every candidate reported with the larger threshold is reported, with the same confidence,
with the smaller one. -/
theorem C06_threshold_monotone (hs : Build s) (hm : ValidMethod? m) {q q' : Params} (hq : ValidParams s.cfg q)
    (hq' : ValidParams s.cfg q') (hrange : q'.range = q.range) (hfilter : q'.compressionFilter = q.compressionFilter)
    (ht : (effParams s.cfg (effMethod m) (some q')).threshold.ge (effParams s.cfg (effMethod m) (some q)).threshold = true)
    {ev' : List (Call × Obs)} {a' : Analysis} {rw' rh' : Option (List Res)} {cw' ch' : ℕ}
    (hno : NoOom ev) (hno' : NoOom ev')
    (hr : Returned s m w h (some q) ev a rw cw rh ch) (hr' : Returned s m w h (some q') ev' a' rw' cw' rh' ch')
    {fs : List (List Fl)} (hfs : Spectra s a ev fs) (hfs' : Spectra s a' ev' fs) :
    (∀ l l', rw = some l → rw' = some l' → ∀ r ∈ l', r ∈ l) ∧ (∀ l l', rh = some l → rh' = some l' → ∀ r ∈ l', r ∈ l) := by
  have hv : ValidParams? s.cfg (some q) := by rintro _ h; cases h; exact hq
  have hv' : ValidParams? s.cfg (some q') := by rintro _ h; cases h; exact hq'
  have hg := returned_got hs hm hv hr
  have hg' := returned_got hs hm hv' hr'
  obtain ⟨gs, h1, hX, hY⟩ := hg.inv.scores hno
  obtain rfl := spectra_unique h1 hfs
  obtain ⟨gs, h1', hX', hY'⟩ := hg'.inv.scores hno'
  obtain rfl := spectra_unique h1' hfs'
  have hn : a'.nimages = a.nimages := by
    have e1 := h1.length_eq
    have e2 := h1'.length_eq
    rw [hg.inv.nimages, hg'.inv.nimages, e1, e2]
  have hrg : a'.params.range = a.params.range := by
    rw [hg.inv.params, hg'.inv.params]; unfold effParams; simp [hrange]
  have hfl : a'.params.compressionFilter = a.params.compressionFilter := by
    rw [hg.inv.params, hg'.inv.params]; unfold effParams; simp [hfilter]
  rw [← hg.inv.params, ← hg'.inv.params] at ht
  rw [hg'.inv.method, hg'.inv.width, hg'.inv.height, hrg] at hX' hY'
  rw [hg.inv.method, hg.inv.width, hg.inv.height] at hX hY
  have key : ∀ len res res', scores res' = scores res → ∀ r ∈ dimList s a' len res', r ∈ dimList s a len res := by
    intro len res res' hsc r hr
    obtain ⟨init, h1, h2, _⟩ := dimList_shape (s := s) (length := len) (result := res) hg.inv.threshold
    obtain ⟨init', h1', h2', _⟩ := dimList_shape (s := s) (length := len) (result := res') hg'.inv.threshold
    rw [h1'] at hr
    rw [h1]
    rcases List.mem_append.mp hr with hr | hr
    · refine List.mem_append_left _ (h2.mem_iff.mpr ?_)
      obtain ⟨i, hi, hk, rfl⟩ := mem_candidates.mp (h2'.mem_iff.mp hr)
      have hi2 : i < (scores res).length := by rw [← hsc]; exact hi
      refine mem_candidates.mpr ⟨i, hi2, ?_, ?_⟩
      · unfold isKept at *
        rw [hsc, hfl, hn, Bool.and_eq_true] at hk
        rw [Bool.and_eq_true]
        refine ⟨?_, hk.2⟩
        have := hk.1
        unfold reaches at *
        exact ge_conv_mono hs.wf.inter_wf hg.inv.threshold hg'.inv.threshold ht this
      · rw [hrg, hn]
        congr 4
    · exact List.mem_append_right _ hr
  refine ⟨?_, ?_⟩
  · intro l l' hl hl'
    rw [hg.listX l hl, hg'.listX l' hl']
    exact key _ _ _ (by rw [hX, hX'])
  · intro l l' hl hl'
    rw [hg.listY l hl, hg'.listY l' hl']
    exact key _ _ _ (by rw [hY, hY'])

/-- The demonstration frame with threshold 1/2 instead of 0: of the three entries two remain. -/
theorem demo_returned_half : Returned Demo.sys none 4 2 (some Demo.paramsHalf) [(Demo.callA, .analyzed RDEOK)]
    { Demo.analysis1 with params := Demo.paramsHalf } (some [⟨2, .fin false (1 / 2)⟩, ⟨4, .fin true (-1)⟩]) 2 none 0 :=
  ⟨Demo.reach1_half, ⟨.results ⟨true, true, false, false⟩, Demo.w1⟩, { Demo.analysis1 with params := Demo.paramsHalf },
    ⟨Demo.w1_wf, by decide, trivial⟩, by decide +kernel⟩

example : ∀ r ∈ [(⟨2, .fin false (1 / 2)⟩ : Res), ⟨4, .fin true (-1)⟩], r ∈ Demo.listX := by
  have no : NoOom [(Demo.callA, Obs.analyzed RDEOK)] := by
    intro x hx; simp only [List.mem_singleton] at hx; rw [hx]; decide
  have sp : ∀ q, Spectra Demo.sys { Demo.analysis1 with params := q } [(Demo.callA, .analyzed RDEOK)] [Demo.image] := by
    intro q
    refine List.Forall₂.cons ⟨Demo.image, .fftw 2 (some 3) 4 2, Demo.w1, rfl, rfl, ?_⟩ List.Forall₂.nil
    have e : (Demo.image.take (4 * 2)).map Demo.sys.cfg.coeff.conv = Demo.image := by decide +kernel
    show transform Demo.sys (.fftw 2 (some 3) 4 2) ((Demo.image.take (4 * 2)).map Demo.sys.cfg.coeff.conv) Demo.w1 = _
    rw [e]
    rfl
  exact (C06_threshold_monotone Demo.sys_build Demo.none_method (Demo.params_valid _ rfl) (Demo.paramsHalf_valid _ rfl)
    rfl rfl (by decide +kernel) no no demo_returned demo_returned_half (sp _) (sp _)).1 _ _ rfl rfl

/-- **C07** If the dimension is not larger than twice the range, its list is just the input size. -/
theorem C07_small_dimension (hs : Build s) (hm : ValidMethod? m) (hp : ValidParams? s.cfg p)
    (hr : Returned s m w h p ev a rw cw rh ch) :
    (w ≤ 2 * (effParams s.cfg (effMethod m) p).range → ∀ l, rw = some l → l = [⟨w, .fin true (-1)⟩]) ∧
    (h ≤ 2 * (effParams s.cfg (effMethod m) p).range → ∀ l, rh = some l → l = [⟨h, .fin true (-1)⟩]) := by
  have hg := returned_got hs hm hp hr
  rw [← hg.inv.params]
  have key : ∀ len res, scores res = [] → dimList s a len res = [⟨len, .fin true (-1)⟩] := by
    intro len res hsc
    obtain ⟨init, h1, h2, _⟩ := dimList_shape (s := s) (length := len) (result := res) hg.inv.threshold
    rw [h1]
    rw [hsc] at h2
    have : init = [] := List.Perm.eq_nil h2
    rw [this]; rfl
  have hx := hg.inv.good.x
  have hy := hg.inv.good.y
  rw [hg.inv.width] at hx
  rw [hg.inv.height] at hy
  refine ⟨?_, ?_⟩
  · intro hlt l hl
    rw [hg.listX l hl]; exact key _ _ (scores_nil_of_small hx (by omega))
  · intro hlt l hl
    rw [hg.listY l hl]; exact key _ _ (scores_nil_of_small hy (by omega))

example : ∀ l, some [(⟨2, .fin true (-1)⟩ : Res)] = some l → l = [⟨2, .fin true (-1)⟩] :=
  (C07_small_dimension Demo.sys_build Demo.none_method Demo.params_valid demo_returned).2 (by decide)

/-- **C08** Omitting one dimension does not change the other: two successful results calls on the same analysis return the
same list for a dimension that both requested, whatever else they requested. -/
theorem C08_independent_dimensions (hs : Build s) (hm : ValidMethod? m) (hp : ValidParams? s.cfg p)
    {rw' rh' : Option (List Res)} {cw' ch' : ℕ} (hr : Returned s m w h p ev a rw cw rh ch)
    (hr' : Returned s m w h p ev a rw' cw' rh' ch') :
    (∀ l l', rw = some l → rw' = some l' → l = l') ∧ (∀ l l', rh = some l → rh' = some l' → l = l') := by
  have hg := returned_got hs hm hp hr
  have hg' := returned_got hs hm hp hr'
  refine ⟨fun l l' e e' => ?_, fun l l' e e' => ?_⟩
  · rw [hg.listX l e, hg'.listX l' e']
  · rw [hg.listY l e, hg'.listY l' e']

/-- A call that asks for widths only. -/
example : step Demo.sys Demo.analysis1 ⟨.results ⟨true, true, false, false⟩, Demo.w1⟩ =
    some (.results RDEOK (some Demo.listX) 3 none 0, Demo.analysis1) := by decide +kernel

end Verif.Props
