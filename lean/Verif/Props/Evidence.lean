import Verif.Props.Scores
import Verif.Proofs.Evidence

/-! # The confidence as the share of evidence (C75) -/

namespace Verif.Props

open Spec

variable {s : Sys} {m : Option Method} {p : Option Params} {w h : ℕ} {ev : List (Call × Obs)} {a : Analysis}
  {rw rh : Option (List Res)} {cw ch : ℕ}

theorem between_both (hs : Build s) (hpr : Precise s.cfg) (hm : ValidMethod? m) (hp : ValidParams? s.cfg p) (hno : NoOom ev)
    (hk : (analysed ev).length ≤ s.cfg.sizeMax) (hx : Exact s.cfg (analysed ev).length) (hpix : w * h ≤ 2 ^ s.cfg.inter.p)
    (hr : Returned s m w h p ev a rw cw rh ch) {fs : List (List Fl)} (hfs : Spectra s a ev fs)
    {lo hi : ℚ} (l0 : 0 ≤ lo) (h1 : hi ≤ 1) (hlo : binary32.rnd lo = lo) (hhi : binary32.rnd hi = hi) :
    let q := effParams s.cfg (effMethod m) p
    ∃ b t, q.threshold = .fin b t ∧
    (∀ l, rw = some l → ∀ x, q.range ≤ x → x + q.range < w →
      (∀ f ∈ fs, lo ≤ evidence s (effMethod m).func (rows f w) h q.range x ∧
        evidence s (effMethod m).func (rows f w) h q.range x ≤ hi) →
      (∀ r ∈ l, r.index = x → ∃ v, r.confidence = .fin false v ∧ lo ≤ v ∧ v ≤ hi) ∧
      (t ≤ lo → q.compressionFilter = 0 → ∃ r ∈ l, r.index = x) ∧ (binary32.rnd t = t → hi < t → ∀ r ∈ l, r.index ≠ x)) ∧
    (∀ l, rh = some l → ∀ x, q.range ≤ x → x + q.range < h →
      (∀ f ∈ fs, lo ≤ evidence s (effMethod m).func (cols f w) w q.range x ∧
        evidence s (effMethod m).func (cols f w) w q.range x ≤ hi) →
      (∀ r ∈ l, r.index = x → ∃ v, r.confidence = .fin false v ∧ lo ≤ v ∧ v ≤ hi) ∧
      (t ≤ lo → q.compressionFilter = 0 → ∃ r ∈ l, r.index = x) ∧ (binary32.rnd t = t → hi < t → ∀ r ∈ l, r.index ≠ x)) := by
  intro q
  have hF := hs.wf.inter_wf
  obtain ⟨hne, hlen, hX, hY⟩ := returned_listed hs hm hp hno hk hr hfs
  obtain ⟨w0, h0, wp, hp', r0, ht⟩ := returned_sizes hs hpr hm hp hr
  rw [← hlen] at hx
  obtain ⟨b, t, et, _, _⟩ := id ht
  refine ⟨b, t, et, ?_, ?_⟩
  · intro l hl x hx1 hx2 hall
    refine listed_between hF hpr (hX l hl) h0 r0 (le_trans ?_ hpix) hx hne hx1 hx2 l0 h1 hlo hhi hall et ht
    rw [mul_comm]; exact Nat.mul_le_mul_right h (show q.range ≤ w by omega)
  · intro l hl x hx1 hx2 hall
    refine listed_between hF hpr (hY l hl) w0 r0 (le_trans ?_ hpix) hx hne hx1 hx2 l0 h1 hlo hhi hall et ht
    exact Nat.mul_le_mul_left w (show q.range ≤ h by omega)

/-! ## C75 -/

/-- **C75** For every method: if in every frame the share of evidence for position `x` is between the `float`s `lo` and `hi`, then so is
the confidence with which `x` is reported. -/
theorem C75_confidence (hs : Build s) (hpr : Precise s.cfg) (hm : ValidMethod? m) (hp : ValidParams? s.cfg p) (hno : NoOom ev)
    (hk : (analysed ev).length ≤ s.cfg.sizeMax) (hx : Exact s.cfg (analysed ev).length) (hpix : w * h ≤ 2 ^ s.cfg.inter.p)
    (hr : Returned s m w h p ev a rw cw rh ch) {fs : List (List Fl)} (hfs : Spectra s a ev fs)
    {lo hi : ℚ} (l0 : 0 ≤ lo) (h1 : hi ≤ 1) (hlo : binary32.rnd lo = lo) (hhi : binary32.rnd hi = hi) :
    let range := (effParams s.cfg (effMethod m) p).range
    (∀ l, rw = some l → ∀ x, range ≤ x → x + range < w →
      (∀ f ∈ fs, lo ≤ evidence s (effMethod m).func (rows f w) h range x ∧ evidence s (effMethod m).func (rows f w) h range x ≤ hi) →
      ∀ r ∈ l, r.index = x → ∃ v, r.confidence = .fin false v ∧ lo ≤ v ∧ v ≤ hi) ∧
    (∀ l, rh = some l → ∀ x, range ≤ x → x + range < h →
      (∀ f ∈ fs, lo ≤ evidence s (effMethod m).func (cols f w) w range x ∧ evidence s (effMethod m).func (cols f w) w range x ≤ hi) →
      ∀ r ∈ l, r.index = x → ∃ v, r.confidence = .fin false v ∧ lo ≤ v ∧ v ≤ hi) := by
  obtain ⟨b, t, _, hX, hY⟩ := between_both hs hpr hm hp hno hk hx hpix hr hfs l0 h1 hlo hhi
  exact ⟨fun l hl x hx1 hx2 hall => (hX l hl x hx1 hx2 hall).1, fun l hl x hx1 hx2 hall => (hY l hl x hx1 hx2 hall).1⟩

/-- **C75** Without filter, if moreover the threshold is at most `lo`, then `x` is reported, with such a confidence. -/
theorem C75_listed (hs : Build s) (hpr : Precise s.cfg) (hm : ValidMethod? m) (hp : ValidParams? s.cfg p) (hno : NoOom ev)
    (hk : (analysed ev).length ≤ s.cfg.sizeMax) (hx : Exact s.cfg (analysed ev).length) (hpix : w * h ≤ 2 ^ s.cfg.inter.p)
    (hr : Returned s m w h p ev a rw cw rh ch) {fs : List (List Fl)} (hfs : Spectra s a ev fs)
    {lo hi : ℚ} (l0 : 0 ≤ lo) (h1 : hi ≤ 1) (hlo : binary32.rnd lo = lo) (hhi : binary32.rnd hi = hi)
    (hf : (effParams s.cfg (effMethod m) p).compressionFilter = 0) (ht : val (effParams s.cfg (effMethod m) p).threshold ≤ lo) :
    let range := (effParams s.cfg (effMethod m) p).range
    (∀ l, rw = some l → ∀ x, range ≤ x → x + range < w →
      (∀ f ∈ fs, lo ≤ evidence s (effMethod m).func (rows f w) h range x ∧ evidence s (effMethod m).func (rows f w) h range x ≤ hi) →
      ∃ r ∈ l, r.index = x ∧ ∃ v, r.confidence = .fin false v ∧ lo ≤ v ∧ v ≤ hi) ∧
    (∀ l, rh = some l → ∀ x, range ≤ x → x + range < h →
      (∀ f ∈ fs, lo ≤ evidence s (effMethod m).func (cols f w) w range x ∧ evidence s (effMethod m).func (cols f w) w range x ≤ hi) →
      ∃ r ∈ l, r.index = x ∧ ∃ v, r.confidence = .fin false v ∧ lo ≤ v ∧ v ≤ hi) := by
  obtain ⟨b, t, et, hX, hY⟩ := between_both hs hpr hm hp hno hk hx hpix hr hfs l0 h1 hlo hhi
  rw [et] at ht
  constructor
  · intro l hl x hx1 hx2 hall
    obtain ⟨q1, q2, _⟩ := hX l hl x hx1 hx2 hall
    obtain ⟨r, hr, hrx⟩ := q2 ht hf
    exact ⟨r, hr, hrx, q1 r hr hrx⟩
  · intro l hl x hx1 hx2 hall
    obtain ⟨q1, q2, _⟩ := hY l hl x hx1 hx2 hall
    obtain ⟨r, hr, hrx⟩ := q2 ht hf
    exact ⟨r, hr, hrx, q1 r hr hrx⟩

/-- **C75** If the share of evidence is at most `hi` in every frame, and the threshold is a `float` above `hi`, then `x` is not
reported. -/
theorem C75_absent (hs : Build s) (hpr : Precise s.cfg) (hm : ValidMethod? m) (hp : ValidParams? s.cfg p) (hno : NoOom ev)
    (hk : (analysed ev).length ≤ s.cfg.sizeMax) (hx : Exact s.cfg (analysed ev).length) (hpix : w * h ≤ 2 ^ s.cfg.inter.p)
    (hr : Returned s m w h p ev a rw cw rh ch) {fs : List (List Fl)} (hfs : Spectra s a ev fs)
    {hi : ℚ} (hhi : binary32.rnd hi = hi)
    (htf : binary32.rnd (val (effParams s.cfg (effMethod m) p).threshold) = val (effParams s.cfg (effMethod m) p).threshold)
    (ht : hi < val (effParams s.cfg (effMethod m) p).threshold) :
    let range := (effParams s.cfg (effMethod m) p).range
    (∀ l, rw = some l → ∀ x, range ≤ x → x + range < w →
      (∀ f ∈ fs, evidence s (effMethod m).func (rows f w) h range x ≤ hi) → ∀ r ∈ l, r.index ≠ x) ∧
    (∀ l, rh = some l → ∀ x, range ≤ x → x + range < h →
      (∀ f ∈ fs, evidence s (effMethod m).func (cols f w) w range x ≤ hi) → ∀ r ∈ l, r.index ≠ x) := by
  intro range
  obtain ⟨w0, h0, wp, hp', r0, htu⟩ := returned_sizes hs hpr hm hp hr
  have h1 : hi ≤ 1 := by
    obtain ⟨b, v, e, _, h⟩ := htu
    rw [e] at ht
    exact le_trans ht.le h
  obtain ⟨b, t, et, hX, hY⟩ := between_both hs hpr hm hp hno hk hx hpix hr hfs le_rfl h1 (binary32.rnd_zero) hhi
  rw [et] at ht htf
  constructor
  · intro l hl x hx1 hx2 hall
    have hwr : h * range ≤ 2 ^ s.cfg.inter.p := le_trans (by rw [mul_comm]; exact Nat.mul_le_mul_right h (by omega)) hpix
    exact (hX l hl x hx1 hx2 (fun f hf => ⟨(frameScore_evidence hs.wf.inter_wf hpr h0 r0 hwr).2.1, hall f hf⟩)).2.2 htf ht
  · intro l hl x hx1 hx2 hall
    have hwr : w * range ≤ 2 ^ s.cfg.inter.p := le_trans (Nat.mul_le_mul_left w (by omega)) hpix
    exact (hY l hl x hx1 hx2 (fun f hf => ⟨(frameScore_evidence hs.wf.inter_wf hpr w0 r0 hwr).2.1, hall f hf⟩)).2.2 htf ht

/-- A 4 by 2 frame in which only the first row changes sign about position 1. -/
def half4 : List Fl := [1, 1, -1, -1, 1, 1, 1, 1].map (fun q : ℚ => .fin (decide (q < 0)) q)

/-- The hypotheses of C75 can be met: half of the pairs about width 1 are antisymmetric, and the threshold is one half. -/
example : ∃ a ev lw cw lh ch, Returned Demo.sys none 4 2 (some Demo.paramsHalf) ev a (some lw) cw (some lh) ch ∧
    evidence Demo.sys .sign (rows half4 4) 2 1 1 = 1 / 2 ∧ ∃ r ∈ lw, r.index = 1 ∧ ∃ v, r.confidence = .fin false v ∧ 1 / 2 ≤ v ∧ v ≤ 1 / 2 := by
  obtain ⟨a, ev, lw, cw, lh, ch, h1, h2, h3, h4⟩ := demo_single (m := none) (q := Demo.paramsHalf) (w := 4) (h := 2) half4
    Demo.none_method (Demo.paramsHalf_valid _ rfl) (by decide) (by norm_num) (by norm_num) (by norm_num)
    (by unfold ScoresTooBig; decide +kernel) rfl (by decide +kernel) (by decide +kernel)
  have hr1 : (effParams Demo.sys.cfg (effMethod none) (some Demo.paramsHalf)).range = 1 := by decide +kernel
  have hev : evidence Demo.sys .sign (rows half4 4) 2 1 1 = 1 / 2 := by
    have : signMatches (rows half4 4) 2 1 1 = 1 := by decide +kernel
    simp [evidence, this]
  refine ⟨a, ev, lw, cw, lh, ch, h1, hev, ?_⟩
  exact (C75_listed Demo.sys_build demo_precise Demo.none_method Demo.paramsHalf_valid h2 (by rw [h3]; decide +kernel)
    ⟨by rw [h3]; decide +kernel, by decide +kernel⟩ (by decide +kernel) h1 h4 (lo := 1 / 2) (hi := 1 / 2) (by norm_num) (by norm_num)
    (by decide +kernel) (by decide +kernel) rfl (by decide +kernel)).1 lw rfl 1 (by rw [hr1]) (by rw [hr1]; norm_num)
    (by intro f hf; rw [List.mem_singleton] at hf; rw [hf, hr1]; exact ⟨hev.ge, hev.le⟩)

/-- The same frame with another threshold: half of the evidence is not enough for the default threshold of the sign method. -/
example : binary32.rnd (val (effParams Demo.sys.cfg (effMethod none) none).threshold) = val (effParams Demo.sys.cfg (effMethod none) none).threshold ∧
    (1 / 2 : ℚ) < val (effParams Demo.sys.cfg (effMethod none) none).threshold := by decide +kernel

end Verif.Props
