import Verif.Props.Memory
import Verif.Props.History
import Verif.Proofs.PointLemmas

/-! # What the scores mean (C25 to C28) -/

namespace Verif.Props

open Spec

variable {s : Sys} {m m' : Option Method} {p p' : Option Params} {w h : ℕ} {ev ev' : List (Call × Obs)} {a a' : Analysis}
  {rw rh rw' rh' : Option (List Res)} {cw ch cw' ch' : ℕ}

/-- The coefficients at equal distances from `x` have opposite sign bits, in all `n` lines, up to distance `range`. -/
def Antisymmetric (g : ℕ → ℕ → Fl) (n range x : ℕ) : Prop :=
  ∀ y < n, ∀ i, 1 ≤ i → i ≤ range → (g y (x - i)).signbit ≠ (g y (x + i)).signbit

/-- **C25** With the sign method and no filter, a position about which all spectra are antisymmetric is reported with
confidence exactly 1, whatever the threshold, and only entries of confidence 1 come before it. -/
theorem C25_full_confidence (hs : Build s) (hpr : Precise s.cfg) (hm : ValidMethod? m) (hp : ValidParams? s.cfg p)
    (hsign : (effMethod m).func = .sign) (hno : NoOom ev) (hk : (analysed ev).length ≤ 2 ^ s.cfg.inter.p)
    (hk' : (analysed ev).length ≤ s.cfg.sizeMax) (hf : (effParams s.cfg (effMethod m) p).compressionFilter = 0)
    (hr : Returned s m w h p ev a rw cw rh ch) {fs : List (List Fl)} (hfs : Spectra s a ev fs) :
    let range := (effParams s.cfg (effMethod m) p).range
    (∀ l, rw = some l → ∀ x, range ≤ x → x + range < w → (∀ f ∈ fs, Antisymmetric (rows f w) h range x) →
      ⟨x, .fin false 1⟩ ∈ l ∧ ∀ before after, l = before ++ ⟨x, .fin false 1⟩ :: after →
        ∀ r ∈ before, r.confidence = .fin false 1) ∧
    (∀ l, rh = some l → ∀ x, range ≤ x → x + range < h → (∀ f ∈ fs, Antisymmetric (cols f w) w range x) →
      ⟨x, .fin false 1⟩ ∈ l ∧ ∀ before after, l = before ++ ⟨x, .fin false 1⟩ :: after →
        ∀ r ∈ before, r.confidence = .fin false 1) := by
  intro range
  have hF := hs.wf.inter_wf
  obtain ⟨hne, hlen, hX, hY⟩ := returned_listed hs hm hp hno hk' hr hfs
  obtain ⟨w0, h0, wp, hp', r0, ht⟩ := returned_sizes hs hpr hm hp hr
  have key : ∀ len g n l, Listed s (effMethod m).func (effParams s.cfg (effMethod m) p) len g n fs l → 0 < n →
      n ≤ 2 ^ s.cfg.inter.p → len ≤ 2 ^ s.cfg.inter.p → ∀ x, range ≤ x → x + range < len →
      (∀ f ∈ fs, Antisymmetric (g f) n range x) →
      ⟨x, .fin false 1⟩ ∈ l ∧ ∀ before after, l = before ++ ⟨x, .fin false 1⟩ :: after →
        ∀ r ∈ before, r.confidence = .fin false 1 := by
    intro len g n l hl n0 np lp x hx1 hx2 hanti
    have hrp : range ≤ 2 ^ s.cfg.inter.p := by omega
    have hone : meanAt s (effMethod m).func g n range fs x = .fin false 1 := by
      refine meanAt_ones hF hpr (by omega) hne ?_
      intro f hf
      rw [hsign]
      show some (ratio s.cfg (signMatches (g f) n range x) n range) = _
      rw [signMatches_full.mpr (hanti f hf), ratio_full hF hpr np hrp n0 r0]
    obtain ⟨init, h1, h2, h3⟩ := hl.parts
    have hmem : (⟨x, .fin false 1⟩ : Res) ∈ init := by
      rw [h3]
      refine ⟨hx1, hx2, by rw [hf]; rfl, ?_, ?_⟩
      · show (meanAt s _ g n range fs x).ge _ = true
        rw [hone]
        obtain ⟨b, v, e, v0, v1⟩ := conv_unit hF ht
        rw [e]
        simp only [Fl.ge, Fl.lt]
        simpa using v1
      · show Fl.fin false 1 = binary32.conv (meanAt s _ g n range fs x)
        rw [hone]
        decide +kernel
    refine ⟨by rw [h1]; simp [hmem], ?_⟩
    intro before after hsplit r hr
    have hge : r.confidence.ge (.fin false 1) = true := by
      have := hl.sorted
      rw [hsplit] at this
      unfold Descending at this
      rw [List.pairwise_append] at this
      exact this.2.2 r hr ⟨x, .fin false 1⟩ (by simp)
    have hrl : r ∈ init ++ [sentinel len] := by rw [← h1, hsplit]; simp [hr]
    rcases List.mem_append.mp hrl with hri | hri
    · obtain ⟨_, _, _, _, hc⟩ := (h3 r).mp hri
      obtain ⟨v, e, v0, v1⟩ := meanAt_unit hF hpr (d := (effMethod m).func) (g := g) (x := r.index) np hrp n0 r0
        (fs := fs) (by omega) hne
      rw [show (effParams s.cfg (effMethod m) p).range = range from rfl, e, conv_unit_false binary32_wf v0 v1] at hc
      rw [hc] at hge ⊢
      have h1 : 1 ≤ binary32.rnd v := by simpa [Fl.ge, Fl.lt] using hge
      have h2 := (rnd_unit binary32_wf v0 v1).2
      rw [le_antisymm h2 h1]
    · rw [List.mem_singleton] at hri
      rw [hri] at hge
      norm_num [sentinel, Fl.ge, Fl.lt] at hge
  exact ⟨fun l hl => key _ _ _ l (hX l hl) h0 hp' wp, fun l hl => key _ _ _ l (hY l hl) w0 wp hp'⟩

/-- **C25** (partial) Conversely, with at most `2^24` pairs of coefficients to compare, confidence 1 after one frame implies
antisymmetry.  Missing: larger images, for which this is false, see `C25_converse_fails`. -/
theorem C25_converse_partial (hs : Build s) (hpr : Precise s.cfg) (h24 : 24 ≤ s.cfg.inter.p) (hm : ValidMethod? m)
    (hp : ValidParams? s.cfg p) (hsign : (effMethod m).func = .sign) (hno : NoOom ev)
    (hr : Returned s m w h p ev a rw cw rh ch) {f : List Fl} (hfs : Spectra s a ev [f]) :
    let range := (effParams s.cfg (effMethod m) p).range
    (∀ l, rw = some l → h * range ≤ 2 ^ 24 → ∀ x b, ⟨x, .fin b 1⟩ ∈ l → Antisymmetric (rows f w) h range x) ∧
    (∀ l, rh = some l → w * range ≤ 2 ^ 24 → ∀ x b, ⟨x, .fin b 1⟩ ∈ l → Antisymmetric (cols f w) w range x) := by
  intro range
  have hF := hs.wf.inter_wf
  have hone : (analysed ev).length = 1 := by have := hfs.length_eq; simpa using this
  have hsz : 1 ≤ s.cfg.sizeMax := le_trans hs.wf.pixel_pos hs.wf.pixel_le
  obtain ⟨hne, hlen, hX, hY⟩ := returned_listed hs hm hp hno (by omega) hr hfs
  obtain ⟨w0, h0, wp, hp', r0, ht⟩ := returned_sizes hs hpr hm hp hr
  have key : ∀ len (g : List Fl → ℕ → ℕ → Fl) n l, Listed s (effMethod m).func (effParams s.cfg (effMethod m) p) len g n [f] l →
      0 < n → n ≤ 2 ^ s.cfg.inter.p → len ≤ 2 ^ s.cfg.inter.p → n * range ≤ 2 ^ 24 →
      ∀ x b, ⟨x, .fin b 1⟩ ∈ l → Antisymmetric (g f) n range x := by
    intro len g n l hl n0 np lp hnr x b hmem
    obtain ⟨init, h1, h2, h3⟩ := hl.parts
    rw [h1] at hmem
    rcases List.mem_append.mp hmem with hri | hri
    · obtain ⟨b1, b2, _, _, hc⟩ := (h3 _).mp hri
      have b1 : range ≤ x := b1
      have b2 : x + range < len := b2
      by_contra hanti
      have hlt : signMatches (g f) n range x < n * range :=
        lt_of_le_of_ne (signMatches_le _ _ _ _) (fun h => hanti (signMatches_full.mp h))
      obtain ⟨v, e, v0, v1⟩ := ratio_below hF hpr h24 n0 r0 hnr hlt
      have hmean : meanAt s (effMethod m).func g n range [f] x = .fin false v := by
        rw [meanAt_single hF hpr np (by omega) n0 r0, hsign]
        exact e
      have hc : Fl.fin b 1 = binary32.conv (meanAt s (effMethod m).func g n range [f] x) := hc
      have hpw : 0 < pow2 (-24) := pow2_pos _
      rw [hmean, conv_unit_false binary32_wf v0 (by linarith)] at hc
      have h5 := rnd_below_one binary32_wf (by decide) v1
      injection hc with _ hc
      rw [← hc] at h5
      linarith
    · rw [List.mem_singleton] at hri
      simp only [sentinel, Res.mk.injEq, Fl.fin.injEq] at hri
      norm_num at hri
  exact ⟨fun l hl hn => key _ (fun f => rows f w) _ l (hX l hl) h0 hp' wp hn,
    fun l hl hn => key _ (fun f => cols f w) _ l (hY l hl) w0 wp hp' hn⟩

/-- Three columns and `2^25` lines of zeros, negative in the last column except in the first line. -/
def tall : List Fl := (List.range (3 * 2 ^ 25)).map (fun k => .fin (decide (k % 3 = 2) && decide (k ≠ 2)) 0)

theorem tall_spec : ∃ T : List Fl, T.length = 3 * 2 ^ 25 ∧ (∀ k, k < 3 * 2 ^ 25 →
    (T[k]?).getD (.nan false) = .fin (decide (k % 3 = 2) && decide (k ≠ 2)) 0) ∧ (∀ v ∈ T, v.isfinite = true) ∧
    T.map Demo.sys.cfg.coeff.conv = T := by
  refine ⟨tall, by unfold tall; rw [List.length_map, List.length_range], ?_, ?_, ?_⟩
  · intro k hk
    unfold tall
    rw [List.getElem?_map, List.getElem?_range hk]
    rfl
  · intro v hv
    unfold tall at hv
    obtain ⟨k, _, rfl⟩ := List.mem_map.mp hv
    rfl
  · unfold tall
    rw [List.map_map]
    refine List.map_congr_left ?_
    intro k _
    rfl

/-- **C25** The converse is false in general: of `2^25` lines one is not antisymmetric, and yet the confidence is 1. -/
theorem C25_converse_fails : ∃ (s : Sys) (a : Analysis) (ev : List (Call × Obs)) (l : List Res) (cw : ℕ)
    (rh : Option (List Res)) (ch : ℕ) (f : List Fl),
    Build s ∧ Precise s.cfg ∧ NoOom ev ∧ Spectra s a ev [f] ∧ s = Demo.sys ∧
    Returned s none 3 (2 ^ 25) (some Demo.params) ev a (some l) cw rh ch ∧
    ⟨1, .fin false 1⟩ ∈ l ∧ ¬ Antisymmetric (rows f 3) (2 ^ 25) 1 1 := by
  obtain ⟨T, hlen, hget, hall, hmap⟩ := tall_spec
  have hrange : (effParams Demo.sys.cfg (effMethod none) (some Demo.params)).range = 1 := by decide +kernel
  obtain ⟨a, c, f, lw, lh, cw, ch, hret, hop, hspec⟩ := single_run (s := Demo.sys) (m := none) (p := some Demo.params)
    (w := 3) (h := 2 ^ 25) (image := T) (wd := Demo.w0) Demo.sys_build Demo.none_method Demo.params_valid (by decide)
    (by norm_num) (by norm_num) (by decide +kernel) (by decide +kernel) (by decide +kernel) (fun _ => rfl)
    (by rw [hrange]; unfold ScoresTooBig; decide +kernel) (by rw [hlen])
    (fun v hv => hall v (List.mem_of_mem_take hv)) Demo.w0_wf (fun _ => rfl)
  have hno : NoOom [(c, Obs.analyzed RDEOK)] := by
    intro x hx
    simp only [List.mem_singleton] at hx
    rw [hx]; show Obs.analyzed RDEOK ≠ _; decide
  have hinv := reach_inv Demo.sys_build Demo.none_method Demo.params_valid hret.1
  -- the spectrum is the image
  have hf : f = T := by
    have hsp : Spectrum Demo.sys a c f := by
      have : analysed [(c, Obs.analyzed RDEOK)] = [(c, Obs.analyzed RDEOK)] := by simp [analysed]
      unfold Spectra at hspec
      rw [this] at hspec
      cases hspec with
      | cons h _ => exact h
    have := fftw_spectrum rfl hinv hop hsp
    rw [List.take_of_length_le (by rw [hlen]), hmap] at this
    exact this
  rw [hf] at hspec
  refine ⟨Demo.sys, a, _, lw, cw, some lh, ch, T, Demo.sys_build, demo_precise, hno, hspec, rfl, hret, ?_, ?_⟩
  · obtain ⟨hne, _, hX, _⟩ := returned_listed Demo.sys_build Demo.none_method Demo.params_valid hno
      (by simp [analysed]; decide +kernel) hret hspec
    obtain ⟨init, h1, _, h3⟩ := (hX lw rfl).parts
    rw [hrange] at h3
    have hcount : signMatches (rows T 3) (2 ^ 25) 1 1 = 2 ^ 25 - 1 := by
      unfold signMatches
      have : ((Finset.range (2 ^ 25) ×ˢ Finset.Icc 1 1).filter (fun p => (rows T 3 p.1 (1 - p.2)).signbit ≠
          (rows T 3 p.1 (1 + p.2)).signbit)) = ((Finset.range (2 ^ 25)).erase 0) ×ˢ Finset.Icc 1 1 := by
        ext ⟨y, i⟩
        simp only [Finset.mem_filter, Finset.mem_product, Finset.mem_range, Finset.mem_Icc, Finset.mem_erase]
        constructor
        · rintro ⟨⟨hy, hi⟩, hne⟩
          refine ⟨⟨?_, hy⟩, hi⟩
          rintro rfl
          obtain rfl : i = 1 := by omega
          apply hne
          unfold rows
          rw [hget _ (by norm_num), hget _ (by norm_num)]
          decide
        · rintro ⟨⟨hy0, hy⟩, hi⟩
          refine ⟨⟨hy, hi⟩, ?_⟩
          obtain rfl : i = 1 := by omega
          unfold rows
          rw [hget _ (by omega), hget _ (by omega)]
          have e1 : decide ((y * 3 + (1 - 1)) % 3 = 2) = false := by rw [decide_eq_false_iff_not]; omega
          have e2 : decide ((y * 3 + (1 + 1)) % 3 = 2) = true := by rw [decide_eq_true_eq]; omega
          have e3 : decide (y * 3 + (1 + 1) ≠ 2) = true := by rw [decide_eq_true_eq]; omega
          rw [e1, e2, e3]
          simp [Fl.signbit]
      rw [this, Finset.card_product, Finset.card_erase_of_mem (by simp), Finset.card_range]
      rfl
    have hgen : ∀ n c, signMatches (rows T 3) n 1 1 = c →
        frameScore Demo.sys (effMethod none).func (rows T 3) n 1 1 = some (ratio Demo.sys.cfg c n 1) := by
      intro n c hc
      subst hc
      rfl
    have hmean : meanAt Demo.sys (effMethod none).func (fun f => rows f 3) (2 ^ 25) 1 [T] 1 =
        ratio Demo.sys.cfg (2 ^ 25 - 1) (2 ^ 25) 1 := by
      rw [meanAt_single Demo.sys_build.wf.inter_wf demo_precise (by decide +kernel) (by decide +kernel) (by norm_num)
        (by norm_num)]
      rw [hgen _ _ hcount, Option.getD_some]
    have : (⟨1, .fin false 1⟩ : Res) ∈ init := by
      rw [h3]
      refine ⟨le_rfl, by norm_num, rfl, ?_, ?_⟩
      · show (meanAt Demo.sys (effMethod none).func (fun f => rows f 3) (2 ^ 25) 1 [T] 1).ge _ = true
        rw [hmean]; decide +kernel
      · show Fl.fin false 1 = binary32.conv (meanAt Demo.sys (effMethod none).func (fun f => rows f 3) (2 ^ 25) 1 [T] 1)
        rw [hmean]; decide +kernel
    rw [h1]; simp [this]
  · intro h
    have := h 0 (by norm_num) 1 le_rfl le_rfl
    apply this
    unfold rows
    rw [hget _ (by norm_num), hget _ (by norm_num)]
    decide

/-- Analysing one frame on the demo platform, for the examples below. -/
theorem demo_single {m : Option Method} {q : Params} {w h : ℕ} (image : List Fl) (hm : ValidMethod? m)
    (hp : ValidParams Demo.sys.cfg q) (hd : (effMethod m).func ≠ .orig) (hw : 0 < w) (hh : 0 < h) (hsmall : w * h ≤ 1000)
    (hrng : ¬ ScoresTooBig Demo.sys.cfg w h (effParams Demo.sys.cfg (effMethod m) (some q)).range)
    (hlen : image.length = w * h) (hfin : ∀ v ∈ image, v.isfinite = true)
    (hconv : image.map Demo.sys.cfg.coeff.conv = image) :
    ∃ a ev lw cw lh ch, Returned Demo.sys m w h (some q) ev a (some lw) cw (some lh) ch ∧ NoOom ev ∧
      (analysed ev).length = 1 ∧ Spectra Demo.sys a ev [image] := by
  have hv : ValidParams? Demo.sys.cfg (some q) := by rintro _ h; cases h; exact hp
  have h1 : w ≤ 1000 := le_trans (Nat.le_mul_of_pos_right _ hh) hsmall
  have h2 : h ≤ 1000 := le_trans (Nat.le_mul_of_pos_left _ hw) hsmall
  have hs1 : 1000 ≤ sideMax Demo.sys.cfg := by decide +kernel
  have hs2 : 1000 ≤ Demo.sys.cfg.pixelMax := by decide +kernel
  have hs3 : 1000 * Demo.sys.cfg.szCoeff ≤ Demo.sys.cfg.sizeMax := by decide +kernel
  have hs4 := Nat.mul_le_mul_right Demo.sys.cfg.szCoeff hsmall
  obtain ⟨a, c, f, lw, lh, cw, ch, hret, hop, hspec⟩ := single_run (s := Demo.sys) (wd := Demo.w0) Demo.sys_build hm hv hd
    hw hh ⟨by omega, by omega⟩ (by omega) (by omega) (fun _ => rfl) hrng (image := image) (by omega)
    (fun v hv => hfin v (List.mem_of_mem_take hv)) Demo.w0_wf (fun _ => rfl)
  have han : analysed [(c, Obs.analyzed RDEOK)] = [(c, Obs.analyzed RDEOK)] := by simp [analysed]
  have hinv := reach_inv Demo.sys_build hm hv hret.1
  have hsp : Spectrum Demo.sys a c f := by
    unfold Spectra at hspec
    rw [han] at hspec
    cases hspec with
    | cons h _ => exact h
  have := fftw_spectrum rfl hinv hop hsp
  rw [List.take_of_length_le (by omega), hconv] at this
  have hfi : f = image := this
  rw [hfi] at hspec
  refine ⟨a, _, lw, cw, lh, ch, hret, ?_, by rw [han]; rfl, hspec⟩
  intro x hx
  simp only [List.mem_singleton] at hx
  rw [hx]; show Obs.analyzed RDEOK ≠ _; decide

/-- A 4 by 2 frame which changes sign in the middle. -/
def flip4 : List Fl := [1, 1, -1, -1, -1, -1, 1, 1].map (fun q : ℚ => .fin (decide (q < 0)) q)

/-- The hypotheses of C25 can be met, in both directions. -/
example : ∃ a ev lw cw lh ch, Returned Demo.sys none 4 2 (some Demo.params) ev a (some lw) cw (some lh) ch ∧ NoOom ev ∧
    Spectra Demo.sys a ev [flip4] ∧ Antisymmetric (rows flip4 4) 2 1 1 ∧ ⟨1, .fin false 1⟩ ∈ lw := by
  obtain ⟨a, ev, lw, cw, lh, ch, h1, h2, h3, h4⟩ := demo_single (m := none) (q := Demo.params) (w := 4) (h := 2) flip4
    Demo.none_method (Demo.params_valid _ rfl) (by decide) (by norm_num) (by norm_num) (by norm_num)
    (by unfold ScoresTooBig; decide +kernel) rfl (by decide +kernel) (by decide +kernel)
  have hanti : Antisymmetric (rows flip4 4) 2 1 1 := signMatches_full.mp (by decide +kernel)
  have hr1 : (effParams Demo.sys.cfg (effMethod none) (some Demo.params)).range = 1 := by decide +kernel
  have := (C25_full_confidence Demo.sys_build demo_precise Demo.none_method Demo.params_valid rfl h2
    (by rw [h3]; exact Nat.one_le_two_pow) (by rw [h3]; decide +kernel) rfl h1 h4).1 lw rfl 1 (by rw [hr1])
    (by rw [hr1]; norm_num) (by intro f hf; rw [List.mem_singleton] at hf; rw [hf, hr1]; exact hanti)
  exact ⟨a, ev, lw, cw, lh, ch, h1, h2, h4, hanti, this.1⟩

/-! ## C26 -/

theorem ratio_comm {c : Cfg} (hF : c.inter.WF) (hp : Precise c) {k a b : ℕ} (ha : a ≤ 2 ^ c.inter.p)
    (hb : b ≤ 2 ^ c.inter.p) (ha0 : 0 < a) (hb0 : 0 < b) (hk : k ≤ a * b) : ratio c k a b = ratio c k b a := by
  rw [(ratio_eq hF hp ha hb ha0 hb0 hk).1, (ratio_eq hF hp hb ha hb0 ha0 (by rw [mul_comm]; exact hk)).1, mul_comm a b]

/-- **C26** In one frame the orig method either leaves a position alone or gives it exactly the score of the sign method. -/
theorem C26_frame {s : Sys} (hF : s.cfg.inter.WF) (hp : Precise s.cfg) {g : ℕ → ℕ → Fl} {n range x : ℕ}
    (hn : n ≤ 2 ^ s.cfg.inter.p) (hr : range ≤ 2 ^ s.cfg.inter.p) (hn0 : 0 < n) (hr0 : 0 < range) :
    frameScore s .orig g n range x = none ∨ frameScore s .orig g n range x = frameScore s .sign g n range x := by
  unfold frameScore
  by_cases h : origPasses s.cfg g n range x
  · right
    simp only [if_pos h]
    rw [ratio_comm hF hp hr hn hr0 hn0 (by rw [mul_comm]; exact signMatches_le _ _ _ _)]
  · left
    simp only [if_neg h]

/-- **C26** Two analyses of frames with the same spectra, one with orig and one with sign, with the same parameters and an
explicit threshold: every orig result is a sign result whose confidence is at least as high; after a single frame the two
confidences are equal, or the orig confidence is 0. -/
theorem C26_suppresses (hs : Build s) (hpr : Precise s.cfg) (hm : ValidMethod? m) (hm' : ValidMethod? m') {q : Params}
    (hq : ValidParams s.cfg q) (ht : q.threshold ≠ .fin true (-1)) (horig : (effMethod m).func = .orig)
    (hsign : (effMethod m').func = .sign) (hno : NoOom ev) (hno' : NoOom ev')
    (hk : (analysed ev).length ≤ 2 ^ s.cfg.inter.p) (hk' : (analysed ev).length ≤ s.cfg.sizeMax)
    (hr : Returned s m w h (some q) ev a rw cw rh ch) (hr' : Returned s m' w h (some q) ev' a' rw' cw' rh' ch')
    {fs : List (List Fl)} (hfs : Spectra s a ev fs) (hfs' : Spectra s a' ev' fs) :
    (∀ l l', rw = some l → rw' = some l' → ∀ r ∈ l, ∃ r' ∈ l', r'.index = r.index ∧ r'.confidence.ge r.confidence = true ∧
      (fs.length = 1 → r.confidence = .fin false 0 ∨ r' = r)) ∧
    (∀ l l', rh = some l → rh' = some l' → ∀ r ∈ l, ∃ r' ∈ l', r'.index = r.index ∧ r'.confidence.ge r.confidence = true ∧
      (fs.length = 1 → r.confidence = .fin false 0 ∨ r' = r)) := by
  have hF := hs.wf.inter_wf
  have hv : ValidParams? s.cfg (some q) := by rintro _ h; cases h; exact hq
  have hlen' : (analysed ev').length = (analysed ev).length := by
    have e1 := hfs.length_eq
    have e2 := hfs'.length_eq
    omega
  obtain ⟨hne, hlen, hX, hY⟩ := returned_listed hs hm hv hno hk' hr hfs
  obtain ⟨_, _, hX', hY'⟩ := returned_listed hs hm' hv hno' (by omega) hr' hfs'
  obtain ⟨w0, h0, wp, hp', r0, htu⟩ := returned_sizes hs hpr hm hv hr
  have heff : effParams s.cfg (effMethod m') (some q) = effParams s.cfg (effMethod m) (some q) := by
    unfold effParams
    simp only [Option.getD_some, horig, hsign, if_neg ht]
    rfl
  rw [horig] at hX hY
  rw [hsign, heff] at hX' hY'
  generalize effParams s.cfg (effMethod m) (some q) = e at *
  have key : ∀ len (g : List Fl → ℕ → ℕ → Fl) n l l', Listed s .orig e len g n fs l → Listed s .sign e len g n fs l' →
      0 < n → n ≤ 2 ^ s.cfg.inter.p → len ≤ 2 ^ s.cfg.inter.p → ∀ r ∈ l, ∃ r' ∈ l', r'.index = r.index ∧
        r'.confidence.ge r.confidence = true ∧ (fs.length = 1 → r.confidence = .fin false 0 ∨ r' = r) := by
    intro len g n l l' hl hl' n0 np lp r hrl
    obtain ⟨init, h1, _, h3⟩ := hl.parts
    obtain ⟨init', h1', _, h3'⟩ := hl'.parts
    rw [h1] at hrl
    rcases List.mem_append.mp hrl with hri | hri
    · obtain ⟨b1, b2, b3, b4, b5⟩ := (h3 r).mp hri
      have hrp : e.range ≤ 2 ^ s.cfg.inter.p := by omega
      obtain ⟨v, ev, v0, v1⟩ := meanAt_unit hF hpr (d := .orig) (g := g) (x := r.index) np hrp n0 r0 (fs := fs)
        (by omega) hne
      obtain ⟨v', ev', v0', v1'⟩ := meanAt_unit hF hpr (d := .sign) (g := g) (x := r.index) np hrp n0 r0 (fs := fs)
        (by omega) hne
      have hle : v ≤ v' := by
        have := meanAt_mono hF hpr (d := .orig) (d' := .sign) (g := g) (x := r.index) np hrp n0 r0 (fs := fs)
          (by omega) hne (by
            intro f _
            rcases C26_frame hF hpr (g := g f) (x := r.index) np hrp n0 r0 with h | h
            · rw [h]
              obtain ⟨v, h1, h2, _⟩ := frameScore_unit hF hpr (d := .sign) (g := g f) (x := r.index) np hrp n0 r0 rfl
              show (0 : ℚ) ≤ val (ratio s.cfg (signMatches (g f) n e.range r.index) n e.range)
              rw [h1]
              exact h2
            · rw [h])
        rw [ev, ev'] at this
        exact this
      refine ⟨⟨r.index, binary32.conv (.fin false v')⟩, ?_, rfl, ?_, ?_⟩
      · rw [h1']
        refine List.mem_append.mpr (Or.inl ((h3' _).mpr ⟨b1, b2, b3, ?_, ?_⟩))
        · show (meanAt s .sign g n e.range fs r.index).ge _ = true
          rw [ev']
          rw [ev] at b4
          obtain ⟨b, t, et, t0, t1⟩ := conv_unit hF htu
          rw [et] at b4 ⊢
          simp only [Fl.ge, Fl.lt] at b4 ⊢
          have : t ≤ v := by simpa using b4
          simpa using le_trans this hle
        · show _ = binary32.conv (meanAt s .sign g n e.range fs r.index)
          rw [ev']
      · rw [b5, ev, conv_unit_false binary32_wf v0 v1, conv_unit_false binary32_wf v0' v1']
        have := binary32.rnd_mono binary32_wf.p_pos hle
        simpa [Fl.ge, Fl.lt] using this
      · intro h1
        obtain ⟨f, rfl⟩ : ∃ f, fs = [f] := List.length_eq_one_iff.mp h1
        rw [meanAt_single hF hpr np hrp n0 r0] at ev ev'
        rcases C26_frame hF hpr (g := g f) (x := r.index) np hrp n0 r0 with h | h
        · left
          rw [b5, meanAt_single hF hpr np hrp n0 r0, h]
          decide +kernel
        · right
          rw [h, ev'] at ev
          injection ev with _ hvv
          subst hvv
          have : r.confidence = binary32.conv (.fin false v') := by
            rw [b5, meanAt_single hF hpr np hrp n0 r0, h, ev']
          rw [← this]
    · rw [List.mem_singleton] at hri
      subst hri
      refine ⟨sentinel len, by rw [h1']; simp, rfl, ?_, fun _ => Or.inr rfl⟩
      norm_num [sentinel, Fl.ge, Fl.lt]
  exact ⟨fun l l' hl hl' => key _ (fun f => rows f w) _ l l' (hX l hl) (hX' l' hl') h0 hp' wp,
    fun l l' hl hl' => key _ (fun f => cols f w) _ l l' (hY l hl) (hY' l' hl') w0 wp hp'⟩

/-- The spectra FFTW delivers for a successful `resdetect`. -/
theorem resdetect_fftw (hs : Build s) (hm : ValidMethod? m) (hp : ValidParams? s.cfg p) (hb : s.cfg.backend = .fftw) {n : ℕ}
    {image : List Fl} (himg : image.length ≤ s.cfg.sizeMax) (hlen : n * (w * h) ≤ image.length) {ptr : Ptrs}
    {wd wd' : World} (hwd : wd.WF) {out : Out}
    (hr : resdetect s (some image) n w h ptr m p wd = some ((RDEOK, out), wd')) :
    ∃ ev a, Returned s m w h p ev a (out.rw.map Buf.data) out.cw (out.rh.map Buf.data) out.ch ∧ NoOom ev ∧
      (analysed ev).length = n ∧ Spectra s a ev ((framesOf image w h n).map (fun f =>
        s.env.fftw w h ((f.take (w * h)).map s.cfg.coeff.conv))) := by
  obtain ⟨ev, a, h1, h2, h3, h4, h5⟩ := C14_resdetect_history hs hm hp himg hlen hwd hr
  have hinv := reach_inv hs hm hp h1.1
  have hall : ∀ x ∈ ev, x.2 = .analyzed RDEOK := by
    intro x hx
    have : x.2 ∈ ev.map (fun x => x.2) := List.mem_map_of_mem hx
    rw [h3] at this
    exact List.eq_of_mem_replicate this
  have han : analysed ev = ev := by
    unfold analysed
    rw [List.filter_eq_self]
    intro x hx
    simp [hall x hx]
  have hl : ev.length = n := by have := congrArg List.length h3; simpa using this
  refine ⟨ev, a, h1, h2, by rw [han, hl], ?_⟩
  obtain ⟨fs, hfs, hsc⟩ := hinv.scores h2
  clear hsc
  have : fs = (framesOf image w h n).map (fun f => s.env.fftw w h ((f.take (w * h)).map s.cfg.coeff.conv)) := by
    rw [han] at hfs
    have key : ∀ {c : Call} {image : List Fl} {f : List Fl}, c.op = .analyze (some image) → Spectrum s a c f →
        f = s.env.fftw w h ((image.take (w * h)).map s.cfg.coeff.conv) := fun h1 h2 => fftw_spectrum hb hinv h1 h2
    clear h5 h1 h2 h3 hall han hl hr hinv
    generalize framesOf image w h n = F at *
    induction hfs generalizing F with
    | nil => cases F with
      | nil => rfl
      | cons _ _ => simp at h4
    | cons hx _ ih => cases F with
      | nil => simp at h4
      | cons f F =>
        simp only [List.map_cons, List.cons.injEq] at h4
        rw [List.map_cons, ← ih F h4.2, key h4.1 hx]
  rw [← this]
  exact hfs

/-- The lists a `resdetect` call delivers. -/
def lists (r : Option ((RDError × Out) × World)) : Option (RDError × Option (List Res) × Option (List Res)) :=
  r.map (fun r => (r.1.1, r.1.2.rw.map Buf.data, r.1.2.rh.map Buf.data))

/-- `resdetect` on the demo platform, for the examples below. -/
theorem demo_resdetect {m : Option Method} {q : Params} {w h n : ℕ} {image : List Fl} (hm : ValidMethod? m)
    (hp : ValidParams Demo.sys.cfg q) (himg : image.length ≤ 1000) (hlen : n * (w * h) ≤ image.length)
    {lw lh : Option (List Res)} (hr : lists (resdetect Demo.sys (some image) n w h .all m (some q) Demo.w0) = some (RDEOK, lw, lh)) :
    ∃ ev a cw ch, Returned Demo.sys m w h (some q) ev a lw cw lh ch ∧ NoOom ev ∧ (analysed ev).length = n ∧
      Spectra Demo.sys a ev ((framesOf image w h n).map (fun f => (f.take (w * h)).map Demo.sys.cfg.coeff.conv)) := by
  unfold lists at hr
  rw [Option.map_eq_some_iff] at hr
  obtain ⟨⟨⟨e, out⟩, wd'⟩, h1, h2⟩ := hr
  simp only [Prod.mk.injEq] at h2
  obtain ⟨rfl, rfl, rfl⟩ := h2
  obtain ⟨ev, a, h3, h4, h5, h6⟩ := resdetect_fftw Demo.sys_build hm (by rintro _ h; cases h; exact hp) rfl
    (le_trans himg (by decide +kernel)) hlen Demo.w0_wf h1
  exact ⟨ev, a, _, _, h3, h4, h5, h6⟩

/-- A 4 by 2 frame on which orig and sign differ. -/
def bump : List Fl := [4, 1, -4, -8, -4, 1, 4, 3].map (fun q : ℚ => .fin (decide (q < 0)) q)

/-- The hypotheses of `C26_suppresses` can be met, and the two lists then differ. -/
example : ∃ (m m' : Option Method) (q : Params) (a a' : Analysis) (ev ev' : List (Call × Obs)) (l l' lh lh' : List Res)
    (cw cw' ch ch' : ℕ) (fs : List (List Fl)), ValidMethod? m ∧ ValidMethod? m' ∧ ValidParams Demo.sys.cfg q ∧
    q.threshold ≠ .fin true (-1) ∧ (effMethod m).func = .orig ∧ (effMethod m').func = .sign ∧ NoOom ev ∧ NoOom ev' ∧
    (analysed ev).length = 1 ∧ Returned Demo.sys m 4 2 (some q) ev a (some l) cw (some lh) ch ∧
    Returned Demo.sys m' 4 2 (some q) ev' a' (some l') cw' (some lh') ch' ∧ Spectra Demo.sys a ev fs ∧
    Spectra Demo.sys a' ev' fs ∧ l ≠ l' := by
  have hmo : ValidMethod? origMethod := by rintro _ h; cases h; decide +kernel
  obtain ⟨ev, a, cw, ch, h1, h2, h3, h4⟩ := demo_resdetect (m := origMethod) (q := Demo.params) (w := 4) (h := 2) (n := 1)
    (image := bump) hmo (Demo.params_valid _ rfl) (by decide) (by decide)
    (lw := some [⟨1, .fin false 1⟩, ⟨2, .fin false 0⟩, ⟨4, .fin true (-1)⟩]) (lh := some [⟨2, .fin true (-1)⟩]) (by decide +kernel)
  obtain ⟨ev', a', cw', ch', h1', h2', h3', h4'⟩ := demo_resdetect (m := none) (q := Demo.params) (w := 4) (h := 2) (n := 1)
    (image := bump) Demo.none_method (Demo.params_valid _ rfl) (by decide) (by decide)
    (lw := some [⟨1, .fin false 1⟩, ⟨2, .fin false (1/2)⟩, ⟨4, .fin true (-1)⟩]) (lh := some [⟨2, .fin true (-1)⟩])
    (by decide +kernel)
  exact ⟨origMethod, none, Demo.params, a, a', ev, ev', _, _, _, _, cw, cw', ch, ch', _, hmo, Demo.none_method,
    Demo.params_valid _ rfl, by decide, rfl, rfl, h2, h2', h3, h1, h1', h4, h4', by decide +kernel⟩

/-! ## C27 -/

/-- The transpose of a `w` by `h` array, an `h` by `w` array. -/
def transpose (w h : ℕ) (f : List Fl) : List Fl := (List.range (w * h)).map (fun k => rows f w (k % h) (k / h))

theorem rows_transpose {w h : ℕ} {f : List Fl} {y x : ℕ} (hy : y < w) (hx : x < h) :
    rows (transpose w h f) h y x = rows f w x y := by
  have hlt : y * h + x < w * h := by
    have : (y + 1) * h ≤ w * h := Nat.mul_le_mul_right _ hy
    linarith [Nat.succ_mul y h]
  unfold transpose
  conv_lhs => unfold rows
  rw [List.getElem?_map, List.getElem?_range hlt, Option.map_some, Option.getD_some, Nat.mul_comm y h, Nat.mul_add_mod,
    Nat.mod_eq_of_lt hx, Nat.mul_add_div (by omega), Nat.div_eq_of_lt hx, Nat.add_zero]
  rfl

/-- **C27** The score of a height on an array is the score of the width on the transposed array, and the other way round,
for every method. -/
theorem C27_frame {s : Sys} {d : Detect} {f : List Fl} {w h range : ℕ} (hr : 0 < range) :
    (∀ x, range ≤ x → x + range < h →
      frameScore s d (cols f w) w range x = frameScore s d (rows (transpose w h f) h) w range x) ∧
    (∀ x, range ≤ x → x + range < w →
      frameScore s d (rows f w) h range x = frameScore s d (cols (transpose w h f) h) h range x) := by
  constructor
  · intro x h1 h2
    refine frameScore_congr hr h1 ?_
    intro y hy z _ hz
    rw [rows_transpose hy (by omega)]
    rfl
  · intro x h1 h2
    refine frameScore_congr hr h1 ?_
    intro y hy z _ hz
    unfold cols
    rw [rows_transpose (by omega) hy]

/-- **C27** Two analyses with the same method and parameters, the second of frames with the transposed spectra: the width
results of one are the height results of the other. -/
theorem C27_mirror (hs : Build s) (hm : ValidMethod? m) (hp : ValidParams? s.cfg p) (hno : NoOom ev) (hno' : NoOom ev')
    (hk : (analysed ev).length ≤ s.cfg.sizeMax) (hr : Returned s m w h p ev a rw cw rh ch)
    (hr' : Returned s m h w p ev' a' rw' cw' rh' ch') {fs : List (List Fl)} (hfs : Spectra s a ev fs)
    (hfs' : Spectra s a' ev' (fs.map (transpose w h))) :
    (∀ l l', rh = some l → rw' = some l' → l' = l) ∧ (∀ l l', rw = some l → rh' = some l' → l' = l) := by
  have hk' : (analysed ev').length ≤ s.cfg.sizeMax := by
    have e1 := hfs.length_eq
    have e2 := hfs'.length_eq
    rw [List.length_map] at e2
    omega
  obtain ⟨_, _, hX, hY⟩ := returned_listed hs hm hp hno hk hr hfs
  obtain ⟨_, _, hX', hY'⟩ := returned_listed hs hm hp hno' hk' hr' hfs'
  have r0 : 0 < (effParams s.cfg (effMethod m) p).range := by
    have hg := returned_got hs hm hp hr
    have := hg.inv.good.range_pos
    rw [hg.inv.params] at this
    exact this
  have key : ∀ len n (g g' : List Fl → ℕ → ℕ → Fl) l l',
      Listed s (effMethod m).func (effParams s.cfg (effMethod m) p) len g n fs l →
      Listed s (effMethod m).func (effParams s.cfg (effMethod m) p) len g' n (fs.map (transpose w h)) l' →
      (∀ f x, (effParams s.cfg (effMethod m) p).range ≤ x → x + (effParams s.cfg (effMethod m) p).range < len →
        frameScore s (effMethod m).func (g f) n (effParams s.cfg (effMethod m) p).range x =
        frameScore s (effMethod m).func (g' (transpose w h f)) n (effParams s.cfg (effMethod m) p).range x) → l' = l := by
    intro len n g g' l l' hl hl' hfr
    rw [hl.eq, hl'.eq, List.length_map]
    congr 3
    refine List.map_congr_left ?_
    intro k hk
    rw [List.mem_range] at hk
    symm
    refine total_congr ?_
    rw [List.forall₂_map_right_iff]
    exact List.forall₂_same.mpr (fun f _ => hfr f _ (by omega) (by omega))
  refine ⟨fun l l' hl hl' => key h w _ _ l l' (hY l hl) (hX' l' hl') ?_,
    fun l l' hl hl' => key w h _ _ l l' (hX l hl) (hY' l' hl') ?_⟩
  · exact fun f x h1 h2 => (C27_frame r0).1 x h1 h2
  · exact fun f x h1 h2 => (C27_frame r0).2 x h1 h2

theorem transpose_map {w h : ℕ} {f : List Fl} (hl : w * h ≤ f.length) (φ : Fl → Fl) :
    (transpose w h f).map φ = transpose w h (f.map φ) := by
  unfold transpose
  rw [List.map_map]
  refine List.map_congr_left ?_
  intro k hk
  rw [List.mem_range] at hk
  have hh : 0 < h := by
    rcases Nat.eq_zero_or_pos h with rfl | hh
    · omega
    · exact hh
  have hkw : k / h < w := Nat.div_lt_of_lt_mul (by rw [Nat.mul_comm]; exact hk)
  have hkh : k % h < h := Nat.mod_lt _ hh
  have hlt : (k % h) * w + k / h < f.length := by
    have : (k % h + 1) * w ≤ h * w := Nat.mul_le_mul_right _ hkh
    rw [Nat.add_mul, Nat.one_mul] at this
    have := Nat.mul_comm w h
    omega
  show φ (rows f w (k % h) (k / h)) = rows (f.map φ) w (k % h) (k / h)
  unfold rows
  rw [List.getElem?_map, List.getElem?_eq_getElem hlt]
  rfl

/-- **C27** With FFTW, provided its transform commutes with transposition, `resdetect` on transposed frames returns the
same two lists exchanged. -/
theorem C27_resdetect (hs : Build s) (hm : ValidMethod? m) (hp : ValidParams? s.cfg p) (hb : s.cfg.backend = .fftw) {n : ℕ}
    (hfft : ∀ l : List Fl, l.length = w * h → s.env.fftw h w (transpose w h l) = transpose w h (s.env.fftw w h l))
    {image image' : List Fl} (himg : image.length ≤ s.cfg.sizeMax) (hlen : n * (w * h) ≤ image.length)
    (himg' : image'.length ≤ s.cfg.sizeMax) (hlen' : n * (w * h) ≤ image'.length) (hn : n ≤ s.cfg.sizeMax)
    (htr : framesOf image' h w n = (framesOf image w h n).map (transpose w h)) {wd wd' wd2 wd2' : World}
    (hwd : wd.WF) (hwd2 : wd2.WF) {out out' : Out}
    (hr : resdetect s (some image) n w h .all m p wd = some ((RDEOK, out), wd'))
    (hr' : resdetect s (some image') n h w .all m p wd2 = some ((RDEOK, out'), wd2')) :
    (∀ l l', out.rh.map Buf.data = some l → out'.rw.map Buf.data = some l' → l' = l) ∧
    (∀ l l', out.rw.map Buf.data = some l → out'.rh.map Buf.data = some l' → l' = l) := by
  obtain ⟨ev, a, h1, h2, h3, h4⟩ := resdetect_fftw hs hm hp hb himg hlen hwd hr
  obtain ⟨ev', a', h1', h2', h3', h4'⟩ := resdetect_fftw hs hm hp hb himg' (by rw [Nat.mul_comm h w]; exact hlen') hwd2 hr'
  refine C27_mirror hs hm hp h2 h2' (by omega) h1 h1' h4 ?_
  rw [htr] at h4'
  have : ((framesOf image w h n).map (transpose w h)).map (fun f => s.env.fftw h w ((f.take (h * w)).map s.cfg.coeff.conv)) =
      ((framesOf image w h n).map (fun f => s.env.fftw w h ((f.take (w * h)).map s.cfg.coeff.conv))).map (transpose w h) := by
    rw [List.map_map, List.map_map]
    refine List.map_congr_left ?_
    intro f hf
    have hfl : f.length = w * h := by
      unfold framesOf at hf
      obtain ⟨i, hi, rfl⟩ := List.mem_map.mp hf
      rw [List.mem_range] at hi
      exact frameOf_length hi hlen
    have htl : (transpose w h f).length = w * h := by unfold transpose; simp
    show s.env.fftw h w (((transpose w h f).take (h * w)).map s.cfg.coeff.conv) = transpose w h (s.env.fftw w h _)
    rw [List.take_of_length_le (by rw [htl, Nat.mul_comm]), List.take_of_length_le (by rw [hfl]),
      transpose_map (by omega), hfft _ (by rw [List.length_map, hfl])]
  rw [this] at h4'
  exact h4'

/-- The demo transform commutes with transposition, and transposing the 4 by 2 frame exchanges its lists. -/
example : lists (resdetect Demo.sys (some bump) 1 4 2 .all none (some Demo.params) Demo.w0) =
      some (RDEOK, some [⟨1, .fin false 1⟩, ⟨2, .fin false (1/2)⟩, ⟨4, .fin true (-1)⟩], some [⟨2, .fin true (-1)⟩]) ∧
    lists (resdetect Demo.sys (some (transpose 4 2 bump)) 1 2 4 .all none (some Demo.params) Demo.w0) =
      some (RDEOK, some [⟨2, .fin true (-1)⟩], some [⟨1, .fin false 1⟩, ⟨2, .fin false (1/2)⟩, ⟨4, .fin true (-1)⟩]) ∧
    (∀ l : List Fl, l.length = 4 * 2 → Demo.sys.env.fftw 2 4 (transpose 4 2 l) = transpose 4 2 (Demo.sys.env.fftw 4 2 l)) ∧
    framesOf (transpose 4 2 bump) 2 4 1 = (framesOf bump 4 2 1).map (transpose 4 2) :=
  ⟨by decide +kernel, by decide +kernel, fun _ _ => rfl, by decide +kernel⟩

/-! ## C28 -/

/-- **C28** The compression filter only removes: with the same spectra, method, range and threshold, what is reported with
a filter is reported, with the same confidence, without. -/
theorem C28_removes_only (hs : Build s) (hm : ValidMethod? m) {q q0 : Params} (hq : ValidParams s.cfg q)
    (hq0 : ValidParams s.cfg q0) (hoff : q0 = { q with compressionFilter := 0 }) (hno : NoOom ev) (hno' : NoOom ev')
    (hk : (analysed ev).length ≤ s.cfg.sizeMax) (hr : Returned s m w h (some q) ev a rw cw rh ch)
    (hr' : Returned s m w h (some q0) ev' a' rw' cw' rh' ch') {fs : List (List Fl)} (hfs : Spectra s a ev fs)
    (hfs' : Spectra s a' ev' fs) :
    (∀ l l', rw = some l → rw' = some l' → ∀ r ∈ l, r ∈ l') ∧ (∀ l l', rh = some l → rh' = some l' → ∀ r ∈ l, r ∈ l') := by
  have hk' : (analysed ev').length ≤ s.cfg.sizeMax := by
    have e1 := hfs.length_eq
    have e2 := hfs'.length_eq
    omega
  obtain ⟨_, _, hX, hY⟩ := returned_listed hs hm (p := some q) (by rintro _ h; cases h; exact hq) hno hk hr hfs
  obtain ⟨_, _, hX', hY'⟩ := returned_listed hs hm (p := some q0) (by rintro _ h; cases h; exact hq0) hno' hk' hr' hfs'
  have key : ∀ len n (g : List Fl → ℕ → ℕ → Fl) l l',
      Listed s (effMethod m).func (effParams s.cfg (effMethod m) (some q)) len g n fs l →
      Listed s (effMethod m).func (effParams s.cfg (effMethod m) (some q0)) len g n fs l' → ∀ r ∈ l, r ∈ l' := by
    subst hoff
    intro len n g l l' hl hl' r hrl
    obtain ⟨init, h1, _, h3⟩ := hl.parts
    obtain ⟨init', h1', _, h3'⟩ := hl'.parts
    rw [h1] at hrl
    rw [h1', List.mem_append]
    rcases List.mem_append.mp hrl with hri | hri
    · left
      obtain ⟨b1, b2, _, b4, b5⟩ := (h3 r).mp hri
      exact (h3' r).mpr ⟨b1, b2, rfl, b4, b5⟩
    · exact Or.inr hri
  exact ⟨fun l l' hl hl' => key w h _ l l' (hX l hl) (hX' l' hl'), fun l l' hl hl' => key h w _ l l' (hY l hl) (hY' l' hl')⟩

/-- **C28** (partial) Which results a filter value `v > 0` removes: for sides up to `2^22` it keeps exactly the results
whose distance from the first position examined is a multiple of `2^v`.  Missing: the documented rule, which this is not
(`C28_fails`), and larger sides. -/
theorem C28_kept_partial (hs : Build s) (hm : ValidMethod? m) {q q0 : Params} (hq : ValidParams s.cfg q)
    (hq0 : ValidParams s.cfg q0) (hoff : q0 = { q with compressionFilter := 0 }) (hv : 0 < q.compressionFilter)
    (hno : NoOom ev) (hno' : NoOom ev')
    (hk : (analysed ev).length ≤ s.cfg.sizeMax) (hr : Returned s m w h (some q) ev a rw cw rh ch)
    (hr' : Returned s m w h (some q0) ev' a' rw' cw' rh' ch') {fs : List (List Fl)} (hfs : Spectra s a ev fs)
    (hfs' : Spectra s a' ev' fs) :
    let range := (effParams s.cfg (effMethod m) (some q)).range
    (∀ l l', w ≤ 2 ^ 22 → rw = some l → rw' = some l' → ∀ r, r ∈ l ↔ r ∈ l' ∧
      (r = sentinel w ∨ 2 ^ q.compressionFilter ∣ r.index - range)) ∧
    (∀ l l', h ≤ 2 ^ 22 → rh = some l → rh' = some l' → ∀ r, r ∈ l ↔ r ∈ l' ∧
      (r = sentinel h ∨ 2 ^ q.compressionFilter ∣ r.index - range)) := by
  intro range
  have hk' : (analysed ev').length ≤ s.cfg.sizeMax := by
    have e1 := hfs.length_eq
    have e2 := hfs'.length_eq
    omega
  obtain ⟨_, _, hX, hY⟩ := returned_listed hs hm (p := some q) (by rintro _ h; cases h; exact hq) hno hk hr hfs
  obtain ⟨_, _, hX', hY'⟩ := returned_listed hs hm (p := some q0) (by rintro _ h; cases h; exact hq0) hno' hk' hr' hfs'
  have key : ∀ len n (g : List Fl → ℕ → ℕ → Fl) l l', len ≤ 2 ^ 22 →
      Listed s (effMethod m).func (effParams s.cfg (effMethod m) (some q)) len g n fs l →
      Listed s (effMethod m).func (effParams s.cfg (effMethod m) (some q0)) len g n fs l' → ∀ r, r ∈ l ↔ r ∈ l' ∧
        (r = sentinel len ∨ 2 ^ q.compressionFilter ∣ r.index - range) := by
    subst hoff
    intro len n g l l' hlen hl hl' r
    obtain ⟨init, h1, _, h3⟩ := hl.parts
    obtain ⟨init', h1', _, h3'⟩ := hl'.parts
    have h31 : q.compressionFilter ≤ 31 := hq.filter
    have hfil : ∀ x, x < len → (filteredOut len q.compressionFilter (x - range) = false ↔
        2 ^ q.compressionFilter ∣ x - range) := by
      intro x hx
      rw [filteredOut_eq (by omega) h31 (by omega) hlen (by omega)]
      simp
    rw [h1, h1', List.mem_append, List.mem_append, List.mem_singleton]
    constructor
    · rintro (hri | hri)
      · obtain ⟨b1, b2, b3, b4, b5⟩ := (h3 r).mp hri
        exact ⟨Or.inl ((h3' r).mpr ⟨b1, b2, rfl, b4, b5⟩), Or.inr ((hfil _ (by omega)).mp b3)⟩
      · exact ⟨Or.inr hri, Or.inl hri⟩
    · rintro ⟨hri | hri, hc⟩
      · obtain ⟨b1, b2, _, b4, b5⟩ := (h3' r).mp hri
        rcases hc with hc | hc
        · exact Or.inr hc
        · exact Or.inl ((h3 r).mpr ⟨b1, b2, (hfil _ (by omega)).mpr hc, b4, b5⟩)
      · exact Or.inr hri
  exact ⟨fun l l' hw hl hl' => key w h _ l l' hw (hX l hl) (hX' l' hl'),
    fun l l' hh hl hl' => key h w _ l l' hh (hY l hl) (hY' l' hl')⟩

/-- Eight samples. -/
def eight : List Fl := (List.range 8).map (fun k => .fin (decide (k % 3 = 0)) (if k % 3 = 0 then -1 else 1))

/-- **C28** The documented rule is violated: width 8, range 2, filter value 1, threshold 0.  The documentation promises to
remove the results at intervals of 8/2^1 = 4, that is only position 4 of 2, 3, 4, 5; instead 4 is kept and 3 and 5 are
removed. -/
theorem C28_fails : ∃ l l' lh lh',
    lists (resdetect Demo.sys (some eight) 1 8 1 .all none (some ⟨2, .fin false 0, 1⟩) Demo.w0) = some (RDEOK, some l, lh) ∧
    lists (resdetect Demo.sys (some eight) 1 8 1 .all none (some ⟨2, .fin false 0, 0⟩) Demo.w0) = some (RDEOK, some l', lh') ∧
    (l'.map Res.index).Perm [2, 3, 4, 5, 8] ∧ (l.map Res.index).Perm [2, 4, 8] := by
  refine ⟨[⟨2, .fin false 1⟩, ⟨4, .fin false 1⟩, ⟨8, .fin true (-1)⟩], [⟨2, .fin false 1⟩, ⟨4, .fin false 1⟩,
    ⟨5, .fin false 1⟩, ⟨3, .fin false 0⟩, ⟨8, .fin true (-1)⟩], some [⟨1, .fin true (-1)⟩], some [⟨1, .fin true (-1)⟩], ?_⟩
  decide +kernel

end Verif.Props
