import Verif.Props.Order
import Verif.Proofs.Black

/-! # Pictures without content (C98) -/

namespace Verif.Props

open Spec

variable {s : Sys} {m : Option Method} {p : Option Params} {w h : ℕ} {ev : List (Call × Obs)} {a : Analysis}
  {rw rh : Option (List Res)} {cw ch : ℕ}

/-- A spectrum has as many coefficients as the frame has samples. -/
theorem spectrum_length (hs : Build s) (hm : ValidMethod? m) (hp : ValidParams? s.cfg p) (hr : Reach s m w h p ev a) {x : Call × Obs} (hx : x ∈ ev)
    {f : List Fl} (hf : Spectrum s a x.1 f) : f.length = w * h := by
  have hinv := reach_inv hs hm hp hr
  obtain ⟨image, plan, wd, e1, e2, e3⟩ := id hf
  have hlen := reach_samples hs hm hp hr x hx image e1
  have hlen : ((image.take (w * h)).map s.cfg.coeff.conv).length = w * h := by rw [List.length_map, List.length_take, min_eq_left hlen]
  obtain ⟨pl, e4, hgood⟩ := hinv.good.p
  rw [e2] at e4
  cases e4
  rw [hinv.width, hinv.height] at hgood e3
  cases hgood with
  | fftw b q hb => rw [fftw_spectrum hb hinv e1 hf, s.env.fftw_length, hlen]
  | kiss q g _ =>
    have h1 := kissTransform_eq g e3
    obtain ⟨v, hv, hall⟩ := transformOf_temp (A := s.arith) g (junk := ⟨s.env.junk, s.env.junk⟩) hlen
    have t1 := hall x.1.world (by simp)
    rw [h1] at t1
    have : f = (v x.1.world.sched).1 := congrArg Prod.fst (Option.some.inj t1)
    rw [this]
    exact hv _

/-- **C98** The spectrum of a black frame is zero everywhere, with every backend and whatever allocations fail. -/
theorem C98_spectrum (hs : Build s) (hm : ValidMethod? m) (hp : ValidParams? s.cfg p) (hr : Reach s m w h p ev a) (hquiet : KeepsBlack s)
    {x : Call × Obs} (hblack : BlackFrame (w * h) x) {f : List Fl} (hf : Spectrum s a x.1 f) : AllZero f := by
  have hinv := reach_inv hs hm hp hr
  obtain ⟨image, o1, o2⟩ := hblack
  have hz : AllZero ((image.take (w * h)).map s.cfg.coeff.conv) := by
    intro v hv
    obtain ⟨u, hu, rfl⟩ := List.mem_map.mp hv
    rw [o2 u hu]
    simp [Fmt.conv, deliver_zero]
  rcases hquiet with ⟨hb, ht⟩ | ⟨hb, ht⟩
  · obtain ⟨im, plan, wd, e1, e2, e3⟩ := hf
    rw [o1] at e1
    cases e1
    obtain ⟨pl, e4, hgood⟩ := hinv.good.p
    rw [e2] at e4
    cases e4
    rw [hinv.width, hinv.height] at hgood e3
    cases hgood with
    | fftw b q hb' => rw [hb] at hb'; cases hb'
    | kiss q g _ => exact (black_zeros ht).transform g e3 hz
  · rw [fftw_spectrum hb hinv o1 hf]
    exact ht _ _ _ hz

/-- All candidates in the list for a side of `len` have confidence zero, and there are none if the threshold `t` is positive. -/
def Silent (t : Fl) (len : ℕ) (l : List Res) : Prop :=
  (∀ r ∈ l, r ≠ sentinel len → r.confidence = .fin false 0) ∧ (0 < val t → l = [sentinel len])

theorem listed_silent {d : Detect} {q : Params} {len n : ℕ} {g : List Fl → ℕ → ℕ → Fl} {fs : List (List Fl)} {l : List Res}
    (hl : Listed s d q len g n fs l) (hz : ∀ x, q.range ≤ x → x + q.range < len → meanAt s d g n q.range fs x = .fin false 0) :
    Silent (s.cfg.inter.conv q.threshold) len l := by
  obtain ⟨init, e1, _, e2⟩ := hl.parts
  constructor
  · intro r hr hne
    rw [e1, List.mem_append, List.mem_singleton] at hr
    rcases hr with hr | hr
    · obtain ⟨b1, b2, _, _, b5⟩ := (e2 r).mp hr
      rw [b5, hz _ b1 b2]
      simp [Fmt.conv, deliver_zero]
    · exact absurd hr hne
  · intro ht
    cases init with
    | nil => exact e1
    | cons r init =>
      obtain ⟨b1, b2, _, b4, _⟩ := (e2 r).mp (by simp)
      rw [hz _ b1 b2] at b4
      exfalso
      cases hc : s.cfg.inter.conv q.threshold with
      | nan b => rw [hc] at ht; simp [val] at ht
      | inf b => rw [hc] at ht; simp [val] at ht
      | fin b v =>
        rw [hc] at ht b4
        simp only [val] at ht
        simp only [Fl.ge, Fl.lt, Bool.not_eq_true', decide_eq_false_iff_not] at b4
        exact b4 ht

/-- **C98** After black frames only, of any size and in any number, every candidate reported has confidence zero, by every method; with a positive
threshold only the input size is reported. -/
theorem C98_black (hs : Build s) (hpr : Precise s.cfg) (hm : ValidMethod? m) (hp : ValidParams? s.cfg p) (hno : NoOom ev)
    (hr : Returned s m w h p ev a rw cw rh ch) (hk : (analysed ev).length ≤ s.cfg.sizeMax) (hquiet : KeepsBlack s)
    (heps : s.cfg.coeff.qmin ≤ 1 - (s.cfg.inter.p : ℤ)) (hblack : ∀ x ∈ analysed ev, BlackFrame (w * h) x) :
    let t := s.cfg.inter.conv (effParams s.cfg (effMethod m) p).threshold
    (∀ l, rw = some l → Silent t w l) ∧ (∀ l, rh = some l → Silent t h l) := by
  have hF := hs.wf.inter_wf
  have hinv := reach_inv hs hm hp hr.1
  obtain ⟨fs, h1, -, -⟩ := (returned_got hs hm hp hr).inv.scores hno
  obtain ⟨w0, h0, wp, hp', r0, _⟩ := returned_sizes hs hpr hm hp hr
  obtain ⟨hne, hfl, hX, hY⟩ := returned_listed hs hm hp hno hk hr h1
  have hzero : ∀ f ∈ fs, f.length = w * h ∧ AllZero f := by
    intro f hf
    obtain ⟨x, hx, hsp⟩ : ∃ x ∈ analysed ev, Spectrum s a x.1 f := by
      have : ∀ {xs : List (Call × Obs)} {gs : List (List Fl)}, List.Forall₂ (fun x f => Spectrum s a x.1 f) xs gs → f ∈ gs → ∃ x ∈ xs, Spectrum s a x.1 f := by
        intro xs gs h hf
        induction h with
        | nil => cases hf
        | cons h _ ih =>
          rcases List.mem_cons.mp hf with rfl | hf
          · exact ⟨_, by simp, h⟩
          · obtain ⟨x, hx, hs⟩ := ih hf
            exact ⟨x, by simp [hx], hs⟩
      exact this h1 hf
    refine ⟨?_, C98_spectrum hs hm hp hr.1 hquiet (hblack x hx) hsp⟩
    exact spectrum_length hs hm hp hr.1 (List.mem_of_mem_filter hx) hsp
  intro t
  constructor
  · intro l e
    refine listed_silent (hX l e) fun x hx1 hx2 => meanAt_zero hF (fun f hf => ?_) hne
    obtain ⟨hlen, hz⟩ := hzero f hf
    refine frameScore_zero hF hpr hs.wf.coeff_wf heps hp' (by omega) h0 r0 hx1 hx2 fun y hy z hz' => ?_
    have hlt : y * w + z < f.length := by rw [hlen]; nlinarith
    unfold rows
    rw [List.getElem?_eq_getElem hlt]
    exact hz _ (List.getElem_mem _)
  · intro l e
    refine listed_silent (hY l e) fun x hx1 hx2 => meanAt_zero hF (fun f hf => ?_) hne
    obtain ⟨hlen, hz⟩ := hzero f hf
    refine frameScore_zero hF hpr hs.wf.coeff_wf heps wp (by omega) w0 r0 hx1 hx2 fun y hy z hz' => ?_
    have hlt : z * w + y < f.length := by rw [hlen]; nlinarith
    unfold cols rows
    rw [List.getElem?_eq_getElem hlt]
    exact hz _ (List.getElem_mem _)

namespace Demo

theorem precise7 : Precise Demo.sys7.cfg := ⟨demo_precise.sides, demo_precise.room⟩

theorem half_valid7 : ValidParams? Demo.sys7.cfg (some half) := by
  rintro _ h
  cases h
  exact ⟨by simp [half], by simp [half, Demo.sys7, lp64], Or.inr ⟨false, 1 / 2, rfl, by norm_num, by norm_num⟩, by simp [half]⟩

/-- Whatever the rational, `cf` is finite. -/
theorem cf_finite (r i : ℚ) : (Demo.cf r i).r.isfinite = true ∧ (Demo.cf r i).i.isfinite = true := ⟨rfl, rfl⟩

theorem tables7 : Tables Demo.sys7.env where
  tw := by
    intro n k hk
    show ((if n = 7 then (Demo.tw7[k]?).getD (Demo.cf 0 0) else Demo.cf 1 0) : Cpx Fl).r.isfinite = true ∧ _
    split
    · subst n
      exact (by decide +kernel : ∀ k < 7, ((Demo.tw7[k]?).getD (Demo.cf 0 0)).r.isfinite = true ∧ ((Demo.tw7[k]?).getD (Demo.cf 0 0)).i.isfinite = true) k hk
    · exact ⟨rfl, by rename_i hn; simp only [Demo.sys7, Demo.env7, hn, if_false]; rfl⟩
  stw := by
    intro n k hk
    by_cases hn : n = 7
    · subst hn
      exact (by decide +kernel : ∀ k < 7 / 2, ((Demo.stw7[k]?).getD (Demo.cf 0 0)).r.isfinite = true ∧ ((Demo.stw7[k]?).getD (Demo.cf 0 0)).i.isfinite = true) k hk
    · simp only [Demo.sys7, Demo.env7, hn, if_false]
      exact ⟨rfl, rfl⟩
  shift := by
    intro n k hk
    by_cases hn : n = 7
    · subst hn
      exact (by decide +kernel : ∀ k < 7, ((Demo.sh7[k]?).getD (Demo.cf 0 0)).r.isfinite = true ∧ ((Demo.sh7[k]?).getD (Demo.cf 0 0)).r.signbit = false ∧
        ((Demo.sh7[k]?).getD (Demo.cf 0 0)).i.isfinite = true) k hk
    · simp only [Demo.sys7, Demo.env7, hn, if_false]
      exact ⟨rfl, by decide, rfl⟩

/-- What `resdetect` makes of a row of seven equal samples with the bundled transform. -/
theorem flatHistory {v : Fl} {lw lh : Option (List Res)} {k : Option Method} (hk : ValidMethod? k)
    (hr : lists (resdetect Demo.sys7 (some (List.replicate 7 v)) 1 7 1 .all k (some half) Demo.w0) = some (RDEOK, lw, lh)) :
    ∃ ev a cw ch, Returned Demo.sys7 k 7 1 (some half) ev a lw cw lh ch ∧ NoOom ev ∧ (analysed ev).length = 1 ∧ ∀ x ∈ analysed ev, FlatFrame (7 * 1) v x := by
  unfold lists at hr
  rw [Option.map_eq_some_iff] at hr
  obtain ⟨⟨⟨e, out⟩, wd'⟩, h1, h2⟩ := hr
  simp only [Prod.mk.injEq] at h2
  obtain ⟨rfl, rfl, rfl⟩ := h2
  obtain ⟨ev, a, h3, h4, h5, h6, _⟩ := C14_resdetect_history (Demo.lp64_build _ _) hk half_valid7
    (by rw [List.length_replicate]; decide +kernel) (by simp) Demo.w0_wf h1
  have h7 := (all_analysed h5).1
  have h8 : framesOf (List.replicate 7 v) 7 1 1 = [List.replicate 7 v] := rfl
  rw [h8] at h6
  refine ⟨ev, a, _, _, h3, h4, by rw [h7]; simpa using congrArg List.length h6, ?_⟩
  rw [h7]
  simp only [List.map_cons, List.map_nil, List.map_eq_cons_iff, List.map_eq_nil_iff] at h6
  obtain ⟨x, _, rfl, h6, rfl⟩ := h6
  intro y hy
  rw [List.mem_singleton] at hy
  subst hy
  exact ⟨_, h6, rfl⟩

end Demo

/-- **C98** A picture of one colour other than black has no more content than a black one, but the property is false for it: rounding errors of the bundled
transform are taken for content. In a row of seven samples that are all 1 two smaller widths are found, with full confidence. -/
theorem C98_flat_fails : ∃ (s : Sys) (m : Option Method) (w h : ℕ) (p : Option Params) (ev : List (Call × Obs)) (a : Analysis) (l : List Res) (rh : Option (List Res))
    (cw ch : ℕ) (v : Fl), Build s ∧ Precise s.cfg ∧ ValidMethod? m ∧ ValidParams? s.cfg p ∧ NoOom ev ∧ Returned s m w h p ev a (some l) cw rh ch ∧
    (analysed ev).length = 1 ∧ KeepsBlack s ∧ (∀ x ∈ analysed ev, FlatFrame (w * h) v x) ∧
    0 < val (s.cfg.inter.conv (effParams s.cfg (effMethod m) p).threshold) ∧ ⟨3, .fin false 1⟩ ∈ l ∧ ⟨4, .fin false 1⟩ ∈ l := by
  obtain ⟨ev, a, cw, ch, h1, h2, h3, h4⟩ := Demo.flatHistory (v := .fin false 1) (k := none) (lw := some [⟨3, .fin false 1⟩, ⟨4, .fin false 1⟩, ⟨7, .fin true (-1)⟩])
    (lh := some [⟨1, .fin true (-1)⟩]) Demo.none_method (by decide +kernel)
  exact ⟨Demo.sys7, none, 7, 1, some Demo.half, ev, a, _, _, cw, ch, _, Demo.lp64_build _ _, Demo.precise7, Demo.none_method, Demo.half_valid7, h2, h1, h3,
    Or.inl ⟨rfl, Demo.tables7⟩, h4, by decide +kernel, by simp, by simp⟩

/-- The hypotheses of `C98_black` can be met: a black row of seven samples with the bundled transform. -/
example : ∃ ev a l cw rh ch, Returned Demo.sys7 none 7 1 (some Demo.half) ev a (some l) cw rh ch ∧ l = [sentinel 7] := by
  obtain ⟨r, hr⟩ : ∃ r, lists (resdetect Demo.sys7 (some (List.replicate 7 (.fin false 0))) 1 7 1 .all none (some Demo.half) Demo.w0) = some (RDEOK, some [⟨7, .fin true (-1)⟩], r) :=
    ⟨some [⟨1, .fin true (-1)⟩], by decide +kernel⟩
  obtain ⟨l, hl⟩ : ∃ l : List Res, [⟨7, .fin true (-1)⟩] = l := ⟨_, rfl⟩
  rw [hl] at hr
  clear hl
  obtain ⟨ev, a, cw, ch, h1, h2, h3, h4⟩ := Demo.flatHistory Demo.none_method hr
  have := (C98_black (s := Demo.sys7) (Demo.lp64_build _ _) Demo.precise7 Demo.none_method Demo.half_valid7 h2 h1 (by rw [h3]; decide +kernel) (Or.inl ⟨rfl, Demo.tables7⟩)
    (by decide) (fun x hx => by
      obtain ⟨image, o1, o2⟩ := h4 x hx
      exact ⟨image, o1, by rw [o2]; exact fun v hv => List.eq_of_mem_replicate hv⟩)).1 l rfl
  exact ⟨ev, a, l, cw, _, ch, h1, this.2 (by decide +kernel)⟩

end Verif.Props
