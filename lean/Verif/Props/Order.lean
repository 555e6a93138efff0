import Verif.Props.Repeat
import Verif.Props.History
import Verif.Proofs.Order

/-! # The order of the frames (C97) -/

namespace Verif.Props

open Spec

variable {s : Sys} {m : Option Method} {p : Option Params} {w h : ℕ} {ev ev' : List (Call × Obs)} {a a' : Analysis}
  {rw rh rw' rh' : Option (List Res)} {cw ch cw' ch' : ℕ}

/-- The frames of `ys` are those of `xs` in some order. -/
def Reordered (n : ℕ) (xs ys : List (Call × Obs)) : Prop := ∃ zs : List (Call × Obs), zs.Perm xs ∧ List.Forall₂ (SameFrame n) zs ys

theorem Reordered.length {n : ℕ} {xs ys : List (Call × Obs)} (h : Reordered n xs ys) : ys.length = xs.length := by
  obtain ⟨zs, h1, h2⟩ := h
  rw [← h2.length_eq, h1.length_eq]

/-- Equal frames have equal spectra. -/
theorem spectra_repeat (hs : Build s) (hm : ValidMethod? m) (hp : ValidParams? s.cfg p) (hr : Reach s m w h p ev a) (hr' : Reach s m w h p ev' a')
    {xs ys : List (Call × Obs)} (hsub : ∀ x ∈ xs, x ∈ ev) (hframes : List.Forall₂ (SameFrame (w * h)) xs ys)
    (hsafe : s.cfg.backend = .fftw ∨ (Smooth w ∧ Smooth h) ∨ (∀ x ∈ xs, Plenty x.1.world) ∧ ∀ y ∈ ys, Plenty y.1.world)
    {fs fs' : List (List Fl)} (h1 : List.Forall₂ (fun x f => Spectrum s a x.1 f) xs fs) (h1' : List.Forall₂ (fun x f => Spectrum s a' x.1 f) ys fs') :
    fs = fs' := by
  induction hframes generalizing fs fs' with
  | nil => cases h1; cases h1'; rfl
  | cons h _ ih =>
    cases h1 with
    | cons k1 k2 =>
      cases h1' with
      | cons k1' k2' =>
        congr 1
        · refine spectrum_repeats hs hm hp hr hr' (hsub _ (by simp)) h k1 k1' ?_
          rcases hsafe with hb | hb | ⟨hb, hb'⟩
          · exact Or.inl hb
          · exact Or.inr (Or.inl hb)
          · refine Or.inr (Or.inr fun x hx => ?_)
            simp only [List.mem_cons, List.not_mem_nil, or_false] at hx
            rcases hx with rfl | rfl
            · exact hb _ (by simp)
            · exact hb' _ (by simp)
        · refine ih (fun x hx => hsub x (by simp [hx])) ?_ k2 k2'
          rcases hsafe with hb | hb | ⟨hb, hb'⟩
          · exact Or.inl hb
          · exact Or.inr (Or.inl hb)
          · exact Or.inr (Or.inr ⟨fun x hx => hb x (by simp [hx]), fun x hx => hb' x (by simp [hx])⟩)

/-- The same frames in another order have the same spectra in that order. -/
theorem spectra_reordered (hs : Build s) (hm : ValidMethod? m) (hp : ValidParams? s.cfg p) (hr : Reach s m w h p ev a) (hr' : Reach s m w h p ev' a')
    (hframes : Reordered (w * h) (analysed ev) (analysed ev')) (hsafe : Unaffected s w h (analysed ev ++ analysed ev'))
    {fs fs' : List (List Fl)} (h1 : Spectra s a ev fs) (h1' : Spectra s a' ev' fs') : fs.Perm fs' := by
  obtain ⟨zs, hz, hframes⟩ := hframes
  obtain ⟨gs, h2, h3⟩ := List.perm_comp_forall₂ hz h1
  have : gs = fs' := by
    refine spectra_repeat hs hm hp hr hr' (fun x hx => List.mem_of_mem_filter (hz.mem_iff.mp hx)) hframes ?_ h2 h1'
    rcases hsafe with hb | hb | hb
    · exact Or.inl hb
    · exact Or.inr (Or.inl hb)
    · exact Or.inr (Or.inr ⟨fun x hx => hb x (by simp [hz.mem_iff.mp hx]), fun x hx => hb x (by simp [hx])⟩)
  subst this
  exact h3.symm

theorem perm_pair {α : Type} {a b : α} {l : List α} (h : [a, b].Perm l) : l = [a, b] ∨ l = [b, a] := by
  match l, h.length_eq with
  | [c, d], _ =>
    have hc : c = a ∨ c = b := by simpa using h.mem_iff.mpr (show c ∈ [c, d] by simp)
    rcases hc with rfl | rfl
    · have := h.cons_inv
      rw [List.singleton_perm.mp this]
      exact Or.inl rfl
    · have := ((List.Perm.swap _ _ _).trans h).cons_inv
      rw [List.singleton_perm.mp this]
      exact Or.inr rfl

/-- **C97** Two frames may be given in either order: the lists are the same. -/
theorem C97_two (hs : Build s) (hpr : Precise s.cfg) (hm : ValidMethod? m) (hp : ValidParams? s.cfg p) (hno : NoOom ev) (hno' : NoOom ev')
    (hr : Returned s m w h p ev a rw cw rh ch) (hr' : Returned s m w h p ev' a' rw' cw' rh' ch') (hk : 2 ≤ s.cfg.sizeMax) (htwo : (analysed ev).length ≤ 2)
    (hframes : Reordered (w * h) (analysed ev) (analysed ev')) (hsafe : Unaffected s w h (analysed ev ++ analysed ev')) :
    (∀ l l', rw = some l → rw' = some l' → l = l') ∧ (∀ l l', rh = some l → rh' = some l' → l = l') := by
  have hF := hs.wf.inter_wf
  obtain ⟨fs, h1, -, -⟩ := (returned_got hs hm hp hr).inv.scores hno
  obtain ⟨fs', h1', -, -⟩ := (returned_got hs hm hp hr').inv.scores hno'
  have hperm := spectra_reordered hs hm hp hr.1 hr'.1 hframes hsafe h1 h1'
  have hlen := hframes.length
  obtain ⟨w0, h0, wp, hp', r0, _⟩ := returned_sizes hs hpr hm hp hr
  obtain ⟨hne, hfl, hX, hY⟩ := returned_listed hs hm hp hno (by omega) hr h1
  obtain ⟨_, _, hX', hY'⟩ := returned_listed hs hm hp hno' (by omega) hr' h1'
  have key : ∀ (g : List Fl → ℕ → ℕ → Fl) (n range x : ℕ), n ≤ 2 ^ s.cfg.inter.p → range ≤ 2 ^ s.cfg.inter.p → 0 < n → 0 < range →
      meanAt s (effMethod m).func g n range fs x = meanAt s (effMethod m).func g n range fs' x := by
    intro g n range x b1 b2 b3 b4
    match fs, hne, hfl, hperm with
    | [f], _, _, hperm => rw [List.singleton_perm.mp hperm]
    | [f, f2], _, _, hperm =>
      unfold meanAt
      rw [← hperm.length_eq]
      congr 1
      rcases perm_pair hperm with rfl | rfl
      · rfl
      · exact total_swap hF hpr b1 b2 b3 b4 f f2
    | f :: f2 :: f3 :: tl, _, hfl, _ => simp at hfl; omega
  exact ⟨fun l l' e e' => (hX l e).congr (hX' l' e') fun hrg x => key _ _ _ x hp' (by omega) h0 r0,
    fun l l' e e' => (hY l e).congr (hY' l' e') fun hrg x => key _ _ _ x wp (by omega) w0 r0⟩

/-- **C97** A frame given twice counts as one: the lists are those of the frame alone. -/
theorem C97_twice (hs : Build s) (hpr : Precise s.cfg) (hm : ValidMethod? m) (hp : ValidParams? s.cfg p) (hno : NoOom ev) (hno' : NoOom ev')
    (hr : Returned s m w h p ev a rw cw rh ch) (hr' : Returned s m w h p ev' a' rw' cw' rh' ch') (hk : 2 ≤ s.cfg.sizeMax) {x y z : Call × Obs} (hone : analysed ev = [x])
    (htwo : analysed ev' = [y, z]) (hy : SameFrame (w * h) x y) (hz : SameFrame (w * h) x z) (hsafe : Unaffected s w h [x, y, z]) :
    (∀ l l', rw = some l → rw' = some l' → l = l') ∧ (∀ l l', rh = some l → rh' = some l' → l = l') := by
  have hF := hs.wf.inter_wf
  obtain ⟨fs, h1, -, -⟩ := (returned_got hs hm hp hr).inv.scores hno
  obtain ⟨fs', h1', -, -⟩ := (returned_got hs hm hp hr').inv.scores hno'
  obtain ⟨w0, h0, wp, hp', r0, _⟩ := returned_sizes hs hpr hm hp hr
  obtain ⟨_, _, hX, hY⟩ := returned_listed hs hm hp hno (by rw [hone]; simp; omega) hr h1
  obtain ⟨_, _, hX', hY'⟩ := returned_listed hs hm hp hno' (by rw [htwo]; simpa using hk) hr' h1'
  have hx : x ∈ ev := List.mem_of_mem_filter (show x ∈ analysed ev by rw [hone]; simp)
  obtain ⟨f, rfl, k1⟩ : ∃ f, fs = [f] ∧ Spectrum s a x.1 f := by
    rw [hone] at h1
    cases h1 with | cons k1 k2 => cases k2; exact ⟨_, rfl, k1⟩
  obtain rfl : fs' = [f, f] := by
    rw [htwo] at h1'
    cases h1' with
    | cons k2 k3 =>
      cases k3 with
      | cons k3 k4 =>
        cases k4
        rw [spectrum_repeats hs hm hp hr.1 hr'.1 hx hy k1 k2 (hsafe.imp_right (Or.imp_right fun hb x hx => hb x (by
            simp only [List.mem_cons, List.not_mem_nil, or_false] at hx ⊢; tauto))),
          ← spectrum_repeats hs hm hp hr.1 hr'.1 hx hz k1 k3 (hsafe.imp_right (Or.imp_right fun hb x hx => hb x (by
            simp only [List.mem_cons, List.not_mem_nil, or_false] at hx ⊢; tauto)))]
        rw [← spectrum_repeats hs hm hp hr.1 hr'.1 hx hy k1 k2 (hsafe.imp_right (Or.imp_right fun hb x hx => hb x (by
            simp only [List.mem_cons, List.not_mem_nil, or_false] at hx ⊢; tauto)))]
  exact ⟨fun l l' e e' => (hX l e).congr (hX' l' e') fun hrg x => (mean_twice hF hpr hp' (by omega) h0 r0 f).symm,
    fun l l' e e' => (hY l e).congr (hY' l' e') fun hrg x => (mean_twice hF hpr wp (by omega) w0 r0 f).symm⟩

/-- Every candidate of `l` for a side of `len` has a counterpart in `l'`, with a confidence that differs by at most `ε`, or its confidence is
within `δ` of the threshold `t`. -/
def Nearly (ε δ t : ℚ) (len : ℕ) (l l' : List Res) : Prop :=
  ∀ r ∈ l, r.index ≠ len → ∃ v, r.confidence = .fin false v ∧
    ((∃ r' ∈ l', r'.index = r.index ∧ ∃ v', r'.confidence = .fin false v' ∧ |v - v'| ≤ ε) ∨ |v - t| ≤ δ)

theorem listed_nearly (hs : Build s) (hpr : Precise s.cfg) {d : Detect} {q : Params} {len n : ℕ} {g : List Fl → ℕ → ℕ → Fl} {fs fs' : List (List Fl)}
    {l l' : List Res} (hn : 0 < n) (hn' : n ≤ s.cfg.intMax) (hlen : len ≤ s.cfg.intMax) (hr : 0 < q.range) (ht : InUnit q.threshold)
    (h : Listed s d q len g n fs l) (h' : Listed s d q len g n fs' l') (hperm : fs.Perm fs') (hne : fs ≠ []) (hk : fs.length ≤ 2 ^ s.cfg.inter.p) :
    Nearly (2 * (fs.length + 1) * pow2 (-s.cfg.inter.p) + pow2 (-23)) ((2 * fs.length + 3) * pow2 (-s.cfg.inter.p) + pow2 (-24))
      (val q.threshold) len l l' := by
  have hF := hs.wf.inter_wf
  intro r hrl hri
  obtain ⟨init, e1, _, e2⟩ := h.parts
  obtain ⟨init', e1', _, e2'⟩ := h'.parts
  rw [e1] at hrl
  rcases List.mem_append.mp hrl with hrl | hrl
  swap
  · rw [List.mem_singleton] at hrl
    rw [hrl] at hri
    exact absurd rfl hri
  obtain ⟨b1, b2, b3, b4, b5⟩ := (e2 r).mp hrl
  have c1 : n ≤ 2 ^ s.cfg.inter.p := le_trans hn' hpr.sides
  have c2 : q.range ≤ s.cfg.intMax := by omega
  have hne' : fs' ≠ [] := fun e => hne (by rw [e] at hperm; exact hperm.eq_nil)
  obtain ⟨u, m1, m2, m3⟩ := meanAt_unit hF hpr (d := d) (g := g) (x := r.index) c1 (le_trans c2 hpr.sides) hn hr hk hne
  obtain ⟨u', m1', m2', m3'⟩ := meanAt_unit hF hpr (d := d) (g := g) (x := r.index) c1 (le_trans c2 hpr.sides) hn hr
    (by rw [← hperm.length_eq]; exact hk) hne'
  have hd := C13_order hs hpr (d := d) (g := g) (x := r.index) hn hn' hr c2 hperm hne hk
  rw [m1, m1'] at hd
  simp only [val] at hd
  have w32 : binary32.WF := binary32_wf
  have r1 := binary32.rnd_err w32 (K := 1) le_rfl m2 (by simpa using m3)
  have r1' := binary32.rnd_err w32 (K := 1) le_rfl m2' (by simpa using m3')
  have e24 : pow2 (-(binary32.p : ℤ)) = pow2 (-24) := rfl
  have e23 : pow2 (-23) = pow2 (-24) + pow2 (-24) := by decide +kernel
  rw [e24, Nat.cast_one, one_mul] at r1 r1'
  refine ⟨binary32.rnd u, by rw [b5, m1, conv_unit_false w32 m2 m3], ?_⟩
  have ht0 := ht
  obtain ⟨b, t, et, t0, t1⟩ := ht
  rw [et] at b4 ht0 ⊢
  obtain ⟨b', et'⟩ := conv_unit_eq hF ht0
  have rt := s.cfg.inter.rnd_err hF (K := 1) le_rfl t0 (by simpa using t1)
  rw [Nat.cast_one, one_mul] at rt
  have hge : ∀ v : ℚ, (Fl.fin false v).ge (.fin b' (s.cfg.inter.rnd t)) = true ↔ s.cfg.inter.rnd t ≤ v := by
    intro v; simp [Fl.ge, Fl.lt]
  rw [m1, et', hge] at b4
  by_cases hc : s.cfg.inter.rnd t ≤ u'
  · left
    refine ⟨⟨r.index, .fin false (binary32.rnd u')⟩, ?_, rfl, _, rfl, ?_⟩
    · rw [e1']
      refine List.mem_append_left _ ((e2' _).mpr ⟨b1, b2, b3, ?_, ?_⟩)
      · rw [m1', et, et', hge]; exact hc
      · rw [m1', conv_unit_false w32 m2' m3']
    · rw [e23]
      rw [abs_le] at *
      constructor <;> linarith [hd.1, hd.2, r1.1, r1.2, r1'.1, r1'.2]
  · right
    simp only [val]
    rw [not_le] at hc
    rw [abs_le] at *
    constructor <;> linarith [hd.1, hd.2, r1.1, r1.2, rt.1, rt.2]

/-- **C97** The order of any number of frames matters to rounding only: each candidate found in one order is found in the other, with a confidence that
differs by at most `2 (k + 1) / 2^p + 2^-23` after `k` frames, unless its confidence is within `(2 k + 3) / 2^p + 2^-24` of the threshold, where `p` is
the precision of the intermediate type. Partial: the lists need not be equal, see `C97_order_fails`. -/
theorem C97_order_partial (hs : Build s) (hpr : Precise s.cfg) (hm : ValidMethod? m) (hp : ValidParams? s.cfg p) (hno : NoOom ev) (hno' : NoOom ev')
    (hr : Returned s m w h p ev a rw cw rh ch) (hr' : Returned s m w h p ev' a' rw' cw' rh' ch') {k : ℕ} (hk : (analysed ev).length = k)
    (hkp : k ≤ 2 ^ s.cfg.inter.p) (hks : k ≤ s.cfg.sizeMax)
    (hframes : Reordered (w * h) (analysed ev) (analysed ev')) (hsafe : Unaffected s w h (analysed ev ++ analysed ev')) :
    let ε : ℚ := 2 * (k + 1) * pow2 (-s.cfg.inter.p) + pow2 (-23)
    let δ : ℚ := (2 * k + 3) * pow2 (-s.cfg.inter.p) + pow2 (-24)
    let t := val (effParams s.cfg (effMethod m) p).threshold
    (∀ l l', rw = some l → rw' = some l' → Nearly ε δ t w l l' ∧ Nearly ε δ t w l' l) ∧
    (∀ l l', rh = some l → rh' = some l' → Nearly ε δ t h l l' ∧ Nearly ε δ t h l' l) := by
  obtain ⟨fs, h1, -, -⟩ := (returned_got hs hm hp hr).inv.scores hno
  obtain ⟨fs', h1', -, -⟩ := (returned_got hs hm hp hr').inv.scores hno'
  have hperm := spectra_reordered hs hm hp hr.1 hr'.1 hframes hsafe h1 h1'
  have hlen := hframes.length
  obtain ⟨w0, h0, wp, hp', r0, ht⟩ := returned_sizes hs hpr hm hp hr
  obtain ⟨hne, hfl, hX, hY⟩ := returned_listed hs hm hp hno (by omega) hr h1
  obtain ⟨hne', hfl', hX', hY'⟩ := returned_listed hs hm hp hno' (by omega) hr' h1'
  have hg := returned_got hs hm hp hr
  obtain ⟨sw, sh⟩ : w ≤ s.cfg.intMax ∧ h ≤ s.cfg.intMax := by
    rw [← hg.inv.width, ← hg.inv.height]
    exact ⟨le_trans hg.inv.good.sideX sideMax_le, le_trans hg.inv.good.sideY sideMax_le⟩
  have ek : fs.length = k := by omega
  have ek' : fs'.length = k := by omega
  intro ε δ t
  constructor
  · intro l l' e e'
    have n1 := listed_nearly hs hpr h0 sh sw r0 ht (hX l e) (hX' l' e') hperm hne (by omega)
    have n2 := listed_nearly hs hpr h0 sh sw r0 ht (hX' l' e') (hX l e) hperm.symm hne' (by omega)
    rw [ek] at n1
    rw [ek'] at n2
    exact ⟨n1, n2⟩
  · intro l l' e e'
    have n1 := listed_nearly hs hpr w0 sw sh r0 ht (hY l e) (hY' l' e') hperm hne (by omega)
    have n2 := listed_nearly hs hpr w0 sw sh r0 ht (hY' l' e') (hY l e) hperm.symm hne' (by omega)
    rw [ek] at n1
    rw [ek'] at n2
    exact ⟨n1, n2⟩

namespace Demo

/-- A frame of 3 by 6 samples; at its middle column `k` of the six rows change sign. -/
def shares (k : ℕ) : List Fl := ((List.range 6).map (fun i => [.fin false 1, .fin false 1, if i < k then .fin true (-1) else .fin false 1])).flatten

def half : Params := ⟨1, .fin false (1 / 2), 0⟩

theorem half_valid : ValidParams Demo.sys.cfg half :=
  ⟨by simp [half], by simp [half, Demo.sys, lp64], Or.inr ⟨false, 1 / 2, rfl, by norm_num, by norm_num⟩, by simp [half]⟩

/-- What `resdetect` makes of frames in memory on the demonstration platform. -/
theorem halfHistory {frames : List (List Fl)} {lw lh : Option (List Res)} {n : ℕ} (himg : frames.flatten.length ≤ 1000) (hlen : n * (3 * 6) ≤ frames.flatten.length)
    (hfr : framesOf frames.flatten 3 6 n = frames)
    (hr : lists (resdetect Demo.sys (some frames.flatten) n 3 6 .all none (some half) Demo.w0) = some (RDEOK, lw, lh)) :
    ∃ ev a cw ch, Returned Demo.sys none 3 6 (some half) ev a lw cw lh ch ∧ NoOom ev ∧ analysed ev = ev ∧
      ev.map (fun x => x.1.op) = frames.map (fun f => Op.analyze (some f)) := by
  unfold lists at hr
  rw [Option.map_eq_some_iff] at hr
  obtain ⟨⟨⟨e, out⟩, wd'⟩, h1, h2⟩ := hr
  simp only [Prod.mk.injEq] at h2
  obtain ⟨rfl, rfl, rfl⟩ := h2
  obtain ⟨ev, a, h3, h4, h5, h6, _⟩ := C14_resdetect_history Demo.sys_build Demo.none_method (by rintro _ h; cases h; exact half_valid)
    (le_trans himg (by decide +kernel)) hlen Demo.w0_wf h1
  exact ⟨ev, a, _, _, h3, h4, (all_analysed h5).1, by rw [h6, hfr]⟩

/-- Calls with permuted frames are reordered. -/
theorem halfReordered {n : ℕ} {frames frames' : List (List Fl)} (hperm : frames'.Perm frames) {ev ev' : List (Call × Obs)}
    (h : ev.map (fun x => x.1.op) = frames.map (fun f => Op.analyze (some f))) (h' : ev'.map (fun x => x.1.op) = frames'.map (fun f => Op.analyze (some f))) :
    Reordered n ev ev' := by
  have h1 : List.Forall₂ (fun f (x : Call × Obs) => Op.analyze (some f) = x.1.op) frames ev := by
    rw [← List.forall₂_map_left_iff (f := fun f => Op.analyze (some f)) (R := fun o (x : Call × Obs) => o = x.1.op), ← h, List.forall₂_map_left_iff,
      List.forall₂_same]
    exact fun _ _ => rfl
  obtain ⟨zs, h2, h3⟩ := List.perm_comp_forall₂ hperm h1
  refine ⟨zs, h3, sameFrames (List.forall₂_same.mpr fun _ _ => rfl) ?_ h'⟩
  clear h h' h1 h3 hperm
  induction h2 with
  | nil => rfl
  | cons h _ ih => rw [List.map_cons, List.map_cons, ih, h]

def halfFound : List Res := [⟨1, .fin false (1 / 2)⟩, ⟨3, .fin true (-1)⟩]

end Demo

/-- **C97** With three frames the order can decide whether a width is reported. Two, three and four of the six rows of these frames speak for the width 1, one half on
average. In this order the mean is exactly the threshold one half, and the width is listed; with the first frame moved to the end the sum is rounded down, and it is not. -/
theorem C97_order_fails : ∃ (s : Sys) (m : Option Method) (w h : ℕ) (p : Option Params) (ev ev' : List (Call × Obs)) (a a' : Analysis)
    (l l' : List Res) (rh rh' : Option (List Res)) (cw cw' ch ch' : ℕ), Build s ∧ Precise s.cfg ∧ ValidMethod? m ∧ ValidParams? s.cfg p ∧ NoOom ev ∧ NoOom ev' ∧
    Returned s m w h p ev a (some l) cw rh ch ∧ Returned s m w h p ev' a' (some l') cw' rh' ch' ∧ (analysed ev).length = 3 ∧
    Reordered (w * h) (analysed ev) (analysed ev') ∧ Unaffected s w h (analysed ev ++ analysed ev') ∧
    (∃ v, ⟨1, .fin false v⟩ ∈ l) ∧ ∀ r ∈ l', r.index ≠ 1 := by
  obtain ⟨ev, a, cw, ch, h1, h2, h3, h4⟩ := Demo.halfHistory (frames := [Demo.shares 2, Demo.shares 3, Demo.shares 4]) (n := 3)
    (lw := some Demo.halfFound) (lh := some [⟨6, .fin true (-1)⟩]) (by decide +kernel) (by decide +kernel) (by decide +kernel) (by decide +kernel)
  obtain ⟨ev', a', cw', ch', h1', h2', h3', h4'⟩ := Demo.halfHistory (frames := [Demo.shares 3, Demo.shares 4, Demo.shares 2]) (n := 3)
    (lw := some [⟨3, .fin true (-1)⟩]) (lh := some [⟨6, .fin true (-1)⟩]) (by decide +kernel) (by decide +kernel) (by decide +kernel) (by decide +kernel)
  refine ⟨Demo.sys, none, 3, 6, some Demo.half, ev, ev', a, a', _, _, _, _, cw, cw', ch, ch', Demo.sys_build, demo_precise, Demo.none_method,
    by rintro _ h; cases h; exact Demo.half_valid, h2, h2', h1, h1', ?_, ?_, Or.inl rfl, ⟨1 / 2, by simp [Demo.halfFound]⟩, ?_⟩
  · rw [h3]
    simpa using congrArg List.length h4
  · rw [h3, h3']
    exact Demo.halfReordered (by decide +kernel) h4 h4'
  · intro r hr
    rw [List.mem_singleton] at hr
    rw [hr]
    decide

/-- The hypotheses of `C97_two` and, with it, of `C97_twice` can be met, with a width found. -/
example : ∃ ev a cw ch rh ev' a' cw' ch' rh', Returned Demo.sys none 3 6 (some Demo.half) ev a (some Demo.halfFound) cw rh ch ∧
    Returned Demo.sys none 3 6 (some Demo.half) ev' a' (some Demo.halfFound) cw' rh' ch' ∧ (analysed ev).length = 2 ∧
    Reordered (3 * 6) (analysed ev) (analysed ev') ∧ ¬ List.Forall₂ (SameFrame (3 * 6)) (analysed ev) (analysed ev') := by
  obtain ⟨ev, a, cw, ch, h1, h2, h3, h4⟩ := Demo.halfHistory (frames := [Demo.shares 2, Demo.shares 4]) (n := 2)
    (lw := some Demo.halfFound) (lh := some [⟨6, .fin true (-1)⟩]) (by decide +kernel) (by decide +kernel) (by decide +kernel) (by decide +kernel)
  obtain ⟨l, ev', a', cw', ch', h1', h2', h3', h4'⟩ : ∃ l ev' a' cw' ch', Returned Demo.sys none 3 6 (some Demo.half) ev' a' (some l) cw' (some [⟨6, .fin true (-1)⟩]) ch' ∧
      NoOom ev' ∧ analysed ev' = ev' ∧ ev'.map (fun x => x.1.op) = [Demo.shares 4, Demo.shares 2].map (fun f => Op.analyze (some f)) :=
    ⟨Demo.halfFound, Demo.halfHistory (frames := [Demo.shares 4, Demo.shares 2]) (n := 2) (by decide +kernel) (by decide +kernel) (by decide +kernel) (by decide +kernel)⟩
  have hre : Reordered (3 * 6) (analysed ev) (analysed ev') := by
    rw [h3, h3']
    exact Demo.halfReordered (List.Perm.swap _ _ _) h4 h4'
  have hlen : (analysed ev).length = 2 := by
    rw [h3]
    simpa using congrArg List.length h4
  have := (C97_two Demo.sys_build demo_precise Demo.none_method (by rintro _ h; cases h; exact Demo.half_valid) h2 h2' h1 h1' (by decide +kernel)
    hlen.le hre (Or.inl rfl)).1 _ _ rfl rfl
  subst this
  refine ⟨ev, a, cw, ch, _, ev', a', cw', ch', _, h1, h1', hlen, hre, ?_⟩
  rw [h3, h3']
  intro hc
  match ev, ev', h4, h4', hc with
  | x :: _, y :: _, h4, h4', .cons ⟨im, im', e1, e2, e3⟩ _ =>
    simp only [List.map_cons, List.cons.injEq] at h4 h4'
    rw [h4.1] at e1
    rw [h4'.1] at e2
    cases e1
    cases e2
    revert e3
    decide +kernel

/-- A frame with a width found, given twice. -/
example : ∃ ev a cw ch rh ev' a' cw' ch' rh', Returned Demo.sys none 3 6 (some Demo.half) ev a (some Demo.halfFound) cw rh ch ∧
    Returned Demo.sys none 3 6 (some Demo.half) ev' a' (some Demo.halfFound) cw' rh' ch' ∧ ∃ x y z, analysed ev = [x] ∧ analysed ev' = [y, z] ∧
      SameFrame (3 * 6) x y ∧ SameFrame (3 * 6) x z ∧ Unaffected Demo.sys 3 6 [x, y, z] := by
  obtain ⟨ev, a, cw, ch, h1, h2, h3, h4⟩ := Demo.halfHistory (frames := [Demo.shares 3]) (n := 1)
    (lw := some Demo.halfFound) (lh := some [⟨6, .fin true (-1)⟩]) (by decide +kernel) (by decide +kernel) (by decide +kernel) (by decide +kernel)
  obtain ⟨l, ev', a', cw', ch', h1', h2', h3', h4'⟩ : ∃ l ev' a' cw' ch', Returned Demo.sys none 3 6 (some Demo.half) ev' a' (some l) cw' (some [⟨6, .fin true (-1)⟩]) ch' ∧
      NoOom ev' ∧ analysed ev' = ev' ∧ ev'.map (fun x => x.1.op) = [Demo.shares 3, Demo.shares 3].map (fun f => Op.analyze (some f)) :=
    ⟨Demo.halfFound, Demo.halfHistory (frames := [Demo.shares 3, Demo.shares 3]) (n := 2) (by decide +kernel) (by decide +kernel) (by decide +kernel) (by decide +kernel)⟩
  simp only [List.map_cons, List.map_nil, List.map_eq_cons_iff, List.map_eq_nil_iff] at h4 h4'
  obtain ⟨x, _, rfl, h4, rfl⟩ := h4
  obtain ⟨y, _, rfl, h5, z, _, rfl, h6, rfl⟩ := h4'
  have hy : SameFrame (3 * 6) x y := ⟨_, _, h4, h5, rfl⟩
  have hz : SameFrame (3 * 6) x z := ⟨_, _, h4, h6, rfl⟩
  have := (C97_twice Demo.sys_build demo_precise Demo.none_method (by rintro _ h; cases h; exact Demo.half_valid) h2 h2' h1 h1' (by decide +kernel)
    h3 h3' hy hz (Or.inl rfl)).1 _ _ rfl rfl
  subst this
  exact ⟨_, a, cw, ch, _, _, a', cw', ch', _, h1, h1', x, y, z, h3, h3', hy, hz, Or.inl rfl⟩

/-- The hypotheses of `C97_order_partial` can be met, here by the frames of `C97_order_fails`: the width missing from one of the lists has a confidence
next to the threshold. -/
example : ∃ (l : List Res) (v : ℚ), ⟨1, .fin false v⟩ ∈ l ∧ Nearly (2 * (3 + 1) * pow2 (-53) + pow2 (-23)) ((2 * 3 + 3) * pow2 (-53) + pow2 (-24)) (1 / 2) 3 l
    [⟨3, .fin true (-1)⟩] := by
  obtain ⟨ev, a, cw, ch, h1, h2, h3, h4⟩ := Demo.halfHistory (frames := [Demo.shares 2, Demo.shares 3, Demo.shares 4]) (n := 3)
    (lw := some Demo.halfFound) (lh := some [⟨6, .fin true (-1)⟩]) (by decide +kernel) (by decide +kernel) (by decide +kernel) (by decide +kernel)
  obtain ⟨ev', a', cw', ch', h1', h2', h3', h4'⟩ := Demo.halfHistory (frames := [Demo.shares 3, Demo.shares 4, Demo.shares 2]) (n := 3)
    (lw := some [⟨3, .fin true (-1)⟩]) (lh := some [⟨6, .fin true (-1)⟩]) (by decide +kernel) (by decide +kernel) (by decide +kernel) (by decide +kernel)
  have hlen : (analysed ev).length = 3 := by
    rw [h3]
    simpa using congrArg List.length h4
  have := ((C97_order_partial Demo.sys_build demo_precise Demo.none_method (by rintro _ h; cases h; exact Demo.half_valid) h2 h2' h1 h1' hlen
    (by decide +kernel) (by decide +kernel) (by rw [h3, h3']; exact Demo.halfReordered (by decide +kernel) h4 h4') (Or.inl rfl)).1 _ _ rfl rfl).1
  exact ⟨_, 1 / 2, by simp [Demo.halfFound], this⟩

end Verif.Props
