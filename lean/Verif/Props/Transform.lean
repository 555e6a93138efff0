import Verif.Props.Scores
import Verif.Proofs.KissExact
import Verif.Proofs.KissStill
import Verif.Proofs.FullScore
import Verif.Spec.DemoTransform
import Verif.Spec.Image
import Mathlib.Analysis.Real.Pi.Bounds

/-! # The bundled transform, and the detection of enlarged images (C54 to C58) -/

namespace Verif.Props

open Spec

variable {s : Sys} {m : Option Method} {p : Option Params} {w h : ℕ} {ev : List (Call × Obs)} {a : Analysis}
  {rw rh : Option (List Res)} {cw ch : ℕ}

/-! ## C54 -/

/-- **C54** For every positive `int` length the factorisation ends and fits the table of 32 entries; the radices multiply
out to the length, each entry's second component is the product of the radices after it, and every radix is a prime or 4
(the only length with a trivial radix is 1). -/
theorem C54_factor {n : ℕ} (hn : 0 < n) (hlt : n < 2 ^ 32) :
    ∃ fs, kfFactor n = some fs ∧ fs.length ≤ 32 ∧ (fs.map Prod.fst).prod = n ∧
      (∀ i x, fs[i]? = some x → x.2 = ((fs.drop (i + 1)).map Prod.fst).prod) ∧
      (2 ≤ n → ∀ x ∈ fs, x.1 = 4 ∨ x.1.Prime) ∧ (n = 1 → fs = [(1, 1)]) := by
  obtain ⟨fs, h1, h2, h3, h4⟩ := kfFactor_spec hn hlt
  refine ⟨fs, h1, h3, h2.prod, h2.rest, fun h => kfFactor_prime h h1, ?_⟩
  rintro rfl
  have e : kfFactor 1 = some [(1, 1)] := by decide +kernel
  rw [e] at h1
  cases h1
  rfl

/-- **C54** For the lengths the plan accepts, setting up a transform of length `2*n` is defined: no `int` overflows and no
table is overrun; if memory suffices it yields a configuration for `n`, otherwise NULL. -/
theorem C54_alloc {c : Cfg} (hc : KissFits c) {n : ℕ} (h0 : 0 < n) (hn : n ≤ c.intMax / 3) (hp : n ≤ c.pixelMax) {wd : World}
    (hwd : wd.WF) : ∃ r wd', kissFftrAlloc c n wd = some (r, wd') ∧ (r = none → ∃ j, wd.sched j = false) ∧
      ∀ b st, r = some (b, st) → st.nfft = n ∧ kfFactor n = some st.factors := by
  obtain ⟨r, wd', L', e1, _, q⟩ := kissFftrAlloc_tri (F := ∃ j, wd.sched j = false) (L := []) hc h0 hn hp wd wd
    (Rel.init hwd (fun j hj => ⟨j, hj⟩))
  refine ⟨r, wd', e1, ?_, ?_⟩
  · rintro rfl
    rcases q with ⟨_, _, h⟩ | ⟨b, st, h, _⟩
    · exact h
    · cases h
  · rintro b st rfl
    rcases q with ⟨h, _⟩ | ⟨b', st', h, _, h2, _, h4⟩
    · cases h
    · cases h
      exact ⟨h2, by rw [← h2]; exact h4⟩

/-- A length with a radix 4, a repeated prime and a large prime. -/
example : kfFactor 4536 = some [(4, 1134), (2, 567), (3, 189), (3, 63), (3, 21), (3, 7), (7, 1)] := by decide +kernel

example : KissFits (lp64 .kiss) ∧ 715827882 ≤ (lp64 .kiss).intMax / 3 := by
  refine ⟨(Demo.lp64_build .kiss Demo.env).kiss rfl, by decide⟩

/-! ## C55 -/

/-- **C55** In exact arithmetic, with memory for its temporaries, `kiss_fft` computes the discrete Fourier transform of its
input, for every length. -/
theorem C55_fft {c : Cfg} {n : ℕ} (hn : 0 < n) (hlt : n < 2 ^ 32) (hint : 2 * n ≤ c.intMax) :
    ∃ st, kissFftAlloc n = some st ∧ ∀ (x : List (Cpx ℝ)) (wd : World), n ≤ x.length → Plenty wd →
      ∃ r wd', kissFft exact c st x wd = some (r, wd') ∧ wd'.live = wd.live ∧ r.length = n ∧
        ∀ k (hk : k < r.length), r[k].toC = dft n (fun j => ((x[j]?).getD ⟨0, 0⟩).toC) k := by
  obtain ⟨fs, h1, h2, _, _⟩ := kfFactor_spec hn hlt
  refine ⟨⟨n, fs⟩, by unfold kissFftAlloc; rw [h1]; rfl, ?_⟩
  intro x wd hx hpl
  obtain ⟨r, i, j, e, h3, h4⟩ := kissFft_det c (st := ⟨n, fs⟩) hint h2 hx wd (by simp) hpl
  have h3 : r.length = n := h3
  refine ⟨r, _, e, rfl, h3, ?_⟩
  intro k hk
  have := h4 k (by show k < n; omega)
  rw [cget, List.getElem?_eq_getElem hk] at this
  exact this

/-- **C55** In exact arithmetic, with memory for its temporaries, `kiss_fftr` computes the bins `0` to `n` of the discrete
Fourier transform of `2*n` real samples. -/
theorem C55_fftr {c : Cfg} {n : ℕ} (hn : 0 < n) (hlt : n < 2 ^ 32) (hint : 2 * n ≤ c.intMax) :
    ∃ st, kissFftAlloc n = some st ∧ ∀ (x : List ℝ) (out : List (Cpx ℝ)) (wd : World), x.length = 2 * n → n < out.length →
      Plenty wd → ∃ r wd', kissFftr exact c st x out wd = some (r, wd') ∧ wd'.live = wd.live ∧ r.length = out.length ∧
        ∀ k (hk : k < r.length), k ≤ n → r[k].toC = dft (2 * n) (fun j => (((x[j]?).getD 0 : ℝ) : ℂ)) k := by
  obtain ⟨fs, h1, h2, _, _⟩ := kfFactor_spec hn hlt
  refine ⟨⟨n, fs⟩, by unfold kissFftAlloc; rw [h1]; rfl, ?_⟩
  intro x out wd hx ho hpl
  obtain ⟨r, i, j, e, h3, h4⟩ := kissFftr_det c (st := ⟨n, fs⟩) hint h2 hx ho wd (by simp) hpl
  refine ⟨r, _, e, rfl, h3, ?_⟩
  intro k hk hkn
  have := h4 k hkn
  rw [cget, List.getElem?_eq_getElem hk] at this
  exact this

/-- The hypotheses of C55 can be met, with a large prime length. -/
example : ∃ st, kissFftAlloc 1009 = some st ∧ ∃ r wd', kissFft exact (lp64 .kiss) st (List.replicate 1009 ⟨1, 2⟩) Demo.w0 =
    some (r, wd') ∧ r.length = 1009 := by
  obtain ⟨st, h1, h2⟩ := C55_fft (c := lp64 .kiss) (n := 1009) (by norm_num) (by norm_num) (by decide +kernel)
  obtain ⟨r, wd', h3, _, h4, _⟩ := h2 (List.replicate 1009 ⟨1, 2⟩) Demo.w0 (by rw [List.length_replicate]) (fun _ => rfl)
  exact ⟨st, h1, r, wd', h3, h4⟩

/-! ## C56 -/

/-- **C56** In exact arithmetic, with enough memory, creating a plan and transforming a `w` x `h` image with it gives the
two-dimensional DCT-II of the image, for every size the backend accepts. -/
theorem C56_transform {c : Cfg} (hwf : c.WF) (hc : KissFits c) (hw : 0 < w) (hh : 0 < h) (hwp : w ≤ c.pixelMax)
    (hhp : h ≤ c.pixelMax) (hw3 : w ≤ c.intMax / 3) (hh3 : h ≤ c.intMax / 3) {wd : World} (hwd : wd.WF) (hpl : Plenty wd)
    (x : ℕ → ℕ → ℝ) (junk : Cpx ℝ) :
    ∃ plan wd1, kissCreatePlan c w h wd = some ((some plan, RDEOK), wd1) ∧
      ∀ f : List ℝ, f.length = w * h → (∀ i j, i < w → j < h → f[j * w + i]? = some (x i j)) →
        ∃ r wd2, kissTransform exact c junk plan f wd1 = some (r, wd2) ∧ r.length = w * h ∧
          ∀ u v, u < w → v < h → r[v * w + u]? = some (dct2 w h x u v) := by
  obtain ⟨⟨op, e⟩, wd1, L', e1, hrel, q⟩ := kissCreatePlan_tri (F := False) (L := []) hwf hc hw hh hwp hhp wd wd
    (Rel.init hwd (fun j hj => by rw [hpl j] at hj; cases hj))
  cases q with
  | toobig h => omega
  | nomem _ h => exact h.elim
  | ok plan _ g hperm _ _ =>
    obtain ⟨g⟩ := g
    refine ⟨plan, wd1, e1, ?_⟩
    intro f hf hx
    have hlive : ∀ b ∈ plan.blocks, b ∈ wd1.live := by
      intro b hb
      exact (hrel.live b).mpr (Or.inr (hperm.mem_iff.mpr (by simpa using hb)))
    have hpl1 : ∀ j, wd1.sched j = true := by
      intro j
      cases hj : wd1.sched j with
      | true => rfl
      | false => exact (hrel.sched j hj).elim
    obtain ⟨r, i, j, e2, h1, h2⟩ := kissTransform_det g (junk := junk) hf wd1 hlive hpl1
    refine ⟨r, _, e2, h1, ?_⟩
    intro u v hu hv
    have hidx : v * w + u < r.length := by
      rw [h1]; have := index_row (w := w) (h := h) hv hu; omega
    have := h2 u v hu hv
    rw [rget, List.getElem?_eq_getElem hidx] at this
    rw [List.getElem?_eq_getElem hidx, show r[v * w + u] = _ from this]
    congr 1
    unfold dct2
    refine dct_congr (fun j hj => dct_congr (fun i hi => ?_) u) v
    show rget f (j * w + i) = _
    rw [rget, hx i j hi hj]
    rfl

/-- The hypotheses of C56 can be met. -/
example : ∃ plan wd1 r wd2, kissCreatePlan (lp64 .kiss) 3 7 Demo.w0 = some ((some plan, RDEOK), wd1) ∧
    kissTransform exact (lp64 .kiss) ⟨0, 0⟩ plan (List.replicate 21 1) wd1 = some (r, wd2) ∧
    r[4]? = some (dct2 3 7 (fun _ _ => 1) 1 1) := by
  obtain ⟨plan, wd1, h1, h2⟩ := C56_transform (c := lp64 .kiss) (w := 3) (h := 7) (Demo.lp64_wf _)
    ((Demo.lp64_build .kiss Demo.env).kiss rfl) (by norm_num) (by norm_num) (by decide +kernel) (by decide +kernel)
    (by decide +kernel) (by decide +kernel) Demo.w0_wf (fun _ => rfl) (fun _ _ => 1) ⟨0, 0⟩
  obtain ⟨r, wd2, h3, _, h5⟩ := h2 (List.replicate 21 1) (by simp) (by
    intro i j hi hj
    rw [List.getElem?_replicate_of_lt (by omega)])
  exact ⟨plan, wd1, r, wd2, h1, h3, h5 1 1 (by norm_num) (by norm_num)⟩

/-! ## C57 -/

/-- **C57** In exact arithmetic the bundled transform of an image whose columns are repeated `k` times has, in every row,
coefficients of opposite sign (or zero) at equal distances from the original width `N`, and zero at `N`. -/
theorem C57_spectrum {c : Cfg} {N k : ℕ} (hwf : c.WF) (hc : KissFits c) (hk : 2 ≤ k) (hN : 0 < N) (hh : 0 < h)
    (hwp : k * N ≤ c.pixelMax) (hhp : h ≤ c.pixelMax) (hw3 : k * N ≤ c.intMax / 3) (hh3 : h ≤ c.intMax / 3) {wd : World}
    (hwd : wd.WF) (hpl : Plenty wd) (o : ℕ → ℕ → ℝ) (junk : Cpx ℝ) :
    ∃ plan wd1, kissCreatePlan c (k * N) h wd = some ((some plan, RDEOK), wd1) ∧
      ∀ f : List ℝ, f.length = k * N * h → (∀ i j, i < k * N → j < h → f[j * (k * N) + i]? = some (o (i / k) j)) →
        ∃ r wd2, kissTransform exact c junk plan f wd1 = some (r, wd2) ∧ ∀ v < h, r[v * (k * N) + N]? = some 0 ∧
          ∀ d < N, ∃ l q, r[v * (k * N) + (N - d)]? = some l ∧ r[v * (k * N) + (N + d)]? = some q ∧
            (0 < l ↔ q < 0) ∧ (l < 0 ↔ 0 < q) := by
  have h2N : 2 * N ≤ k * N := Nat.mul_le_mul_right _ hk
  obtain ⟨plan, wd1, e1, hall⟩ := C56_transform hwf hc (w := k * N) (by omega) hh hwp hhp hw3 hh3 hwd hpl
    (fun i j => o (i / k) j) junk
  refine ⟨plan, wd1, e1, ?_⟩
  intro f hf hx
  obtain ⟨r, wd2, e2, _, h4⟩ := hall f hf hx
  refine ⟨r, wd2, e2, ?_⟩
  intro v hv
  have hx' : ∀ i j, i < k * N → j < h → (fun i j => o (i / k) j) i j = o (i / k) j := fun _ _ _ _ => rfl
  constructor
  · rw [h4 N v (by omega) hv, dct2_wide_zero hN hk hx' v]
  · intro d hd
    refine ⟨_, _, h4 (N - d) v (by omega) hv, h4 (N + d) v (by omega) hv, ?_⟩
    obtain ⟨t, ht, hall⟩ := dct2_wide hN hk hx' hd
    rw [hall v]
    generalize dct2 (k * N) h (fun i j => o (i / k) j) (N - d) v = l
    constructor
    · constructor
      · intro hl; nlinarith
      · intro hq; by_contra hc; nlinarith
    · constructor
      · intro hl; nlinarith
      · intro hq; by_contra hc; nlinarith

/-- **C57** Sign method, no filter.  If every analysed image has its columns (rows) repeated `k` times from an original of
width (height) `N`, and near `N` the computed coefficients are less far from the exact ones than those are from 0, then
`N` is reported with confidence 1, and only entries of confidence 1 come before it. -/
theorem C57_sign (hs : Build s) (hpr : Precise s.cfg) (hm : ValidMethod? m) (hp : ValidParams? s.cfg p)
    (hsign : (effMethod m).func = .sign) (hno : NoOom ev) (hk : (analysed ev).length ≤ 2 ^ s.cfg.inter.p)
    (hk' : (analysed ev).length ≤ s.cfg.sizeMax) (hf : (effParams s.cfg (effMethod m) p).compressionFilter = 0)
    (hr : Returned s m w h p ev a rw cw rh ch) {fs : List (List Fl)} (hfs : Spectra s a ev fs) {N k : ℕ} (hk2 : 2 ≤ k)
    (hN : (effParams s.cfg (effMethod m) p).range < N) {d : ℝ} :
    let range := (effParams s.cfg (effMethod m) p).range
    (∀ l, rw = some l → w = k * N →
      List.Forall₂ (fun x f => ∃ image, x.1.op = .analyze (some image) ∧ Widened k w h image ∧
        Resolved d d (rows f w) (fun v u => dct2 w h (pixel w image) u v) h range N) (analysed ev) fs →
      ⟨N, .fin false 1⟩ ∈ l ∧ ∀ before after, l = before ++ ⟨N, .fin false 1⟩ :: after →
        ∀ r ∈ before, r.confidence = .fin false 1) ∧
    (∀ l, rh = some l → h = k * N →
      List.Forall₂ (fun x f => ∃ image, x.1.op = .analyze (some image) ∧ Heightened k w h image ∧
        Resolved d d (cols f w) (fun u v => dct2 w h (pixel w image) u v) w range N) (analysed ev) fs →
      ⟨N, .fin false 1⟩ ∈ l ∧ ∀ before after, l = before ++ ⟨N, .fin false 1⟩ :: after →
        ∀ r ∈ before, r.confidence = .fin false 1) := by
  intro range
  have hN : range < N := hN
  have h2N : 2 * N ≤ k * N := Nat.mul_le_mul_right _ hk2
  obtain ⟨h1, h2⟩ := C25_full_confidence hs hpr hm hp hsign hno hk hk' hf hr hfs
  constructor
  · rintro l hl rfl hall
    refine h1 l hl N hN.le (by omega) ?_
    intro f hfm
    obtain ⟨x, _, image, _, hwide, hres⟩ := forall₂_right hall f hfm
    exact resolved_signs (widened_crosses hk2 (by omega) hwide) hN le_rfl hres
  · rintro l hl rfl hall
    refine h2 l hl N hN.le (by omega) ?_
    intro f hfm
    obtain ⟨x, _, image, _, hwide, hres⟩ := forall₂_right hall f hfm
    exact resolved_signs (heightened_crosses hk2 (by omega) hwide) hN le_rfl hres
where
  forall₂_right {α β : Type} {R : α → β → Prop} {l : List α} {l' : List β} (h : List.Forall₂ R l l') :
      ∀ b ∈ l', ∃ a ∈ l, R a b := by
    induction h with
    | nil => intro b hb; cases hb
    | cons h1 _ ih =>
      intro b hb
      rcases List.mem_cons.mp hb with rfl | hb
      · exact ⟨_, by simp, h1⟩
      · obtain ⟨a, ha, hr⟩ := ih b hb
        exact ⟨a, by simp [ha], hr⟩

/-- **C57** Zero crossing method, no filter: likewise, if the neighbours of `N` are at least twice the error away from 0. -/
theorem C57_zerox (hs : Build s) (hpr : Precise s.cfg) (hm : ValidMethod? m) (hp : ValidParams? s.cfg p)
    (hz : (effMethod m).func = .zerox) (hno : NoOom ev) (hk : (analysed ev).length ≤ 2 ^ s.cfg.inter.p)
    (hk' : (analysed ev).length ≤ s.cfg.sizeMax) (hf : (effParams s.cfg (effMethod m) p).compressionFilter = 0)
    (hr : Returned s m w h p ev a rw cw rh ch) {fs : List (List Fl)} (hfs : Spectra s a ev fs) {N k : ℕ} (hk2 : 2 ≤ k)
    (hN : 1 < N) {d : ℝ} :
    (∀ l, rw = some l → w = k * N →
      List.Forall₂ (fun x f => ∃ image, x.1.op = .analyze (some image) ∧ Widened k w h image ∧
        Resolved d (2 * d) (rows f w) (fun v u => dct2 w h (pixel w image) u v) h 1 N) (analysed ev) fs →
      ⟨N, .fin false 1⟩ ∈ l ∧ ∀ before after, l = before ++ ⟨N, .fin false 1⟩ :: after →
        ∀ r ∈ before, r.confidence = .fin false 1) ∧
    (∀ l, rh = some l → h = k * N →
      List.Forall₂ (fun x f => ∃ image, x.1.op = .analyze (some image) ∧ Heightened k w h image ∧
        Resolved d (2 * d) (cols f w) (fun u v => dct2 w h (pixel w image) u v) w 1 N) (analysed ev) fs →
      ⟨N, .fin false 1⟩ ∈ l ∧ ∀ before after, l = before ++ ⟨N, .fin false 1⟩ :: after →
        ∀ r ∈ before, r.confidence = .fin false 1) := by
  have h2N : 2 * N ≤ k * N := Nat.mul_le_mul_right _ hk2
  have hF := hs.wf.inter_wf
  obtain ⟨hne, hlen, hX, hY⟩ := returned_listed hs hm hp hno hk' hr hfs
  obtain ⟨w0, h0, wp, hp', r0, ht⟩ := returned_sizes hs hpr hm hp hr
  have hr1 : (effParams s.cfg (effMethod m) p).range = 1 := by
    unfold effParams; simp only; rw [if_pos hz]
  constructor
  · rintro l hl rfl hall
    refine listed_full hF hpr (hX l hl) h0 r0 hp' wp (by omega) hne ht hf (by omega) (by omega) ?_
    intro f hfm
    obtain ⟨x, _, image, _, hwide, hres⟩ := C57_sign.forall₂_right hall f hfm
    rw [hz]
    exact frameScore_zerox_full hF hpr h0 hp' (resolved_crosses (widened_crosses hk2 (by omega) hwide) hN hres)
  · rintro l hl rfl hall
    refine listed_full hF hpr (hY l hl) w0 r0 wp hp' (by omega) hne ht hf (by omega) (by omega) ?_
    intro f hfm
    obtain ⟨x, _, image, _, hwide, hres⟩ := C57_sign.forall₂_right hall f hfm
    rw [hz]
    exact frameScore_zerox_full hF hpr w0 wp (resolved_crosses (heightened_crosses hk2 (by omega) hwide) hN hres)

/-- The spectrum of the demo frame. -/
theorem demo4_resolved : Resolved (2 / 5) (2 * (2 / 5)) (rows (Demo.env4.fftw 4 1 Demo.im4) 4)
    (fun v u => dct2 4 1 (pixel 4 Demo.im4) u v) 1 1 2 := by
  have e : Demo.env4.fftw 4 1 Demo.im4 = [8, 5, 0, -2].map (fun q : ℚ => Fl.fin (decide (q < 0)) q) := by decide +kernel
  rw [e]
  have hd : ∀ u, dct2 4 1 (pixel 4 Demo.im4) u 0 = 4 * (Real.cos (Real.pi * u / 8) + Real.cos (3 * Real.pi * u / 8)) := by
    intro u
    unfold dct2 dct pixel
    simp only [Finset.sum_range_succ, Finset.sum_range_zero, Demo.im4, val]
    norm_num
    have e1 : Real.pi * (1 / 2) * u / 4 = Real.pi * u / 8 := by ring
    have e2 : Real.pi * (1 + 1 / 2) * u / 4 = 3 * Real.pi * u / 8 := by ring
    norm_num at e1 e2
    rw [e1, e2]
    ring
  have s2a : (1.414 : ℝ) < √2 := by rw [Real.lt_sqrt (by norm_num)]; norm_num
  have s2b : √2 < (1.415 : ℝ) := by rw [Real.sqrt_lt' (by norm_num)]; norm_num
  have ca : (0.92 : ℝ) < Real.cos (Real.pi / 8) := by
    rw [Real.cos_pi_div_eight]
    have : (1.84 : ℝ) < √(2 + √2) := by rw [Real.lt_sqrt (by norm_num)]; norm_num; linarith
    linarith
  have cb : Real.cos (Real.pi / 8) < (0.93 : ℝ) := by
    rw [Real.cos_pi_div_eight]
    have : √(2 + √2) < (1.86 : ℝ) := by rw [Real.sqrt_lt' (by norm_num)]; norm_num; linarith
    linarith
  have sa : (0.38 : ℝ) < Real.sin (Real.pi / 8) := by
    rw [Real.sin_pi_div_eight]
    have : (0.76 : ℝ) < √(2 - √2) := by rw [Real.lt_sqrt (by norm_num)]; norm_num; linarith
    linarith
  have sb : Real.sin (Real.pi / 8) < (0.39 : ℝ) := by
    rw [Real.sin_pi_div_eight]
    have : √(2 - √2) < (0.78 : ℝ) := by rw [Real.sqrt_lt' (by norm_num)]; norm_num; linarith
    linarith
  have c3 : Real.cos (3 * Real.pi / 8) = Real.sin (Real.pi / 8) := by
    rw [← Real.cos_pi_div_two_sub]; congr 1; ring
  have c9 : Real.cos (9 * Real.pi / 8) = -Real.cos (Real.pi / 8) := by
    rw [← Real.cos_add_pi]; congr 1; ring
  have X1 : dct2 4 1 (pixel 4 Demo.im4) 1 0 = 4 * (Real.cos (Real.pi / 8) + Real.sin (Real.pi / 8)) := by
    rw [hd, ← c3]; norm_num
  have X2 : dct2 4 1 (pixel 4 Demo.im4) 2 0 = 0 :=
    (widened_crosses (k := 2) (N := 2) (h := 1) (image := Demo.im4) le_rfl (by norm_num) (by
      intro i j hi hj
      obtain rfl : j = 0 := by omega
      have : i < 4 := hi
      interval_cases i <;> decide)).2 0 (by norm_num)
  have X3 : dct2 4 1 (pixel 4 Demo.im4) 3 0 = 4 * (Real.sin (Real.pi / 8) - Real.cos (Real.pi / 8)) := by
    rw [hd, ← c3, sub_eq_add_neg, ← c9]
    have e1 : Real.pi * (3 : ℕ) / 8 = 3 * Real.pi / 8 := by push_cast; ring
    have e2 : 3 * Real.pi * (3 : ℕ) / 8 = 9 * Real.pi / 8 := by push_cast; ring
    rw [e1, e2]
  intro y hy x h1 h2
  obtain rfl : y = 0 := by omega
  have h1 : 1 ≤ x := h1
  have h2 : x ≤ 3 := h2
  rcases (by omega : x = 1 ∨ x = 2 ∨ x = 3) with rfl | rfl | rfl
  · simp only [X1]
    refine ⟨⟨5, false, rfl, fun _ => by norm_num, ?_⟩, fun _ => ?_⟩
    · rw [abs_lt]; constructor <;> push_cast <;> linarith
    · rw [le_abs]; left; linarith
  · simp only [X2]
    refine ⟨⟨0, false, rfl, fun h => absurd rfl h, ?_⟩, fun h => absurd rfl h⟩
    norm_num
  · simp only [X3]
    refine ⟨⟨-2, true, rfl, fun _ => by norm_num, ?_⟩, fun _ => ?_⟩
    · rw [abs_lt]; constructor <;> push_cast <;> linarith
    · rw [le_abs]; right; linarith

/-- Analysing the demo frame. -/
theorem demo4_run {m : Option Method} (hm : ValidMethod? m) (hd : (effMethod m).func ≠ .orig)
    (hr1 : (effParams Demo.sys4.cfg (effMethod m) (some Demo.params)).range = 1) :
    ∃ a c lw cw lh ch, Returned Demo.sys4 m 4 1 (some Demo.params) [(c, .analyzed RDEOK)] a (some lw) cw (some lh) ch ∧
      c.op = .analyze (some Demo.im4) ∧ Spectra Demo.sys4 a [(c, .analyzed RDEOK)] [Demo.env4.fftw 4 1 Demo.im4] := by
  have hb : Build Demo.sys4 := Demo.lp64_build _ _
  obtain ⟨a, c, f, lw, lh, cw, ch, hret, hop, hspec⟩ := single_run (s := Demo.sys4) (wd := Demo.w0) (w := 4) (h := 1)
    hb hm (p := some Demo.params) Demo.params_valid hd (by norm_num) (by norm_num) ⟨by decide +kernel, by decide +kernel⟩
    (by decide +kernel) (by decide +kernel) (fun _ => rfl) (by rw [hr1]; unfold ScoresTooBig; decide +kernel)
    (image := Demo.im4) (by decide) (by unfold AllFinite; decide +kernel) Demo.w0_wf (fun _ => rfl)
  have han : analysed [(c, Obs.analyzed RDEOK)] = [(c, Obs.analyzed RDEOK)] := by simp [analysed]
  have hsp : Spectrum Demo.sys4 a c f := by
    unfold Spectra at hspec
    rw [han] at hspec
    cases hspec with
    | cons h _ => exact h
  have := fftw_spectrum rfl (reach_inv hb hm Demo.params_valid hret.1) hop hsp
  rw [show (Demo.im4.take (4 * 1)).map Demo.sys4.cfg.coeff.conv = Demo.im4 by decide +kernel] at this
  rw [this] at hspec
  exact ⟨a, c, lw, cw, lh, ch, hret, hop, hspec⟩

theorem demo4_widened : Widened 2 4 1 Demo.im4 := by
  intro i j hi hj
  obtain rfl : j = 0 := by omega
  interval_cases i <;> decide

theorem demo4_noOom {c : Call} : NoOom [(c, Obs.analyzed RDEOK)] := by
  intro x hx
  simp only [List.mem_singleton] at hx
  rw [hx]; show Obs.analyzed RDEOK ≠ _; decide

/-- The hypotheses of C57 can be met: original width 2, doubled. -/
example : ∃ a c lw cw lh ch, Returned Demo.sys4 none 4 1 (some Demo.params) [(c, .analyzed RDEOK)] a (some lw) cw (some lh) ch ∧
    ⟨2, .fin false 1⟩ ∈ lw := by
  have hr1 : (effParams Demo.sys4.cfg (effMethod none) (some Demo.params)).range = 1 := by decide +kernel
  obtain ⟨a, c, lw, cw, lh, ch, hret, hop, hspec⟩ := demo4_run Demo.none_method (by decide) hr1
  have han : analysed [(c, Obs.analyzed RDEOK)] = [(c, Obs.analyzed RDEOK)] := by simp [analysed]
  refine ⟨a, c, lw, cw, lh, ch, hret, ?_⟩
  refine ((C57_sign (s := Demo.sys4) (k := 2) (N := 2) (d := 2 / 5) (Demo.lp64_build _ _) demo_precise Demo.none_method Demo.params_valid rfl
    demo4_noOom (by rw [han]; exact Nat.one_le_two_pow) (by rw [han]; exact (by decide +kernel : 1 ≤ Demo.sys4.cfg.sizeMax)) rfl hret hspec le_rfl
    (by rw [hr1]; norm_num)).1 lw rfl rfl ?_).1
  rw [han, hr1]
  refine List.Forall₂.cons ⟨_, hop, demo4_widened, ?_⟩ List.Forall₂.nil
  intro y hy x h1 h2
  obtain ⟨h3, h4⟩ := demo4_resolved y hy x h1 h2
  exact ⟨h3, fun h => le_trans (by norm_num) (h4 h)⟩

/-- The zero crossing method of the library. -/
def zerox : Method := ⟨"zerox", .zerox, binary32.deliver false (5 / 10)⟩

example : ∃ a c lw cw lh ch, Returned Demo.sys4 (some zerox) 4 1 (some Demo.params) [(c, .analyzed RDEOK)] a (some lw) cw
    (some lh) ch ∧ ⟨2, .fin false 1⟩ ∈ lw := by
  have hm : ValidMethod? (some zerox) := by rintro q h; cases h; simp [methods, zerox]
  obtain ⟨a, c, lw, cw, lh, ch, hret, hop, hspec⟩ := demo4_run hm (by decide) (by decide +kernel)
  have han : analysed [(c, Obs.analyzed RDEOK)] = [(c, Obs.analyzed RDEOK)] := by simp [analysed]
  refine ⟨a, c, lw, cw, lh, ch, hret, ?_⟩
  refine ((C57_zerox (s := Demo.sys4) (k := 2) (N := 2) (d := 2 / 5) (Demo.lp64_build _ _) demo_precise hm Demo.params_valid rfl
    demo4_noOom (by rw [han]; exact Nat.one_le_two_pow) (by rw [han]; exact (by decide +kernel : 1 ≤ Demo.sys4.cfg.sizeMax)) rfl hret hspec le_rfl
    (by norm_num)).1 lw rfl rfl ?_).1
  rw [han]
  exact List.Forall₂.cons ⟨_, hop, demo4_widened, demo4_resolved⟩ List.Forall₂.nil

/-! ## C58 -/

/-- **C58** The property is false: on a 7 by 1 frame, with every allocation failing, the frame is reported as analysed, and
the results then differ from those of the same frame with enough memory. -/
theorem C58_reported_fails : ∃ (s : Sys) (a a1 a2 : Analysis) (c1 c2 : Call) (l1 l2 : List Res) (n1 n2 : ℕ)
    (r1 r2 : Option (List Res)) (m1 m2 : ℕ) (c : Call),
    Build s ∧ s.cfg.backend = .kiss ∧ Reach s none 7 1 (some Demo.params) [] a ∧ Legal a c1 ∧ Legal a c2 ∧ c1.op = c2.op ∧
    (∀ j, c1.world.sched j = false) ∧ Plenty c2.world ∧
    step s a c1 = some (.analyzed RDEOK, a1) ∧ step s a c2 = some (.analyzed RDEOK, a2) ∧ Legal a1 c ∧ Legal a2 c ∧
    (step s a1 c).map Prod.fst = some (.results RDEOK (some l1) n1 r1 m1) ∧
    (step s a2 c).map Prod.fst = some (.results RDEOK (some l2) n2 r2 m2) ∧
    (⟨4, .fin false 1⟩ ∈ l1 ∧ ⟨4, .fin false 0⟩ ∈ l2) ∧ ⟨5, .fin false 0⟩ ∈ l1 ∧ ⟨5, .fin false 1⟩ ∈ l2 := by
  have hreach : Reach Demo.sys7 none 7 1 (some Demo.params) [] Demo.an7 := by
    have h : (createAnalysis Demo.sys7 none 7 1 (some Demo.params) Demo.w0).map (fun x => x.1.1.isSome) = some true := by
      decide +kernel
    have e : Demo.an7 = match createAnalysis Demo.sys7 none 7 1 (some Demo.params) Demo.w0 with
      | some ((some a, _), _) => a
      | _ => Demo.analysis := rfl
    cases h' : createAnalysis Demo.sys7 none 7 1 (some Demo.params) Demo.w0 with
    | none => rw [h'] at h; cases h
    | some v =>
      obtain ⟨⟨oa, er⟩, wd⟩ := v
      cases oa with
      | none => rw [h'] at h; cases h
      | some a =>
        rw [h'] at e
        have e : Demo.an7 = a := e
        rw [e]
        exact Reach.create Demo.w0_wf h'
  have hwf : ∀ sch, (⟨List.range 20, [], 20, sch⟩ : World).WF := fun sch => ⟨by simp, by simp, List.nodup_range, by simp⟩
  have hstep : ∀ wd, (step Demo.sys7 Demo.an7 ⟨.analyze (some Demo.im7), wd⟩).map Prod.fst = some (.analyzed RDEOK) →
      step Demo.sys7 Demo.an7 ⟨.analyze (some Demo.im7), wd⟩ = some (.analyzed RDEOK, Demo.an7' wd) := by
    intro wd h
    unfold Demo.an7'
    cases h' : step Demo.sys7 Demo.an7 ⟨.analyze (some Demo.im7), wd⟩ with
    | none => rw [h'] at h; cases h
    | some v =>
      obtain ⟨o, a⟩ := v
      rw [h'] at h
      cases h
      rfl
  refine ⟨Demo.sys7, Demo.an7, Demo.an7' Demo.wBad, Demo.an7' Demo.wGood, ⟨.analyze (some Demo.im7), Demo.wBad⟩,
    ⟨.analyze (some Demo.im7), Demo.wGood⟩,
    [⟨3, .fin false 1⟩, ⟨4, .fin false 1⟩, ⟨1, .fin false 0⟩, ⟨2, .fin false 0⟩, ⟨5, .fin false 0⟩, ⟨7, .fin true (-1)⟩],
    [⟨3, .fin false 1⟩, ⟨5, .fin false 1⟩, ⟨1, .fin false 0⟩, ⟨2, .fin false 0⟩, ⟨4, .fin false 0⟩, ⟨7, .fin true (-1)⟩],
    6, 6, some [⟨1, .fin true (-1)⟩], some [⟨1, .fin true (-1)⟩], 1, 1, ⟨.results .all, Demo.wGood⟩, Demo.lp64_build _ _, rfl,
    hreach, ⟨hwf _, by decide +kernel, show Demo.an7.width * Demo.an7.height ≤ Demo.im7.length by decide +kernel⟩,
    ⟨hwf _, by decide +kernel, show Demo.an7.width * Demo.an7.height ≤ Demo.im7.length by decide +kernel⟩, rfl, fun _ => rfl,
    fun _ => rfl, hstep _ (by decide +kernel), hstep _ (by decide +kernel), ⟨hwf _, by decide +kernel, trivial⟩,
    ⟨hwf _, by decide +kernel, trivial⟩, by decide +kernel, by decide +kernel, by decide, by decide, by decide⟩

/-- No prime above 5 divides `n`. -/
def Smooth (n : ℕ) : Prop := ∀ q, q.Prime → q ∣ n → q ≤ 5

/-- **C58** (partial) The coefficients computed for a frame do not depend on the state of memory if FFTW is used, or if the
sides of the image have no prime factor above 5, or if memory suffices.  Missing: other sizes, for which this is false, see
`C58_reported_fails`. -/
theorem C58_spectrum_partial (hs : Build s) (hm : ValidMethod? m) (hp : ValidParams? s.cfg p) (hr : Reach s m w h p ev a)
    {c c' : Call} (hl : Legal a c) (hl' : Legal a c') (hop : c.op = c'.op) {f f' : List Fl} (hf : Spectrum s a c f)
    (hf' : Spectrum s a c' f')
    (hsafe : s.cfg.backend = .fftw ∨ (Smooth w ∧ Smooth h) ∨ (Plenty c.world ∧ Plenty c'.world)) : f = f' := by
  have hinv := reach_inv hs hm hp hr
  obtain ⟨image, plan, wd, e1, e2, e3⟩ := hf
  obtain ⟨image', plan', wd', e1', e2', e3'⟩ := hf'
  rw [hop, e1'] at e1
  cases e1
  rw [e2] at e2'
  cases e2'
  obtain ⟨pl, e4, hgood⟩ := hinv.good.p
  rw [e2] at e4
  cases e4
  rw [hinv.width, hinv.height] at hgood e3 e3'
  -- the blocks of the plan are alive in both calls
  have hlive : ∀ c, Legal a c → ∀ b ∈ plan.blocks, b ∈ c.world.live := by
    intro c hl b hb
    apply hl.2.1
    unfold owned
    rw [e2]
    cases plan with
    | fftw b' q _ _ => simp only [Plan.blocks] at hb; simp only [List.mem_append] at hb ⊢; right; exact hb
    | kiss p =>
      simp only [Plan.blocks, KissPlan.blocks, List.mem_append] at hb ⊢
      right
      split at hb
      · rcases hb with ((((hb | hb) | hb) | hb) | hb) | hb <;> simp_all
      · rcases hb with ((((hb | hb) | hb) | hb) | hb) | hb <;> simp_all [or_assoc]
        rcases hb with hb | hb <;> simp [hb]
  have hlen : ((image.take (w * h)).map s.cfg.coeff.conv).length = w * h := by
    have := hl'.2.2
    rw [e1'] at this
    have this : a.width * a.height ≤ image.length := this
    rw [hinv.width, hinv.height] at this
    simpa using this
  cases hgood with
  | fftw b q hb =>
    have h1 := fftw_spectrum hb hinv (hop.trans e1') ⟨image, _, wd, hop.trans e1', e2, by rw [hinv.width, hinv.height]; exact e3⟩
    have h2 := fftw_spectrum hb hinv e1' ⟨image, _, wd', e1', e2, by rw [hinv.width, hinv.height]; exact e3'⟩
    rw [h1, h2]
  | kiss p g hb =>
    rcases hsafe with hsafe | ⟨sw, sh⟩ | ⟨pc, pc'⟩
    · rw [hb] at hsafe; cases hsafe
    · have hfac : ∀ {n : ℕ} {fs : List (ℕ × ℕ)}, Smooth n → kfFactor n = some fs → Stages n fs → ∀ x ∈ fs, x.1 ≤ 5 := by
        intro n fs hn hfs hst x hx
        rcases Nat.lt_or_ge n 2 with h1 | h1
        · obtain rfl : n = 1 := by have := hst.pos; omega
          rw [show kfFactor 1 = some [(1, 1)] by decide +kernel] at hfs
          cases hfs
          rw [List.mem_singleton] at hx
          subst hx
          decide
        · rcases kfFactor_prime h1 hfs x hx with h4 | h4
          · omega
          · refine hn _ h4 ?_
            rw [← hst.prod]
            exact List.dvd_prod (List.mem_map_of_mem hx)
      have k0 := hfac (by rw [g.n0]; exact sw) g.fac0 g.stages0
      have k1 := hfac (by rw [g.n1]; exact sh) g.fac1 g.stages1
      obtain ⟨r, _, hr⟩ := kissTransform_val (A := s.arith) g k0 k1 (junk := ⟨s.env.junk, s.env.junk⟩) hlen
      obtain ⟨x, y, t1⟩ := hr c.world (hlive c hl)
      obtain ⟨x', y', t2⟩ := hr c'.world (hlive c' hl')
      have e3 : kissTransform s.arith s.cfg ⟨s.env.junk, s.env.junk⟩ p _ c.world = some (f, wd) := e3
      have e3' : kissTransform s.arith s.cfg ⟨s.env.junk, s.env.junk⟩ p _ c'.world = some (f', wd') := e3'
      rw [t1] at e3
      rw [t2] at e3'
      cases e3
      cases e3'
      rfl
    · obtain ⟨r, _, hr⟩ := kissTransform_temp (A := s.arith) g (junk := ⟨s.env.junk, s.env.junk⟩) hlen
      have t1 := hr c.world (hlive c hl)
      have t2 := hr c'.world (hlive c' hl')
      rw [show c.world.sched = c'.world.sched from funext (fun j => by rw [pc j, pc' j])] at t1
      have e3 : kissTransform s.arith s.cfg ⟨s.env.junk, s.env.junk⟩ p _ c.world = some (f, wd) := e3
      have e3' : kissTransform s.arith s.cfg ⟨s.env.junk, s.env.junk⟩ p _ c'.world = some (f', wd') := e3'
      rw [t1] at e3
      rw [t2] at e3'
      injection e3 with e3
      injection e3' with e3'
      have h1 := congrArg Prod.fst e3
      have h2 := congrArg Prod.fst e3'
      exact h1.symm.trans h2

/-- The second alternative of C58 can be met: KISS, a frame of 4 by 1, one call with memory and one without. -/
example : ∃ (a : Analysis) (c c' : Call) (f f' : List Fl), Demo.sys7.cfg.backend = .kiss ∧
    Reach Demo.sys7 none 4 1 (some Demo.params) [] a ∧ Legal a c ∧ Legal a c' ∧ c.op = c'.op ∧ Spectrum Demo.sys7 a c f ∧
    Spectrum Demo.sys7 a c' f' ∧ (Smooth 4 ∧ Smooth 1) ∧ Plenty c.world ∧ ∀ j, c'.world.sched j = false := by
  have h : (createAnalysis Demo.sys7 none 4 1 (some Demo.params) Demo.w0).map
      (fun x => x.1.1.any (fun a => a.width == 4 && a.height == 1 && (owned a).all (· < 20) && a.p.any (fun q =>
        (transform Demo.sys7 q (Demo.im4.map Demo.sys7.cfg.coeff.conv) Demo.wGood).isSome &&
        (transform Demo.sys7 q (Demo.im4.map Demo.sys7.cfg.coeff.conv) Demo.wBad).isSome))) = some true := by
    decide +kernel
  have hwf : ∀ sch, (⟨List.range 20, [], 20, sch⟩ : World).WF := fun sch => ⟨by simp, by simp, List.nodup_range, by simp⟩
  cases h' : createAnalysis Demo.sys7 none 4 1 (some Demo.params) Demo.w0 with
  | none => rw [h'] at h; cases h
  | some v =>
    obtain ⟨⟨oa, er⟩, wd⟩ := v
    cases oa with
    | none => rw [h'] at h; cases h
    | some a =>
      rw [h'] at h
      simp only [Option.map_some, Option.any_some, Option.some.injEq, Bool.and_eq_true, beq_iff_eq, List.all_eq_true,
        decide_eq_true_eq] at h
      obtain ⟨⟨⟨hw, hh⟩, hown⟩, hpl⟩ := h
      cases hq : a.p with
      | none => rw [hq] at hpl; cases hpl
      | some q =>
        rw [hq] at hpl
        simp only [Option.any_some, Bool.and_eq_true, Option.isSome_iff_exists] at hpl
        obtain ⟨⟨⟨f, w1⟩, h1⟩, ⟨f', w2⟩, h2⟩ := hpl
        have hlegal : ∀ sch, Legal a ⟨.analyze (some Demo.im4), ⟨List.range 20, [], 20, sch⟩⟩ := by
          intro sch
          refine ⟨hwf _, fun b hb => List.mem_range.2 (hown b hb), ?_⟩
          show a.width * a.height ≤ Demo.im4.length
          rw [hw, hh]; decide
        refine ⟨a, ⟨.analyze (some Demo.im4), Demo.wGood⟩, ⟨.analyze (some Demo.im4), Demo.wBad⟩, f, f', rfl,
          Reach.create Demo.w0_wf h', hlegal _, hlegal _, rfl, ⟨_, q, w1, rfl, hq, by rw [hw, hh]; exact h1⟩,
          ⟨_, q, w2, rfl, hq, by rw [hw, hh]; exact h2⟩, ⟨?_, ?_⟩, fun _ => rfl, fun _ => rfl⟩
        · intro q _ hd
          have := Nat.le_of_dvd (by norm_num) hd
          omega
        · intro q _ hd
          have := Nat.le_of_dvd (by norm_num) hd
          omega

end Verif.Props
