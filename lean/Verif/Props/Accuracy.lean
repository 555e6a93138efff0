import Verif.Props.Transform
import Verif.Proofs.FlRounded
import Verif.Spec.DemoAccuracy

/-! # The accuracy of the bundled transform (C62) -/

namespace Verif.Props

open Spec

variable {s : Sys} {m : Option Method} {p : Option Params} {w h : ℕ} {ev : List (Call × Obs)} {a : Analysis}
  {rw rh : Option (List Res)} {cw ch : ℕ}

/-- The blocks of the plan are alive in every call of a history. -/
theorem plan_live (hs : Build s) (hm : ValidMethod? m) (hp : ValidParams? s.cfg p) (hr : Reach s m w h p ev a) :
    ∀ x ∈ ev, ∀ plan, a.p = some plan → ∀ b ∈ plan.blocks, b ∈ x.1.world.live := by
  induction hr with
  | create _ _ => intro x hx; cases hx
  | call hr hl hst ih =>
    rename_i a a' c o
    have hg := (reach_inv hs hm hp hr).good
    have hsame := (step_ok hs hg hl hst).same
    intro x hx plan hplan b hb
    rw [hsame.p] at hplan
    rcases List.mem_append.mp hx with hx | hx
    · exact ih x hx plan hplan b hb
    · rw [List.mem_singleton] at hx
      subst hx
      refine Legal.live hl b ?_
      unfold Analysis.blocks
      rw [hplan]
      simp [hb]

/-! ## C62 -/

/-- **C62** Every coefficient the bundled transform computes for a frame is within `errorBound` of the coefficient of the
exact two-dimensional DCT-II of the samples, if memory suffices for temporaries or the sides have no prime factor above 5. -/
theorem C62_accuracy (hs : Build s) (hb : s.cfg.backend = .kiss) (hm : ValidMethod? m) (hp : ValidParams? s.cfg p)
    (hr : Reach s m w h p ev a) {u M : ℝ} (ha : Accurate s u) (hmod : Moderate s u M w h) {x : Call × Obs} (hx : x ∈ ev)
    (hsafe : (Smooth w ∧ Smooth h) ∨ Plenty x.1.world) {image : List Fl} (hop : x.1.op = .analyze (some image))
    (him : Sampled M w h image) {f : List Fl} (hf : Spectrum s a x.1 f) :
    ∀ i j, i < w → j < h → Within (errorBound u M w h) (rows f w j i) (dct2 w h (pixel w image) i j) := by
  have hinv := reach_inv hs hm hp hr
  obtain ⟨image', plan, wd, e1, e2, e3⟩ := hf
  rw [hop] at e1
  cases e1
  have hlive := plan_live hs hm hp hr x hx plan e2
  obtain ⟨pl, e4, hgood⟩ := hinv.good.p
  rw [e2] at e4
  cases e4
  have w0 := hinv.good.width_pos
  have h0 := hinv.good.height_pos
  rw [hinv.width, hinv.height] at hgood e3
  rw [hinv.width] at w0
  rw [hinv.height] at h0
  cases hgood with
  | fftw b q hb' => rw [hb] at hb'; cases hb'
  | kiss q g hb' =>
    have hdet := transform_err ha hs.wf.coeff_wf hmod g w0 h0 him
    have e3 : kissTransform s.arith s.cfg ⟨s.env.junk, s.env.junk⟩ q _ x.1.world = some (f, wd) := e3
    have hlive : ∀ b ∈ q.blocks, b ∈ x.1.world.live := hlive
    rcases hsafe with ⟨sw, sh⟩ | hpl
    · have k0 := smooth_factors (by rw [g.n0]; exact sw) g.fac0 g.stages0
      have k1 := smooth_factors (by rw [g.n1]; exact sh) g.fac1 g.stages1
      have hlen : ((image.take (w * h)).map s.cfg.coeff.conv).length = w * h := by
        rw [List.length_map, List.length_take]
        refine min_eq_left ?_
        by_contra hl
        obtain ⟨b, q, e, _⟩ := him (w - 1) (h - 1) (by omega) (by omega)
        rw [List.getElem?_eq_none] at e
        · cases e
        · have : (h - 1) * w + w = w * h := by
            rw [← Nat.succ_mul, Nat.succ_eq_add_one, Nat.sub_add_cancel h0, Nat.mul_comm]
          omega
      obtain ⟨r, _, hv⟩ := kissTransform_val (A := s.arith) g k0 k1 (junk := ⟨s.env.junk, s.env.junk⟩) hlen
      obtain ⟨x1, y1, t1⟩ := hv x.1.world hlive
      rw [t1] at e3
      cases e3
      obtain ⟨x2, y2, t2⟩ := hv { x.1.world with sched := fun _ => true } hlive
      obtain ⟨r', x3, y3, t3, h3⟩ := hdet { x.1.world with sched := fun _ => true } hlive (fun _ => rfl)
      rw [t2] at t3
      have t3 := congrArg Prod.fst (Option.some.inj t3)
      simp only at t3
      subst t3
      exact fun i j hi hj => h3 i j hi hj
    · obtain ⟨r, x1, y1, t1, h1⟩ := hdet x.1.world hlive hpl
      rw [t1] at e3
      cases e3
      exact fun i j hi hj => h1 i j hi hj
where
  smooth_factors {n : ℕ} {fs : List (ℕ × ℕ)} (hn : Smooth n) (hfs : kfFactor n = some fs) (hst : Stages n fs) : ∀ x ∈ fs, x.1 ≤ 5 := by
    intro x hx
    rcases Nat.lt_or_ge n 2 with h1 | h1
    · obtain rfl : n = 1 := by have := hst.pos; omega
      rw [show kfFactor 1 = some [(1, 1)] by decide +kernel] at hfs
      cases hfs
      rw [List.mem_singleton] at hx
      subst hx
      decide
    · rcases kfFactor_prime h1 hfs x hx with h4 | h4
      · omega
      · refine hn _ h4 ?_
        rw [← hst.prod]
        exact List.dvd_prod (List.mem_map_of_mem hx)

/-- The spectra of a history of frames with bounded samples. -/
theorem history_accuracy (hs : Build s) (hb : s.cfg.backend = .kiss) (hm : ValidMethod? m) (hp : ValidParams? s.cfg p)
    (hr : Reach s m w h p ev a) {u M : ℝ} (ha : Accurate s u) (hmod : Moderate s u M w h)
    (hsafe : (Smooth w ∧ Smooth h) ∨ ∀ x ∈ analysed ev, Plenty x.1.world) {fs : List (List Fl)} (hfs : Spectra s a ev fs)
    {Q : List Fl → Prop}
    (hall : ∀ x ∈ analysed ev, ∃ image, x.1.op = .analyze (some image) ∧ Sampled M w h image ∧ Q image) :
    List.Forall₂ (fun x f => ∃ image, x.1.op = .analyze (some image) ∧ Q image ∧
      ∀ i j, i < w → j < h → Within (errorBound u M w h) (rows f w j i) (dct2 w h (pixel w image) i j)) (analysed ev) fs := by
  have hsub : ∀ x ∈ analysed ev, x ∈ ev := fun x hx => (List.mem_filter.mp hx).1
  unfold Spectra at hfs
  generalize analysed ev = l at hfs hall hsafe hsub
  induction hfs with
  | nil => exact List.Forall₂.nil
  | @cons x f l' fs' h1 _ ih =>
    refine List.Forall₂.cons ?_ (ih (fun y hy => hall y (List.mem_cons_of_mem _ hy))
      (hsafe.imp_right (fun h y hy => h y (List.mem_cons_of_mem _ hy))) (fun y hy => hsub y (List.mem_cons_of_mem _ hy)))
    obtain ⟨image, hop, hbd, hq⟩ := hall x (by simp)
    exact ⟨image, hop, hq, C62_accuracy hs hb hm hp hr ha hmod (hsub x (by simp)) (hsafe.imp_right (fun h => h x (by simp))) hop hbd h1⟩

/-- **C62** Sign method with the bundled transform, no filter.  If every analysed image has its columns (rows) repeated `k`
times from an original of width (height) `N`, and the exact coefficients up to distance `range` from `N` are not smaller than
`errorBound`, then `N` is reported with confidence 1, and only entries of confidence 1 come before it. -/
theorem C62_sign (hs : Build s) (hb : s.cfg.backend = .kiss) (hpr : Precise s.cfg) (hm : ValidMethod? m) (hp : ValidParams? s.cfg p)
    (hsign : (effMethod m).func = .sign) (hno : NoOom ev) (hk : (analysed ev).length ≤ 2 ^ s.cfg.inter.p)
    (hk' : (analysed ev).length ≤ s.cfg.sizeMax) (hf : (effParams s.cfg (effMethod m) p).compressionFilter = 0)
    (hr : Returned s m w h p ev a rw cw rh ch) {u M : ℝ} (ha : Accurate s u) (hmod : Moderate s u M w h)
    (hsafe : (Smooth w ∧ Smooth h) ∨ ∀ x ∈ analysed ev, Plenty x.1.world) {N k : ℕ} (hk2 : 2 ≤ k)
    (hN : (effParams s.cfg (effMethod m) p).range < N) :
    let range := (effParams s.cfg (effMethod m) p).range
    (∀ l, rw = some l → w = k * N →
      (∀ x ∈ analysed ev, ∃ image, x.1.op = .analyze (some image) ∧ Sampled M w h image ∧ Widened k w h image ∧
        ∀ i j, j < h → i ≠ N → N - range ≤ i → i ≤ N + range → errorBound u M w h ≤ |dct2 w h (pixel w image) i j|) →
      ⟨N, .fin false 1⟩ ∈ l ∧ ∀ before after, l = before ++ ⟨N, .fin false 1⟩ :: after →
        ∀ r ∈ before, r.confidence = .fin false 1) ∧
    (∀ l, rh = some l → h = k * N →
      (∀ x ∈ analysed ev, ∃ image, x.1.op = .analyze (some image) ∧ Sampled M w h image ∧ Heightened k w h image ∧
        ∀ i j, i < w → j ≠ N → N - range ≤ j → j ≤ N + range → errorBound u M w h ≤ |dct2 w h (pixel w image) i j|) →
      ⟨N, .fin false 1⟩ ∈ l ∧ ∀ before after, l = before ++ ⟨N, .fin false 1⟩ :: after →
        ∀ r ∈ before, r.confidence = .fin false 1) := by
  intro range
  have hN : range < N := hN
  have h2N : 2 * N ≤ k * N := Nat.mul_le_mul_right _ hk2
  obtain ⟨fs, hfs, _⟩ := (reach_inv hs hm hp hr.1).scores hno
  obtain ⟨h1, h2⟩ := C57_sign hs hpr hm hp hsign hno hk hk' hf hr hfs hk2 hN (d := errorBound u M w h)
  constructor
  · intro l hl hw hall
    refine h1 l hl hw ((history_accuracy hs hb hm hp hr.1 ha hmod hsafe hfs hall).imp ?_)
    rintro x f ⟨image, q1, ⟨q2, q3⟩, q4⟩
    refine ⟨image, q1, q2, fun y hy i hi1 hi2 => ⟨q4 i y (by omega) hy, fun hne => q3 i y hy hne hi1 hi2⟩⟩
  · intro l hl hh hall
    refine h2 l hl hh ((history_accuracy hs hb hm hp hr.1 ha hmod hsafe hfs hall).imp ?_)
    rintro x f ⟨image, q1, ⟨q2, q3⟩, q4⟩
    refine ⟨image, q1, q2, fun y hy j hj1 hj2 => ⟨q4 y j hy (by omega), fun hne => q3 y j hy hne hj1 hj2⟩⟩

/-- **C62** Zero crossing method with the bundled transform, no filter: likewise, if the neighbours of `N` are at least
twice the error bound away from 0. -/
theorem C62_zerox (hs : Build s) (hb : s.cfg.backend = .kiss) (hpr : Precise s.cfg) (hm : ValidMethod? m) (hp : ValidParams? s.cfg p)
    (hz : (effMethod m).func = .zerox) (hno : NoOom ev) (hk : (analysed ev).length ≤ 2 ^ s.cfg.inter.p)
    (hk' : (analysed ev).length ≤ s.cfg.sizeMax) (hf : (effParams s.cfg (effMethod m) p).compressionFilter = 0)
    (hr : Returned s m w h p ev a rw cw rh ch) {u M : ℝ} (ha : Accurate s u) (hmod : Moderate s u M w h)
    (hsafe : (Smooth w ∧ Smooth h) ∨ ∀ x ∈ analysed ev, Plenty x.1.world) {N k : ℕ} (hk2 : 2 ≤ k) (hN : 1 < N) :
    (∀ l, rw = some l → w = k * N →
      (∀ x ∈ analysed ev, ∃ image, x.1.op = .analyze (some image) ∧ Sampled M w h image ∧ Widened k w h image ∧
        ∀ i j, j < h → i = N - 1 ∨ i = N + 1 → 2 * errorBound u M w h ≤ |dct2 w h (pixel w image) i j|) →
      ⟨N, .fin false 1⟩ ∈ l ∧ ∀ before after, l = before ++ ⟨N, .fin false 1⟩ :: after →
        ∀ r ∈ before, r.confidence = .fin false 1) ∧
    (∀ l, rh = some l → h = k * N →
      (∀ x ∈ analysed ev, ∃ image, x.1.op = .analyze (some image) ∧ Sampled M w h image ∧ Heightened k w h image ∧
        ∀ i j, i < w → j = N - 1 ∨ j = N + 1 → 2 * errorBound u M w h ≤ |dct2 w h (pixel w image) i j|) →
      ⟨N, .fin false 1⟩ ∈ l ∧ ∀ before after, l = before ++ ⟨N, .fin false 1⟩ :: after →
        ∀ r ∈ before, r.confidence = .fin false 1) := by
  have h2N : 2 * N ≤ k * N := Nat.mul_le_mul_right _ hk2
  obtain ⟨fs, hfs, _⟩ := (reach_inv hs hm hp hr.1).scores hno
  obtain ⟨h1, h2⟩ := C57_zerox hs hpr hm hp hz hno hk hk' hf hr hfs hk2 hN (d := errorBound u M w h)
  constructor
  · intro l hl hw hall
    refine h1 l hl hw ((history_accuracy hs hb hm hp hr.1 ha hmod hsafe hfs hall).imp ?_)
    rintro x f ⟨image, q1, ⟨q2, q3⟩, q4⟩
    refine ⟨image, q1, q2, fun y hy i hi1 hi2 => ⟨q4 i y (by omega) hy, fun hne => q3 i y hy (by omega)⟩⟩
  · intro l hl hh hall
    refine h2 l hl hh ((history_accuracy hs hb hm hp hr.1 ha hmod hsafe hfs hall).imp ?_)
    rintro x f ⟨image, q1, ⟨q2, q3⟩, q4⟩
    refine ⟨image, q1, q2, fun y hy j hj1 hj2 => ⟨q4 y j hy (by omega), fun hne => q3 y j hy (by omega)⟩⟩

theorem primeSum_one : primeSum 1 = 0 := by simp [primeSum]

theorem primeSum_four : primeSum 4 = 4 := by
  unfold primeSum
  rw [show (4 : ℕ) = 2 * 2 by norm_num, (Nat.perm_primeFactorsList_mul two_ne_zero two_ne_zero).sum_eq, Nat.primeFactorsList_prime Nat.prime_two]
  rfl

theorem demoN_moderate : Moderate Demo.sysN (2 ^ (-24 : ℤ)) 1 4 1 := by
  have e1 : pow2 (Demo.sysN.cfg.kiss.qmin - 1) = 1 / 2 ^ 150 := by show pow2 ((lp64 .kiss).kiss.qmin - 1) = _; decide +kernel
  have e2 : pow2 (Demo.sysN.cfg.kiss.emax - 1) = 2 ^ 127 := by show pow2 ((lp64 .kiss).kiss.emax - 1) = _; decide +kernel
  refine ⟨?_, ?_, ?_, ?_⟩
  · rw [e1]; norm_num
  · rw [e2]; norm_num
  · rw [primeSum_four]; norm_num
  · rw [primeSum_one]; norm_num

theorem demoN_bounded : Sampled 1 4 1 Demo.im4 := by
  intro i j hi hj
  obtain rfl : j = 0 := by omega
  interval_cases i
  · exact ⟨false, 1, rfl, by norm_num⟩
  · exact ⟨false, 1, rfl, by norm_num⟩
  · exact ⟨false, 0, rfl, by norm_num⟩
  · exact ⟨false, 0, rfl, by norm_num⟩

/-- The hypotheses of C62 can be met: original width 2, doubled, on a platform with accurate tables. -/
example : ∃ a c lw cw lh ch, Returned Demo.sysN none 4 1 (some Demo.params) [(c, .analyzed RDEOK)] a (some lw) cw (some lh) ch ∧
    ⟨2, .fin false 1⟩ ∈ lw := by
  have hb : Build Demo.sysN := Demo.lp64_build _ _
  have hv : ValidParams? Demo.sysN.cfg (some Demo.params) := by
    intro q hq
    obtain ⟨h1, h2, h3, h4⟩ := Demo.params_valid q hq
    exact ⟨h1, h2, h3, h4⟩
  have hr1 : (effParams Demo.sysN.cfg (effMethod none) (some Demo.params)).range = 1 := by
    show (effParams (lp64 .kiss) (effMethod none) (some Demo.params)).range = 1
    decide +kernel
  obtain ⟨a, c, f, lw, lh, cw, ch, hret, hop, hspec⟩ := single_run (s := Demo.sysN) (wd := Demo.w0) (w := 4) (h := 1)
    hb Demo.none_method (p := some Demo.params) hv (by decide) (by norm_num) (by norm_num)
    (show 4 * 1 ≤ (lp64 .kiss).pixelMax ∧ 4 * 1 * (lp64 .kiss).szCoeff ≤ (lp64 .kiss).sizeMax from ⟨by decide +kernel, by decide +kernel⟩)
    (show 4 ≤ sideMax (lp64 .kiss) by decide +kernel) (show 1 ≤ sideMax (lp64 .kiss) by decide +kernel) (fun h => by cases h)
    (by rw [hr1]; show ¬ ScoresTooBig (lp64 .kiss) 4 1 1; unfold ScoresTooBig; decide +kernel)
    (image := Demo.im4) (by decide) (by unfold AllFinite; decide +kernel) Demo.w0_wf (fun _ => rfl)
  have han : analysed [(c, Obs.analyzed RDEOK)] = [(c, Obs.analyzed RDEOK)] := by simp [analysed]
  refine ⟨a, c, lw, cw, lh, ch, hret, ?_⟩
  have hpr : Precise Demo.sysN.cfg := show Precise (lp64 .kiss) from ⟨by decide +kernel, by decide +kernel⟩
  refine ((C62_sign (s := Demo.sysN) (k := 2) (N := 2) hb rfl hpr Demo.none_method hv rfl
    demo4_noOom (by rw [han]; exact Nat.one_le_two_pow) (by rw [han]; exact (by decide +kernel : 1 ≤ (lp64 .kiss).sizeMax)) rfl hret
    Demo.sysN_accurate demoN_moderate (Or.inl ⟨?_, ?_⟩) le_rfl (by rw [hr1]; norm_num)).1 lw rfl rfl ?_).1
  · intro q _ hd
    have := Nat.le_of_dvd (by norm_num) hd
    omega
  · intro q _ hd
    have := Nat.le_of_dvd (by norm_num) hd
    omega
  · rw [han, hr1]
    intro x hx
    rw [List.mem_singleton] at hx
    subst hx
    refine ⟨_, hop, demoN_bounded, demo4_widened, ?_⟩
    intro i j hj hne h1 h2
    refine le_trans ?_ ((demo4_resolved j hj i h1 h2).2 hne)
    unfold errorBound
    rw [primeSum_four, primeSum_one]
    norm_num

end Verif.Props
