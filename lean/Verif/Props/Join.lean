import Verif.Props.Order
import Verif.Spec.Join

/-! # Sequences joined (C100) -/

namespace Verif.Props

open Spec

variable {s : Sys} {m : Option Method} {p : Option Params} {w h : ℕ} {ev1 ev2 ev : List (Call × Obs)} {a1 a2 a : Analysis}
  {rw1 rh1 rw2 rh2 rw rh : Option (List Res)} {cw1 ch1 cw2 ch2 cw ch : ℕ}

/-- The frames `ys` are the frames `xs1`, followed by the frames `xs2`. -/
def InTurn (n : ℕ) (xs1 xs2 ys : List (Call × Obs)) : Prop :=
  ∃ ys1 ys2, ys = ys1 ++ ys2 ∧ List.Forall₂ (SameFrame n) xs1 ys1 ∧ List.Forall₂ (SameFrame n) xs2 ys2

theorem same_spectra (hs : Build s) (hm : ValidMethod? m) (hp : ValidParams? s.cfg p) (hr : Reach s m w h p ev1 a1) (hr' : Reach s m w h p ev a)
    {xs ys : List (Call × Obs)} (hd : List.Forall₂ (SameFrame (w * h)) xs ys) (hsafe : Unaffected s w h (xs ++ ys))
    {fs fs' : List (List Fl)} (h1 : List.Forall₂ (fun x f => Spectrum s a1 x.1 f) xs fs) (h1' : List.Forall₂ (fun x f => Spectrum s a x.1 f) ys fs')
    (hsub : ∀ x ∈ xs, x ∈ ev1) : fs = fs' := by
  induction hd generalizing fs fs' with
  | nil => cases h1; cases h1'; rfl
  | @cons x y xs ys e _ ih =>
    cases h1 with
    | cons k1 k2 =>
      cases h1' with
      | cons k1' k2' =>
        congr 1
        · refine spectrum_repeats hs hm hp hr hr' (hsub _ (by simp)) e k1 k1' (hsafe.imp_right (Or.imp_right fun hb z hz => hb z ?_))
          simp only [List.mem_cons, List.not_mem_nil, or_false] at hz
          rcases hz with rfl | rfl <;> simp
        · refine ih (hsafe.imp_right (Or.imp_right fun hb z hz => hb z ?_)) k2 k2' (fun x hx => hsub x (by simp [hx]))
          rcases List.mem_append.mp hz with hz | hz <;> simp [hz]

/-- The mean of the whole is the weighted mean of the parts, up to rounding. -/
theorem mean_joined {S1 S2 k1 k2 u m1 m2 m : ℚ} (h1 : 1 ≤ k1) (h2 : 1 ≤ k2) (u0 : 0 ≤ u) (e1 : |m1 - S1 / k1| ≤ (k1 + 1) * u) (e2 : |m2 - S2 / k2| ≤ (k2 + 1) * u)
    (e : |m - (S1 + S2) / (k1 + k2)| ≤ (k1 + k2 + 1) * u) : |m - (k1 * m1 + k2 * m2) / (k1 + k2)| ≤ (2 * (k1 + k2) + 1) * u := by
  have p1 : 0 < k1 := by linarith
  have p2 : 0 < k2 := by linarith
  have pk : 0 < k1 + k2 := by linarith
  have d1 : |k1 * m1 - S1| ≤ k1 * ((k1 + k2) * u) := by
    have : k1 * m1 - S1 = k1 * (m1 - S1 / k1) := by field_simp
    rw [this, abs_mul, abs_of_pos p1]
    exact mul_le_mul_of_nonneg_left (le_trans e1 (mul_le_mul_of_nonneg_right (by linarith) u0)) p1.le
  have d2 : |k2 * m2 - S2| ≤ k2 * ((k1 + k2) * u) := by
    have : k2 * m2 - S2 = k2 * (m2 - S2 / k2) := by field_simp
    rw [this, abs_mul, abs_of_pos p2]
    exact mul_le_mul_of_nonneg_left (le_trans e2 (mul_le_mul_of_nonneg_right (by linarith) u0)) p2.le
  have d : |(k1 * m1 + k2 * m2) / (k1 + k2) - (S1 + S2) / (k1 + k2)| ≤ (k1 + k2) * u := by
    rw [← sub_div, abs_div, abs_of_pos pk, div_le_iff₀ pk]
    have := abs_add_le (k1 * m1 - S1) (k2 * m2 - S2)
    rw [show k1 * m1 - S1 + (k2 * m2 - S2) = k1 * m1 + k2 * m2 - (S1 + S2) by ring] at this
    linarith
  rw [abs_le] at d e ⊢
  constructor <;> linarith [d.1, d.2, e.1, e.2]

/-- Weighted means of nearby values are near. -/
theorem weighted_near {k1 k2 b m1 m2 v1 v2 : ℚ} (p1 : 0 < k1) (p2 : 0 < k2) (r1 : |v1 - m1| ≤ b) (r2 : |v2 - m2| ≤ b) :
    |(k1 * v1 + k2 * v2) / (k1 + k2) - (k1 * m1 + k2 * m2) / (k1 + k2)| ≤ b := by
  have pk : 0 < k1 + k2 := by linarith
  rw [← sub_div, abs_div, abs_of_pos pk, div_le_iff₀ pk, abs_le]
  rw [abs_le] at r1 r2
  constructor <;> nlinarith [r1.1, r1.2, r2.1, r2.2]

theorem listed_joined (hs : Build s) (hpr : Precise s.cfg) {d : Detect} {q : Params} {len n : ℕ} {g : List Fl → ℕ → ℕ → Fl} {fs1 fs2 : List (List Fl)}
    {l1 l2 l : List Res} (hn : 0 < n) (hn' : n ≤ 2 ^ s.cfg.inter.p) (hlen : len ≤ 2 ^ s.cfg.inter.p) (hr : 0 < q.range) (ht : InUnit q.threshold)
    (h1 : Listed s d q len g n fs1 l1) (h2 : Listed s d q len g n fs2 l2) (h : Listed s d q len g n (fs1 ++ fs2) l) (hne1 : fs1 ≠ []) (hne2 : fs2 ≠ [])
    (hk : fs1.length + fs2.length ≤ 2 ^ s.cfg.inter.p) :
    Joined fs1.length fs2.length ((2 * (fs1.length + fs2.length) + 1) * pow2 (-s.cfg.inter.p) + pow2 (-23))
      ((2 * (fs1.length + fs2.length) + 2) * pow2 (-s.cfg.inter.p) + pow2 (-24)) (val q.threshold) len l1 l2 l := by
  have hF := hs.wf.inter_wf
  have w32 : binary32.WF := binary32_wf
  obtain ⟨init1, e1, _, e2⟩ := h1.parts
  obtain ⟨init2, f1, _, f2⟩ := h2.parts
  obtain ⟨init, g1, _, g2⟩ := h.parts
  have n1 : 1 ≤ fs1.length := List.length_pos_iff.mpr hne1
  have n2 : 1 ≤ fs2.length := List.length_pos_iff.mpr hne2
  have q1 : (1 : ℚ) ≤ fs1.length := by exact_mod_cast n1
  have q2 : (1 : ℚ) ≤ fs2.length := by exact_mod_cast n2
  have u0 := (pow2_pos (-s.cfg.inter.p)).le
  have e24 : pow2 (-(binary32.p : ℤ)) = pow2 (-24) := rfl
  have e23 : pow2 (-23) = pow2 (-24) + pow2 (-24) := by decide +kernel
  have ht0 := ht
  obtain ⟨b, t, et, t0, t1⟩ := ht
  rw [et] at ht0 ⊢
  obtain ⟨b', et'⟩ := conv_unit_eq hF ht0
  have rt := s.cfg.inter.rnd_err hF (K := 1) le_rfl t0 (by simpa using t1)
  rw [Nat.cast_one, one_mul] at rt
  have hge : ∀ v : ℚ, (Fl.fin false v).ge (s.cfg.inter.conv q.threshold) = true ↔ s.cfg.inter.rnd t ≤ v := by
    intro v
    rw [et, et']
    simp [Fl.ge, Fl.lt]
  -- the three means at a position
  have means : ∀ x, q.range ≤ x → x + q.range < len → ∃ m1 m2 m c1 c2 c : ℚ,
      meanAt s d g n q.range fs1 x = .fin false m1 ∧ meanAt s d g n q.range fs2 x = .fin false m2 ∧ meanAt s d g n q.range (fs1 ++ fs2) x = .fin false m ∧
      binary32.conv (.fin false m1) = .fin false c1 ∧ binary32.conv (.fin false m2) = .fin false c2 ∧ binary32.conv (.fin false m) = .fin false c ∧
      |c1 - m1| ≤ pow2 (-24) ∧ |c2 - m2| ≤ pow2 (-24) ∧ |c - m| ≤ pow2 (-24) ∧
      |m - (fs1.length * m1 + fs2.length * m2) / (fs1.length + fs2.length)| ≤ (2 * (fs1.length + fs2.length) + 1) * pow2 (-s.cfg.inter.p) := by
    intro x hx1 hx2
    have c2 : q.range ≤ 2 ^ s.cfg.inter.p := by omega
    have hne : fs1 ++ fs2 ≠ [] := by simp [hne1]
    have hk' : (fs1 ++ fs2).length ≤ 2 ^ s.cfg.inter.p := by rw [List.length_append]; exact hk
    have k1 : fs1.length ≤ 2 ^ s.cfg.inter.p := by omega
    have k2 : fs2.length ≤ 2 ^ s.cfg.inter.p := by omega
    obtain ⟨m1, a1, a2, a3⟩ := meanAt_unit hF hpr (d := d) (g := g) (x := x) hn' c2 hn hr k1 hne1
    obtain ⟨m2, b1, b2, b3⟩ := meanAt_unit hF hpr (d := d) (g := g) (x := x) hn' c2 hn hr k2 hne2
    obtain ⟨m, d1, d2, d3⟩ := meanAt_unit hF hpr (d := d) (g := g) (x := x) hn' c2 hn hr hk' hne
    have v1 := meanAt_err hF hpr (d := d) (g := g) (x := x) hn' c2 hn hr k1 hne1
    have v2 := meanAt_err hF hpr (d := d) (g := g) (x := x) hn' c2 hn hr k2 hne2
    have v := meanAt_err hF hpr (d := d) (g := g) (x := x) hn' c2 hn hr hk' hne
    rw [a1] at v1
    rw [b1] at v2
    rw [d1, List.map_append, List.sum_append, List.length_append, Nat.cast_add] at v
    simp only [val] at v1 v2 v
    have r1 := binary32.rnd_err w32 (K := 1) le_rfl a2 (by simpa using a3)
    have r2 := binary32.rnd_err w32 (K := 1) le_rfl b2 (by simpa using b3)
    have r := binary32.rnd_err w32 (K := 1) le_rfl d2 (by simpa using d3)
    rw [e24, Nat.cast_one, one_mul] at r1 r2 r
    exact ⟨m1, m2, m, _, _, _, a1, b1, d1, conv_unit_false w32 a2 a3, conv_unit_false w32 b2 b3, conv_unit_false w32 d2 d3, r1, r2, r,
      mean_joined q1 q2 u0 v1 v2 v⟩
  have p1 : (0 : ℚ) < fs1.length := by linarith
  have p2 : (0 : ℚ) < fs2.length := by linarith
  constructor
  · intro r hrl hri
    rw [g1] at hrl
    rcases List.mem_append.mp hrl with hrl | hrl
    swap
    · rw [List.mem_singleton] at hrl
      rw [hrl] at hri
      exact absurd rfl hri
    obtain ⟨b1, b2, b3, b4, b5⟩ := (g2 r).mp hrl
    obtain ⟨m1, m2, m, c1, c2, c, a1, a2, a3, a4, a5, a6, r1, r2, r3, near⟩ := means r.index b1 b2
    refine ⟨c, by rw [b5, a3, a6], ?_⟩
    by_cases hc1 : s.cfg.inter.rnd t ≤ m1
    · left
      refine ⟨⟨r.index, .fin false c1⟩, List.mem_append_left _ ?_, rfl⟩
      rw [e1]
      exact List.mem_append_left _ ((e2 _).mpr ⟨b1, b2, b3, by rw [a1, hge]; exact hc1, by rw [a1, a4]⟩)
    by_cases hc2 : s.cfg.inter.rnd t ≤ m2
    · left
      refine ⟨⟨r.index, .fin false c2⟩, List.mem_append_right _ ?_, rfl⟩
      rw [f1]
      exact List.mem_append_left _ ((f2 _).mpr ⟨b1, b2, b3, by rw [a2, hge]; exact hc2, by rw [a2, a5]⟩)
    right
    rw [not_le] at hc1 hc2
    simp only [val]
    have hm : ((fs1.length : ℚ) * m1 + fs2.length * m2) / (fs1.length + fs2.length) ≤ s.cfg.inter.rnd t := by
      rw [div_le_iff₀ (by linarith)]
      nlinarith
    linarith [(abs_le.mp near).2, (abs_le.mp r3).2, (abs_le.mp rt).2]
  · intro r1 hr1 r2 hr2 hidx hri
    rw [e1] at hr1
    rw [f1] at hr2
    rcases List.mem_append.mp hr1 with hr1 | hr1
    swap
    · rw [List.mem_singleton] at hr1
      rw [hr1] at hri
      exact absurd rfl hri
    rcases List.mem_append.mp hr2 with hr2 | hr2
    swap
    · rw [List.mem_singleton] at hr2
      rw [hidx, hr2] at hri
      exact absurd rfl hri
    obtain ⟨b1, b2, b3, b4, b5⟩ := (e2 r1).mp hr1
    obtain ⟨b1', b2', b3', b4', b5'⟩ := (f2 r2).mp hr2
    obtain ⟨m1, m2, m, c1, c2, c, a1, a2, a3, a4, a5, a6, s1, s2, s3, near⟩ := means r1.index b1 b2
    refine ⟨c1, c2, by rw [b5, a1, a4], by rw [b5', ← hidx, a2, a5], ?_⟩
    have hw := weighted_near p1 p2 s1 s2
    by_cases hc : s.cfg.inter.rnd t ≤ m
    · left
      refine ⟨⟨r1.index, .fin false c⟩, ?_, rfl, c, rfl, ?_⟩
      · rw [g1]
        exact List.mem_append_left _ ((g2 _).mpr ⟨b1, b2, b3, by rw [a3, hge]; exact hc, by rw [a3, a6]⟩)
      · rw [e23]
        rw [abs_le] at hw near s3 ⊢
        constructor <;> linarith [hw.1, hw.2, near.1, near.2, s3.1, s3.2]
    · right
      rw [not_le] at hc
      simp only [val]
      linarith [(abs_le.mp near).1, (abs_le.mp hw).2, (abs_le.mp rt).2]

/-- **C100** An analysis of two sequences in turn says what analyses of each of them say: it reports no size that neither of them reports, and each size that
both report, with the weighted mean of their confidences, up to rounding and to sizes as close to the threshold as rounding can be. -/
theorem C100_join (hs : Build s) (hpr : Precise s.cfg) (hm : ValidMethod? m) (hp : ValidParams? s.cfg p) (hno1 : NoOom ev1) (hno2 : NoOom ev2) (hno : NoOom ev)
    (hr1 : Returned s m w h p ev1 a1 rw1 cw1 rh1 ch1) (hr2 : Returned s m w h p ev2 a2 rw2 cw2 rh2 ch2) (hr : Returned s m w h p ev a rw cw rh ch) {k1 k2 : ℕ}
    (hk1 : (analysed ev1).length = k1) (hk2 : (analysed ev2).length = k2) (hkp : k1 + k2 ≤ 2 ^ s.cfg.inter.p) (hks : k1 + k2 ≤ s.cfg.sizeMax)
    (hframes : InTurn (w * h) (analysed ev1) (analysed ev2) (analysed ev)) (hsafe : Unaffected s w h (analysed ev1 ++ analysed ev2 ++ analysed ev)) :
    let ε : ℚ := (2 * (k1 + k2) + 1) * pow2 (-s.cfg.inter.p) + pow2 (-23)
    let δ : ℚ := (2 * (k1 + k2) + 2) * pow2 (-s.cfg.inter.p) + pow2 (-24)
    let t := val (effParams s.cfg (effMethod m) p).threshold
    (∀ l1 l2 l, rw1 = some l1 → rw2 = some l2 → rw = some l → Joined k1 k2 ε δ t w l1 l2 l) ∧
    (∀ l1 l2 l, rh1 = some l1 → rh2 = some l2 → rh = some l → Joined k1 k2 ε δ t h l1 l2 l) := by
  obtain ⟨fs1, i1, -, -⟩ := (returned_got hs hm hp hr1).inv.scores hno1
  obtain ⟨fs2, i2, -, -⟩ := (returned_got hs hm hp hr2).inv.scores hno2
  obtain ⟨fs, i, -, -⟩ := (returned_got hs hm hp hr).inv.scores hno
  obtain ⟨w0, h0, wp, hp', r0, ht⟩ := returned_sizes hs hpr hm hp hr
  obtain ⟨ys1, ys2, hy, hf1, hf2⟩ := hframes
  have l1 := hf1.length_eq
  have l2 := hf2.length_eq
  have l3 : (analysed ev).length = ys1.length + ys2.length := by rw [hy, List.length_append]
  obtain ⟨hne1, hfl1, hX1, hY1⟩ := returned_listed hs hm hp hno1 (by omega) hr1 i1
  obtain ⟨hne2, hfl2, hX2, hY2⟩ := returned_listed hs hm hp hno2 (by omega) hr2 i2
  obtain ⟨hne, hfl, hX, hY⟩ := returned_listed hs hm hp hno (by omega) hr i
  have hsp : fs = fs1 ++ fs2 := by
    have i' : List.Forall₂ (fun x f => Spectrum s a x.1 f) (ys1 ++ ys2) fs := by rw [← hy]; exact i
    obtain ⟨gs1, gs2, j1, j2, rfl⟩ : ∃ gs1 gs2, List.Forall₂ (fun x f => Spectrum s a x.1 f) ys1 gs1 ∧ List.Forall₂ (fun x f => Spectrum s a x.1 f) ys2 gs2 ∧
        fs = gs1 ++ gs2 := by
      refine ⟨fs.take ys1.length, fs.drop ys1.length, ?_, ?_, (List.take_append_drop _ _).symm⟩
      · have := List.forall₂_take ys1.length i'
        rwa [List.take_left'  rfl] at this
      · have := List.forall₂_drop ys1.length i'
        rwa [List.drop_left' rfl] at this
    rw [same_spectra hs hm hp hr1.1 hr.1 hf1 (hsafe.imp_right (Or.imp_right fun hb z hz => hb z ?_)) i1 j1 (fun x hx => List.mem_of_mem_filter hx),
      same_spectra hs hm hp hr2.1 hr.1 hf2 (hsafe.imp_right (Or.imp_right fun hb z hz => hb z ?_)) i2 j2 (fun x hx => List.mem_of_mem_filter hx)]
    · rw [hy]
      rcases List.mem_append.mp hz with hz | hz <;> simp [hz]
    · rw [hy]
      rcases List.mem_append.mp hz with hz | hz <;> simp [hz]
  subst hsp
  have ek1 : fs1.length = k1 := by omega
  have ek2 : fs2.length = k2 := by omega
  intro ε δ t
  rw [← ek1, ← ek2]
  have ε' : ε = (2 * ((fs1.length : ℚ) + fs2.length) + 1) * pow2 (-s.cfg.inter.p) + pow2 (-23) := by rw [ek1, ek2]
  have δ' : δ = (2 * ((fs1.length : ℚ) + fs2.length) + 2) * pow2 (-s.cfg.inter.p) + pow2 (-24) := by rw [ek1, ek2]
  rw [ε', δ']
  exact ⟨fun l1 l2 l e1 e2 e => listed_joined hs hpr h0 hp' wp r0 ht (hX1 l1 e1) (hX2 l2 e2) (hX l e) hne1 hne2 (by omega),
    fun l1 l2 l e1 e2 e => listed_joined hs hpr w0 wp hp' r0 ht (hY1 l1 e1) (hY2 l2 e2) (hY l e) hne1 hne2 (by omega)⟩

/-- The hypotheses of `C100_join` can be met, with a width found: one frame with all rows for the width 1, one with half of them. -/
example : ∃ ev1 a1 cw1 ch1 rh1 ev2 a2 cw2 ch2 rh2 ev a cw ch rh,
    Returned Demo.sys none 3 6 (some Demo.half) ev1 a1 (some [⟨1, .fin false 1⟩, ⟨3, .fin true (-1)⟩]) cw1 rh1 ch1 ∧
    Returned Demo.sys none 3 6 (some Demo.half) ev2 a2 (some Demo.halfFound) cw2 rh2 ch2 ∧
    Returned Demo.sys none 3 6 (some Demo.half) ev a (some [⟨1, .fin false (3 / 4)⟩, ⟨3, .fin true (-1)⟩]) cw rh ch ∧ NoOom ev1 ∧ NoOom ev2 ∧ NoOom ev ∧
    (analysed ev1).length = 1 ∧ (analysed ev2).length = 1 ∧ InTurn (3 * 6) (analysed ev1) (analysed ev2) (analysed ev) ∧
    Unaffected Demo.sys 3 6 (analysed ev1 ++ analysed ev2 ++ analysed ev) := by
  obtain ⟨ev1, a1, cw1, ch1, h1, h2, h3, h4⟩ := Demo.halfHistory (frames := [Demo.shares 6]) (n := 1)
    (lw := some [⟨1, .fin false 1⟩, ⟨3, .fin true (-1)⟩]) (lh := some [⟨6, .fin true (-1)⟩]) (by decide +kernel) (by decide +kernel) (by decide +kernel) (by decide +kernel)
  obtain ⟨ev2, a2, cw2, ch2, i1, i2, i3, i4⟩ := Demo.halfHistory (frames := [Demo.shares 3]) (n := 1)
    (lw := some Demo.halfFound) (lh := some [⟨6, .fin true (-1)⟩]) (by decide +kernel) (by decide +kernel) (by decide +kernel) (by decide +kernel)
  obtain ⟨ev, a, cw, ch, j1, j2, j3, j4⟩ := Demo.halfHistory (frames := [Demo.shares 6, Demo.shares 3]) (n := 2)
    (lw := some [⟨1, .fin false (3 / 4)⟩, ⟨3, .fin true (-1)⟩]) (lh := some [⟨6, .fin true (-1)⟩]) (by decide +kernel) (by decide +kernel) (by decide +kernel) (by decide +kernel)
  refine ⟨ev1, a1, cw1, ch1, _, ev2, a2, cw2, ch2, _, ev, a, cw, ch, _, h1, i1, j1, h2, i2, j2, ?_, ?_, ?_, Or.inl rfl⟩
  · rw [h3]
    simpa using congrArg List.length h4
  · rw [i3]
    simpa using congrArg List.length i4
  · rw [h3, i3, j3]
    rw [List.map_cons, List.map_cons, List.map_nil, List.map_eq_cons_iff] at j4
    obtain ⟨y, ys, rfl, k1, k2⟩ := j4
    exact ⟨[y], ys, rfl, sameFrames (List.forall₂_same.mpr fun _ _ => rfl) h4 (by rw [List.map_cons, List.map_nil, k1]; rfl),
      sameFrames (List.forall₂_same.mpr fun _ _ => rfl) i4 k2⟩

theorem framesOf_append {image1 image2 : List Fl} {k1 k2 : ℕ} (hlen : image1.length = k1 * (w * h)) :
    framesOf (image1 ++ image2) w h (k1 + k2) = framesOf image1 w h k1 ++ framesOf image2 w h k2 := by
  unfold framesOf frameOf
  rw [List.range_add, List.map_append, List.map_map]
  congr 1
  · refine List.map_congr_left fun i hi => ?_
    have hi : (i + 1) * (w * h) ≤ k1 * (w * h) := Nat.mul_le_mul_right _ (List.mem_range.mp hi)
    rw [Nat.add_mul, Nat.one_mul] at hi
    rw [List.drop_append_of_le_length (by omega), List.take_append_of_le_length (by rw [List.length_drop]; omega)]
  · refine List.map_congr_left fun i _ => ?_
    rw [Function.comp, Nat.add_mul, ← hlen, List.drop_append]
    congr 1
    rw [List.drop_eq_nil_of_le (by omega), List.nil_append, Nat.add_sub_cancel_left]

/-- **C100** The same for three calls of `resdetect`, the third with the frames of the first followed by those of the second. Where the spectrum of a frame could
depend on failing allocations (sides with large prime factors and the bundled transform) enough memory is asked for. -/
theorem C100_resdetect (hs : Build s) (hpr : Precise s.cfg) (hm : ValidMethod? m) (hp : ValidParams? s.cfg p) {k1 k2 : ℕ} {image1 image2 : List Fl}
    (himg : image1.length + image2.length ≤ s.cfg.sizeMax) (hlen1 : image1.length = k1 * (w * h)) (hlen2 : k2 * (w * h) ≤ image2.length)
    {ptr1 ptr2 ptr : Ptrs} {wd1 wd2 wd wd1' wd2' wd' : World} (hw1 : wd1.WF) (hw2 : wd2.WF) (hw : wd.WF) {o1 o2 o : Out}
    (hr1 : resdetect s (some image1) k1 w h ptr1 m p wd1 = some ((RDEOK, o1), wd1')) (hr2 : resdetect s (some image2) k2 w h ptr2 m p wd2 = some ((RDEOK, o2), wd2'))
    (hr : resdetect s (some (image1 ++ image2)) (k1 + k2) w h ptr m p wd = some ((RDEOK, o), wd')) (hkp : k1 + k2 ≤ 2 ^ s.cfg.inter.p)
    (hks : k1 + k2 ≤ s.cfg.sizeMax)
    (hsafe : s.cfg.backend = .fftw ∨ (Smooth w ∧ Smooth h) ∨ (Plenty wd1 ∧ Plenty wd2 ∧ Plenty wd ∧ ¬ HugeScores s w h)) :
    let ε : ℚ := (2 * (k1 + k2) + 1) * pow2 (-s.cfg.inter.p) + pow2 (-23)
    let δ : ℚ := (2 * (k1 + k2) + 2) * pow2 (-s.cfg.inter.p) + pow2 (-24)
    let t := val (effParams s.cfg (effMethod m) p).threshold
    (∀ l1 l2 l, o1.rw.map Buf.data = some l1 → o2.rw.map Buf.data = some l2 → o.rw.map Buf.data = some l → Joined k1 k2 ε δ t w l1 l2 l) ∧
    (∀ l1 l2 l, o1.rh.map Buf.data = some l1 → o2.rh.map Buf.data = some l2 → o.rh.map Buf.data = some l → Joined k1 k2 ε δ t h l1 l2 l) := by
  obtain ⟨ev1, a1, f1, f2, f3, f4, f5⟩ := C14_resdetect_history hs hm hp (by omega) hlen1.ge hw1 hr1
  obtain ⟨ev2, a2, g1, g2, g3, g4, g5⟩ := C14_resdetect_history hs hm hp (by omega) hlen2 hw2 hr2
  obtain ⟨ev, a, i1, i2, i3, i4, i5⟩ := C14_resdetect_history hs hm hp (by rw [List.length_append]; exact himg)
    (by rw [List.length_append, Nat.add_mul]; omega) hw hr
  have e1 := (all_analysed f3).1
  have e2 := (all_analysed g3).1
  have e := (all_analysed i3).1
  refine C100_join hs hpr hm hp f2 g2 i2 f1 g1 i1 ?_ ?_ hkp hks ?_ (hsafe.imp_right (Or.imp_right ?_))
  · rw [e1]
    simpa using congrArg List.length f3
  · rw [e2]
    simpa using congrArg List.length g3
  · rw [e1, e2, e]
    rw [framesOf_append hlen1, List.map_append, List.map_eq_append_iff] at i4
    obtain ⟨ys1, ys2, rfl, j1, j2⟩ := i4
    exact ⟨ys1, ys2, rfl, sameFrames (List.forall₂_same.mpr fun _ _ => rfl) f4 j1, sameFrames (List.forall₂_same.mpr fun _ _ => rfl) g4 j2⟩
  · rintro ⟨q1, q2, q3, q4⟩ x hx
    rw [e1, e2, e] at hx
    rcases List.mem_append.mp hx with hx | hx
    · rcases List.mem_append.mp hx with hx | hx
      · exact f5 q1 q4 x hx
      · exact g5 q2 q4 x hx
    · exact i5 q3 q4 x hx

/-- The hypotheses of `C100_resdetect` can be met: the calls of the previous example. -/
example : ∃ (image1 image2 : List Fl), image1.length = 1 * (3 * 6) ∧ 1 * (3 * 6) ≤ image2.length ∧
    lists (resdetect Demo.sys (some image1) 1 3 6 .all none (some Demo.half) Demo.w0) =
      some (RDEOK, some [⟨1, .fin false 1⟩, ⟨3, .fin true (-1)⟩], some [⟨6, .fin true (-1)⟩]) ∧
    lists (resdetect Demo.sys (some image2) 1 3 6 .all none (some Demo.half) Demo.w0) = some (RDEOK, some Demo.halfFound, some [⟨6, .fin true (-1)⟩]) ∧
    lists (resdetect Demo.sys (some (image1 ++ image2)) 2 3 6 .all none (some Demo.half) Demo.w0) =
      some (RDEOK, some [⟨1, .fin false (3 / 4)⟩, ⟨3, .fin true (-1)⟩], some [⟨6, .fin true (-1)⟩]) :=
  ⟨Demo.shares 6, Demo.shares 3, by decide +kernel, by decide +kernel, by decide +kernel, by decide +kernel, by decide +kernel⟩

end Verif.Props
