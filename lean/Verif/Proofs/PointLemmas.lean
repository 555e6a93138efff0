import Verif.Proofs.ListLemmas
import Mathlib.Tactic.Linarith

/-! # Scores of single positions, and the compression filter -/

namespace Verif

open Spec

/-- Numbers of at most `p` significant bits are representable. -/
theorem Fmt.rnd_exact (F : Fmt) (hF : F.WF) {k : ℕ} (hk : k ≤ 2 ^ F.p) {e : ℤ} (he : F.qmin ≤ e) :
    F.rnd (k * pow2 e) = k * pow2 e := by
  have hpe := pow2_pos e
  unfold Fmt.rnd
  rw [if_neg (by have : (0 : ℚ) ≤ k := Nat.cast_nonneg k; have := mul_nonneg this hpe.le; linarith)]
  rcases Nat.eq_zero_or_pos k with rfl | hpos
  · simp [Fmt.rndAbs]
  rcases hk.eq_or_lt with rfl | hlt
  · have := F.rndAbs_pow2 hF.p_pos (e := (F.p : ℤ) + e) (by omega)
    rw [pow2_add, pow2_natCast] at this
    push_cast; exact this
  have hkq : (0 : ℚ) < k := by exact_mod_cast hpos
  have hv : 0 < (k : ℚ) * pow2 e := mul_pos hkq hpe
  have hl : ilog2 ((k : ℚ) * pow2 e) < F.p + e := by
    apply lt_of_pow2_lt
    apply lt_of_le_of_lt (ilog2_spec hv).1
    rw [pow2_add, pow2_natCast]
    exact mul_lt_mul_of_pos_right (by exact_mod_cast hlt) hpe
  have hq : F.quantum ((k : ℚ) * pow2 e) ≤ e := by
    unfold Fmt.quantum; omega
  obtain ⟨n, hn⟩ := Int.eq_ofNat_of_zero_le (show 0 ≤ e - F.quantum ((k : ℚ) * pow2 e) by omega)
  apply F.rndAbs_of_multiple ((k : ℤ) * 2 ^ n)
  have : e = (n : ℤ) + F.quantum ((k : ℚ) * pow2 e) := by omega
  calc (k : ℚ) * pow2 e = k * pow2 ((n : ℤ) + F.quantum ((k : ℚ) * pow2 e)) := by rw [← this]
    _ = _ := by rw [pow2_add, pow2_natCast]; push_cast; ring

/-- All signs differ exactly if every pair is counted. -/
theorem signMatches_full {g : ℕ → ℕ → Fl} {n range x : ℕ} : signMatches g n range x = n * range ↔
    ∀ y < n, ∀ i, 1 ≤ i → i ≤ range → (g y (x - i)).signbit ≠ (g y (x + i)).signbit := by
  unfold signMatches
  have hc : (Finset.range n ×ˢ Finset.Icc 1 range).card = n * range := by simp [Finset.card_product]
  rw [← hc, Finset.card_filter_eq_iff]
  constructor
  · intro h y hy i h1 h2
    exact h (y, i) (by simp [hy, h1, h2])
  · rintro h ⟨y, i⟩ hm
    simp only [Finset.mem_product, Finset.mem_range, Finset.mem_Icc] at hm
    exact h y hm.1 i hm.2.1 hm.2.2

theorem total_ones {s : Sys} (hF : s.cfg.inter.WF) (hp : Precise s.cfg) {d : Detect} {g : List Fl → ℕ → ℕ → Fl}
    {n range x : ℕ} {fs : List (List Fl)} (hk : fs.length ≤ 2 ^ s.cfg.inter.p)
    (h : ∀ f ∈ fs, frameScore s d (g f) n range x = some (.fin false 1)) :
    total s d g n range fs x = .fin false fs.length := by
  induction fs using List.reverseRecOn with
  | nil => simp [total]
  | append_singleton fs f ih =>
    rw [List.length_append, List.length_singleton] at hk
    have e : total s d g n range (fs ++ [f]) x = addScore s.cfg (total s d g n range fs x)
        (frameScore s d (g f) n range x) := by
      unfold total; rw [List.foldl_append, List.foldl_cons, List.foldl_nil]
    rw [e, ih (by omega) (fun f hf => h f (by simp [hf])), h f (by simp)]
    simp only [addScore, Fmt.add, Bool.and_self, List.length_append, List.length_singleton]
    have := ofNat_exact hF hp.p_lt hk
    unfold Fmt.ofNat at this
    push_cast at this ⊢
    exact this

/-- With every frame at full score the mean is 1. -/
theorem meanAt_ones {s : Sys} (hF : s.cfg.inter.WF) (hp : Precise s.cfg) {d : Detect} {g : List Fl → ℕ → ℕ → Fl}
    {n range x : ℕ} {fs : List (List Fl)} (hk : fs.length ≤ 2 ^ s.cfg.inter.p) (hne : fs ≠ [])
    (h : ∀ f ∈ fs, frameScore s d (g f) n range x = some (.fin false 1)) :
    meanAt s d g n range fs x = .fin false 1 := by
  have hpos : 0 < fs.length := List.length_pos_iff.mpr hne
  unfold meanAt
  rw [total_ones hF hp hk h]
  obtain ⟨e, _, _⟩ := mean_unit hF hp (v := fs.length) hpos hk (Nat.cast_nonneg _) le_rfl
  rw [e, div_self (by exact_mod_cast hpos.ne'), s.cfg.inter.rnd_one hF]

/-- A mean score is a non-negative number at most 1. -/
theorem meanAt_unit {s : Sys} (hF : s.cfg.inter.WF) (hp : Precise s.cfg) {d : Detect} {g : List Fl → ℕ → ℕ → Fl}
    {n range x : ℕ} (hn : n ≤ 2 ^ s.cfg.inter.p) (hr : range ≤ 2 ^ s.cfg.inter.p) (hn0 : 0 < n) (hr0 : 0 < range)
    {fs : List (List Fl)} (hk : fs.length ≤ 2 ^ s.cfg.inter.p) (hne : fs ≠ []) :
    ∃ v, meanAt s d g n range fs x = .fin false v ∧ 0 ≤ v ∧ v ≤ 1 := by
  have hpos : 0 < fs.length := List.length_pos_iff.mpr hne
  obtain ⟨v, e, h0, h1⟩ := total_le hF hp (d := d) (g := g) (x := x) hn hr hn0 hr0 hk
  unfold meanAt
  rw [e]
  obtain ⟨e, h2, h3⟩ := mean_unit hF hp hpos hk h0 h1
  exact ⟨_, e, rnd_unit hF h2 h3⟩

theorem conv_unit_false {F : Fmt} (hF : F.WF) {v : ℚ} (h0 : 0 ≤ v) (h1 : v ≤ 1) :
    F.conv (.fin false v) = .fin false (F.rnd v) := deliver_unit hF h0 h1

/-- The largest `float` below 1. -/
theorem rnd_below_one {F : Fmt} (hF : F.WF) (hp : 24 ≤ F.p) {v : ℚ} (h : v ≤ 1 - pow2 (-24)) : F.rnd v ≤ 1 - pow2 (-24) := by
  have e : (1 : ℚ) - pow2 (-24) = ((2 ^ 24 - 1 : ℕ) : ℚ) * pow2 (-24) := by norm_num [pow2_eq]
  have hq : F.qmin ≤ -24 := by have := hF.one_le; omega
  have hk : 2 ^ 24 - 1 ≤ 2 ^ F.p := le_trans (by norm_num) (Nat.pow_le_pow_right (by norm_num) hp)
  have h1 := F.rnd_exact hF hk hq
  have h2 := F.rnd_mono hF.p_pos h
  rw [e] at h2 ⊢
  rwa [h1] at h2

/-- A ratio with a small denominator is 1 only if complete. -/
theorem ratio_below {c : Cfg} (hF : c.inter.WF) (hp : Precise c) (h24 : 24 ≤ c.inter.p) {k a b : ℕ} (ha0 : 0 < a) (hb0 : 0 < b)
    (hab : a * b ≤ 2 ^ 24) (hk : k < a * b) : ∃ v, ratio c k a b = .fin false v ∧ 0 ≤ v ∧ v ≤ 1 - pow2 (-24) := by
  have hpow : 2 ^ 24 ≤ 2 ^ c.inter.p := Nat.pow_le_pow_right (by norm_num) h24
  have ha : a ≤ 2 ^ c.inter.p := le_trans (Nat.le_mul_of_pos_right _ hb0) (le_trans hab hpow)
  have hb : b ≤ 2 ^ c.inter.p := le_trans (Nat.le_mul_of_pos_left _ ha0) (le_trans hab hpow)
  obtain ⟨e, h0, h1⟩ := ratio_eq hF hp ha hb ha0 hb0 hk.le
  refine ⟨_, e, c.inter.rnd_nonneg h0, rnd_below_one hF h24 ?_⟩
  rw [c.inter.rnd_natCast hF (by omega), c.inter.rnd_natCast hF (by omega)]
  have hN : (0 : ℚ) < (a * b : ℕ) := by exact_mod_cast Nat.mul_pos ha0 hb0
  rw [div_le_iff₀ hN]
  have h2 : (k : ℚ) ≤ (a * b : ℕ) - 1 := by
    have : k + 1 ≤ a * b := hk
    have : ((k + 1 : ℕ) : ℚ) ≤ (a * b : ℕ) := by exact_mod_cast this
    push_cast at this ⊢
    linarith
  have h3 : ((a * b : ℕ) : ℚ) ≤ 2 ^ 24 := by exact_mod_cast hab
  have h4 : pow2 (-24) = 1 / 2 ^ 24 := by norm_num [pow2_eq]
  rw [h4]
  have : (1 : ℚ) / 2 ^ 24 * (a * b : ℕ) ≤ 1 := by
    rw [div_mul_eq_mul_div, one_mul, div_le_one (by norm_num)]; exact h3
  linarith

/-- Totals with larger contributions are larger. -/
theorem total_mono {s : Sys} (hF : s.cfg.inter.WF) (hp : Precise s.cfg) {d d' : Detect} {g : List Fl → ℕ → ℕ → Fl}
    {n range x : ℕ} (hn : n ≤ 2 ^ s.cfg.inter.p) (hr : range ≤ 2 ^ s.cfg.inter.p) (hn0 : 0 < n) (hr0 : 0 < range)
    {fs : List (List Fl)} (hk : fs.length ≤ 2 ^ s.cfg.inter.p)
    (h : ∀ f ∈ fs, val ((frameScore s d (g f) n range x).getD (.fin false 0)) ≤
      val ((frameScore s d' (g f) n range x).getD (.fin false 0))) :
    val (total s d g n range fs x) ≤ val (total s d' g n range fs x) := by
  induction fs using List.reverseRecOn with
  | nil => exact le_rfl
  | append_singleton fs f ih =>
    rw [List.length_append, List.length_singleton] at hk
    have e : ∀ d, val (total s d g n range (fs ++ [f]) x) = s.cfg.inter.rnd (val (total s d g n range fs x) +
        val ((frameScore s d (g f) n range x).getD (.fin false 0))) := by
      intro d
      have e : total s d g n range (fs ++ [f]) x = addScore s.cfg (total s d g n range fs x)
          (frameScore s d (g f) n range x) := by
        unfold total; rw [List.foldl_append, List.foldl_cons, List.foldl_nil]
      obtain ⟨⟨u, hu, hu0, huk, hur⟩, _⟩ := total_rep hF hp (d := d) (g := g) (x := x) hn hr hn0 hr0 (fs := fs) (by omega)
      rw [e, hu]
      cases ho : frameScore s d (g f) n range x with
      | none => simp only [addScore, Option.getD, val, add_zero]; exact hur.symm
      | some v =>
        obtain ⟨q, rfl, h0, h1⟩ := frameScore_unit hF hp hn hr hn0 hr0 ho
        simp only [addScore, Option.getD, Fmt.add, Bool.and_self]
        rw [deliver_nn]
        · rfl
        · linarith
        · have hb : u + q ≤ (fs.length + 1 : ℕ) := by push_cast; linarith
          refine lt_of_le_of_lt (s.cfg.inter.rnd_le_natCast hF hk hb) (lt_of_le_of_lt ?_ (pow2_lt hp.p_lt))
          rw [pow2_natCast]; exact_mod_cast hk
    rw [e, e]
    have h1 := ih (by omega) (fun f hf => h f (by simp [hf]))
    have h2 := h f (by simp)
    exact s.cfg.inter.rnd_mono hF.p_pos (by linarith)

theorem meanAt_mono {s : Sys} (hF : s.cfg.inter.WF) (hp : Precise s.cfg) {d d' : Detect} {g : List Fl → ℕ → ℕ → Fl}
    {n range x : ℕ} (hn : n ≤ 2 ^ s.cfg.inter.p) (hr : range ≤ 2 ^ s.cfg.inter.p) (hn0 : 0 < n) (hr0 : 0 < range)
    {fs : List (List Fl)} (hk : fs.length ≤ 2 ^ s.cfg.inter.p) (hne : fs ≠ [])
    (h : ∀ f ∈ fs, val ((frameScore s d (g f) n range x).getD (.fin false 0)) ≤
      val ((frameScore s d' (g f) n range x).getD (.fin false 0))) :
    val (meanAt s d g n range fs x) ≤ val (meanAt s d' g n range fs x) := by
  have hpos : 0 < fs.length := List.length_pos_iff.mpr hne
  have hpos' : (0 : ℚ) < fs.length := by exact_mod_cast hpos
  have e : ∀ d, val (meanAt s d g n range fs x) = s.cfg.inter.rnd (val (total s d g n range fs x) / fs.length) := by
    intro d
    obtain ⟨v, e, h0, h1⟩ := total_le hF hp (d := d) (g := g) (x := x) hn hr hn0 hr0 hk
    unfold meanAt
    rw [e, (mean_unit hF hp hpos hk h0 h1).1]
    rfl
  rw [e, e]
  refine s.cfg.inter.rnd_mono hF.p_pos ?_
  have := total_mono hF hp hn hr hn0 hr0 hk h
  gcongr

/-- What a score depends on. -/
theorem frameScore_congr {s : Sys} {d : Detect} {g g' : ℕ → ℕ → Fl} {n range x : ℕ} (hr : 0 < range) (hx : range ≤ x)
    (h : ∀ y < n, ∀ z, x - range ≤ z → z ≤ x + range → g y z = g' y z) :
    frameScore s d g n range x = frameScore s d g' n range x := by
  have hsign : signMatches g n range x = signMatches g' n range x := by
    unfold signMatches
    congr 1
    refine Finset.filter_congr ?_
    rintro ⟨y, i⟩ hm
    simp only [Finset.mem_product, Finset.mem_range, Finset.mem_Icc] at hm
    simp only
    rw [h y hm.1 (x - i) (by omega) (by omega), h y hm.1 (x + i) (by omega) (by omega)]
  cases d with
  | sign => simp only [frameScore, hsign]
  | mag =>
    have : pairMatches (magHit s) g n range x = pairMatches (magHit s) g' n range x := by
      unfold pairMatches
      congr 1
      refine Finset.filter_congr ?_
      rintro ⟨y, i⟩ hm
      simp only [Finset.mem_product, Finset.mem_range, Finset.mem_Icc] at hm
      simp only
      rw [h y hm.1 (x - i) (by omega) (by omega), h y hm.1 (x + i) (by omega) (by omega)]
    simp only [frameScore, this]
  | zerox =>
    have : crossings g n x = crossings g' n x := by
      unfold crossings
      congr 1
      refine Finset.filter_congr ?_
      intro y hm
      rw [Finset.mem_range] at hm
      rw [h y hm (x - 1) (by omega) (by omega), h y hm (x + 1) (by omega) (by omega), h y hm x (by omega) (by omega)]
    simp only [frameScore, this]
  | orig =>
    have hmean : ∀ z, x - range ≤ z → z ≤ x + range → meanMag s.cfg g n z = meanMag s.cfg g' n z := by
      intro z h1 h2
      unfold meanMag
      congr 2
      refine List.map_congr_left ?_
      intro y hy
      rw [List.mem_range] at hy
      rw [h y hy z h1 h2]
    have hl : ∀ (σ : ℕ → ℕ), (∀ i < range, x - range ≤ σ i ∧ σ i ≤ x + range) →
        (List.range range).map (fun i => meanMag s.cfg g n (σ i)) = (List.range range).map (fun i => meanMag s.cfg g' n (σ i)) := by
      intro σ hσ
      refine List.map_congr_left ?_
      intro i hi
      rw [List.mem_range] at hi
      exact hmean _ (hσ i hi).1 (hσ i hi).2
    have : origPasses s.cfg g n range x = origPasses s.cfg g' n range x := by
      unfold origPasses
      rw [hl (fun i => x - (i + 1)) (fun i hi => by omega), hl (fun i => x + (i + 1)) (fun i hi => by omega),
        hmean x (by omega) (by omega)]
    simp only [frameScore, this, hsign]

theorem total_congr {s : Sys} {d : Detect} {g g' : List Fl → ℕ → ℕ → Fl} {n range x : ℕ} {fs fs' : List (List Fl)}
    (h : List.Forall₂ (fun f f' => frameScore s d (g f) n range x = frameScore s d (g' f') n range x) fs fs') :
    total s d g n range fs x = total s d g' n range fs' x := by
  unfold total
  generalize Fl.fin false 0 = acc
  induction h generalizing acc with
  | nil => rfl
  | cons h _ ih => rw [List.foldl_cons, List.foldl_cons, h, ih]

theorem cround_nat (n : ℕ) : Fl.cround (.fin false (n : ℚ)) = .fin false (n : ℚ) := by
  unfold Fl.cround
  simp only
  rw [if_neg (by have : (0 : ℚ) ≤ n := Nat.cast_nonneg n; linarith)]
  have : ⌊(n : ℚ) + 1 / 2⌋ = (n : ℤ) := by
    rw [Int.floor_eq_iff]; constructor <;> push_cast <;> linarith
  rw [this]
  simp

/-- What the compression filter discards, in integers. -/
theorem filteredOut_eq {L v i : ℕ} (hv0 : v ≠ 0) (hv : v ≤ 31) (hL0 : 0 < L) (hL : L ≤ 2 ^ 22) (hi : i ≤ 2 ^ 22) :
    filteredOut L v i = !decide (2 ^ v ∣ i) := by
  have w32 := binary32_wf
  have w64 := binary64_wf
  have hL' : (0 : ℚ) < L := by exact_mod_cast hL0
  have hLb : (L : ℚ) ≤ 2 ^ 22 := by exact_mod_cast hL
  have hib : (i : ℚ) ≤ 2 ^ 22 := by exact_mod_cast hi
  have hi0 : (0 : ℚ) ≤ i := Nat.cast_nonneg i
  have p32 : (2 : ℕ) ^ binary32.p = 2 ^ 24 := rfl
  have p64 : (2 : ℕ) ^ binary64.p = 2 ^ 53 := rfl
  have big32 : (2 : ℚ) ^ 100 < pow2 binary32.emax := by rw [show binary32.emax = ((128 : ℕ) : ℤ) from rfl, pow2_natCast]; norm_num
  have big64 : (2 : ℚ) ^ 100 < pow2 binary64.emax := by
    rw [show binary64.emax = ((1024 : ℕ) : ℤ) from rfl, pow2_natCast]
    exact pow_lt_pow_right₀ (by norm_num) (by norm_num)
  have v2 : (0 : ℚ) < 2 ^ v := by positivity
  have hpv : pow2 (-(v : ℤ)) = 1 / 2 ^ v := by rw [pow2_eq, zpow_neg]; simp
  have hv1 : (1 : ℚ) ≤ 2 ^ v := one_le_pow₀ (by norm_num)
  have hvle : (2 : ℚ) ^ v ≤ 2 ^ 31 := pow_le_pow_right₀ (by norm_num) hv
  -- the interval
  have oL : binary32.ofNat L = .fin false L := ofNat_exact w32 (by decide) (by rw [p32]; omega)
  have oi : binary32.ofNat i = .fin false i := ofNat_exact w32 (by decide) (by rw [p32]; omega)
  have ov : binary32.ofNat (2 ^ v) = .fin false (2 ^ v) := by
    unfold Fmt.ofNat
    have e := binary32.rnd_exact w32 (k := 1) (e := (v : ℤ)) Nat.one_le_two_pow (by show (-149 : ℤ) ≤ v; omega)
    rw [pow2_natCast] at e
    simp only [Nat.cast_one, one_mul] at e
    push_cast
    rw [deliver_nn _ v2.le, e]
    rw [e]
    exact lt_of_le_of_lt hvle (lt_trans (by norm_num) big32)
  have rfi : ∀ F : Fmt, F.WF → L ≤ 2 ^ F.p → F.qmin ≤ -31 → F.rnd ((L : ℚ) / 2 ^ v) = L / 2 ^ v := by
    intro F hF h1 h2
    have := F.rnd_exact hF (k := L) h1 (e := -(v : ℤ)) (by omega)
    rw [hpv] at this
    rw [div_eq_mul_one_div]; exact this
  have hfi0 : (0 : ℚ) < L / 2 ^ v := div_pos hL' v2
  have hfib : (L : ℚ) / 2 ^ v ≤ 2 ^ 22 := le_trans (div_le_self hL'.le hv1) hLb
  have r32 := rfi binary32 w32 (by rw [p32]; omega) (by decide)
  have r64 := rfi binary64 w64 (by rw [p64]; omega) (by decide)
  have efi : binary32.div (binary32.ofNat L) (binary32.ofNat (2 ^ v)) = .fin false (L / 2 ^ v) := by
    rw [oL, ov]
    unfold Fmt.div
    simp only
    rw [if_neg v2.ne', Bool.xor_false, deliver_nn _ hfi0.le, r32]
    rw [r32]; linarith [big32, (show (2 : ℚ) ^ 22 < 2 ^ 100 by norm_num)]
  -- the inner quotient
  set t := binary32.rnd (i * (L / 2 ^ v)) with ht
  have hprod0 : (0 : ℚ) ≤ i * (L / 2 ^ v) := mul_nonneg hi0 hfi0.le
  have ht0 : 0 ≤ t := binary32.rnd_nonneg hprod0
  have htL : t ≤ 2 ^ 22 * L := by
    have h1 : (i : ℚ) * (L / 2 ^ v) ≤ (L : ℕ) * pow2 (22 : ℤ) := by
      have : pow2 (22 : ℤ) = 2 ^ 22 := by norm_num [pow2_eq]
      rw [this]
      have h2 : (L : ℚ) / 2 ^ v ≤ L := div_le_self hL'.le hv1
      nlinarith
    have h2 := binary32.rnd_mono w32.p_pos h1
    rw [binary32.rnd_exact w32 (by rw [p32]; omega) (by decide)] at h2
    have : pow2 (22 : ℤ) = 2 ^ 22 := by norm_num [pow2_eq]
    rw [this] at h2
    linarith
  have htq : 0 ≤ t / L := div_nonneg ht0 hL'.le
  have htq' : t / L ≤ (2 ^ 22 : ℕ) := by
    rw [div_le_iff₀ hL']; push_cast; exact htL
  set x := binary64.rnd (binary32.rnd (t / L)) with hx
  have hr32 : binary32.rnd (t / L) ≤ (2 ^ 22 : ℕ) := binary32.rnd_le_natCast w32 (by rw [p32]; norm_num) htq'
  have hr32' : 0 ≤ binary32.rnd (t / L) := binary32.rnd_nonneg htq
  have hx0 : 0 ≤ x := binary64.rnd_nonneg hr32'
  have hxb : x ≤ (2 ^ 22 : ℕ) := binary64.rnd_le_natCast w64 (by rw [p64]; norm_num) hr32
  have ea : binary32.div (binary32.mul (binary32.ofNat i) (.fin false (L / 2 ^ v))) (binary32.ofNat L) =
      .fin false (binary32.rnd (t / L)) := by
    rw [oi, oL]
    unfold Fmt.mul
    simp only [Bool.xor_self]
    rw [deliver_nn _ hprod0]
    · unfold Fmt.div
      simp only [Bool.xor_self]
      rw [if_neg hL'.ne', deliver_nn _ htq]
      exact lt_of_le_of_lt hr32 (lt_trans (by norm_num) big32)
    · rw [← ht]
      refine lt_of_le_of_lt htL (lt_of_le_of_lt (mul_le_mul_of_nonneg_left hLb (by norm_num)) (lt_trans (by norm_num) big32))
  have ec : binary64.conv (.fin false (binary32.rnd (t / L))) = .fin false x := by
    simp only [Fmt.conv]
    rw [deliver_nn _ hr32']
    exact lt_of_le_of_lt hxb (lt_trans (by norm_num) big64)
  obtain ⟨b, hb⟩ := Int.eq_ofNat_of_zero_le (show 0 ≤ ⌊x + 1 / 2⌋ by
    rw [Int.floor_nonneg]; linarith)
  have hbfl : (b : ℚ) ≤ x + 1 / 2 := by
    have := Int.floor_le (x + 1 / 2)
    rw [hb] at this
    exact_mod_cast this
  have hblt : x + 1 / 2 < b + 1 := by
    have := Int.lt_floor_add_one (x + 1 / 2)
    rw [hb] at this
    exact_mod_cast this
  have hb22 : b ≤ 2 ^ 22 := by
    have : (b : ℚ) < (2 ^ 22 + 1 : ℕ) := by push_cast at hxb ⊢; linarith
    have : b < 2 ^ 22 + 1 := by exact_mod_cast this
    omega
  have er : Fl.cround (.fin false x) = .fin false (b : ℚ) := by
    unfold Fl.cround
    simp only
    rw [if_neg (not_lt.mpr hx0), hb]
    simp
  -- back
  have hbL : b * L ≤ 2 ^ binary64.p := by
    rw [p64]
    calc b * L ≤ 2 ^ 22 * 2 ^ 22 := Nat.mul_le_mul hb22 hL
      _ ≤ 2 ^ 53 := by norm_num
  have hbv : b * 2 ^ v ≤ 2 ^ binary64.p := by
    rw [p64]
    calc b * 2 ^ v ≤ 2 ^ 22 * 2 ^ 31 := Nat.mul_le_mul hb22 (Nat.pow_le_pow_right (by norm_num) hv)
      _ ≤ 2 ^ 53 := by norm_num
  have oL64 : binary64.ofNat L = .fin false L := ofNat_exact w64 (by decide) (by rw [p64]; omega)
  have oi64 : binary64.ofNat i = .fin false i := ofNat_exact w64 (by decide) (by rw [p64]; omega)
  have em : binary64.mul (.fin false (b : ℚ)) (binary64.ofNat L) = .fin false ((b * L : ℕ) : ℚ) := by
    rw [oL64]
    unfold Fmt.mul
    simp only [Bool.xor_self]
    have := ofNat_exact w64 (by decide) hbL
    unfold Fmt.ofNat at this
    push_cast at this ⊢
    exact this
  have ecfi : binary64.conv (.fin false ((L : ℚ) / 2 ^ v)) = .fin false (L / 2 ^ v) := by
    simp only [Fmt.conv]
    rw [deliver_nn _ hfi0.le, r64]
    rw [r64]
    exact lt_of_le_of_lt hfib (lt_trans (by norm_num) big64)
  have ed : binary64.div (.fin false ((b * L : ℕ) : ℚ)) (.fin false ((L : ℚ) / 2 ^ v)) = .fin false ((b * 2 ^ v : ℕ) : ℚ) := by
    unfold Fmt.div
    simp only [Bool.xor_self]
    rw [if_neg hfi0.ne']
    have e1 : ((b * L : ℕ) : ℚ) / ((L : ℚ) / 2 ^ v) = ((b * 2 ^ v : ℕ) : ℚ) := by
      push_cast
      field_simp
    rw [e1]
    exact ofNat_exact w64 (by decide) hbv
  have hmiss : filteredOut L v i = !decide (b * 2 ^ v = i) := by
    unfold filteredOut filterMiss
    rw [if_neg hv0]
    simp only
    rw [efi, ea, ec, er, em, ecfi, ed, cround_nat, oi64]
    simp only [Fl.truthy, Fl.feq]
    have : ((L : ℚ) / 2 ^ v != 0) = true := by rw [bne_iff_ne]; exact hfi0.ne'
    have hbe : (((b * 2 ^ v : ℕ) : ℚ) == (i : ℚ)) = decide (b * 2 ^ v = i) := by
      rw [Bool.eq_iff_iff, beq_iff_eq, decide_eq_true_eq]
      exact Nat.cast_inj
    rw [this, Bool.true_and, hbe]
  rw [hmiss]
  clear big32 big64
  congr 1
  rw [decide_eq_decide]
  constructor
  · rintro rfl
    exact Dvd.intro_left _ rfl
  · rintro ⟨k, rfl⟩
    rw [Nat.mul_comm]
    congr 1
    -- the inner rounding recovers k
    have hk : k ≤ 2 ^ 21 := by
      have : 2 ^ 1 * k ≤ 2 ^ v * k := Nat.mul_le_mul_right _ (Nat.pow_le_pow_right (by norm_num) (by omega))
      omega
    have hkq : (k : ℚ) ≤ 2 ^ 21 := by exact_mod_cast hk
    have hk0 : (0 : ℚ) ≤ k := Nat.cast_nonneg k
    have e1 : ((2 ^ v * k : ℕ) : ℚ) * (L / 2 ^ v) = ((k * L : ℕ) : ℚ) := by
      push_cast
      field_simp
    have q24 : pow2 (-(binary32.p : ℤ)) = 1 / 2 ^ 24 := by norm_num [pow2_eq, binary32]
    have q53 : pow2 (-(binary64.p : ℤ)) = 1 / 2 ^ 53 := by norm_num [pow2_eq, binary64]
    rcases Nat.eq_zero_or_pos k with rfl | hkpos
    · have : t = 0 := by rw [ht, e1]; simp
      have hx' : x = 0 := by rw [hx, this]; simp
      rw [hx'] at hbfl
      have : (b : ℚ) < 1 := by linarith
      have : b < 1 := by exact_mod_cast this
      omega
    have d1 : |t - (k * L : ℕ)| ≤ (k * L : ℕ) * (1 / 2 ^ 24) := by
      have := binary32.rnd_err w32 (v := ((k * L : ℕ) : ℚ)) (K := k * L) (Nat.mul_pos hkpos hL0) (Nat.cast_nonneg _) le_rfl
      rw [q24] at this
      rw [ht, e1]; exact this
    have d2 : |t / L - k| ≤ k * (1 / 2 ^ 24) := by
      have : t / L - k = (t - (k * L : ℕ)) / L := by push_cast; field_simp
      rw [this, abs_div, abs_of_pos hL', div_le_iff₀ hL']
      refine le_trans d1 ?_
      push_cast
      nlinarith
    have d2' : t / L ≤ (k + 1 : ℕ) := by
      have := (abs_le.mp d2).2
      push_cast
      nlinarith
    have d3 : |binary32.rnd (t / L) - t / L| ≤ (k + 1 : ℕ) * (1 / 2 ^ 24) := by
      have := binary32.rnd_err w32 (v := t / L) (K := k + 1) (by omega) htq d2'
      rwa [q24] at this
    have d3' : binary32.rnd (t / L) ≤ (k + 1 : ℕ) := binary32.rnd_le_natCast w32 (by rw [p32]; omega) d2'
    have d4 : |x - binary32.rnd (t / L)| ≤ (k + 1 : ℕ) * (1 / 2 ^ 53) := by
      have := binary64.rnd_err w64 (v := binary32.rnd (t / L)) (K := k + 1) (by omega) hr32' d3'
      rwa [q53] at this
    have hxk : |x - k| < 1 / 2 := by
      rw [abs_le] at d2 d3 d4
      push_cast at d3 d4
      rw [abs_lt]
      constructor <;> linarith [d2.1, d2.2, d3.1, d3.2, d4.1, d4.2]
    rw [abs_lt] at hxk
    have h1 : (b : ℚ) < k + 1 := by linarith
    have h2 : (k : ℚ) < b + 1 := by linarith
    have h1' : b < k + 1 := by exact_mod_cast h1
    have h2' : k < b + 1 := by exact_mod_cast h2
    omega

end Verif
