import Verif.Proofs.PointLemmas
import Verif.Spec.Evidence

/-! Bounds for the confidence from bounds for the evidence. -/

namespace Verif

open Spec

/-- A non-negative `float` is an integer of at most 24 bits times a power of two. -/
theorem float_parts {t : ℚ} (h0 : 0 ≤ t) (ht : binary32.rnd t = t) : ∃ m : ℕ, ∃ e : ℤ, m ≤ 2 ^ 24 ∧ -149 ≤ e ∧ t = m * pow2 e := by
  rcases h0.eq_or_lt with rfl | hpos
  · exact ⟨0, 0, by norm_num, by norm_num, by simp⟩
  unfold Fmt.rnd Fmt.rndAbs at ht
  rw [if_neg (not_lt.mpr h0), if_neg hpos.ne'] at ht
  set q := binary32.quantum t with hq
  have hpq := pow2_pos q
  obtain ⟨m, hm⟩ := Int.eq_ofNat_of_zero_le (rne_nonneg (div_nonneg h0 hpq.le))
  rw [hm] at ht
  refine ⟨m, q, ?_, ?_, by rw [← ht]; simp⟩
  · have h1 := (ilog2_spec hpos).2
    have h2 : pow2 (ilog2 t + 1) ≤ pow2 (24 + q) := pow2_le (by rw [hq]; unfold Fmt.quantum; show _ ≤ 24 + max (ilog2 t - (24 : ℕ) + 1) _; omega)
    rw [pow2_add 24, show (24 : ℤ) = ((24 : ℕ) : ℤ) by rfl, pow2_natCast] at h2
    have h3 : (m : ℚ) * pow2 q < 2 ^ 24 * pow2 q := by
      have ht' : (m : ℚ) * pow2 q = t := by exact_mod_cast ht
      rw [ht']; linarith
    have := lt_of_mul_lt_mul_right h3 hpq.le
    exact_mod_cast this.le
  · rw [hq]; unfold Fmt.quantum; exact le_max_right _ _

theorem Spec.Exact.mono {c : Cfg} {j k : ℕ} (h : Exact c k) (hjk : j ≤ k) : Exact c j :=
  ⟨le_trans (Nat.mul_le_mul_right _ hjk) h.digits, h.small⟩

theorem Spec.Exact.count {c : Cfg} {k : ℕ} (h : Exact c k) : k ≤ 2 ^ c.inter.p :=
  le_trans (Nat.le_mul_of_pos_right k (by norm_num)) h.digits

theorem rnd_times {F : Fmt} (hF : F.WF) (hq : F.qmin ≤ -149) {t : ℚ} (h0 : 0 ≤ t) (ht : binary32.rnd t = t) {j : ℕ}
    (hj : j * 2 ^ 24 ≤ 2 ^ F.p) : F.rnd (j * t) = j * t := by
  obtain ⟨m, e, hm, he, rfl⟩ := float_parts h0 ht
  have := F.rnd_exact hF (k := j * m) (le_trans (Nat.mul_le_mul_left j hm) hj) (e := e) (by omega)
  push_cast at this
  rw [mul_assoc] at this
  exact this

theorem ratio_exact {c : Cfg} (hF : c.inter.WF) (hp : Precise c) {k a b : ℕ} (ha0 : 0 < a) (hb0 : 0 < b)
    (hab : a * b ≤ 2 ^ c.inter.p) (hk : k ≤ a * b) :
    ratio c k a b = .fin false (c.inter.rnd (k / (a * b))) ∧ (0 : ℚ) ≤ k / (a * b) ∧ (k : ℚ) / (a * b) ≤ 1 := by
  have ha : a ≤ 2 ^ c.inter.p := le_trans (Nat.le_mul_of_pos_right a hb0) hab
  have hb : b ≤ 2 ^ c.inter.p := le_trans (Nat.le_mul_of_pos_left b ha0) hab
  obtain ⟨h1, h2, h3⟩ := ratio_eq hF hp ha hb ha0 hb0 hk
  rw [c.inter.rnd_natCast hF hab, c.inter.rnd_natCast hF (le_trans hk hab)] at h1 h2 h3
  push_cast at h1 h2 h3
  exact ⟨h1, h2, h3⟩

/-- The score of a frame is its evidence, rounded once. -/
theorem frameScore_evidence {s : Sys} (hF : s.cfg.inter.WF) (hp : Precise s.cfg) {d : Detect} {g : ℕ → ℕ → Fl} {n range x : ℕ}
    (n0 : 0 < n) (r0 : 0 < range) (hnr : n * range ≤ 2 ^ s.cfg.inter.p) :
    (frameScore s d g n range x = some (.fin false (s.cfg.inter.rnd (evidence s d g n range x))) ∨
      (frameScore s d g n range x = none ∧ evidence s d g n range x = 0)) ∧
    0 ≤ evidence s d g n range x ∧ evidence s d g n range x ≤ 1 := by
  cases d with
  | sign =>
    obtain ⟨h1, h2, h3⟩ := ratio_exact hF hp n0 r0 hnr (signMatches_le g n range x)
    exact ⟨Or.inl (congrArg some h1), h2, h3⟩
  | mag =>
    obtain ⟨h1, h2, h3⟩ := ratio_exact hF hp n0 r0 hnr (pairMatches_le (magHit s) g n range x)
    exact ⟨Or.inl (congrArg some h1), h2, h3⟩
  | orig =>
    obtain ⟨h1, h2, h3⟩ := ratio_exact hF hp r0 n0 (by rw [mul_comm]; exact hnr)
      (show signMatches g n range x ≤ range * n by rw [mul_comm]; exact signMatches_le g n range x)
    rw [mul_comm (range : ℚ)] at h1 h2 h3
    unfold frameScore evidence
    simp only
    split
    · exact ⟨Or.inl (congrArg some h1), h2, h3⟩
    · exact ⟨Or.inr ⟨rfl, rfl⟩, le_rfl, zero_le_one⟩
  | zerox =>
    have hn : n ≤ 2 ^ s.cfg.inter.p := le_trans (Nat.le_mul_of_pos_right n r0) hnr
    have hk : crossings g n x ≤ 2 ^ s.cfg.inter.p := le_trans (crossings_le _ _ _) hn
    have hq : (crossings g n x : ℚ) ≤ n := by exact_mod_cast crossings_le _ _ _
    have hn' : (0 : ℚ) < n := by exact_mod_cast n0
    have h0 : (0 : ℚ) ≤ crossings g n x / n := div_nonneg (Nat.cast_nonneg _) (Nat.cast_nonneg _)
    have h1 : (crossings g n x : ℚ) / n ≤ 1 := by rw [div_le_one hn']; exact hq
    refine ⟨Or.inl ?_, h0, h1⟩
    show some (s.cfg.inter.div (s.cfg.inter.ofNat (crossings g n x)) (s.cfg.inter.ofNat n)) = _
    rw [ofNat_exact hF hp.p_lt hn, ofNat_exact hF hp.p_lt hk]
    unfold Fmt.div
    simp only
    rw [if_neg (ne_of_gt hn'), Bool.xor_false, deliver_unit hF h0 h1]
    rfl

theorem total_between {s : Sys} (hF : s.cfg.inter.WF) (hp : Precise s.cfg) {d : Detect} {g : List Fl → ℕ → ℕ → Fl} {n range x : ℕ}
    (n0 : 0 < n) (r0 : 0 < range) (hnr : n * range ≤ 2 ^ s.cfg.inter.p) {lo hi : ℚ} (l0 : 0 ≤ lo) (h1 : hi ≤ 1)
    (hlo : binary32.rnd lo = lo) (hhi : binary32.rnd hi = hi) {fs : List (List Fl)} (hx : Exact s.cfg fs.length)
    (hall : ∀ f ∈ fs, lo ≤ evidence s d (g f) n range x ∧ evidence s d (g f) n range x ≤ hi) :
    ∃ v, total s d g n range fs x = .fin false v ∧ 0 ≤ v ∧ fs.length * lo ≤ v ∧ v ≤ fs.length * hi := by
  induction fs using List.reverseRecOn with
  | nil => exact ⟨0, rfl, le_rfl, by simp, by simp⟩
  | append_singleton fs f ih =>
    have hd := hx.digits
    rw [List.length_append, List.length_singleton] at hd
    obtain ⟨v, e, v0, v1, v2⟩ := ih (hx.mono (by simp)) (fun f hf => hall f (by simp [hf]))
    obtain ⟨q1, q2⟩ := hall f (by simp)
    obtain ⟨hfr, e0, e1⟩ := frameScore_evidence hF hp (d := d) (g := g f) (x := x) n0 r0 hnr
    have hh0 : 0 ≤ hi := le_trans e0 q2
    have hsplit : total s d g n range (fs ++ [f]) x = addScore s.cfg (total s d g n range fs x) (frameScore s d (g f) n range x) := by
      unfold total; rw [List.foldl_append, List.foldl_cons, List.foldl_nil]
    rw [hsplit, e, List.length_append, List.length_singleton]
    rcases hfr with hfr | ⟨hfr, hz⟩
    · rw [hfr]
      have one := (hx.mono (j := 1) (by simp)).digits
      have rl := rnd_times hF hx.small l0 hlo one
      have rh := rnd_times hF hx.small hh0 hhi one
      rw [Nat.cast_one, one_mul] at rl rh
      have sl := rnd_times hF hx.small l0 hlo hd
      have sh := rnd_times hF hx.small hh0 hhi hd
      have p1 := s.cfg.inter.rnd_mono hF.p_pos q1
      have p2 := s.cfg.inter.rnd_mono hF.p_pos q2
      rw [rl] at p1
      rw [rh] at p2
      set q := s.cfg.inter.rnd (evidence s d (g f) n range x) with hq
      have b1 : ((fs.length + 1 : ℕ) : ℚ) * lo ≤ v + q := by push_cast; linarith
      have b2 : v + q ≤ ((fs.length + 1 : ℕ) : ℚ) * hi := by push_cast; linarith
      have c1 := s.cfg.inter.rnd_mono hF.p_pos b1
      have c2 := s.cfg.inter.rnd_mono hF.p_pos b2
      rw [sl] at c1
      rw [sh] at c2
      have q0 : 0 ≤ q := le_trans l0 p1
      unfold addScore Fmt.add
      simp only [Bool.and_self]
      rw [deliver_nn _ (by linarith)]
      · exact ⟨_, rfl, s.cfg.inter.rnd_nonneg (by linarith), c1, c2⟩
      · refine lt_of_le_of_lt c2 (lt_of_le_of_lt ?_ (pow2_lt hp.p_lt))
        rw [pow2_natCast]
        have : ((fs.length + 1 : ℕ) : ℚ) * hi ≤ (fs.length + 1 : ℕ) := mul_le_of_le_one_right (Nat.cast_nonneg _) h1
        refine le_trans this ?_
        have : fs.length + 1 ≤ 2 ^ s.cfg.inter.p := by simpa using hx.count
        exact_mod_cast this
    · rw [hfr]
      have hl : lo = 0 := le_antisymm (by rw [hz] at q1; exact q1) l0
      refine ⟨v, rfl, v0, by rw [hl]; simpa using v0, ?_⟩
      push_cast
      linarith

/-- The mean lies between bounds for the evidence of every frame. -/
theorem meanAt_between {s : Sys} (hF : s.cfg.inter.WF) (hp : Precise s.cfg) {d : Detect} {g : List Fl → ℕ → ℕ → Fl} {n range x : ℕ}
    (n0 : 0 < n) (r0 : 0 < range) (hnr : n * range ≤ 2 ^ s.cfg.inter.p) {lo hi : ℚ} (l0 : 0 ≤ lo) (h1 : hi ≤ 1)
    (hlo : binary32.rnd lo = lo) (hhi : binary32.rnd hi = hi) {fs : List (List Fl)} (hne : fs ≠ []) (hx : Exact s.cfg fs.length)
    (hall : ∀ f ∈ fs, lo ≤ evidence s d (g f) n range x ∧ evidence s d (g f) n range x ≤ hi) :
    ∃ v, meanAt s d g n range fs x = .fin false v ∧ lo ≤ v ∧ v ≤ hi := by
  have hpos : 0 < fs.length := List.length_pos_iff.mpr hne
  have hpos' : (0 : ℚ) < fs.length := by exact_mod_cast hpos
  obtain ⟨v, e, v0, v1, v2⟩ := total_between hF hp n0 r0 hnr l0 h1 hlo hhi hx hall
  have one := (hx.mono (j := 1) hpos).digits
  obtain ⟨f, hf⟩ := List.exists_mem_of_ne_nil fs hne
  have hh0 : 0 ≤ hi := le_trans l0 (le_trans (hall f hf).1 (hall f hf).2)
  have rl := rnd_times hF hx.small l0 hlo one
  have rh := rnd_times hF hx.small hh0 hhi one
  rw [Nat.cast_one, one_mul] at rl rh
  have hk : v ≤ fs.length := le_trans v2 (mul_le_of_le_one_right hpos'.le h1)
  obtain ⟨e', _, _⟩ := mean_unit hF hp hpos hx.count v0 hk
  unfold meanAt
  rw [e, e']
  refine ⟨_, rfl, ?_, ?_⟩
  · rw [← rl]
    refine s.cfg.inter.rnd_mono hF.p_pos ?_
    rw [le_div_iff₀ hpos', mul_comm]; exact v1
  · rw [← rh]
    refine s.cfg.inter.rnd_mono hF.p_pos ?_
    rw [div_le_iff₀ hpos', mul_comm]; exact v2

/-- What the bounds mean for the list of a dimension. -/
theorem listed_between {s : Sys} (hF : s.cfg.inter.WF) (hpr : Precise s.cfg) {d : Detect} {q : Params} {len n x : ℕ}
    {g : List Fl → ℕ → ℕ → Fl} {fs : List (List Fl)} {l : List Res} (hl : Listed s d q len g n fs l) (n0 : 0 < n) (r0 : 0 < q.range)
    (hnr : n * q.range ≤ 2 ^ s.cfg.inter.p) (hx : Exact s.cfg fs.length) (hne : fs ≠ []) (hx1 : q.range ≤ x) (hx2 : x + q.range < len)
    {lo hi : ℚ} (l0 : 0 ≤ lo) (h1 : hi ≤ 1) (hlo : binary32.rnd lo = lo) (hhi : binary32.rnd hi = hi)
    (hall : ∀ f ∈ fs, lo ≤ evidence s d (g f) n q.range x ∧ evidence s d (g f) n q.range x ≤ hi)
    {b : Bool} {t : ℚ} (ht : q.threshold = .fin b t) (htu : InUnit q.threshold) :
    (∀ r ∈ l, r.index = x → ∃ v, r.confidence = .fin false v ∧ lo ≤ v ∧ v ≤ hi) ∧
    (t ≤ lo → q.compressionFilter = 0 → ∃ r ∈ l, r.index = x) ∧
    (binary32.rnd t = t → hi < t → ∀ r ∈ l, r.index ≠ x) := by
  obtain ⟨v, e, v1, v2⟩ := meanAt_between hF hpr n0 r0 hnr l0 h1 hlo hhi hne hx hall
  obtain ⟨init, i1, i2, i3⟩ := hl.parts
  have hpos : 0 < fs.length := List.length_pos_iff.mpr hne
  have one := (hx.mono (j := 1) hpos).digits
  have hmem : ∀ r ∈ l, r.index = x → r ∈ init := by
    intro r hr hrx
    rw [i1] at hr
    rcases List.mem_append.mp hr with h | h
    · exact h
    · rw [List.mem_singleton] at h
      subst h
      have : len = x := hrx
      omega
  rw [ht] at htu
  obtain ⟨b', et⟩ := conv_unit_eq hF htu
  have t0 : 0 ≤ t := by obtain ⟨_, _, e, h, _⟩ := htu; cases e; exact h
  refine ⟨?_, ?_, ?_⟩
  · intro r hr hrx
    obtain ⟨_, _, _, _, hc⟩ := (i3 r).mp (hmem r hr hrx)
    rw [hrx, e, conv_unit_false binary32_wf (le_trans l0 v1) (le_trans v2 h1)] at hc
    refine ⟨_, hc, ?_, ?_⟩
    · rw [← hlo]; exact binary32.rnd_mono (by decide) v1
    · rw [← hhi]; exact binary32.rnd_mono (by decide) v2
  · intro htl hfil
    refine ⟨⟨x, binary32.conv (meanAt s d g n q.range fs x)⟩, ?_, rfl⟩
    rw [i1, List.mem_append]
    left
    rw [i3]
    refine ⟨hx1, hx2, by rw [hfil]; rfl, ?_, rfl⟩
    show (meanAt s d g n q.range fs x).ge _ = true
    rw [e, ht, et]
    have h2 := s.cfg.inter.rnd_mono hF.p_pos htl
    have h3 := rnd_times hF hx.small l0 hlo one
    rw [Nat.cast_one, one_mul] at h3
    simp only [Fl.ge, Fl.lt, Bool.not_eq_true', decide_eq_false_iff_not, not_lt]
    linarith
  · intro htr hth r hr hrx
    obtain ⟨_, _, _, hge, _⟩ := (i3 r).mp (hmem r hr hrx)
    rw [hrx, e, ht, et] at hge
    have h3 := rnd_times hF hx.small t0 htr one
    rw [Nat.cast_one, one_mul] at h3
    rw [h3] at hge
    simp only [Fl.ge, Fl.lt, Bool.not_eq_true', decide_eq_false_iff_not, not_lt] at hge
    linarith

end Verif
