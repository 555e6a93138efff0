import Verif.Proofs.ListLemmas
import Verif.Proofs.PointLemmas
import Verif.Proofs.Evidence

/-! # Sums of two scores -/

namespace Verif

open Spec

/-- A rational of the format is a multiple of a power of two with few digits. -/
theorem fmt_parts {F : Fmt} {t : ℚ} (h0 : 0 ≤ t) (ht : F.rnd t = t) : ∃ m : ℕ, ∃ e : ℤ, m ≤ 2 ^ F.p ∧ F.qmin ≤ e ∧ t = m * pow2 e := by
  rcases h0.eq_or_lt with rfl | hpos
  · exact ⟨0, F.qmin, Nat.zero_le _, le_rfl, by simp⟩
  unfold Fmt.rnd Fmt.rndAbs at ht
  rw [if_neg (not_lt.mpr h0), if_neg hpos.ne'] at ht
  set q := F.quantum t with hq
  have hpq := pow2_pos q
  obtain ⟨m, hm⟩ := Int.eq_ofNat_of_zero_le (rne_nonneg (div_nonneg h0 hpq.le))
  rw [hm] at ht
  refine ⟨m, q, ?_, ?_, by rw [← ht]; simp⟩
  · have h1 := (ilog2_spec hpos).2
    have h2 : pow2 (ilog2 t + 1) ≤ pow2 (F.p + q) := pow2_le (by rw [hq]; unfold Fmt.quantum; omega)
    rw [pow2_add (F.p : ℤ), pow2_natCast] at h2
    have h3 : (m : ℚ) * pow2 q < 2 ^ F.p * pow2 q := by
      have ht' : (m : ℚ) * pow2 q = t := by exact_mod_cast ht
      rw [ht']; linarith
    have := lt_of_mul_lt_mul_right h3 hpq.le
    exact_mod_cast this.le
  · rw [hq]; unfold Fmt.quantum; exact le_max_right _ _

/-- Doubling is exact. -/
theorem rnd_twice {F : Fmt} (hF : F.WF) {t : ℚ} (h0 : 0 ≤ t) (ht : F.rnd t = t) : F.rnd (t + t) = t + t := by
  obtain ⟨m, e, h1, h2, h3⟩ := fmt_parts h0 ht
  have h4 : t + t = m * pow2 (e + 1) := by
    rw [h3, pow2_eq, pow2_eq, zpow_add_one₀ (by norm_num)]
    ring
  rw [h4]
  exact F.rnd_exact hF h1 (by omega)

section
variable {s : Sys} (hF : s.cfg.inter.WF) (hp : Precise s.cfg) {d : Detect} {g : List Fl → ℕ → ℕ → Fl} {n range x : ℕ}
  (hn : n ≤ 2 ^ s.cfg.inter.p) (hr : range ≤ 2 ^ s.cfg.inter.p) (hn0 : 0 < n) (hr0 : 0 < range)
include hF hp hn hr hn0 hr0

/-- The score of a frame on its own. -/
theorem single_rep (f : List Fl) : ∃ v, meanAt s d g n range [f] x = .fin false v ∧ 0 ≤ v ∧ v ≤ 1 ∧ s.cfg.inter.rnd v = v := by
  rw [meanAt_single hF hp hn hr hn0 hr0]
  cases ho : frameScore s d (g f) n range x with
  | none => exact ⟨0, rfl, le_rfl, zero_le_one, s.cfg.inter.rnd_zero⟩
  | some u =>
    obtain ⟨v, rfl, h0, h1, h2⟩ := frameScore_rep hF hp hn hr hn0 hr0 ho
    exact ⟨v, rfl, h0, by simpa using h1, h2⟩

/-- The total of two frames is the rounded sum of their scores. -/
theorem total_two (f f' : List Fl) : total s d g n range [f, f'] x = s.cfg.inter.add (meanAt s d g n range [f] x) (meanAt s d g n range [f'] x) := by
  have hk : [f, f'].length ≤ 2 ^ s.cfg.inter.p := by
    have := hF.p_pos
    calc 2 = 2 ^ 1 := rfl
      _ ≤ _ := Nat.pow_le_pow_right (by norm_num) (by omega)
  rw [total_sum hF hp hn hr hn0 hr0 hk]
  obtain ⟨v, e, h0, h1, h2⟩ := single_rep hF hp hn hr hn0 hr0 (d := d) (g := g) (x := x) f
  simp only [fsum, List.map_cons, List.map_nil, List.foldl_cons, List.foldl_nil, e]
  congr 1
  simp only [Fmt.add, zero_add, Bool.and_self]
  rw [deliver_unit hF h0 h1, h2]

theorem total_swap (f f' : List Fl) : total s d g n range [f, f'] x = total s d g n range [f', f] x := by
  rw [total_two hF hp hn hr hn0 hr0, total_two hF hp hn hr hn0 hr0]
  obtain ⟨v, e, _⟩ := single_rep hF hp hn hr hn0 hr0 (d := d) (g := g) (x := x) f
  obtain ⟨v', e', _⟩ := single_rep hF hp hn hr hn0 hr0 (d := d) (g := g) (x := x) f'
  simp only [e, e', Fmt.add, add_comm]

theorem mean_twice (f : List Fl) : meanAt s d g n range [f, f] x = meanAt s d g n range [f] x := by
  obtain ⟨v, e, h0, h1, h2⟩ := single_rep hF hp hn hr hn0 hr0 (d := d) (g := g) (x := x) f
  have hk : 2 ≤ 2 ^ s.cfg.inter.p := by
    have := hF.p_pos
    calc 2 = 2 ^ 1 := rfl
      _ ≤ _ := Nat.pow_le_pow_right (by norm_num) (by omega)
  have ht : total s d g n range [f, f] x = .fin false (v + v) := by
    rw [total_two hF hp hn hr hn0 hr0, e]
    simp only [Fmt.add, Bool.and_self]
    have h3 := rnd_twice hF h0 h2
    rw [deliver_nn _ (by linarith), h3]
    rw [h3]
    refine lt_of_le_of_lt (b := pow2 s.cfg.inter.p) ?_ (pow2_lt hp.p_lt)
    rw [pow2_natCast]
    have : ((2 : ℕ) : ℚ) ≤ ((2 ^ s.cfg.inter.p : ℕ) : ℚ) := by exact_mod_cast hk
    push_cast at this ⊢
    linarith
  rw [e]
  have e2 : meanAt s d g n range [f, f] x = mean s.cfg (.fin false (v + v)) 2 := by rw [← ht]; rfl
  rw [e2, (mean_unit hF hp (v := v + v) (k := 2) (by norm_num) hk (by linarith) (by push_cast; linarith)).1]
  have : (v + v) / ((2 : ℕ) : ℚ) = v := by push_cast; ring
  rw [this, h2]

end

/-- The candidates depend on the means alone. -/
theorem candidates_congr {c : Cfg} {q : Params} {k k' len : ℕ} {A B : ℕ → Fl} {n : ℕ} (h : ∀ i < n, mean c (A i) k = mean c (B i) k') :
    candidates c q k len ((List.range n).map A) = candidates c q k' len ((List.range n).map B) := by
  unfold candidates
  simp only [List.length_map, List.length_range]
  have key : ∀ i ∈ List.range n, mean c (((List.range n).map A)[i]?.getD (.nan false)) k = mean c (((List.range n).map B)[i]?.getD (.nan false)) k' := by
    intro i hi
    have hi := List.mem_range.mp hi
    rw [List.getElem?_eq_getElem (by simpa using hi), List.getElem?_eq_getElem (by simpa using hi)]
    simpa using h i hi
  rw [List.filter_congr (q := fun i => reaches c q.threshold (((List.range n).map B)[i]?.getD (.nan false)) k' && !filteredOut len q.compressionFilter i)]
  · refine List.map_congr_left fun i hi => ?_
    rw [key i (List.mem_of_mem_filter hi)]
  · intro i hi
    unfold reaches
    rw [key i hi]

/-- Equal means make equal lists. -/
theorem Listed.congr {s : Sys} {d : Detect} {q : Params} {len n : ℕ} {g : List Fl → ℕ → ℕ → Fl} {fs fs' : List (List Fl)} {l l' : List Res}
    (h : Listed s d q len g n fs l) (h' : Listed s d q len g n fs' l')
    (he : 2 * q.range < len → ∀ x, meanAt s d g n q.range fs x = meanAt s d g n q.range fs' x) : l = l' := by
  rw [h.eq, h'.eq]
  congr 2
  refine candidates_congr fun i hi => ?_
  exact he (by omega) _

end Verif
