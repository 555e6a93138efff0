import Verif.Proofs.BracketList
import Verif.Proofs.Fences
import Verif.Proofs.FlRounded

/-! What each method finds in computed coefficients is what it would find in exact ones, up to the error. -/

namespace Verif

open Spec

variable {s : Sys}

/-- The computed coefficients as numbers; where there are none, the exact ones. -/
noncomputable def numbers (g : ℕ → ℕ → Fl) (X : ℕ → ℕ → ℝ) (n len : ℕ) (y x : ℕ) : ℝ := if y < n ∧ x < len then ((val (g y x) : ℚ) : ℝ) else X y x

theorem numbers_around {d : ℝ} {g : ℕ → ℕ → Fl} {X : ℕ → ℕ → ℝ} {n len : ℕ} (hd : 0 < d) (hc : ∀ y < n, ∀ x < len, Spec.Within d (g y x) (X y x)) :
    Around d X (numbers g X n len) := by
  intro y x
  unfold numbers
  split
  · rename_i h
    obtain ⟨v, b, e, _, h3⟩ := hc y h.1 x h.2
    rw [e]
    exact h3
  · simpa using hd

/-- What is known about a computed coefficient. -/
theorem numbers_fin {d : ℝ} {g : ℕ → ℕ → Fl} {X : ℕ → ℕ → ℝ} {n len y x : ℕ} (hc : ∀ y < n, ∀ x < len, Spec.Within d (g y x) (X y x)) (hy : y < n) (hx : x < len) :
    ∃ b v, g y x = .fin b v ∧ (v ≠ 0 → b = decide (v < 0)) ∧ numbers g X n len y x = (v : ℝ) := by
  obtain ⟨v, b, e, h2, _⟩ := hc y hy x hx
  refine ⟨b, v, e, h2, ?_⟩
  unfold numbers
  rw [if_pos ⟨hy, hx⟩, e]
  rfl

theorem bits_opposite {b b' : Bool} {v v' : ℚ} (h : v ≠ 0 → b = decide (v < 0)) (h' : v' ≠ 0 → b' = decide (v' < 0)) :
    ((v : ℝ) * v' < 0 → b ≠ b') ∧ (b ≠ b' → (v : ℝ) * v' ≤ 0) := by
  constructor
  · intro hl
    have hl : v * v' < 0 := by exact_mod_cast hl
    have n1 : v ≠ 0 := by rintro rfl; simp at hl
    have n2 : v' ≠ 0 := by rintro rfl; simp at hl
    rw [h n1, h' n2]
    rcases mul_neg_iff.mp hl with ⟨h1, h2⟩ | ⟨h1, h2⟩
    · simp [h2, h1.le]
    · simp [h1, h2.le]
  · intro hb
    have : v * v' ≤ 0 := by
      rcases eq_or_ne v 0 with rfl | n1
      · simp
      rcases eq_or_ne v' 0 with rfl | n2
      · simp
      rw [h n1, h' n2] at hb
      rcases lt_or_gt_of_ne n1 with h1 | h1 <;> rcases lt_or_gt_of_ne n2 with h2 | h2
      · simp [h1, h2] at hb
      · exact (mul_neg_of_neg_of_pos h1 h2).le
      · exact (mul_neg_of_pos_of_neg h1 h2).le
      · simp [not_lt.mpr h1.le, not_lt.mpr h2.le] at hb
    exact_mod_cast this

theorem crosses_exact {bl bm br : Bool} {l m r : ℚ} (hl : l ≠ 0 → bl = decide (l < 0)) (hr : r ≠ 0 → br = decide (r < 0)) :
    ((l : ℝ) * r < 0 ∧ Inside (l : ℝ) m r → crosses (.fin bl l) (.fin bm m) (.fin br r) = true) ∧
    (crosses (.fin bl l) (.fin bm m) (.fin br r) = true → (l : ℝ) * r ≤ 0 ∧ Inside (l : ℝ) m r) := by
  have hi : Inside (l : ℝ) m r ↔ (l < m ∧ m < r) ∨ (m < l ∧ r < m) := by
    unfold Inside
    norm_cast
    constructor
    · rintro (h | h)
      · exact Or.inl h
      · exact Or.inr ⟨h.2, h.1⟩
    · rintro (h | h)
      · exact Or.inl h
      · exact Or.inr ⟨h.2, h.1⟩
  have hb := bits_opposite hl hr
  rw [hi]
  simp only [crosses, Fl.signbit, Fl.lt, Bool.and_eq_true, bne_iff_ne, Bool.or_eq_true, decide_eq_true_eq]
  exact ⟨fun h => ⟨hb.1 h.1, h.2⟩, fun h => ⟨hb.2 h.1, h.2⟩⟩

theorem Fmt.rnd_pow2 (F : Fmt) (hF : F.WF) {e : ℤ} (he : F.qmin ≤ e) : F.rnd (pow2 e) = pow2 e := by
  have := F.rnd_exact hF (k := 1) Nat.one_le_two_pow he
  simpa using this

/-- The number `frexp` is applied to, when nothing overflows. -/
theorem magTerm_value {c : Cfg} (hc : c.coeff.WF) (hi : c.inter.WF) (he : 24 ≤ c.coeff.p) (hp : 24 ≤ c.inter.p) {b : Bool} {r : ℚ}
    (h : |r| ≤ pow2 (min c.coeff.emax c.inter.emax - 2)) :
    ∃ b', c.inter.conv (c.coeff.add (c.coeff.deliver b r) (.fin false 1)) = .fin b' (c.inter.rnd (c.coeff.rnd (c.coeff.rnd r + 1))) := by
  have e1 := hc.p_le
  have e2 := hi.p_le
  have q1 := hc.qmin_le
  have q2 := hi.qmin_le
  have hr : |c.coeff.rnd r| ≤ pow2 (min c.coeff.emax c.inter.emax - 2) := by
    have h0 := c.coeff.rnd_pow2 hc (e := min c.coeff.emax c.inter.emax - 2) (by omega)
    obtain ⟨h1, h2⟩ := abs_le.mp h
    have a1 := c.coeff.rnd_mono hc.p_pos h1
    have a2 := c.coeff.rnd_mono hc.p_pos h2
    rw [Fmt.rnd_neg, h0] at a1
    rw [h0] at a2
    exact abs_le.mpr ⟨a1, a2⟩
  have hone : (1 : ℚ) ≤ pow2 (min c.coeff.emax c.inter.emax - 2) := by
    have := pow2_lt (a := 0) (b := min c.coeff.emax c.inter.emax - 2) (by omega)
    rw [show pow2 0 = 1 by decide +kernel] at this
    exact this.le
  have hd : pow2 (min c.coeff.emax c.inter.emax - 1) = 2 * pow2 (min c.coeff.emax c.inter.emax - 2) := by
    rw [← pow2_succ]; congr 1; ring
  have hs : |c.coeff.rnd r + 1| ≤ pow2 (min c.coeff.emax c.inter.emax - 1) := by
    rw [hd]
    refine le_trans (abs_add_le _ _) ?_
    rw [abs_one]
    linarith
  have mono : ∀ {a b : ℤ}, a ≤ b → pow2 a ≤ pow2 b := by
    intro a b hab
    rcases eq_or_lt_of_le hab with rfl | hab
    · exact le_rfl
    · exact (pow2_lt hab).le
  obtain ⟨b1, h1⟩ := deliver_fin hc b (v := r) (h.trans (mono (by omega)))
  rw [h1]
  obtain ⟨b2, h2⟩ := deliver_fin hc (b1 && false) (v := c.coeff.rnd r + 1) (hs.trans (mono (by omega)))
  show ∃ b', c.inter.conv (c.coeff.deliver (b1 && false) (c.coeff.rnd r + 1)) = _
  rw [h2]
  have ht : |c.coeff.rnd (c.coeff.rnd r + 1)| ≤ pow2 (min c.coeff.emax c.inter.emax - 1) := by
    have h0 := c.coeff.rnd_pow2 hc (e := min c.coeff.emax c.inter.emax - 1) (by omega)
    obtain ⟨h1, h2⟩ := abs_le.mp hs
    have a1 := c.coeff.rnd_mono hc.p_pos h1
    have a2 := c.coeff.rnd_mono hc.p_pos h2
    rw [Fmt.rnd_neg, h0] at a1
    rw [h0] at a2
    exact abs_le.mpr ⟨a1, a2⟩
  exact deliver_fin hi b2 (ht.trans (mono (by omega)))

theorem magTerm_less {c : Cfg} (hc : c.coeff.WF) (hi : c.inter.WF) (he : 24 ≤ c.coeff.p) (hp : 24 ≤ c.inter.p) {r : ℚ} :
    (-(2 - 1 / 2 ^ 23) ≤ r → r ≤ -(1 / 2 ^ 23) → |c.inter.rnd (c.coeff.rnd (c.coeff.rnd r + 1))| < 1) ∧
    (|c.inter.rnd (c.coeff.rnd (c.coeff.rnd r + 1))| < 1 → -2 < r ∧ r < 0) := by
  have rep : ∀ {F : Fmt}, F.WF → 24 ≤ F.p → ∀ {k : ℕ}, k ≤ 2 ^ 24 → F.rnd ((k : ℚ) * (1 / 2 ^ 23)) = (k : ℚ) * (1 / 2 ^ 23) := by
    intro F hF h24 k hk
    have h1 := hF.one_le
    have := F.rnd_exact hF (k := k) (hk.trans (Nat.pow_le_pow_right (by norm_num) h24)) (e := -23) (by omega)
    rwa [show pow2 (-23) = 1 / 2 ^ 23 by decide +kernel] at this
  have repn : ∀ {F : Fmt}, F.WF → 24 ≤ F.p → ∀ {k : ℕ}, k ≤ 2 ^ 24 → F.rnd (-((k : ℚ) * (1 / 2 ^ 23))) = -((k : ℚ) * (1 / 2 ^ 23)) := by
    intro F hF h24 k hk
    rw [Fmt.rnd_neg, rep hF h24 hk]
  constructor
  · intro h1 h2
    have a1 := c.coeff.rnd_mono hc.p_pos (a := -(((2 ^ 24 - 1 : ℕ) : ℚ) * (1 / 2 ^ 23))) (b := r) (by push_cast; linarith)
    have a2 := c.coeff.rnd_mono hc.p_pos (a := r) (b := -(((1 : ℕ) : ℚ) * (1 / 2 ^ 23))) (by push_cast; linarith)
    rw [repn hc he (by norm_num)] at a1 a2
    push_cast at a1 a2
    have b1 := c.coeff.rnd_mono hc.p_pos (a := -(((2 ^ 23 - 1 : ℕ) : ℚ) * (1 / 2 ^ 23))) (b := c.coeff.rnd r + 1) (by push_cast; linarith)
    have b2 := c.coeff.rnd_mono hc.p_pos (a := c.coeff.rnd r + 1) (b := (((2 ^ 23 - 1 : ℕ) : ℚ) * (1 / 2 ^ 23))) (by push_cast; linarith)
    rw [repn hc he (by norm_num)] at b1
    rw [rep hc he (by norm_num)] at b2
    have c1 := c.inter.rnd_mono hi.p_pos b1
    have c2 := c.inter.rnd_mono hi.p_pos b2
    rw [repn hi hp (by norm_num)] at c1
    rw [rep hi hp (by norm_num)] at c2
    push_cast at c1 c2
    rw [abs_lt]
    constructor <;> linarith
  · intro h
    obtain ⟨h1, h2⟩ := abs_lt.mp h
    have one : ∀ {F : Fmt}, F.WF → F.rnd 1 = 1 := fun hF => Fmt.rnd_one _ hF
    have neg : ∀ {F : Fmt}, F.WF → F.rnd (-1) = -1 := fun hF => by rw [Fmt.rnd_neg, one hF]
    constructor
    · by_contra hr
      have hr : r ≤ -2 := not_lt.mp hr
      have a1 := c.coeff.rnd_mono hc.p_pos hr
      rw [show (-2 : ℚ) = -(((2 ^ 24 : ℕ) : ℚ) * (1 / 2 ^ 23)) by norm_num, repn hc he (by norm_num)] at a1
      norm_num at a1
      have a2 := c.coeff.rnd_mono hc.p_pos (a := c.coeff.rnd r + 1) (b := -1) (by linarith)
      rw [neg hc] at a2
      have a3 := c.inter.rnd_mono hi.p_pos a2
      rw [neg hi] at a3
      linarith
    · by_contra hr
      have hr : 0 ≤ r := not_lt.mp hr
      have a1 := c.coeff.rnd_mono hc.p_pos hr
      rw [Fmt.rnd_zero] at a1
      have a2 := c.coeff.rnd_mono hc.p_pos (a := 1) (b := c.coeff.rnd r + 1) (by linarith)
      rw [one hc] at a2
      have a3 := c.inter.rnd_mono hi.p_pos a2
      rw [one hi] at a3
      linarith

theorem magHit_exact (hc : s.cfg.coeff.WF) (hi : s.cfg.inter.WF) (he : 24 ≤ s.cfg.coeff.p) (hp : 24 ≤ s.cfg.inter.p)
    (hq : s.cfg.coeff.qmin ≤ 1 - s.cfg.inter.p) {bl br : Bool} {l r : ℚ} (hr : r ≠ 0 → br = decide (r < 0)) :
    ((l : ℝ) * r < 0 ∧ 1 / 2 ^ 23 * max |(r : ℝ)| (floorOf s.cfg) ≤ |(l : ℝ)| ∧ |(l : ℝ)| ≤ (2 - 1 / 2 ^ 23) * max |(r : ℝ)| (floorOf s.cfg) →
      magHit s (.fin bl l) (.fin br r) = true) ∧
    (magHit s (.fin bl l) (.fin br r) = true → ((l : ℝ) * r ≤ 0 ∧ |(l : ℝ)| < 2 * max |(r : ℝ)| (floorOf s.cfg)) ∨
      ceilingOf s.cfg * max |(r : ℝ)| (floorOf s.cfg) < |(l : ℝ)|) := by
  set eps : ℚ := pow2 (1 - (s.cfg.inter.p : ℤ)) with heps
  set M : ℚ := max |r| eps with hM
  have e0 : 0 < eps := pow2_pos _
  have hM0 : 0 < M := lt_max_of_lt_right e0
  have hMr : max |(r : ℝ)| (floorOf s.cfg) = (M : ℝ) := by
    unfold floorOf
    rw [hM, Rat.cast_max, Rat.cast_abs]
  have hcon : s.cfg.coeff.conv (.fin false eps) = .fin false eps := by
    have h1 := s.cfg.coeff.rnd_pow2 hc hq
    have h2 := hc.p_le
    show s.cfg.coeff.deliver false eps = _
    rw [deliver_nn _ e0.le (by rw [h1]; exact pow2_lt (by omega)), h1]
  have hden : ((if (Fl.fin false eps).lt (Fl.fin br r).fabs then (Fl.fin br r).fabs else s.cfg.coeff.conv (.fin false eps)).copysign (.fin br r)) =
      .fin br (if br then -M else M) := by
    rw [hcon]
    have : (if (Fl.fin false eps).lt (Fl.fin br r).fabs then (Fl.fin br r).fabs else (.fin false eps)) = Fl.fin false M := by
      simp only [Fl.fabs, Fl.lt, decide_eq_true_eq]
      split
      · rename_i h; rw [hM, max_eq_left h.le]
      · rename_i h; rw [hM, max_eq_right (not_lt.mp h)]
    rw [this]
    unfold Fl.copysign
    simp only [Fl.fabs, abs_of_pos hM0, Fl.signbit, Fl.neg]
    cases br <;> simp
  have hd0 : (if br then -M else M) ≠ 0 := by split <;> simp [hM0.ne']
  set q : ℚ := l / (if br then -M else M) with hqd
  have hdiv : s.cfg.coeff.div (.fin bl l) (.fin br (if br then -M else M)) = s.cfg.coeff.deliver (xor bl br) q := by
    simp only [Fmt.div]
    rw [if_neg hd0]
  have hhit : magHit s (.fin bl l) (.fin br r) = (match s.cfg.inter.conv (s.cfg.coeff.add (s.cfg.coeff.deliver (xor bl br) q) (.fin false 1)) with
      | .fin _ v => decide (|v| < 1)
      | t => decide (s.env.frexpJunk t ≤ 0)) := by
    unfold magHit
    simp only
    rw [← heps, hden, hdiv]
    generalize s.cfg.inter.conv (s.cfg.coeff.add (s.cfg.coeff.deliver (xor bl br) q) (.fin false 1)) = t
    cases t <;> rfl
  have habs : |q| = |l| / M := by
    rw [hqd, abs_div]
    congr 1
    split
    · rw [abs_neg, abs_of_pos hM0]
    · rw [abs_of_pos hM0]
  rw [hMr]
  constructor
  · rintro ⟨h1, h2, h3⟩
    have h1 : l * r < 0 := by exact_mod_cast h1
    have h2 : 1 / 2 ^ 23 * M ≤ |l| := by
      rw [← Rat.cast_abs] at h2
      have : (((1 / 2 ^ 23 * M : ℚ)) : ℝ) ≤ ((|l| : ℚ) : ℝ) := by push_cast; push_cast at h2; exact h2
      exact_mod_cast this
    have h3 : |l| ≤ (2 - 1 / 2 ^ 23) * M := by
      rw [← Rat.cast_abs] at h3
      have : ((|l| : ℚ) : ℝ) ≤ (((2 - 1 / 2 ^ 23) * M : ℚ) : ℝ) := by push_cast; push_cast at h3; exact h3
      exact_mod_cast this
    have n2 : r ≠ 0 := by rintro rfl; simp at h1
    have hneg : q ≤ 0 := by
      rw [hqd, hr n2]
      rcases mul_neg_iff.mp h1 with ⟨a, b⟩ | ⟨a, b⟩
      · simp only [b, decide_true, if_true]
        exact div_nonpos_of_nonneg_of_nonpos a.le (by linarith)
      · simp only [not_lt.mpr b.le, decide_false]
        exact div_nonpos_of_nonpos_of_nonneg a.le hM0.le
    rw [abs_of_nonpos hneg] at habs
    have g1 : q ≤ -(1 / 2 ^ 23) := by
      have := (le_div_iff₀ hM0).mpr h2
      linarith
    have g2 : -(2 - 1 / 2 ^ 23) ≤ q := by
      have := (div_le_iff₀ hM0).mpr h3
      linarith
    have hsm : |q| ≤ pow2 (min s.cfg.coeff.emax s.cfg.inter.emax - 2) := by
      have a1 := hc.p_le
      have a2 := hi.p_le
      have : pow2 1 < pow2 (min s.cfg.coeff.emax s.cfg.inter.emax - 2) := pow2_lt (by omega)
      rw [show pow2 1 = 2 by decide +kernel] at this
      rw [abs_of_nonpos hneg]
      linarith
    obtain ⟨b', e⟩ := magTerm_value hc hi he hp (b := xor bl br) hsm
    rw [hhit, e]
    simp only [decide_eq_true_eq]
    exact (magTerm_less hc hi he hp).1 g2 g1
  · intro hh
    by_cases hsm : |q| ≤ pow2 (min s.cfg.coeff.emax s.cfg.inter.emax - 2)
    · left
      obtain ⟨b', e⟩ := magTerm_value hc hi he hp (b := xor bl br) hsm
      rw [hhit, e] at hh
      simp only [decide_eq_true_eq] at hh
      obtain ⟨g1, g2⟩ := (magTerm_less hc hi he hp).2 hh
      rw [abs_of_neg g2] at habs
      have hlt : |l| < 2 * M := by
        have : |l| / M < 2 := by linarith
        exact (div_lt_iff₀ hM0).mp this
      refine ⟨?_, by rw [← Rat.cast_abs]; exact_mod_cast hlt⟩
      have : l * r ≤ 0 := by
        rcases eq_or_ne r 0 with rfl | n2
        · simp
        rw [hqd, hr n2] at g2
        rcases lt_or_gt_of_ne n2 with h | h
        · simp only [h, decide_true, if_true] at g2
          have : 0 < l := by
            by_contra hn
            have := div_nonneg_of_nonpos (not_lt.mp hn) (show -M ≤ 0 by linarith)
            linarith
          exact (mul_neg_of_pos_of_neg this h).le
        · simp only [not_lt.mpr h.le, decide_false] at g2
          have : l < 0 := by
            by_contra hn
            have := div_nonneg (not_lt.mp hn) hM0.le
            simp only [Bool.false_eq_true, if_false] at g2
            linarith
          exact (mul_neg_of_neg_of_pos this h).le
      exact_mod_cast this
    · right
      have h1 := not_le.mp hsm
      rw [habs, lt_div_iff₀ hM0] at h1
      unfold ceilingOf
      rw [← Rat.cast_abs]
      exact_mod_cast h1
/-- A number at most `δ` away from `x`. -/
def Approx (δ : ℝ) (c : Fl) (x : ℝ) : Prop := ∃ b v, c = .fin b v ∧ |(v : ℝ) - x| ≤ δ

/-- The rounding error of a format. -/
noncomputable def grain (F : Fmt) : ℝ := ((pow2 (-F.p) : ℚ) : ℝ)

theorem grain_pos (F : Fmt) : 0 < grain F := by
  unfold grain
  exact_mod_cast pow2_pos _

theorem approx_deliver {F : Fmt} (hF : F.WF) (b : Bool) {v : ℚ} {x δ B K : ℝ} (hx : |(v : ℝ) - x| ≤ δ) (hv : |(v : ℝ)| ≤ B) (hB : B ≤ ((pow2 (F.emax - 1) : ℚ) : ℝ))
    (hK : B + 1 ≤ K) : Approx (δ + grain F * K) (F.deliver b v) x := by
  have h1 := hF.one_le
  have hu := grain_pos F
  obtain ⟨⟨b', v', e, _⟩, h3⟩ := deliver_rval F hF b (u := grain F) (η := grain F) le_rfl (pow2_le_pow2 (by omega)) hB hv
  refine ⟨b', v', e, ?_⟩
  rw [e] at h3
  have h3 : |(v' : ℝ) - v| ≤ grain F * |(v : ℝ)| + grain F := h3
  have h4 : |(v' : ℝ) - x| ≤ |(v' : ℝ) - v| + |(v : ℝ) - x| := abs_sub_le _ _ _
  have h5 : grain F * |(v : ℝ)| + grain F ≤ grain F * K := by nlinarith
  linarith

theorem fsum_near {F : Fmt} (hF : F.WF) {A δ : ℝ} {N : ℕ} {c : ℕ → Fl} {x : ℕ → ℝ} (hc : ∀ i < N, Approx δ (c i) (x i)) (hx : ∀ i < N, |x i| ≤ A) (hA : 1 ≤ A)
    (hδ : 0 ≤ δ) (hδA : δ ≤ A) (hN : 2 * (N * grain F) ≤ 1) (hB : 5 * (N * A) ≤ ((pow2 (F.emax - 1) : ℚ) : ℝ)) {k : ℕ} (hk : k ≤ N) :
    Approx (k * (δ + grain F * (6 * (N * A)))) (fsum F ((List.range k).map c)) (∑ i ∈ Finset.range k, x i) := by
  have hu := grain_pos F
  induction k with
  | zero => exact ⟨false, 0, rfl, by simp⟩
  | succ k ih =>
    obtain ⟨b, v, e, h1⟩ := ih (by omega)
    obtain ⟨b', v', e', h2⟩ := hc k (by omega)
    have e2 : fsum F ((List.range (k + 1)).map c) = F.add (fsum F ((List.range k).map c)) (c k) := by
      unfold fsum
      rw [List.range_succ, List.map_append, List.foldl_append]
      rfl
    rw [e2, e, e', Finset.sum_range_succ]
    show Approx _ (F.deliver (b && b') (v + v')) _
    have hkN : (k : ℝ) + 1 ≤ N := by exact_mod_cast hk
    have k0 : (0 : ℝ) ≤ k := Nat.cast_nonneg k
    have N1 : (1 : ℝ) ≤ N := by linarith
    have hsum : |∑ i ∈ Finset.range k, x i| ≤ k * A := by
      refine le_trans (Finset.abs_sum_le_sum_abs _ _) ?_
      refine le_trans (Finset.sum_le_sum fun i hi => hx i (by have := Finset.mem_range.mp hi; omega)) ?_
      simp
    have hxk := hx k (by omega)
    have h3 : |((v + v' : ℚ) : ℝ) - (∑ i ∈ Finset.range k, x i + x k)| ≤ k * (δ + grain F * (6 * (N * A))) + δ := by
      push_cast
      rw [show (v : ℝ) + v' - (∑ i ∈ Finset.range k, x i + x k) = (v - ∑ i ∈ Finset.range k, x i) + (v' - x k) by ring]
      exact le_trans (abs_add_le _ _) (add_le_add h1 h2)
    have h4 : |((v + v' : ℚ) : ℝ)| ≤ 5 * (N * A) := by
      have a1 : |((v + v' : ℚ) : ℝ)| ≤ |((v + v' : ℚ) : ℝ) - (∑ i ∈ Finset.range k, x i + x k)| + |∑ i ∈ Finset.range k, x i + x k| := by
        have := abs_add_le (((v + v' : ℚ) : ℝ) - (∑ i ∈ Finset.range k, x i + x k)) (∑ i ∈ Finset.range k, x i + x k)
        rwa [sub_add_cancel] at this
      have a2 : |∑ i ∈ Finset.range k, x i + x k| ≤ k * A + A := le_trans (abs_add_le _ _) (add_le_add hsum hxk)
      have a3 : k * (grain F * (6 * (N * A))) ≤ 3 * (N * A) := by
        have : (k : ℝ) * grain F ≤ N * grain F := mul_le_mul_of_nonneg_right (by linarith) hu.le
        have hNA : 0 ≤ (N : ℝ) * A := by positivity
        nlinarith
      have a4 : (k : ℝ) * δ + δ ≤ N * A := by
        have : ((k : ℝ) + 1) * δ ≤ N * A := mul_le_mul hkN hδA hδ (by linarith)
        linarith
      have a5 : (k : ℝ) * A + A ≤ N * A := by nlinarith
      nlinarith
    have hK : 5 * ((N : ℝ) * A) + 1 ≤ 6 * (N * A) := by nlinarith
    have := approx_deliver hF (b && b') h3 h4 hB hK
    convert this using 1
    push_cast
    ring

theorem approx_mono {δ δ' : ℝ} {c : Fl} {x : ℝ} (h : Approx δ c x) (hd : δ ≤ δ') : Approx δ' c x := by
  obtain ⟨b, v, e, h1⟩ := h
  exact ⟨b, v, e, h1.trans hd⟩

theorem approx_fabs {δ : ℝ} {c : Fl} {x : ℝ} (h : Approx δ c x) : Approx δ c.fabs |x| := by
  obtain ⟨b, v, rfl, h1⟩ := h
  refine ⟨false, |v|, rfl, ?_⟩
  rw [Rat.cast_abs]
  exact le_trans (abs_abs_sub_abs_le_abs_sub _ _) h1

theorem approx_sub {F : Fmt} (hF : F.WF) {δ δ' B K : ℝ} {c c' : Fl} {x x' : ℝ} (h : Approx δ c x) (h' : Approx δ' c' x')
    (hv : |x - x'| + (δ + δ') ≤ B) (hB : B ≤ ((pow2 (F.emax - 1) : ℚ) : ℝ)) (hK : B + 1 ≤ K) : Approx (δ + δ' + grain F * K) (F.sub c c') (x - x') := by
  obtain ⟨b, v, rfl, h1⟩ := h
  obtain ⟨b', v', rfl, h2⟩ := h'
  show Approx _ (F.deliver (b && !b') (v + -v')) _
  have h3 : |((v + -v' : ℚ) : ℝ) - (x - x')| ≤ δ + δ' := by
    push_cast
    rw [show (v : ℝ) + -v' - (x - x') = (v - x) - (v' - x') by ring]
    exact le_trans (abs_sub _ _) (add_le_add h1 h2)
  refine approx_deliver hF _ h3 ?_ hB hK
  have := abs_add_le (((v + -v' : ℚ) : ℝ) - (x - x')) (x - x')
  rw [sub_add_cancel] at this
  linarith

theorem approx_lt {δ δ' : ℝ} {c c' : Fl} {x x' : ℝ} (h : Approx δ c x) (h' : Approx δ' c' x') :
    (x + (δ + δ') < x' → c.lt c' = true) ∧ (c.lt c' = true → x - (δ + δ') < x') := by
  obtain ⟨b, v, rfl, h1⟩ := h
  obtain ⟨b', v', rfl, h2⟩ := h'
  have h1 := abs_le.mp h1
  have h2 := abs_le.mp h2
  simp only [Fl.lt, decide_eq_true_eq]
  constructor
  · intro h
    have : (v : ℝ) < v' := by linarith [h1.2, h2.1]
    exact_mod_cast this
  · intro h
    have : (v : ℝ) < v' := by exact_mod_cast h
    linarith [h1.1, h2.2]

theorem level_le {Y : ℕ → ℕ → ℝ} {n x : ℕ} {A : ℝ} (n0 : 0 < n) (hA : ∀ y < n, |Y y x| ≤ A) : |level Y n x| ≤ A ∧ 0 ≤ level Y n x := by
  have n0' : (0 : ℝ) < n := by exact_mod_cast n0
  have h0 : 0 ≤ level Y n x := div_nonneg (Finset.sum_nonneg fun _ _ => abs_nonneg _) n0'.le
  refine ⟨?_, h0⟩
  rw [abs_of_nonneg h0]
  unfold level
  rw [div_le_iff₀ n0']
  refine le_trans (Finset.sum_le_sum fun y hy => hA y (Finset.mem_range.mp hy)) ?_
  simp [mul_comm]

theorem meanMag_near {c : Cfg} (hi : c.inter.WF) (hr : (c.inter.p : ℤ) < c.inter.emax) {g : ℕ → ℕ → Fl} {Y : ℕ → ℕ → ℝ} {n x : ℕ} {A : ℝ} (n0 : 0 < n) (hA : 1 ≤ A)
    (hn : n ≤ 2 ^ c.inter.p) (hN : 2 * (n * grain c.inter) ≤ 1) (hB : 5 * (n * A) ≤ ((pow2 (c.inter.emax - 1) : ℚ) : ℝ))
    (hY : ∀ y < n, ∃ b v, g y x = .fin b v ∧ Y y x = (v : ℝ)) (hYA : ∀ y < n, |Y y x| ≤ A) :
    Approx (14 * (n * A) * grain c.inter) (meanMag c g n x) (level Y n x) := by
  have hu := grain_pos c.inter
  have n1 : (1 : ℝ) ≤ n := by exact_mod_cast n0
  have nA : A ≤ n * A := by nlinarith
  have hu2 : grain c.inter ≤ 1 / 2 := by nlinarith
  have h1 : ∀ y < n, Approx (2 * A * grain c.inter) ((c.inter.conv (g y x)).fabs) |Y y x| := by
    intro y hy
    obtain ⟨b, v, e, ev⟩ := hY y hy
    have hv := hYA y hy
    rw [e]
    refine approx_fabs ?_
    rw [ev] at hv ⊢
    have := approx_deliver hi b (v := v) (x := v) (δ := 0) (by simp) hv (by linarith) (K := 2 * A) (by linarith)
    exact approx_mono this (by linarith)
  obtain ⟨b, v, e, h2⟩ := fsum_near hi h1 (fun y hy => by rw [abs_abs]; exact hYA y hy) hA (by positivity) (by nlinarith) hN hB le_rfl
  unfold meanMag
  rw [e, ofNat_exact hi hr hn]
  have n0q : ((n : ℕ) : ℚ) ≠ 0 := by exact_mod_cast n0.ne'
  simp only [Fmt.div]
  rw [if_neg n0q]
  have hlev := level_le n0 hYA
  have n0' : (0 : ℝ) < n := by linarith
  have h3 : |((v / n : ℚ) : ℝ) - level Y n x| ≤ 2 * A * grain c.inter + grain c.inter * (6 * (n * A)) := by
    unfold level
    push_cast
    rw [← sub_div, abs_div, abs_of_pos n0', div_le_iff₀ n0', mul_comm _ (n : ℝ)]
    exact h2
  have h4 : |((v / n : ℚ) : ℝ)| ≤ 5 * A := by
    have := abs_add_le (((v / n : ℚ) : ℝ) - level Y n x) (level Y n x)
    rw [sub_add_cancel] at this
    have a1 : grain c.inter * (6 * (n * A)) ≤ 3 * A := by nlinarith
    have a2 : 2 * A * grain c.inter ≤ A := by nlinarith
    linarith [hlev.1]
  have := approx_deliver hi (xor b false) h3 h4 (by linarith) (K := 6 * A) (by linarith)
  refine approx_mono this ?_
  nlinarith

/-- The test of the orig method on computed coefficients is that on the numbers, up to rounding. -/
theorem origPasses_near {c : Cfg} (hi : c.inter.WF) (hr : (c.inter.p : ℤ) < c.inter.emax) {g : ℕ → ℕ → Fl} {Y : ℕ → ℕ → ℝ} {n r N : ℕ} {A : ℝ} (n0 : 0 < n)
    (r0 : 0 < r) (hA : 1 ≤ A) (hfit : 32 * (n + r) ≤ 2 ^ c.inter.p) (hB : 8 * ((n + r) * A) ≤ ((pow2 (c.inter.emax - 1) : ℚ) : ℝ))
    (hY : ∀ y < n, ∀ x, N - r ≤ x → x ≤ N + r → (∃ b v, g y x = .fin b v ∧ Y y x = (v : ℝ)) ∧ |Y y x| ≤ A) :
    (Dips (slack c A n r) Y n r N → origPasses c g n r N = true) ∧ (origPasses c g n r N = true → Dips (-slack c A n r) Y n r N) := by
  have hu := grain_pos c.inter
  have n1 : (1 : ℝ) ≤ n := by exact_mod_cast n0
  have r1 : (1 : ℝ) ≤ r := by exact_mod_cast r0
  have hsmall : 32 * (((n : ℝ) + r) * grain c.inter) ≤ 1 := by
    have h1 : ((32 * (n + r) : ℕ) : ℚ) * pow2 (-c.inter.p) ≤ 1 := by
      have : ((32 * (n + r) : ℕ) : ℚ) ≤ pow2 c.inter.p := by rw [pow2_natCast]; exact_mod_cast hfit
      calc _ ≤ pow2 c.inter.p * pow2 (-c.inter.p) := mul_le_mul_of_nonneg_right this (pow2_pos _).le
        _ = 1 := by rw [← pow2_add]; simp [show pow2 0 = 1 by decide +kernel]
    have h2 : (((32 * (n + r) : ℕ) : ℚ) * pow2 (-c.inter.p) : ℝ) ≤ 1 := by exact_mod_cast h1
    unfold grain
    push_cast at h2
    linarith
  have hn2 : n ≤ 2 ^ c.inter.p := by omega
  have hr2 : r ≤ 2 ^ c.inter.p := by omega
  have nu : 0 < (n : ℝ) * grain c.inter := by positivity
  have ru : 0 < (r : ℝ) * grain c.inter := by positivity
  have hlevel : ∀ x, N - r ≤ x → x ≤ N + r → Approx (14 * (n * A) * grain c.inter) (meanMag c g n x) (level Y n x) ∧ |level Y n x| ≤ A := by
    intro x h1 h2
    refine ⟨meanMag_near hi hr n0 hA hn2 (by nlinarith) (by nlinarith) (fun y hy => (hY y hy x h1 h2).1) (fun y hy => (hY y hy x h1 h2).2), ?_⟩
    exact (level_le n0 fun y hy => (hY y hy x h1 h2).2).1
  set lam : ℝ := r * A * grain c.inter * (14 * n + 6 * r) with hlam
  have hδ : 14 * (n * A) * grain c.inter ≤ A := by nlinarith
  have hδ0 : 0 ≤ 14 * (n * A) * grain c.inter := by positivity
  have eL : ∀ (r : ℝ), r * (14 * (n * A) * grain c.inter + grain c.inter * (6 * (r * A))) = r * A * grain c.inter * (14 * n + 6 * r) := fun r => by ring
  have hleft := fsum_near hi (A := A) (N := r) (c := fun i => meanMag c g n (N - (i + 1))) (x := fun i => level Y n (N - (i + 1)))
    (fun i hi => (hlevel _ (by omega) (by omega)).1) (fun i hi => (hlevel _ (by omega) (by omega)).2) hA hδ0 hδ (by nlinarith) (by nlinarith) le_rfl
  have hright := fsum_near hi (A := A) (N := r) (c := fun i => meanMag c g n (N + (i + 1))) (x := fun i => level Y n (N + (i + 1)))
    (fun i hi => (hlevel _ (by omega) (by omega)).1) (fun i hi => (hlevel _ (by omega) (by omega)).2) hA hδ0 hδ (by nlinarith) (by nlinarith) le_rfl
  rw [eL, ← hlam] at hleft hright
  have hpos : 0 ≤ (r : ℝ) * A * grain c.inter := by positivity
  have hsum : ∀ f : ℕ → ℝ, (∀ i < r, |f i| ≤ A) → |∑ i ∈ Finset.range r, f i| ≤ r * A := by
    intro f hf
    refine le_trans (Finset.abs_sum_le_sum_abs _ _) ?_
    refine le_trans (Finset.sum_le_sum fun i hi => hf i (Finset.mem_range.mp hi)) ?_
    simp
  have bl := hsum (fun i => level Y n (N - (i + 1))) (fun i hi => (hlevel _ (by omega) (by omega)).2)
  have br := hsum (fun i => level Y n (N + (i + 1))) (fun i hi => (hlevel _ (by omega) (by omega)).2)
  have hrA : 1 ≤ (r : ℝ) * A := by nlinarith
  have hmid : Approx lam (c.inter.mul (meanMag c g n N) (c.inter.ofNat r)) (level Y n N * r) ∧ |level Y n N * r| ≤ r * A := by
    obtain ⟨⟨b, v, e, h1⟩, h2⟩ := hlevel N (by omega) (by omega)
    have hm : |level Y n N * r| ≤ r * A := by
      rw [abs_mul, abs_of_pos (by linarith : (0 : ℝ) < r)]
      nlinarith
    refine ⟨?_, hm⟩
    rw [e, ofNat_exact hi hr hr2]
    show Approx _ (c.inter.deliver (xor b false) (v * r)) _
    have h3 : |((v * r : ℚ) : ℝ) - level Y n N * r| ≤ 14 * (n * A) * grain c.inter * r := by
      push_cast
      rw [← sub_mul, abs_mul, abs_of_pos (by linarith : (0 : ℝ) < r)]
      exact mul_le_mul_of_nonneg_right h1 (by linarith)
    have h4 : |((v * r : ℚ) : ℝ)| ≤ 2 * (r * A) := by
      have := abs_add_le (((v * r : ℚ) : ℝ) - level Y n N * r) (level Y n N * r)
      rw [sub_add_cancel] at this
      nlinarith
    have := approx_deliver hi (xor b false) h3 h4 (by nlinarith) (K := 3 * (r * A)) (by linarith)
    refine approx_mono this ?_
    rw [hlam]
    have : 0 ≤ (r : ℝ) * A * grain c.inter := by positivity
    nlinarith
  obtain ⟨hmid, bm⟩ := hmid
  have hlam20 : 20 * (r * A * grain c.inter) ≤ lam := by
    rw [hlam]
    have : 0 ≤ (r : ℝ) * A * grain c.inter := by positivity
    nlinarith
  have hlamA : lam ≤ r * A / 2 := by
    rw [hlam]
    have h1 : grain c.inter * (14 * n + 6 * r) ≤ 1 / 2 := by nlinarith
    have h2 : 0 ≤ (r : ℝ) * A := by positivity
    nlinarith
  have hkap : 6 * lam ≤ slack c A n r := by
    rw [hlam]
    unfold slack
    show _ ≤ 120 * _ * grain c.inter
    have : 0 ≤ (r : ℝ) * A * grain c.inter := by positivity
    nlinarith
  have hdiff : ∀ {a b : Fl} {x y : ℝ}, Approx lam a x → Approx lam b y → |x| ≤ r * A → |y| ≤ r * A →
      Approx (3 * lam) (c.inter.sub a b).fabs |x - y| := by
    intro a b x y ha hb hx hy
    refine approx_fabs ?_
    have h1 : |x - y| ≤ r * A + r * A := le_trans (abs_sub x y) (add_le_add hx hy)
    have := approx_sub hi ha hb (B := 3 * (r * A)) (by linarith) (by nlinarith) (K := 4 * (r * A)) (by linarith)
    exact approx_mono this (by linarith)
  set left := ∑ i ∈ Finset.range r, level Y n (N - (i + 1))
  set right := ∑ i ∈ Finset.range r, level Y n (N + (i + 1))
  set mid := level Y n N * r
  have d1 := hdiff hleft hright bl br
  have d2 := hdiff hleft hmid bl bm
  have d3 := hdiff hright hmid br bm
  have l1 := approx_lt hmid hleft
  have l2 := approx_lt hmid hright
  have l3 := approx_lt d1 d2
  have l4 := approx_lt d1 d3
  have hmin : ∀ m l r : Fl, (∃ b v, l = .fin b v) → (∃ b v, r = .fin b v) → (∃ b v, m = .fin b v) →
      (m.lt (if l.lt r then l else r) = true ↔ m.lt l = true ∧ m.lt r = true) := by
    rintro _ _ _ ⟨b1, l, rfl⟩ ⟨b2, r, rfl⟩ ⟨b3, m, rfl⟩
    have e : (Fl.fin b1 l).lt (.fin b2 r) = decide (l < r) := rfl
    rw [e]
    by_cases h : l < r
    · rw [if_pos (by simpa using h)]
      simp only [Fl.lt, decide_eq_true_eq]
      exact ⟨fun h1 => ⟨h1, h1.trans h⟩, fun h1 => h1.1⟩
    · rw [if_neg (by simpa using h)]
      simp only [Fl.lt, decide_eq_true_eq]
      exact ⟨fun h1 => ⟨lt_of_lt_of_le h1 (not_lt.mp h), h1⟩, fun h1 => h1.2⟩
  have hm := hmin _ _ _ (by obtain ⟨b, v, e, _⟩ := hleft; exact ⟨b, v, e⟩) (by obtain ⟨b, v, e, _⟩ := hright; exact ⟨b, v, e⟩)
    (by obtain ⟨b, v, e, _⟩ := hmid; exact ⟨b, v, e⟩)
  unfold origPasses Dips
  simp only [Bool.and_eq_true]
  rw [hm]
  constructor
  · rintro ⟨h1, h2, h3, h4⟩
    exact ⟨⟨⟨l1.1 (by linarith), l2.1 (by linarith)⟩, l3.1 (by linarith)⟩, l4.1 (by linarith)⟩
  · rintro ⟨⟨⟨h1, h2⟩, h3⟩, h4⟩
    have := l1.2 h1
    have := l2.2 h2
    have := l3.2 h3
    have := l4.2 h4
    exact ⟨by linarith, by linarith, by linarith, by linarith⟩
/-- What a method finds in computed coefficients lies between what speaks for a position in exact arithmetic and what may. -/
theorem evidence_bracket (hc : s.cfg.coeff.WF) (hi : s.cfg.inter.WF) (hpr : Precise s.cfg) {m : Detect} {d A : ℝ} {g : ℕ → ℕ → Fl} {X : ℕ → ℕ → ℝ}
    {n r len N : ℕ} (hw : ∀ y < n, ∀ x < len, Spec.Within d (g y x) (X y x)) (n0 : 0 < n) (r0 : 0 < r) (hN : r ≤ N) (hlen : N + r < len)
    (hfit : Capable s.cfg m A n r) (hA : m = .orig → ∀ y < n, ∀ x < len, |X y x| + d ≤ A) (hz : m = .zerox → r = 1) :
    sureOf s.cfg m d A X n r N ≤ evidence s m g n r N ∧ evidence s m g n r N ≤ possibleOf s.cfg m d A X n r N := by
  classical
  have hd : 0 < d := within_pos (hw 0 n0 N (by omega))
  set Y := numbers g X n len with hY
  have hYX : Around d X Y := numbers_around hd hw
  have hnr : (0 : ℚ) ≤ n * r := by positivity
  have count : ∀ (P : ℕ × ℕ → Prop) [DecidablePred P], (∀ p ∈ (Finset.range n ×ˢ Finset.Icc 1 r : Finset (ℕ × ℕ)), (Speaks s.cfg m Y N p → P p) ∧ (P p → MaySpeak s.cfg m Y N p)) →
      (((Finset.range n ×ˢ Finset.Icc 1 r).filter (fun p => ∀ Y, Around d X Y → Speaks s.cfg m Y N p)).card : ℚ) / (n * r) ≤
        ((Finset.range n ×ˢ Finset.Icc 1 r).filter P).card / (n * r) ∧
      (((Finset.range n ×ˢ Finset.Icc 1 r).filter P).card : ℚ) / (n * r) ≤
        ((Finset.range n ×ˢ Finset.Icc 1 r).filter (fun p => ∃ Y, Around d X Y ∧ MaySpeak s.cfg m Y N p)).card / (n * r) := by
    intro P _ h
    constructor
    · refine div_le_div_of_nonneg_right ?_ hnr
      refine Nat.cast_le.mpr (Finset.card_le_card fun p hp => ?_)
      rw [Finset.mem_filter] at hp ⊢
      exact ⟨hp.1, (h p hp.1).1 (hp.2 Y hYX)⟩
    · refine div_le_div_of_nonneg_right ?_ hnr
      refine Nat.cast_le.mpr (Finset.card_le_card fun p hp => ?_)
      rw [Finset.mem_filter] at hp ⊢
      exact ⟨hp.1, Y, hYX, (h p hp.1).2 hp.2⟩
  have pair : ∀ p ∈ (Finset.range n ×ˢ Finset.Icc 1 r : Finset (ℕ × ℕ)), p.1 < n ∧ 1 ≤ p.2 ∧ p.2 ≤ r := by
    rintro ⟨y, i⟩ hp
    simpa [Finset.mem_product] using hp
  have signs : ∀ p ∈ (Finset.range n ×ˢ Finset.Icc 1 r : Finset (ℕ × ℕ)),
      (Y p.1 (N - p.2) * Y p.1 (N + p.2) < 0 → (g p.1 (N - p.2)).signbit ≠ (g p.1 (N + p.2)).signbit) ∧
      ((g p.1 (N - p.2)).signbit ≠ (g p.1 (N + p.2)).signbit → Y p.1 (N - p.2) * Y p.1 (N + p.2) ≤ 0) := by
    intro p hp
    obtain ⟨h1, h2, h3⟩ := pair p hp
    obtain ⟨b, v, e, h4, e'⟩ := numbers_fin hw h1 (show N - p.2 < len by omega)
    obtain ⟨b', v', f, h5, f'⟩ := numbers_fin hw h1 (show N + p.2 < len by omega)
    rw [hY, e', f', e, f]
    exact bits_opposite h4 h5
  cases m with
  | sign =>
    have := count (fun p => (g p.1 (N - p.2)).signbit ≠ (g p.1 (N + p.2)).signbit) (fun p hp => ⟨fun h => (signs p hp).1 h.1, (signs p hp).2⟩)
    unfold sureOf possibleOf
    rw [if_neg (by simp), if_neg (by simp)]
    unfold evidence signMatches
    convert this
  | mag =>
    obtain ⟨f1, f2, f3⟩ := hfit.mag rfl
    have := count (fun p => magHit s (g p.1 (N - p.2)) (g p.1 (N + p.2)) = true) (fun p hp => by
      obtain ⟨h1, h2, h3⟩ := pair p hp
      obtain ⟨b, v, e, h4, e'⟩ := numbers_fin hw h1 (show N - p.2 < len by omega)
      obtain ⟨b', v', f, h5, f'⟩ := numbers_fin hw h1 (show N + p.2 < len by omega)
      unfold Speaks MaySpeak
      simp only
      rw [hY, e', f', e, f]
      exact magHit_exact hc hi f1 f2 f3 h5)
    unfold sureOf possibleOf
    rw [if_neg (by simp), if_neg (by simp)]
    unfold evidence pairMatches
    convert this
  | zerox =>
    have r1 := hz rfl
    subst r1
    have e1 : crossings g n N = ((Finset.range n ×ˢ Finset.Icc 1 1).filter (fun p : ℕ × ℕ => crosses (g p.1 (N - p.2)) (g p.1 N) (g p.1 (N + p.2)) = true)).card := by
      unfold crossings
      refine Finset.card_bij (fun y _ => (y, 1)) ?_ ?_ ?_
      · intro y hy
        rw [Finset.mem_filter] at hy ⊢
        simp only [Finset.mem_product, Finset.mem_Icc]
        exact ⟨⟨hy.1, le_rfl, le_rfl⟩, hy.2⟩
      · intro a _ b _ h
        exact congrArg Prod.fst h
      · rintro ⟨y, i⟩ hp
        rw [Finset.mem_filter] at hp
        simp only [Finset.mem_product, Finset.mem_Icc] at hp
        obtain ⟨⟨h1, h2, h3⟩, h4⟩ := hp
        obtain rfl : i = 1 := by omega
        exact ⟨y, Finset.mem_filter.mpr ⟨h1, h4⟩, rfl⟩
    have := count (fun p => crosses (g p.1 (N - p.2)) (g p.1 N) (g p.1 (N + p.2)) = true) (fun p hp => by
      obtain ⟨h1, h2, h3⟩ := pair p hp
      obtain ⟨b, v, e, h4, e'⟩ := numbers_fin hw h1 (show N - p.2 < len by omega)
      obtain ⟨b', v', f, h5, f'⟩ := numbers_fin hw h1 (show N + p.2 < len by omega)
      obtain ⟨b'', v'', k, _, k'⟩ := numbers_fin hw h1 (show N < len by omega)
      unfold Speaks MaySpeak
      simp only
      rw [hY, e', f', k', e, f, k]
      exact crosses_exact h4 h5)
    unfold sureOf possibleOf
    rw [if_neg (by simp), if_neg (by simp)]
    unfold evidence
    simp only
    rw [e1, show (n : ℚ) = n * ((1 : ℕ) : ℚ) by simp]
    convert this using 3 <;> simp
  | orig =>
    obtain ⟨f1, f2, f3⟩ := hfit.orig rfl
    have hx := hA rfl
    have hpass := origPasses_near hi hpr.p_lt (g := g) (Y := Y) (N := N) n0 r0 f1 f2 f3 (fun y hy x h1 h2 => by
      have hxl : x < len := by omega
      obtain ⟨b, v, e, _, e'⟩ := numbers_fin hw hy hxl
      refine ⟨⟨b, v, e, e'⟩, ?_⟩
      have h3 := hYX y x
      have h4 := hx y hy x hxl
      have h5 := abs_add_le (Y y x - X y x) (X y x)
      rw [sub_add_cancel] at h5
      linarith)
    have := count (fun p => (g p.1 (N - p.2)).signbit ≠ (g p.1 (N + p.2)).signbit) (fun p hp => ⟨fun h => (signs p hp).1 h.1, (signs p hp).2⟩)
    have hev : evidence s .orig g n r N = if origPasses s.cfg g n r N then (((Finset.range n ×ˢ Finset.Icc 1 r).filter
        (fun p : ℕ × ℕ => (g p.1 (N - p.2)).signbit ≠ (g p.1 (N + p.2)).signbit)).card : ℚ) / (n * r) else 0 := by
      unfold evidence signMatches
      simp only
    have nn : ∀ (k : ℕ), (0 : ℚ) ≤ (k : ℚ) / (n * r) := fun k => div_nonneg (Nat.cast_nonneg k) hnr
    rw [hev]
    constructor
    · unfold sureOf
      split
      · split
        · exact nn _
        · exact le_rfl
      · rename_i h
        have hall : ∀ Y, Around d X Y → Dips (slack s.cfg A n r) Y n r N := by
          by_contra hn
          exact h ⟨rfl, hn⟩
        rw [if_pos (hpass.1 (hall Y hYX))]
        convert this.1
    · unfold possibleOf
      split
      · rename_i hp
        rw [if_neg]
        · convert this.2
        · rintro ⟨_, hn⟩
          exact hn ⟨Y, hYX, hpass.2 hp⟩
      · split
        · exact le_rfl
        · exact nn _
/-! ## What the shares amount to -/

theorem floorOf_pos (c : Cfg) : 0 < floorOf c := by
  unfold floorOf
  exact_mod_cast pow2_pos _

theorem around_self {d : ℝ} (hd : 0 < d) (X : ℕ → ℕ → ℝ) : Around d X X := fun y x => by rw [sub_self, abs_zero]; exact hd

theorem speaks_may {c : Cfg} {m : Detect} {Y : ℕ → ℕ → ℝ} {N : ℕ} {p : ℕ × ℕ} (h : Speaks c m Y N p) : MaySpeak c m Y N p := by
  obtain ⟨h1, h2⟩ := h
  cases m with
  | sign => exact h1.le
  | orig => exact h1.le
  | zerox => exact ⟨h1.le, h2⟩
  | mag =>
    refine Or.inl ⟨h1.le, lt_of_le_of_lt h2.2 ?_⟩
    have : 0 < max |Y p.1 (N + p.2)| (floorOf c) := lt_max_of_lt_right (floorOf_pos c)
    nlinarith

theorem slack_nonneg {c : Cfg} {A : ℝ} (hA : 0 ≤ A) (n range : ℕ) : 0 ≤ slack c A n range := by
  unfold slack
  have : (0 : ℝ) ≤ ((pow2 (-c.inter.p) : ℚ) : ℝ) := by exact_mod_cast (pow2_pos _).le
  positivity

theorem dips_mono {κ κ' : ℝ} {Y : ℕ → ℕ → ℝ} {n range N : ℕ} (h : κ ≤ κ') (hd : Dips κ' Y n range N) : Dips κ Y n range N := by
  obtain ⟨h1, h2, h3, h4⟩ := hd
  exact ⟨by linarith, by linarith, by linarith, by linarith⟩

theorem sureOf_le_possibleOf {c : Cfg} {m : Detect} {d A : ℝ} (hd : 0 < d) (hA : m = .orig → 0 ≤ A) (X : ℕ → ℕ → ℝ) (n range N : ℕ) :
    0 ≤ sureOf c m d A X n range N ∧ sureOf c m d A X n range N ≤ possibleOf c m d A X n range N ∧ possibleOf c m d A X n range N ≤ 1 := by
  classical
  have hX := around_self hd X
  have hsub : (((Finset.range n ×ˢ Finset.Icc 1 range).filter (fun p => ∀ Y, Around d X Y → Speaks c m Y N p)).card : ℚ) / (n * range) ≤
      ((Finset.range n ×ˢ Finset.Icc 1 range).filter (fun p => ∃ Y, Around d X Y ∧ MaySpeak c m Y N p)).card / (n * range) := by
    refine div_le_div_of_nonneg_right ?_ (by positivity)
    refine Nat.cast_le.mpr (Finset.card_le_card fun p h => ?_)
    exact Finset.mem_filter.mpr ⟨(Finset.mem_filter.mp h).1, X, hX, speaks_may ((Finset.mem_filter.mp h).2 X hX)⟩
  have h1 : (((Finset.range n ×ˢ Finset.Icc 1 range).filter (fun p => ∃ Y, Around d X Y ∧ MaySpeak c m Y N p)).card : ℚ) / (n * range) ≤ 1 := by
    refine div_le_one_of_le₀ ?_ (by positivity)
    have := Finset.card_filter_le (Finset.range n ×ˢ Finset.Icc 1 range) (fun p => ∃ Y, Around d X Y ∧ MaySpeak c m Y N p)
    rw [Finset.card_product, Finset.card_range, Nat.card_Icc, Nat.add_sub_cancel] at this
    exact_mod_cast this
  unfold sureOf possibleOf
  by_cases h : m = .orig ∧ ¬ ∀ Y, Around d X Y → Dips (slack c A n range) Y n range N
  · rw [if_pos h]
    refine ⟨le_rfl, ?_, ?_⟩
    · split_ifs
      · exact le_rfl
      · positivity
    · split_ifs
      · exact zero_le_one
      · exact h1
  · rw [if_neg h, if_neg]
    · exact ⟨by positivity, hsub, h1⟩
    · rintro ⟨hm, hno⟩
      have hall : ∀ Y, Around d X Y → Dips (slack c A n range) Y n range N := by
        by_contra hc
        exact h ⟨hm, hc⟩
      have := slack_nonneg (c := c) (hA hm) n range
      exact hno ⟨X, hX, dips_mono (by linarith) (hall X hX)⟩

/-- The coefficients with one of them replaced by zero. -/
noncomputable def blankedAt (X : ℕ → ℕ → ℝ) (y0 x0 : ℕ) : ℕ → ℕ → ℝ := fun y x => if y = y0 ∧ x = x0 then 0 else X y x

theorem blankedAt_around {d : ℝ} (hd : 0 < d) {X : ℕ → ℕ → ℝ} {y0 x0 : ℕ} (h : |X y0 x0| < d) : Around d X (blankedAt X y0 x0) := by
  intro y x
  unfold blankedAt
  split_ifs with hc
  · obtain ⟨rfl, rfl⟩ := hc
    rwa [zero_sub, abs_neg]
  · rw [sub_self, abs_zero]; exact hd

theorem blankedAt_self (X : ℕ → ℕ → ℝ) (y0 x0 : ℕ) : blankedAt X y0 x0 y0 x0 = 0 := if_pos ⟨rfl, rfl⟩

theorem opposite_kept {d a b a' b' : ℝ} (ha : d ≤ |a|) (hb : d ≤ |b|) (h1 : |a' - a| < d) (h2 : |b' - b| < d) : (a * b < 0 ↔ a' * b' < 0) ∧ (0 < a * b ↔ 0 < a' * b') := by
  rw [abs_lt] at h1 h2
  rcases le_abs.mp ha with ha | ha <;> rcases le_abs.mp hb with hb | hb
  · have : 0 < a' := by linarith
    have : 0 < b' := by linarith
    have : 0 < a := by linarith
    have : 0 < b := by linarith
    have h3 : 0 < a * b := by positivity
    have h4 : 0 < a' * b' := by positivity
    exact ⟨⟨fun h => absurd h h3.not_gt, fun h => absurd h h4.not_gt⟩, ⟨fun _ => h4, fun _ => h3⟩⟩
  · have : 0 < a' := by linarith
    have : b' < 0 := by linarith
    have : 0 < a := by linarith
    have : b < 0 := by linarith
    have h3 : a * b < 0 := mul_neg_of_pos_of_neg ‹_› ‹_›
    have h4 : a' * b' < 0 := mul_neg_of_pos_of_neg ‹_› ‹_›
    exact ⟨⟨fun _ => h4, fun _ => h3⟩, ⟨fun h => absurd h h3.not_gt, fun h => absurd h h4.not_gt⟩⟩
  · have : a' < 0 := by linarith
    have : 0 < b' := by linarith
    have : a < 0 := by linarith
    have : 0 < b := by linarith
    have h3 : a * b < 0 := mul_neg_of_neg_of_pos ‹_› ‹_›
    have h4 : a' * b' < 0 := mul_neg_of_neg_of_pos ‹_› ‹_›
    exact ⟨⟨fun _ => h4, fun _ => h3⟩, ⟨fun h => absurd h h3.not_gt, fun h => absurd h h4.not_gt⟩⟩
  · have : a' < 0 := by linarith
    have : b' < 0 := by linarith
    have : a < 0 := by linarith
    have : b < 0 := by linarith
    have h3 : 0 < a * b := mul_pos_of_neg_of_neg ‹_› ‹_›
    have h4 : 0 < a' * b' := mul_pos_of_neg_of_neg ‹_› ‹_›
    exact ⟨⟨fun h => absurd h h3.not_gt, fun h => absurd h h4.not_gt⟩, ⟨fun _ => h4, fun _ => h3⟩⟩

/-- All coefficients nearby are opposite exactly if these are and are clear. -/
theorem always_opposite {d : ℝ} (hd : 0 < d) (X : ℕ → ℕ → ℝ) (N : ℕ) (p : ℕ × ℕ) :
    (∀ Y, Around d X Y → Y p.1 (N - p.2) * Y p.1 (N + p.2) < 0) ↔ ClearPair d X N p ∧ X p.1 (N - p.2) * X p.1 (N + p.2) < 0 := by
  constructor
  · intro h
    refine ⟨⟨?_, ?_⟩, h X (around_self hd X)⟩
    · by_contra hc
      have := h _ (blankedAt_around hd (not_le.mp hc))
      rw [blankedAt_self, zero_mul] at this
      exact lt_irrefl _ this
    · by_contra hc
      have := h _ (blankedAt_around hd (not_le.mp hc))
      rw [blankedAt_self, mul_zero] at this
      exact lt_irrefl _ this
  · rintro ⟨⟨h1, h2⟩, h3⟩ Y hY
    exact (opposite_kept h1 h2 (hY _ _) (hY _ _)).1.mp h3

theorem maybe_opposite {d : ℝ} (hd : 0 < d) (X : ℕ → ℕ → ℝ) (N : ℕ) (p : ℕ × ℕ) :
    (∃ Y, Around d X Y ∧ Y p.1 (N - p.2) * Y p.1 (N + p.2) ≤ 0) ↔ (ClearPair d X N p → X p.1 (N - p.2) * X p.1 (N + p.2) < 0) := by
  constructor
  · rintro ⟨Y, hY, h⟩ ⟨h1, h2⟩
    by_contra hc
    have hne : X p.1 (N - p.2) * X p.1 (N + p.2) ≠ 0 := by
      refine mul_ne_zero ?_ ?_ <;> rw [← abs_pos] <;> linarith
    have := (opposite_kept h1 h2 (hY _ _) (hY _ _)).2.mp (lt_of_le_of_ne (not_lt.mp hc) hne.symm)
    linarith
  · intro h
    by_cases h1 : d ≤ |X p.1 (N - p.2)|
    · by_cases h2 : d ≤ |X p.1 (N + p.2)|
      · exact ⟨X, around_self hd X, (h ⟨h1, h2⟩).le⟩
      · exact ⟨_, blankedAt_around hd (not_le.mp h2), by rw [blankedAt_self, mul_zero]⟩
    · exact ⟨_, blankedAt_around hd (not_le.mp h1), by rw [blankedAt_self, zero_mul]⟩

theorem sureOf_sign {c : Cfg} {d A : ℝ} (hd : 0 < d) (X : ℕ → ℕ → ℝ) (n range N : ℕ) : sureOf c .sign d A X n range N = sureShare d X n range N := by
  classical
  unfold sureOf sureShare
  rw [if_neg (by rintro ⟨h, _⟩; cases h)]
  congr 2
  refine congrArg _ (Finset.filter_congr fun p _ => ?_)
  rw [← always_opposite hd]
  exact forall₂_congr fun Y _ => iff_of_eq (and_true _)

theorem possibleOf_sign {c : Cfg} {d A : ℝ} (hd : 0 < d) (X : ℕ → ℕ → ℝ) (n range N : ℕ) : possibleOf c .sign d A X n range N = possibleShare d X n range N := by
  classical
  unfold possibleOf possibleShare
  rw [if_neg (by rintro ⟨h, _⟩; cases h)]
  congr 2
  refine congrArg _ (Finset.filter_congr fun p _ => ?_)
  rw [← maybe_opposite hd]
  exact Iff.rfl

/-- In the zerox method, the pairs about a zero that are opposite and at least twice the error. -/
theorem sureOf_zerox {c : Cfg} {d A : ℝ} {t : ℚ} (hd : 0 < d) {X : ℕ → ℕ → ℝ} {n N : ℕ} (hn : 0 < n) (hX : Flips X n 1 N)
    (ht : t * n ≤ clearPairs (2 * d) X n 1 N) : t ≤ sureOf c .zerox d A X n 1 N := by
  classical
  unfold sureOf
  rw [if_neg (by rintro ⟨h, _⟩; cases h), le_div_iff₀ (by positivity), Nat.cast_one, mul_one]
  refine le_trans ht ?_
  unfold clearPairs
  refine Nat.cast_le.mpr (Finset.card_le_card ?_)
  intro p hp
  rw [Finset.mem_filter] at hp ⊢
  obtain ⟨hp, h1, h2⟩ := hp
  refine ⟨hp, fun Y hY => ?_⟩
  rw [Finset.mem_product, Finset.mem_range, Finset.mem_Icc] at hp
  obtain ⟨k, k0, e⟩ := hX.sides p.1 hp.1 p.2 hp.2.1 hp.2.2
  have hm := hY p.1 N
  rw [hX.middle p.1 hp.1, sub_zero, abs_lt] at hm
  have hl := abs_lt.mp (hY p.1 (N - p.2))
  have hr := abs_lt.mp (hY p.1 (N + p.2))
  show _ ∧ Inside _ _ _
  unfold Inside
  rcases le_abs.mp h1 with h1 | h1 <;> rcases le_abs.mp h2 with h2 | h2
  · rw [e] at h2; nlinarith
  · refine ⟨mul_neg_of_pos_of_neg ?_ ?_, Or.inr ⟨?_, ?_⟩⟩ <;> linarith
  · refine ⟨mul_neg_of_neg_of_pos ?_ ?_, Or.inl ⟨?_, ?_⟩⟩ <;> linarith
  · rw [e] at h2; nlinarith

/-! ## What the lists amount to -/

theorem _root_.Verif.Spec.BracketList.found {lo hi : (ℕ → ℕ → ℝ) → ℕ → ℚ} {ε ε' t t' : ℚ} {f range len N : ℕ} {Xs : List (ℕ → ℕ → ℝ)} {l : List Res}
    (h : BracketList lo hi ε ε' t f range len Xs l) (hN : range ≤ N) (hlt : N + range < len) (t0 : 0 ≤ t') (htf : binary32.rnd t' = t') (htt : t ≤ t')
    (hf : filteredOut len f (N - range) = false) (hall : ∀ X ∈ Xs, t' ≤ lo X N ∧ hi X N ≤ 1) :
    ∃ v, (⟨N, .fin false v⟩ : Res) ∈ l ∧ t' ≤ v ∧ v ≤ 1 := by
  obtain ⟨h1, h2, _⟩ := h.between N hN hlt t' 1 t0 le_rfl htf (by decide +kernel) hall
  obtain ⟨c, hc⟩ := h2 htt hf
  obtain ⟨v, rfl, h3⟩ := h1 c hc
  exact ⟨v, hc, h3⟩

theorem _root_.Verif.Spec.BracketList.alone {lo hi : (ℕ → ℕ → ℝ) → ℕ → ℚ} {ε ε' t : ℚ} {f range len : ℕ} {Xs : List (ℕ → ℕ → ℝ)} {l : List Res}
    (h : BracketList lo hi ε ε' t f range len Xs l)
    (hall : ∀ N, range ≤ N → N + range < len → filteredOut len f (N - range) = false → meanOf (hi · N) Xs + ε < t) : l = [⟨len, .fin true (-1)⟩] := by
  obtain ⟨init, rfl, _, hin⟩ := h.parts
  cases init with
  | nil => rfl
  | cons r init =>
    obtain ⟨h1, h2, h3⟩ := hin r (List.mem_cons_self ..)
    have := (h.entries r.index h1 h2 r.confidence (List.mem_append_left _ (List.mem_cons_self ..))).1
    have := hall r.index h1 h2 h3
    linarith

end Verif
