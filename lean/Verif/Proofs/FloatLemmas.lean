import Verif.Base.Float
import Mathlib.Tactic.Linarith
import Mathlib.Tactic.Ring
import Mathlib.Tactic.FieldSimp
import Mathlib.Tactic.Positivity
import Mathlib.Tactic.NormNum

/-! Lemmas about the floating point model: rounding is monotone and fixes representable values. -/

namespace Verif

theorem pow2_eq (e : ℤ) : pow2 e = (2 : ℚ) ^ e := by
  unfold pow2
  split
  · rename_i h
    obtain ⟨n, rfl⟩ := Int.eq_ofNat_of_zero_le h
    simp
  · rename_i h
    obtain ⟨n, hn⟩ := Int.eq_ofNat_of_zero_le (show 0 ≤ -e by omega)
    have : e = -(n : ℤ) := by omega
    subst this
    simp [Rat.mkRat_eq_div, zpow_neg]

theorem pow2_pos (e : ℤ) : 0 < pow2 e := by rw [pow2_eq]; positivity

theorem pow2_le {a b : ℤ} (h : a ≤ b) : pow2 a ≤ pow2 b := by
  rw [pow2_eq, pow2_eq]; exact zpow_le_zpow_right₀ (by norm_num) h

theorem pow2_lt {a b : ℤ} (h : a < b) : pow2 a < pow2 b := by
  rw [pow2_eq, pow2_eq]; exact zpow_lt_zpow_right₀ (by norm_num) h

theorem pow2_add (a b : ℤ) : pow2 (a + b) = pow2 a * pow2 b := by
  rw [pow2_eq, pow2_eq, pow2_eq, zpow_add₀ (by norm_num)]

theorem pow2_succ (a : ℤ) : pow2 (a + 1) = 2 * pow2 a := by
  rw [pow2_add, mul_comm]; simp [pow2_eq]

theorem pow2_natCast (n : ℕ) : pow2 (n : ℤ) = 2 ^ n := by rw [pow2_eq]; simp

theorem lt_of_pow2_lt {a b : ℤ} (h : pow2 a < pow2 b) : a < b := by
  by_contra hc
  exact absurd (pow2_le (not_lt.mp hc)) (not_le.mpr h)

theorem ilog2_spec {q : ℚ} (hq : 0 < q) : pow2 (ilog2 q) ≤ q ∧ q < pow2 (ilog2 q + 1) := by
  have hnum : 0 < q.num := Rat.num_pos.mpr hq
  set N := q.num.natAbs with hN
  set D := q.den with hD
  have hNpos : N ≠ 0 := by omega
  have hDpos : D ≠ 0 := q.den_nz
  have hqe : q = (N : ℚ) / D := by
    conv_lhs => rw [← Rat.num_div_den q]
    have : (q.num : ℚ) = (N : ℚ) := by
      have : q.num = (N : ℤ) := by omega
      rw [this]; simp
    rw [this]
  have h1 : (2 : ℚ) ^ N.log2 ≤ N := by exact_mod_cast Nat.log2_self_le hNpos
  have h2 : (N : ℚ) < 2 ^ (N.log2 + 1) := by exact_mod_cast Nat.lt_log2_self
  have h3 : (2 : ℚ) ^ D.log2 ≤ D := by exact_mod_cast Nat.log2_self_le hDpos
  have h4 : (D : ℚ) < 2 ^ (D.log2 + 1) := by exact_mod_cast Nat.lt_log2_self
  have hDq : (0 : ℚ) < D := by positivity
  have hub : q < pow2 ((N.log2 : ℤ) - D.log2 + 1) := by
    rw [hqe, div_lt_iff₀ hDq]
    have e1 : pow2 ((N.log2 : ℤ) - D.log2 + 1) * pow2 (D.log2 : ℤ) = 2 ^ (N.log2 + 1) := by
      rw [← pow2_add, ← pow2_natCast]; congr 1; push_cast; ring
    calc (N : ℚ) < 2 ^ (N.log2 + 1) := h2
      _ = pow2 ((N.log2 : ℤ) - D.log2 + 1) * pow2 (D.log2 : ℤ) := e1.symm
      _ ≤ pow2 ((N.log2 : ℤ) - D.log2 + 1) * D := by
          apply mul_le_mul_of_nonneg_left _ (pow2_pos _).le
          rw [pow2_natCast]; exact h3
  have hlb : pow2 ((N.log2 : ℤ) - D.log2 - 1) ≤ q := by
    rw [hqe, le_div_iff₀ hDq]
    have e1 : pow2 ((N.log2 : ℤ) - D.log2 - 1) * pow2 ((D.log2 + 1 : ℕ) : ℤ) = 2 ^ (N.log2) := by
      rw [← pow2_add, ← pow2_natCast]; congr 1; push_cast; ring
    calc pow2 ((N.log2 : ℤ) - D.log2 - 1) * D ≤ pow2 ((N.log2 : ℤ) - D.log2 - 1) * pow2 ((D.log2 + 1 : ℕ) : ℤ) := by
          apply mul_le_mul_of_nonneg_left _ (pow2_pos _).le
          rw [pow2_natCast]; exact h4.le
      _ = 2 ^ N.log2 := e1
      _ ≤ N := h1
  unfold ilog2
  simp only [← hN, ← hD]
  split
  · rename_i h; exact ⟨h, hub⟩
  · rename_i h
    refine ⟨hlb, ?_⟩
    rw [sub_add_cancel]; exact not_le.mp h

theorem ilog2_eq {q : ℚ} {e : ℤ} (h1 : pow2 e ≤ q) (h2 : q < pow2 (e + 1)) : ilog2 q = e := by
  have hq : 0 < q := lt_of_lt_of_le (pow2_pos e) h1
  obtain ⟨a, b⟩ := ilog2_spec hq
  have := lt_of_pow2_lt (lt_of_le_of_lt a h2)
  have := lt_of_pow2_lt (lt_of_le_of_lt h1 b)
  omega

theorem ilog2_mono {a b : ℚ} (ha : 0 < a) (h : a ≤ b) : ilog2 a ≤ ilog2 b := by
  have h1 := (ilog2_spec ha).1
  have h2 := (ilog2_spec (lt_of_lt_of_le ha h)).2
  have := lt_of_pow2_lt (lt_of_le_of_lt (le_trans h1 h) h2)
  omega

theorem rne_intCast (n : ℤ) : rne (n : ℚ) = n := by
  unfold rne; simp

theorem rne_bounds (q : ℚ) : ⌊q⌋ ≤ rne q ∧ rne q ≤ ⌊q⌋ + 1 := by
  unfold rne; simp only; split_ifs <;> omega

theorem rne_mono {a b : ℚ} (h : a ≤ b) : rne a ≤ rne b := by
  have hf : ⌊a⌋ ≤ ⌊b⌋ := Int.floor_le_floor h
  rcases lt_or_eq_of_le hf with hlt | heq
  · have := (rne_bounds a).2; have := (rne_bounds b).1; omega
  · unfold rne
    simp only [heq]
    have : a - ⌊b⌋ ≤ b - ⌊b⌋ := by linarith
    split_ifs <;> first | omega | (exfalso; linarith)

/-- Rounding to nearest: at most half a unit away. -/
theorem rne_near (q : ℚ) : |(rne q : ℚ) - q| ≤ 1 / 2 := by
  have h1 := Int.floor_le q
  have h2 := Int.lt_floor_add_one q
  unfold rne
  simp only
  rw [abs_le]
  split_ifs <;> push_cast <;> constructor <;> linarith

theorem rne_nonneg {q : ℚ} (h : 0 ≤ q) : 0 ≤ rne q := by
  have := rne_mono h
  have h0 : rne 0 = 0 := by have := rne_intCast 0; simpa using this
  rwa [h0] at this

theorem Fmt.quantum_mono (F : Fmt) {a b : ℚ} (ha : 0 < a) (h : a ≤ b) : F.quantum a ≤ F.quantum b := by
  unfold Fmt.quantum
  have := ilog2_mono ha h
  omega

theorem Fmt.rndAbs_nonneg (F : Fmt) {a : ℚ} (h : 0 ≤ a) : 0 ≤ F.rndAbs a := by
  unfold Fmt.rndAbs
  split
  · exact le_rfl
  · apply mul_nonneg
    · exact_mod_cast rne_nonneg (div_nonneg h (pow2_pos _).le)
    · exact (pow2_pos _).le

/-- If the magnitude is an integer multiple of its quantum, rounding leaves it alone. -/
theorem Fmt.rndAbs_of_multiple (F : Fmt) {a : ℚ} (k : ℤ) (h : a = k * pow2 (F.quantum a)) : F.rndAbs a = a := by
  unfold Fmt.rndAbs
  split
  · rename_i h0; exact h0.symm
  · have : a / pow2 (F.quantum a) = (k : ℚ) := by
      rw [div_eq_iff (pow2_pos _).ne']; exact h
    rw [this, rne_intCast]; exact h.symm

/-- Powers of two not below the quantum are representable. -/
theorem Fmt.rndAbs_pow2 (F : Fmt) (hp : 1 ≤ F.p) {e : ℤ} (he : F.qmin ≤ e) : F.rndAbs (pow2 e) = pow2 e := by
  have hl : ilog2 (pow2 e) = e := ilog2_eq le_rfl (pow2_lt (by omega))
  have hq : F.quantum (pow2 e) ≤ e := by
    unfold Fmt.quantum; rw [hl]; omega
  obtain ⟨n, hn⟩ := Int.eq_ofNat_of_zero_le (show 0 ≤ e - F.quantum (pow2 e) by omega)
  apply F.rndAbs_of_multiple ((2 : ℤ) ^ n)
  have : e = (n : ℤ) + F.quantum (pow2 e) := by omega
  calc pow2 e = pow2 ((n : ℤ) + F.quantum (pow2 e)) := by rw [← this]
    _ = _ := by rw [pow2_add, pow2_natCast]; push_cast; rfl

theorem Fmt.rndAbs_mono_same (F : Fmt) {a b : ℚ} (ha : 0 < a) (h : a ≤ b) (hq : F.quantum a = F.quantum b) :
    F.rndAbs a ≤ F.rndAbs b := by
  unfold Fmt.rndAbs
  rw [if_neg ha.ne', if_neg (lt_of_lt_of_le ha h).ne', hq]
  apply mul_le_mul_of_nonneg_right _ (pow2_pos _).le
  exact_mod_cast rne_mono (div_le_div_of_nonneg_right h (pow2_pos _).le)

theorem Fmt.rndAbs_mono (F : Fmt) (hp : 1 ≤ F.p) {a b : ℚ} (ha : 0 ≤ a) (h : a ≤ b) : F.rndAbs a ≤ F.rndAbs b := by
  rcases ha.eq_or_lt with rfl | ha
  · have : F.rndAbs 0 = 0 := by simp [Fmt.rndAbs]
    rw [this]; exact F.rndAbs_nonneg h
  rcases (F.quantum_mono ha h).eq_or_lt with hq | hq
  · exact F.rndAbs_mono_same ha h hq
  · -- different quanta: a power of two lies between
    have hb : 0 < b := lt_of_lt_of_le ha h
    have hqb : F.quantum b = ilog2 b - F.p + 1 := by
      unfold Fmt.quantum at hq ⊢; omega
    have hqm : F.qmin ≤ F.quantum a := by unfold Fmt.quantum; omega
    set c := pow2 (ilog2 b) with hc
    have hcb : c ≤ b := (ilog2_spec hb).1
    have hlb : F.qmin ≤ ilog2 b := by omega
    have hcr : F.rndAbs c = c := F.rndAbs_pow2 hp hlb
    have hcq : F.quantum c = F.quantum b := by
      have : ilog2 c = ilog2 b := ilog2_eq le_rfl (pow2_lt (by omega))
      unfold Fmt.quantum; rw [this]
    have h2 : c ≤ F.rndAbs b := by
      rw [← hcr]
      exact F.rndAbs_mono_same (pow2_pos _) hcb hcq
    -- a < c and c is a multiple of the quantum of a
    have hac : a ≤ c := by
      by_contra hcon
      have : c ≤ a := (not_le.mp hcon).le
      have h3 := F.quantum_mono (a := c) (pow2_pos _) this
      omega
    have h1 : F.rndAbs a ≤ c := by
      unfold Fmt.rndAbs
      rw [if_neg ha.ne']
      have hmul : ∃ k : ℤ, c = k * pow2 (F.quantum a) := by
        obtain ⟨n, hn⟩ := Int.eq_ofNat_of_zero_le (show 0 ≤ ilog2 b - F.quantum a by omega)
        refine ⟨(2 : ℤ) ^ n, ?_⟩
        have : ilog2 b = (n : ℤ) + F.quantum a := by omega
        rw [hc, this, pow2_add, pow2_natCast]; push_cast; rfl
      obtain ⟨k, hk⟩ := hmul
      rw [hk]
      apply mul_le_mul_of_nonneg_right _ (pow2_pos _).le
      have : a / pow2 (F.quantum a) ≤ (k : ℚ) := by
        rw [div_le_iff₀ (pow2_pos _), ← hk]; exact hac
      have := rne_mono this
      rw [rne_intCast] at this
      exact_mod_cast this
    exact le_trans h1 h2

theorem Fmt.rnd_mono (F : Fmt) (hp : 1 ≤ F.p) {a b : ℚ} (h : a ≤ b) : F.rnd a ≤ F.rnd b := by
  unfold Fmt.rnd
  split_ifs with h1 h2 h2
  · have := F.rndAbs_mono hp (a := -b) (b := -a) (by linarith) (by linarith)
    linarith
  · have := F.rndAbs_nonneg (a := -a) (by linarith)
    have := F.rndAbs_nonneg (a := b) (by linarith)
    linarith
  · exfalso; linarith
  · exact F.rndAbs_mono hp (by linarith) h

@[simp] theorem Fmt.rnd_zero (F : Fmt) : F.rnd 0 = 0 := by simp [Fmt.rnd, Fmt.rndAbs]

theorem Fmt.rnd_neg (F : Fmt) (v : ℚ) : F.rnd (-v) = - F.rnd v := by
  unfold Fmt.rnd
  rcases lt_trichotomy v 0 with h | h | h
  · rw [if_neg (by linarith), if_pos h, neg_neg]
  · subst h; simp [Fmt.rndAbs]
  · rw [if_pos (by linarith), if_neg (by linarith), neg_neg]

theorem Fmt.rnd_nonneg (F : Fmt) {v : ℚ} (h : 0 ≤ v) : 0 ≤ F.rnd v := by
  unfold Fmt.rnd; rw [if_neg (by linarith)]; exact F.rndAbs_nonneg h

/-- Integers of at most `p` bits are representable. -/
theorem Fmt.rnd_natCast (F : Fmt) (hF : F.WF) {n : ℕ} (hn : n ≤ 2 ^ F.p) : F.rnd (n : ℚ) = n := by
  unfold Fmt.rnd
  rw [if_neg (by have : (0 : ℚ) ≤ n := Nat.cast_nonneg n; linarith)]
  rcases Nat.eq_zero_or_pos n with rfl | hpos
  · simp [Fmt.rndAbs]
  rcases hn.eq_or_lt with rfl | hlt
  · have := F.rndAbs_pow2 hF.p_pos (e := (F.p : ℤ)) (by have := hF.qmin_le; omega)
    rw [pow2_natCast] at this
    push_cast; exact this
  have hnq : (0 : ℚ) < n := by exact_mod_cast hpos
  have hl : ilog2 (n : ℚ) < F.p := by
    apply lt_of_pow2_lt
    apply lt_of_le_of_lt (ilog2_spec hnq).1
    rw [pow2_natCast]; exact_mod_cast hlt
  have hq : F.quantum (n : ℚ) ≤ 0 := by
    unfold Fmt.quantum; have := hF.qmin_le; omega
  obtain ⟨k, hk⟩ := Int.eq_ofNat_of_zero_le (show 0 ≤ - F.quantum (n : ℚ) by omega)
  apply F.rndAbs_of_multiple ((n : ℤ) * 2 ^ k)
  have e : pow2 (F.quantum (n : ℚ)) * 2 ^ k = 1 := by
    rw [← pow2_natCast, ← pow2_add, ← hk]; simp [pow2_eq]
  push_cast
  calc (n : ℚ) = n * 1 := by ring
    _ = _ := by rw [← e]; ring

theorem Fmt.rnd_one (F : Fmt) (hF : F.WF) : F.rnd 1 = 1 := by
  have := F.rnd_natCast hF (n := 1) Nat.one_le_two_pow
  simpa using this

theorem Fmt.rnd_le_natCast (F : Fmt) (hF : F.WF) {v : ℚ} {n : ℕ} (hn : n ≤ 2 ^ F.p) (h : v ≤ n) : F.rnd v ≤ n := by
  rw [← F.rnd_natCast hF hn]; exact F.rnd_mono hF.p_pos h

theorem Fmt.natCast_le_rnd (F : Fmt) (hF : F.WF) {v : ℚ} {n : ℕ} (hn : n ≤ 2 ^ F.p) (h : (n : ℚ) ≤ v) : (n : ℚ) ≤ F.rnd v := by
  rw [← F.rnd_natCast hF hn]; exact F.rnd_mono hF.p_pos h

theorem Fmt.two_pow_p_le (F : Fmt) (hF : F.WF) : (2 : ℚ) ^ F.p ≤ pow2 F.emax := by
  rw [← pow2_natCast]; exact pow2_le hF.p_le

theorem binary32_wf : binary32.WF := ⟨by decide, by decide, by decide, by decide⟩
theorem binary64_wf : binary64.WF := ⟨by decide, by decide, by decide, by decide⟩
theorem x87_wf : x87.WF := ⟨by decide, by decide, by decide, by decide⟩

theorem rne_err (q : ℚ) : |(rne q : ℚ) - q| ≤ 1 / 2 := by
  have h1 := Int.floor_le q
  have h2 := Int.lt_floor_add_one q
  unfold rne
  simp only
  rw [abs_le]
  split_ifs <;> push_cast <;> constructor <;> linarith

/-- Rounding error of a magnitude. -/
theorem Fmt.rndAbs_err (F : Fmt) (a : ℚ) : |F.rndAbs a - a| ≤ pow2 (F.quantum a) / 2 := by
  have hpos := pow2_pos (F.quantum a)
  unfold Fmt.rndAbs
  split
  · rename_i h; rw [h, sub_self, abs_zero]; rw [h] at hpos; linarith
  · have h1 := rne_err (a / pow2 (F.quantum a))
    have h2 : (rne (a / pow2 (F.quantum a)) : ℚ) * pow2 (F.quantum a) - a =
        ((rne (a / pow2 (F.quantum a)) : ℚ) - a / pow2 (F.quantum a)) * pow2 (F.quantum a) := by
      field_simp
    rw [h2, abs_mul, abs_of_pos hpos]
    nlinarith

/-- Rounding a number between 0 and `K` is off by at most `K * 2^-p`. -/
theorem Fmt.rnd_err (F : Fmt) (hF : F.WF) {v : ℚ} {K : ℕ} (hK : 1 ≤ K) (h0 : 0 ≤ v) (h1 : v ≤ K) :
    |F.rnd v - v| ≤ K * pow2 (-F.p) := by
  have hK' : (1 : ℚ) ≤ K := by exact_mod_cast hK
  rcases eq_or_lt_of_le h0 with rfl | hv
  · rw [F.rnd_zero]; simp; have := pow2_pos (-F.p : ℤ); positivity
  unfold Fmt.rnd
  rw [if_neg (not_lt.mpr h0)]
  refine le_trans (F.rndAbs_err v) ?_
  have hq := F.quantum_mono hv h1
  have hl := ilog2_spec (show (0 : ℚ) < K by linarith)
  have hl0 : 0 ≤ ilog2 (K : ℚ) := by
    have h : pow2 0 < pow2 (ilog2 (K : ℚ) + 1) := lt_of_le_of_lt (by simpa [pow2_eq] using hK') hl.2
    have := lt_of_pow2_lt h
    omega
  have hqK : F.quantum (K : ℚ) = ilog2 (K : ℚ) - F.p + 1 := by
    unfold Fmt.quantum
    have := hF.one_le
    omega
  have h2 := pow2_le hq
  rw [hqK] at h2
  have h3 : pow2 (ilog2 (K : ℚ) - F.p + 1) = 2 * (pow2 (ilog2 (K : ℚ)) * pow2 (-F.p)) := by
    rw [pow2_succ, sub_eq_add_neg, pow2_add]
  have h4 := pow2_pos (-F.p : ℤ)
  have h5 := hl.1
  nlinarith

/-- Rounding twice is rounding once, for values in 0..1. -/
theorem Fmt.rndAbs_idem (F : Fmt) (hp : 1 ≤ F.p) {a : ℚ} (ha : 0 ≤ a) : F.rndAbs (F.rndAbs a) = F.rndAbs a := by
  rcases eq_or_lt_of_le ha with rfl | ha
  · simp [Fmt.rndAbs]
  set q := F.quantum a with hq
  have hval : F.rndAbs a = (rne (a / pow2 q) : ℤ) * pow2 q := by
    unfold Fmt.rndAbs; rw [if_neg (ne_of_gt ha)]
  have hn0 : 0 ≤ F.rndAbs a := F.rndAbs_nonneg ha.le
  rcases eq_or_lt_of_le hn0 with h0 | hpos
  · rw [← h0]; simp [Fmt.rndAbs]
  -- the result is below the next power of two or equal to it
  have hspec := ilog2_spec ha
  have hle : F.rndAbs a ≤ pow2 (ilog2 a + 1) ∨ F.rndAbs a ≤ pow2 F.qmin := by
    by_cases hm : F.qmin ≤ ilog2 a + 1
    · left
      have := F.rndAbs_mono hp ha.le hspec.2.le
      rwa [F.rndAbs_pow2 hp hm] at this
    · right
      have : F.rndAbs a ≤ F.rndAbs (pow2 F.qmin) :=
        F.rndAbs_mono hp ha.le (le_trans hspec.2.le (pow2_le (by omega)))
      rwa [F.rndAbs_pow2 hp le_rfl] at this
  by_cases hlt : F.quantum (F.rndAbs a) ≤ q
  · obtain ⟨n, hn⟩ := Int.eq_ofNat_of_zero_le (show 0 ≤ q - F.quantum (F.rndAbs a) by omega)
    apply F.rndAbs_of_multiple (rne (a / pow2 q) * 2 ^ n)
    have : q = (n : ℤ) + F.quantum (F.rndAbs a) := by omega
    have hpq : pow2 q = 2 ^ n * pow2 (F.quantum (F.rndAbs a)) := by
      conv_lhs => rw [this]
      rw [pow2_add, pow2_natCast]
    have hv2 : F.rndAbs a = (rne (a / pow2 q) : ℚ) * (2 ^ n * pow2 (F.quantum (F.rndAbs a))) := by
      rw [← hpq]; exact hval
    calc F.rndAbs a = (rne (a / pow2 q) : ℚ) * (2 ^ n * pow2 (F.quantum (F.rndAbs a))) := hv2
      _ = _ := by push_cast; ring
  · -- then the result is a power of two
    have hq' : q < F.quantum (F.rndAbs a) := by omega
    rcases hle with hle | hle
    · have hil : ilog2 (F.rndAbs a) ≤ ilog2 a + 1 := by
        have := (ilog2_spec hpos).1
        by_contra hc
        have := lt_of_lt_of_le (pow2_lt (show ilog2 a + 1 < ilog2 (F.rndAbs a) by omega)) this
        linarith
      have hil2 : ilog2 (F.rndAbs a) = ilog2 a + 1 := by
        unfold Fmt.quantum at hq' hq
        omega
      have hge := (ilog2_spec hpos).1
      rw [hil2] at hge
      have : F.rndAbs a = pow2 (ilog2 a + 1) := le_antisymm hle hge
      rw [this]
      apply F.rndAbs_pow2 hp
      unfold Fmt.quantum at hq' hq
      omega
    · exfalso
      have h1 : ilog2 (F.rndAbs a) ≤ F.qmin := by
        have := (ilog2_spec hpos).1
        by_contra hc
        have := lt_of_lt_of_le (pow2_lt (show F.qmin < ilog2 (F.rndAbs a) by omega)) this
        linarith
      unfold Fmt.quantum at hq' hq
      omega

theorem Fmt.rnd_idem (F : Fmt) (hp : 1 ≤ F.p) (v : ℚ) : F.rnd (F.rnd v) = F.rnd v := by
  by_cases h : v < 0
  · have e : F.rnd v = - F.rndAbs (-v) := by unfold Fmt.rnd; rw [if_pos h]
    have h0 := F.rndAbs_nonneg (a := -v) (by linarith)
    rw [e, F.rnd_neg]
    congr 1
    unfold Fmt.rnd
    rw [if_neg (not_lt.mpr h0)]
    exact F.rndAbs_idem hp (by linarith)
  · have e : F.rnd v = F.rndAbs v := by unfold Fmt.rnd; rw [if_neg h]
    have h0 := F.rndAbs_nonneg (a := v) (by linarith)
    rw [e]
    unfold Fmt.rnd
    rw [if_neg (not_lt.mpr h0)]
    exact F.rndAbs_idem hp (by linarith)

end Verif
