import Verif.Spec.Tools
import Verif.Proofs.FloatLemmas

/-! `float` values and their bit patterns. -/

namespace Verif

open Spec

theorem bits_split (n : ℕ) (h : n < 2 ^ 32) : n = n / 2 ^ 31 % 2 * 2 ^ 31 + (n / 2 ^ 23 % 256 * 2 ^ 23 + n % 2 ^ 23) := by
  omega

theorem floor_natCast_toNat (m : ℕ) : ⌊(m : ℚ)⌋.toNat = m := by
  rw [Int.floor_natCast]; rfl

theorem bits_nan (s : Bool) : bitsOfFloat (.nan s) = (if s = true then 2 ^ 31 else 0) + (255 * 2 ^ 23 + 2 ^ 22) := rfl
theorem bits_inf (s : Bool) : bitsOfFloat (.inf s) = (if s = true then 2 ^ 31 else 0) + 255 * 2 ^ 23 := rfl
theorem bits_fin (s : Bool) (v : ℚ) : bitsOfFloat (.fin s v) = (if s = true then 2 ^ 31 else 0) + (if |v| < pow2 (-126) then ⌊|v| / pow2 (-149)⌋.toNat
    else (ilog2 |v| + 126).toNat * 2 ^ 23 + ⌊|v| / pow2 (ilog2 |v| - 23)⌋.toNat) := rfl

theorem abs_sgn (neg : Bool) {a : ℚ} (h : 0 ≤ a) : |(if neg then -1 else 1 : ℚ) * a| = a := by
  cases neg <;> simp [abs_of_nonneg h]

/-- The bits of a `float` give it back. -/
theorem floatOfBits_bits {x : Fl} (h : IsFloat x) : bitsOfFloat x < 2 ^ 32 ∧ floatOfBits (bitsOfFloat x) = x := by
  obtain ⟨n, hn, rfl⟩ := h
  have hsp := bits_split n hn
  have hs : (if (n / 2 ^ 31 % 2 == 1) = true then 2 ^ 31 else 0) = n / 2 ^ 31 % 2 * 2 ^ 31 := by
    rcases Nat.mod_two_eq_zero_or_one (n / 2 ^ 31) with h | h <;> rw [h] <;> simp
  by_cases he : n / 2 ^ 23 % 256 = 255
  · by_cases hm : n % 2 ^ 23 = 0
    · have hx : floatOfBits n = .inf (n / 2 ^ 31 % 2 == 1) := by simp only [floatOfBits, he, hm, if_true]
      have : bitsOfFloat (floatOfBits n) = n := by
        rw [hx, bits_inf, hs]
        omega
      rw [this]
      exact ⟨hn, rfl⟩
    · have hx : floatOfBits n = .nan (n / 2 ^ 31 % 2 == 1) := by simp only [floatOfBits, he, hm, if_true, if_false]
      have hb : bitsOfFloat (floatOfBits n) = n / 2 ^ 31 % 2 * 2 ^ 31 + (255 * 2 ^ 23 + 2 ^ 22) := by
        rw [hx, bits_nan, hs]
      rw [hb]
      refine ⟨by omega, ?_⟩
      generalize hk : n / 2 ^ 31 % 2 = k at hx ⊢
      have hk2 : k < 2 := by omega
      rw [hx]
      simp only [floatOfBits]
      rw [show (k * 2 ^ 31 + (255 * 2 ^ 23 + 2 ^ 22)) / 2 ^ 23 % 256 = 255 by omega,
        show (k * 2 ^ 31 + (255 * 2 ^ 23 + 2 ^ 22)) % 2 ^ 23 = 2 ^ 22 by omega,
        show (k * 2 ^ 31 + (255 * 2 ^ 23 + 2 ^ 22)) / 2 ^ 31 % 2 = k by omega]
      simp
  · suffices h : bitsOfFloat (floatOfBits n) = n by rw [h]; exact ⟨hn, rfl⟩
    by_cases h0 : n / 2 ^ 23 % 256 = 0
    · have hx : floatOfBits n = .fin (n / 2 ^ 31 % 2 == 1) ((if (n / 2 ^ 31 % 2 == 1) = true then -1 else 1) * ((n % 2 ^ 23 : ℕ) : ℚ) * pow2 (-149)) := by
        simp only [floatOfBits, h0, if_true]
        rw [if_neg (by decide)]
      rw [hx]
      have ha : |(if (n / 2 ^ 31 % 2 == 1) = true then -1 else 1) * ((n % 2 ^ 23 : ℕ) : ℚ) * pow2 (-149)| = ((n % 2 ^ 23 : ℕ) : ℚ) * pow2 (-149) := by
        rw [mul_assoc, abs_sgn _ (mul_nonneg (Nat.cast_nonneg _) (pow2_pos _).le)]
      have hlt : ((n % 2 ^ 23 : ℕ) : ℚ) * pow2 (-149) < pow2 (-126) := by
        rw [show (-126 : ℤ) = 23 + (-149) by norm_num, pow2_add]
        refine mul_lt_mul_of_pos_right ?_ (pow2_pos _)
        rw [show (23 : ℤ) = ((23 : ℕ) : ℤ) by norm_num, pow2_natCast]
        exact_mod_cast Nat.mod_lt _ (by norm_num)
      rw [bits_fin, ha, if_pos hlt, mul_div_assoc, div_self (pow2_pos _).ne', mul_one, floor_natCast_toNat, hs]
      omega
    · have hx : floatOfBits n = .fin (n / 2 ^ 31 % 2 == 1) ((if (n / 2 ^ 31 % 2 == 1) = true then -1 else 1) * ((2 ^ 23 + n % 2 ^ 23 : ℕ) : ℚ) *
          pow2 (((n / 2 ^ 23 % 256 : ℕ) : ℤ) - 150)) := by
        simp only [floatOfBits]
        rw [if_neg he, if_neg h0]
      generalize hE : n / 2 ^ 23 % 256 = E at *
      generalize hm : n % 2 ^ 23 = m at *
      rw [hx]
      have hE1 : 1 ≤ E := by omega
      have hE2 : E ≤ 254 := by omega
      have hm2 : m < 2 ^ 23 := by omega
      have ha : |(if (n / 2 ^ 31 % 2 == 1) = true then -1 else 1) * ((2 ^ 23 + m : ℕ) : ℚ) * pow2 ((E : ℤ) - 150)| = ((2 ^ 23 + m : ℕ) : ℚ) * pow2 ((E : ℤ) - 150) := by
        rw [mul_assoc, abs_sgn _ (mul_nonneg (Nat.cast_nonneg _) (pow2_pos _).le)]
      have h23 : pow2 23 = ((2 ^ 23 : ℕ) : ℚ) := by
        rw [show (23 : ℤ) = ((23 : ℕ) : ℤ) by norm_num, pow2_natCast]; push_cast; rfl
      have hlog : ilog2 (((2 ^ 23 + m : ℕ) : ℚ) * pow2 ((E : ℤ) - 150)) = (E : ℤ) - 127 := by
        refine ilog2_eq ?_ ?_
        · rw [show (E : ℤ) - 127 = 23 + ((E : ℤ) - 150) by ring, pow2_add, h23]
          exact mul_le_mul_of_nonneg_right (by exact_mod_cast Nat.le_add_right _ _) (pow2_pos _).le
        · rw [show (E : ℤ) - 127 + 1 = 1 + 23 + ((E : ℤ) - 150) by ring, pow2_add, pow2_add, h23]
          refine mul_lt_mul_of_pos_right ?_ (pow2_pos _)
          rw [show pow2 1 = 2 by rw [pow2_eq]; norm_num]
          exact_mod_cast (by omega : 2 ^ 23 + m < 2 * 2 ^ 23)
      have hge : ¬ ((2 ^ 23 + m : ℕ) : ℚ) * pow2 ((E : ℤ) - 150) < pow2 (-126) := by
        rw [not_lt]
        refine le_trans (pow2_le (show (-126 : ℤ) ≤ (E : ℤ) - 127 by omega)) ?_
        rw [show (E : ℤ) - 127 = 23 + ((E : ℤ) - 150) by ring, pow2_add, h23]
        exact mul_le_mul_of_nonneg_right (by exact_mod_cast Nat.le_add_right _ _) (pow2_pos _).le
      rw [bits_fin, ha, if_neg hge, hlog, show (E : ℤ) - 127 - 23 = (E : ℤ) - 150 by ring, mul_div_assoc, div_self (pow2_pos _).ne', mul_one, floor_natCast_toNat,
        hs, show ((E : ℤ) - 127 + 126).toNat = E - 1 by omega]
      omega

theorem isFloat_nan (s : Bool) : IsFloat (.nan s) := by
  cases s
  · exact ⟨255 * 2 ^ 23 + 1, by norm_num, by decide +kernel⟩
  · exact ⟨2 ^ 31 + 255 * 2 ^ 23 + 1, by norm_num, by decide +kernel⟩

theorem isFloat_inf (s : Bool) : IsFloat (.inf s) := by
  cases s
  · exact ⟨255 * 2 ^ 23, by norm_num, by decide +kernel⟩
  · exact ⟨2 ^ 31 + 255 * 2 ^ 23, by norm_num, by decide +kernel⟩

theorem isFloat_zero (s : Bool) : IsFloat (.fin s 0) := by
  cases s
  · exact ⟨0, by norm_num, by decide +kernel⟩
  · exact ⟨2 ^ 31, by norm_num, by decide +kernel⟩

theorem isFloat_sub (s : Bool) (m : ℕ) (hm : m < 2 ^ 23) : IsFloat (.fin s ((if s then -1 else 1) * (m * pow2 (-149)))) := by
  refine ⟨(if s then 2 ^ 31 else 0) + m, by split <;> omega, ?_⟩
  simp only [floatOfBits]
  have h1 : ((if s then 2 ^ 31 else 0) + m) / 2 ^ 23 % 256 = 0 := by cases s <;> simp <;> omega
  have h2 : ((if s then 2 ^ 31 else 0) + m) % 2 ^ 23 = m := by cases s <;> simp <;> omega
  have h3 : ((if s then 2 ^ 31 else 0) + m) / 2 ^ 31 % 2 = if s then 1 else 0 := by cases s <;> simp <;> omega
  rw [h1, h2, h3, if_neg (by decide), if_pos rfl]
  cases s <;> simp

theorem isFloat_norm (s : Bool) (m E : ℕ) (hm : m < 2 ^ 23) (h1 : 1 ≤ E) (h2 : E ≤ 254) :
    IsFloat (.fin s ((if s then -1 else 1) * (((2 ^ 23 + m : ℕ) : ℚ) * pow2 ((E : ℤ) - 150)))) := by
  refine ⟨(if s then 2 ^ 31 else 0) + (E * 2 ^ 23 + m), by split <;> omega, ?_⟩
  simp only [floatOfBits]
  have e1 : ((if s then 2 ^ 31 else 0) + (E * 2 ^ 23 + m)) / 2 ^ 23 % 256 = E := by cases s <;> simp <;> omega
  have e2 : ((if s then 2 ^ 31 else 0) + (E * 2 ^ 23 + m)) % 2 ^ 23 = m := by cases s <;> simp <;> omega
  have e3 : ((if s then 2 ^ 31 else 0) + (E * 2 ^ 23 + m)) / 2 ^ 31 % 2 = if s then 1 else 0 := by cases s <;> simp <;> omega
  rw [e1, e2, e3, if_neg (by omega), if_neg (by omega)]
  cases s
  · simp
  · simp; ring

/-- A rounded magnitude below the overflow threshold, with any sign, is a `float`. -/
theorem isFloat_rndAbs (s : Bool) {a : ℚ} (ha : 0 < a) (hlt : binary32.rndAbs a < pow2 128) :
    IsFloat (.fin s ((if s then -1 else 1) * binary32.rndAbs a)) := by
  unfold Fmt.rndAbs at hlt ⊢
  rw [if_neg ha.ne'] at hlt ⊢
  have hq0 : binary32.quantum a = max (ilog2 a - 23) (-149) := by
    unfold Fmt.quantum binary32; congr 1; push_cast; ring
  generalize hq : binary32.quantum a = q at *
  obtain ⟨l1, l2⟩ := ilog2_spec ha
  have hk0 : 0 ≤ rne (a / pow2 q) := rne_nonneg (div_nonneg ha.le (pow2_pos _).le)
  have hup : a / pow2 q ≤ ((2 ^ 24 : ℕ) : ℤ) := by
    rw [div_le_iff₀ (pow2_pos _)]
    have : pow2 24 = ((2 ^ 24 : ℕ) : ℚ) := by
      rw [show (24 : ℤ) = ((24 : ℕ) : ℤ) by norm_num, pow2_natCast]; push_cast; rfl
    have h3 : a ≤ pow2 (24 + q) := le_trans l2.le (pow2_le (by omega))
    rw [pow2_add, this] at h3
    exact_mod_cast h3
  have hk1 : rne (a / pow2 q) ≤ ((2 ^ 24 : ℕ) : ℤ) := by
    rw [← rne_intCast ((2 ^ 24 : ℕ) : ℤ)]
    exact rne_mono hup
  have hlow : q = ilog2 a - 23 → ((2 ^ 23 : ℕ) : ℤ) ≤ rne (a / pow2 q) := by
    intro h
    rw [← rne_intCast ((2 ^ 23 : ℕ) : ℤ)]
    refine rne_mono ?_
    rw [le_div_iff₀ (pow2_pos _)]
    have : pow2 23 = ((2 ^ 23 : ℕ) : ℚ) := by
      rw [show (23 : ℤ) = ((23 : ℕ) : ℤ) by norm_num, pow2_natCast]; push_cast; rfl
    have h3 : pow2 (23 + q) ≤ a := by rw [h, show 23 + (ilog2 a - 23) = ilog2 a by ring]; exact l1
    rw [pow2_add, this] at h3
    exact_mod_cast h3
  obtain ⟨k, hk⟩ := Int.eq_ofNat_of_zero_le hk0
  rw [hk] at hk1 hlow hlt ⊢
  have hk1 : k ≤ 2 ^ 24 := by exact_mod_cast hk1
  have hlow : q = ilog2 a - 23 → 2 ^ 23 ≤ k := fun h => by exact_mod_cast hlow h
  push_cast at hlt ⊢
  have hqmin : -149 ≤ q := by omega
  by_cases hsub : k < 2 ^ 23
  · have : q = -149 := by
      by_contra h
      have := hlow (by omega)
      omega
    rw [this]
    exact isFloat_sub s k hsub
  · have hE : ∀ (j : ℕ) (t : ℤ), 2 ^ 23 ≤ j → (j : ℚ) * pow2 t < pow2 128 → t + 150 ≤ 254 := by
      intro j t hj hh
      by_contra hc
      have h3 : pow2 128 ≤ pow2 (23 + t) := pow2_le (by omega)
      have : pow2 23 = ((2 ^ 23 : ℕ) : ℚ) := by
        rw [show (23 : ℤ) = ((23 : ℕ) : ℤ) by norm_num, pow2_natCast]; push_cast; rfl
      rw [pow2_add, this] at h3
      have h4 : ((2 ^ 23 : ℕ) : ℚ) * pow2 t ≤ (j : ℚ) * pow2 t := mul_le_mul_of_nonneg_right (by exact_mod_cast hj) (pow2_pos _).le
      exact absurd (lt_of_le_of_lt (le_trans h3 h4) hh) (lt_irrefl _)
    by_cases htop : k = 2 ^ 24
    · have e1 : (k : ℚ) * pow2 q = ((2 ^ 23 + 0 : ℕ) : ℚ) * pow2 (q + 1) := by
        rw [htop, pow2_succ]; push_cast; ring
      rw [e1] at hlt ⊢
      have h3 := hE _ _ (by omega) hlt
      have h4 := isFloat_norm s 0 (q + 151).toNat (by norm_num) (by omega) (by omega)
      rwa [show (((q + 151).toNat : ℕ) : ℤ) - 150 = q + 1 by omega] at h4
    · have e1 : (k : ℚ) = ((2 ^ 23 + (k - 2 ^ 23) : ℕ) : ℚ) := congrArg _ (Nat.add_sub_cancel' (not_lt.mp hsub)).symm
      have h3 := hE _ _ (not_lt.mp hsub) hlt
      rw [e1]
      have h4 := isFloat_norm s (k - 2 ^ 23) (q + 150).toNat (by omega) (by omega) (by omega)
      rwa [show (((q + 150).toNat : ℕ) : ℤ) - 150 = q by omega] at h4

/-- Whatever arithmetic delivers is a `float`. -/
theorem isFloat_deliver (s : Bool) (v : ℚ) : IsFloat (binary32.deliver s v) := by
  unfold Fmt.deliver
  by_cases h0 : v = 0
  · rw [if_pos h0]; exact isFloat_zero s
  · rw [if_neg h0]
    simp only
    by_cases ho : pow2 binary32.emax ≤ |binary32.rnd v|
    · rw [if_pos ho]; exact isFloat_inf _
    · rw [if_neg ho]
      rw [not_le] at ho
      unfold Fmt.rnd at ho ⊢
      by_cases hv : v < 0
      · rw [if_pos hv, abs_neg, abs_of_nonneg (Fmt.rndAbs_nonneg _ (by linarith))] at ho
        have := isFloat_rndAbs true (a := -v) (by linarith) ho
        rw [if_pos hv, decide_eq_true hv]
        simpa using this
      · have hv' : 0 < v := lt_of_le_of_ne (not_lt.mp hv) (Ne.symm h0)
        rw [if_neg hv, abs_of_nonneg (Fmt.rndAbs_nonneg _ hv'.le)] at ho
        have := isFloat_rndAbs false (a := v) hv' ho
        rw [if_neg hv, decide_eq_false hv]
        simpa using this

theorem isFloat_add (x y : Fl) : IsFloat (binary32.add x y) := by
  unfold Fmt.add
  split
  · exact isFloat_nan _
  · exact isFloat_nan _
  · split
    · exact isFloat_inf _
    · exact isFloat_nan _
  · exact isFloat_inf _
  · exact isFloat_inf _
  · exact isFloat_deliver _ _

theorem isFloat_div (x y : Fl) : IsFloat (binary32.div x y) := by
  unfold Fmt.div
  split
  · exact isFloat_nan _
  · exact isFloat_nan _
  · exact isFloat_nan _
  · exact isFloat_inf _
  · exact isFloat_zero _
  · split
    · split
      · exact isFloat_nan _
      · exact isFloat_inf _
    · exact isFloat_deliver _ _

/-- A sample out of `m` is a `float`. -/
theorem isFloat_normal {m v : ℕ} (h : v ≤ m) : IsFloat (normal m v) := by
  have h0 : (0 : ℚ) ≤ (v : ℚ) / m := div_nonneg (Nat.cast_nonneg _) (Nat.cast_nonneg _)
  have h1 : (v : ℚ) / m ≤ ((1 : ℕ) : ℚ) := by
    rw [Nat.cast_one]
    exact div_le_one_of_le₀ (by exact_mod_cast h) (Nat.cast_nonneg _)
  have h2 := binary32.rnd_le_natCast binary32_wf (n := 1) (by decide) h1
  have h3 := binary32.rnd_nonneg h0
  unfold normal
  by_cases hz : (v : ℚ) / m = 0
  · rw [hz, Fmt.rnd_zero]; exact isFloat_zero false
  · have := isFloat_deliver false ((v : ℚ) / m)
    unfold Fmt.deliver at this
    rw [if_neg hz] at this
    simp only at this
    rw [if_neg, decide_eq_false (not_lt.mpr h0)] at this
    · exact this
    · rw [not_le, abs_of_nonneg h3]
      refine lt_of_le_of_lt h2 ?_
      show ((1 : ℕ) : ℚ) < pow2 128
      rw [pow2_eq]; norm_num

theorem isFloat_sample (p : Pixel) {colour : Bool} (h : p.Ok colour) : IsFloat p.sample := by
  cases p with
  | gray v => exact ⟨v, h.2, rfl⟩
  | colour r g b => exact isFloat_div _ _

end Verif
