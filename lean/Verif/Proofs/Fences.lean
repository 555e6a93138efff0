import Verif.Proofs.StatLemmas
import Verif.Proofs.Evidence
import Verif.Proofs.Rounding

/-! The quartiles and fences of the stat tool. -/

namespace Verif

open Spec

theorem wf32 : binary32.WF := ⟨by decide, by decide, by decide, by decide⟩
theorem wf64 : binary64.WF := ⟨by decide, by decide, by decide, by decide⟩

theorem deliver_fin {F : Fmt} (hF : F.WF) (s : Bool) {v : ℚ} (h : |v| ≤ pow2 (F.emax - 1)) : ∃ b, F.deliver s v = .fin b (F.rnd v) := by
  unfold Fmt.deliver
  split
  · rename_i h0; subst h0; exact ⟨s, by simp⟩
  · simp only
    rw [if_neg (not_le.mpr (F.rnd_lt hF h))]
    exact ⟨_, rfl⟩

theorem deliver32 (s : Bool) {v : ℚ} (h : |v| ≤ 2 ^ 60) : ∃ b, binary32.deliver s v = .fin b (binary32.rnd v) := by
  refine deliver_fin wf32 s (le_trans h ?_)
  rw [show binary32.emax - 1 = ((127 : ℕ) : ℤ) by decide, pow2_natCast]; norm_num

theorem deliver64 (s : Bool) {v : ℚ} (h : |v| ≤ 2 ^ 60) : ∃ b, binary64.deliver s v = .fin b (binary64.rnd v) := by
  refine deliver_fin wf64 s (le_trans h ?_)
  rw [show binary64.emax - 1 = ((1023 : ℕ) : ℤ) by decide, pow2_natCast]
  exact pow_le_pow_right₀ (by norm_num) (by norm_num)

theorem conv_rep {y : Fl} {b : Bool} {v : ℚ} (h : binary32.conv y = .fin b v) : binary32.rnd v = v := by
  cases y with
  | nan _ => cases h
  | inf _ => cases h
  | fin s u =>
    simp only [Fmt.conv, Fmt.deliver] at h
    split at h
    · cases h; exact binary32.rnd_zero
    · split at h
      · cases h
      · cases h; exact binary32.rnd_idem (by decide) u

/-- A quarter of a small multiple of a `float` is a `double`. -/
theorem quarter_exact {v : ℚ} (hv : binary32.rnd v = v) {j : ℕ} (hj : j ≤ 4) : binary64.rnd (v * ((j : ℚ) / 4)) = v * ((j : ℚ) / 4) := by
  have key : ∀ v : ℚ, 0 ≤ v → binary32.rnd v = v → binary64.rnd (v * ((j : ℚ) / 4)) = v * ((j : ℚ) / 4) := by
    intro v h0 hv
    obtain ⟨m, e, hm, he, rfl⟩ := float_parts h0 hv
    have := binary64.rnd_exact wf64 (k := m * j) (e := e - 2) (le_trans (Nat.mul_le_mul hm hj) (by decide)) (by show (-1074 : ℤ) ≤ _; omega)
    have e2 : pow2 (e - 2) = pow2 e / 4 := by
      have : pow2 e = pow2 (e - 2) * pow2 2 := by rw [← pow2_add]; congr 1; omega
      rw [this, show pow2 2 = 4 by rw [pow2_eq]; norm_num]; ring
    rw [e2] at this
    push_cast at this
    rw [show (m : ℚ) * pow2 e * ((j : ℚ) / 4) = m * j * (pow2 e / 4) by ring]
    exact this
  rcases le_or_gt 0 v with h0 | h0
  · exact key v h0 hv
  · have := key (-v) (by linarith) (by rw [Fmt.rnd_neg, hv])
    rw [neg_mul, Fmt.rnd_neg] at this
    linarith

theorem float_double {v : ℚ} (hv : binary32.rnd v = v) : binary64.rnd v = v := by
  have := quarter_exact hv (j := 4) le_rfl
  norm_num at this
  exact this

/-- The quarter and the place stat computes are exact. -/
theorem quarter_place {n : ℕ} (hn : n ≤ 2 ^ 53) : ∃ b, binary64.sub (binary64.div (binary64.ofNat n) (binary64.ofNat 4)) (binary64.ofNat (n / 4)) =
    .fin b ((n % 4 : ℕ) / 4) := by
  have hb : ∀ m : ℕ, m ≤ 2 ^ 53 → |(m : ℚ)| ≤ 2 ^ 60 := by
    intro m hm
    rw [abs_of_nonneg (Nat.cast_nonneg m)]
    exact le_trans (by exact_mod_cast hm) (by norm_num : (2 ^ 53 : ℚ) ≤ 2 ^ 60)
  have h53 : (2 : ℕ) ^ 53 = 9007199254740992 := by norm_num
  obtain ⟨b1, e1⟩ := deliver64 false (hb n hn)
  obtain ⟨b2, e2⟩ := deliver64 false (hb 4 (by omega))
  obtain ⟨b3, e3⟩ := deliver64 false (hb (n / 4) (by omega))
  unfold Fmt.ofNat
  rw [e1, e2, e3, binary64.rnd_natCast wf64 (n := n) hn, binary64.rnd_natCast wf64 (n := 4) (by decide),
    binary64.rnd_natCast wf64 (n := n / 4) (show _ ≤ 2 ^ 53 by omega)]
  have q0 : (0 : ℚ) ≤ n / (4 : ℕ) := by positivity
  have q1 : |(n : ℚ) / (4 : ℕ)| ≤ 2 ^ 60 := by
    rw [abs_of_nonneg q0]
    have := hb n hn
    rw [abs_of_nonneg (Nat.cast_nonneg n)] at this
    push_cast; linarith [Nat.cast_nonneg (α := ℚ) n]
  have ex : binary64.rnd ((n : ℚ) / (4 : ℕ)) = n / (4 : ℕ) := by
    have := binary64.rnd_exact wf64 (k := n) hn (e := -2) (by decide)
    rw [show pow2 (-2) = 1 / 4 by rw [pow2_eq]; norm_num] at this
    push_cast
    rw [div_eq_mul_one_div]; exact this
  simp only [Fmt.div]
  rw [if_neg (by norm_num)]
  obtain ⟨b4, e4⟩ := deliver64 (xor b1 b2) q1
  rw [e4, ex]
  simp only [Fmt.sub, Fl.neg, Fmt.add]
  have hd : (n : ℚ) / (4 : ℕ) + -((n / 4 : ℕ) : ℚ) = ((n % 4 : ℕ) : ℚ) / 4 := by
    have := Nat.div_add_mod n 4
    have : (4 : ℚ) * (n / 4 : ℕ) + (n % 4 : ℕ) = n := by exact_mod_cast this
    push_cast at this ⊢
    linarith
  rw [hd]
  have hm : n % 4 < 4 := Nat.mod_lt _ (by decide)
  have hmq : ((n % 4 : ℕ) : ℚ) ≤ 4 := by exact_mod_cast hm.le
  obtain ⟨b5, e5⟩ := deliver64 (b4 && !b3) (v := ((n % 4 : ℕ) : ℚ) / 4) (by
    rw [abs_of_nonneg (by positivity)]; linarith)
  rw [e5]
  have := quarter_exact (v := 1) (binary32.rnd_one wf32) (j := n % 4) hm.le
  rw [one_mul] at this
  rw [this]
  exact ⟨_, rfl⟩

theorem quartile_eq {n : ℕ} (hn : n ≤ 2 ^ 53) {s1 s2 : Bool} {x y : ℚ} (hx : binary32.rnd x = x) (hy : binary32.rnd y = y) (hx1 : |x| ≤ 1) (hy1 : |y| ≤ 1) :
    ∃ b, quartile (binary64.div (binary64.ofNat n) (binary64.ofNat 4)) (n / 4) (.fin s1 x) (.fin s2 y) =
      .fin b (binary32.rnd (binary64.rnd (x * ((n % 4 : ℕ) / 4) + y * (1 - (n % 4 : ℕ) / 4)))) := by
  obtain ⟨b0, e0⟩ := quarter_place hn
  have big : ∀ v : ℚ, |v| ≤ 4 → |v| ≤ 2 ^ 60 := fun v h => by linarith
  have hm : n % 4 < 4 := Nat.mod_lt _ (by decide)
  have hm' : (1 : ℚ) - ((n % 4 : ℕ) : ℚ) / 4 = ((4 - n % 4 : ℕ) : ℚ) / 4 := by
    rw [Nat.cast_sub hm.le]; push_cast; ring
  have t0 : (0 : ℚ) ≤ ((n % 4 : ℕ) : ℚ) / 4 := by positivity
  have t1 : ((n % 4 : ℕ) : ℚ) / 4 ≤ 1 := by
    have : ((n % 4 : ℕ) : ℚ) ≤ 4 := by exact_mod_cast hm.le
    linarith
  have u0 : (0 : ℚ) ≤ 1 - ((n % 4 : ℕ) : ℚ) / 4 := by linarith
  have part : ∀ {z t : ℚ}, |z| ≤ 1 → 0 ≤ t → t ≤ 1 → |z * t| ≤ 1 := by
    intro z t h1 h2 h3
    rw [abs_mul, abs_of_nonneg h2]
    exact mul_le_one₀ h1 h2 h3
  unfold quartile
  rw [e0]
  simp only
  obtain ⟨b1, e1⟩ := deliver64 s1 (big x (by linarith))
  obtain ⟨b2, e2⟩ := deliver64 s2 (big y (by linarith))
  obtain ⟨b3, e3⟩ := deliver64 false (v := ((1 : ℕ) : ℚ)) (by norm_num)
  rw [show binary64.conv (.fin s1 x) = binary64.deliver s1 x from rfl, show binary64.conv (.fin s2 y) = binary64.deliver s2 y from rfl,
    show binary64.ofNat 1 = binary64.deliver false ((1 : ℕ) : ℚ) from rfl, e1, e2, e3, float_double hx, float_double hy,
    binary64.rnd_natCast wf64 (n := 1) (by decide)]
  simp only [Fmt.sub, Fl.neg, Fmt.add, Fmt.mul]
  rw [show ((1 : ℕ) : ℚ) + -(((n % 4 : ℕ) : ℚ) / 4) = 1 - ((n % 4 : ℕ) : ℚ) / 4 by push_cast; ring]
  obtain ⟨b4, e4⟩ := deliver64 (b3 && !b0) (big (1 - ((n % 4 : ℕ) : ℚ) / 4) (by rw [abs_of_nonneg u0]; linarith))
  have x4 : binary64.rnd (1 - ((n % 4 : ℕ) : ℚ) / 4) = 1 - ((n % 4 : ℕ) : ℚ) / 4 := by
    rw [hm']
    have := quarter_exact (v := 1) (binary32.rnd_one wf32) (j := 4 - n % 4) (by omega)
    rwa [one_mul] at this
  rw [e4, x4]
  simp only
  obtain ⟨b5, e5⟩ := deliver64 (xor b1 b0) (big _ (le_trans (part hx1 t0 t1) (by norm_num)))
  obtain ⟨b6, e6⟩ := deliver64 (xor b2 b4) (big _ (le_trans (part hy1 u0 (by linarith)) (by norm_num)))
  have x6 : binary64.rnd (y * (1 - ((n % 4 : ℕ) : ℚ) / 4)) = y * (1 - ((n % 4 : ℕ) : ℚ) / 4) := by
    rw [hm']; exact quarter_exact hy (by omega)
  rw [e5, e6, quarter_exact hx hm.le, x6]
  simp only
  have hsum : |x * (((n % 4 : ℕ) : ℚ) / 4) + y * (1 - ((n % 4 : ℕ) : ℚ) / 4)| ≤ 2 :=
    le_trans (abs_add_le _ _) (by linarith [part hx1 t0 t1, part hy1 u0 (by linarith)])
  obtain ⟨b7, e7⟩ := deliver64 (b5 && b6) (big _ (le_trans hsum (by norm_num)))
  rw [e7]
  have hr : |binary64.rnd (x * (((n % 4 : ℕ) : ℚ) / 4) + y * (1 - ((n % 4 : ℕ) : ℚ) / 4))| ≤ 2 := by
    have := abs_le.mp hsum
    refine abs_le.mpr ⟨?_, ?_⟩
    · have h := binary64.rnd_mono (by decide) this.1
      rw [Fmt.rnd_neg, show (2 : ℚ) = ((2 : ℕ) : ℚ) by norm_num, binary64.rnd_natCast wf64 (n := 2) (by decide)] at h
      exact h
    · exact binary64.rnd_le_natCast wf64 (n := 2) (by decide) this.2
  obtain ⟨b8, e8⟩ := deliver32 b7 (big _ (le_trans hr (by norm_num)))
  exact ⟨b8, e8⟩

theorem near32 {v K : ℚ} (h : |v| ≤ K) : |binary32.rnd v - v| ≤ K / 2 ^ 24 + 1 / 2 ^ 100 := by
  have h1 := binary32.rnd_error v
  have e1 : pow2 (-binary32.p) = 1 / 2 ^ 24 := by rw [pow2_eq]; norm_num [binary32]
  have e2 : pow2 (binary32.qmin - 1) ≤ 1 / 2 ^ 100 := by rw [pow2_eq]; norm_num [binary32]
  rw [e1] at h1
  have : (1 : ℚ) / 2 ^ 24 * |v| ≤ 1 / 2 ^ 24 * K := mul_le_mul_of_nonneg_left h (by norm_num)
  linarith

theorem near64 {v K : ℚ} (h : |v| ≤ K) : |binary64.rnd v - v| ≤ K / 2 ^ 53 + 1 / 2 ^ 100 := by
  have h1 := binary64.rnd_error v
  have e1 : pow2 (-binary64.p) = 1 / 2 ^ 53 := by rw [pow2_eq]; norm_num [binary64]
  have e2 : pow2 (binary64.qmin - 1) ≤ 1 / 2 ^ 100 := by
    have : pow2 (binary64.qmin - 1) ≤ pow2 (-100) := pow2_le (by decide)
    rw [pow2_eq (-100)] at this
    exact le_trans this (by norm_num)
  rw [e1] at h1
  have : (1 : ℚ) / 2 ^ 53 * |v| ≤ 1 / 2 ^ 53 * K := mul_le_mul_of_nonneg_left h (by norm_num)
  linarith

/-- The fence `m*(hq - lq) + hq` of stat, in `float`. -/
theorem fence_eq {m : ℕ} (hm : m ≤ 6) {b1 b2 : Bool} {h l : ℚ} (hh : |h| ≤ 1) (hl : |l| ≤ 1) :
    ∃ b v, binary32.add (binary32.mul (binary32.ofNat m) (binary32.sub (.fin b1 h) (.fin b2 l))) (.fin b1 h) = .fin b v ∧
      |v - (h + m * (h - l))| ≤ 1 / 2 ^ 18 ∧ (h ≤ l → binary32.rnd h = h → v ≤ h) := by
  have hmq : (m : ℚ) ≤ 6 := by exact_mod_cast hm
  have hm0 : (0 : ℚ) ≤ m := Nat.cast_nonneg m
  have big : ∀ v : ℚ, |v| ≤ 100 → |v| ≤ 2 ^ 60 := fun v h => by linarith
  obtain ⟨c1, e1⟩ := deliver32 false (big (m : ℚ) (by rw [abs_of_nonneg hm0]; linarith))
  rw [show binary32.ofNat m = binary32.deliver false (m : ℚ) from rfl, e1, binary32.rnd_natCast wf32 (n := m) (le_trans hm (by decide))]
  simp only [Fmt.sub, Fl.neg, Fmt.add]
  have a1 : |h + -l| ≤ 2 := le_trans (abs_add_le _ _) (by rw [abs_neg]; linarith)
  obtain ⟨c2, e2⟩ := deliver32 (b1 && !b2) (big (h + -l) (by linarith))
  rw [e2]
  simp only [Fmt.mul]
  have n1 := near32 a1
  set i := binary32.rnd (h + -l) with hi
  have a2 : |i| ≤ 3 := by
    have := abs_sub_abs_le_abs_sub i (h + -l)
    norm_num at n1
    linarith
  have a3 : |(m : ℚ) * i| ≤ 18 := by
    rw [abs_mul, abs_of_nonneg hm0]
    calc (m : ℚ) * |i| ≤ 6 * 3 := mul_le_mul hmq a2 (abs_nonneg _) (by norm_num)
      _ = 18 := by norm_num
  obtain ⟨c3, e3⟩ := deliver32 (xor c1 c2) (big (m * i) (by linarith))
  rw [e3]
  simp only
  have n2 := near32 a3
  set j := binary32.rnd (m * i) with hj
  have a4 : |j + h| ≤ 20 := by
    have := abs_sub_abs_le_abs_sub j (m * i)
    norm_num at n2
    refine le_trans (abs_add_le _ _) ?_
    linarith
  obtain ⟨c4, e4⟩ := deliver32 (c3 && b1) (big (j + h) (by linarith))
  rw [e4]
  refine ⟨c4, _, rfl, ?_, ?_⟩
  · have n3 := near32 a4
    have n1' : |(m : ℚ) * (i - (h + -l))| ≤ 6 * (2 / 2 ^ 24 + 1 / 2 ^ 100) := by
      rw [abs_mul, abs_of_nonneg hm0]
      exact mul_le_mul hmq n1 (abs_nonneg _) (by norm_num)
    have e : binary32.rnd (j + h) - (h + m * (h - l)) = (binary32.rnd (j + h) - (j + h)) + (j - m * i) + m * (i - (h + -l)) := by ring
    rw [e]
    refine le_trans (abs_add_le _ _) (le_trans (add_le_add (abs_add_le _ _) le_rfl) ?_)
    norm_num at n1' n2 n3 ⊢
    linarith
  · intro hle hr
    have i0 : i ≤ 0 := by
      have := binary32.rnd_mono (by decide) (show h + -l ≤ 0 by linarith)
      rwa [Fmt.rnd_zero] at this
    have j0 : j ≤ 0 := by
      have := binary32.rnd_mono (by decide) (show (m : ℚ) * i ≤ 0 from mul_nonpos_of_nonneg_of_nonpos hm0 i0)
      rwa [Fmt.rnd_zero] at this
    have := binary32.rnd_mono (by decide) (show j + h ≤ h by linarith)
    rwa [hr] at this

theorem confidenceAt_of {l : List Res} (h : ∀ r ∈ l, Tame r) {i : ℕ} (hi : i < l.length) :
    ∃ b, l[i].confidence = .fin b (confidenceAt l i) ∧ |confidenceAt l i| ≤ 1 ∧ binary32.rnd (confidenceAt l i) = confidenceAt l i := by
  obtain ⟨b, v, h1, h2, h3⟩ := h _ (List.getElem_mem hi)
  have : confidenceAt l i = v := by
    unfold confidenceAt
    rw [List.getElem?_eq_getElem hi]
    simp [h1, val]
  rw [this]
  exact ⟨b, h1, h2, h3⟩

theorem confidenceAt_anti {l : List Res} (h : ∀ r ∈ l, Tame r) (hd : Descending l) {i j : ℕ} (hij : i ≤ j) (hj : j < l.length) :
    confidenceAt l j ≤ confidenceAt l i := by
  rcases hij.eq_or_lt with rfl | hlt
  · exact le_rfl
  · have h1 := List.pairwise_iff_getElem.mp hd i j (by omega) hj hlt
    obtain ⟨b1, e1, _⟩ := confidenceAt_of h (i := i) (by omega)
    obtain ⟨b2, e2, _⟩ := confidenceAt_of h hj
    rw [e1, e2] at h1
    simpa [Fl.ge, Fl.lt] using h1

/-- A quartile of stat, and what it lies between. -/
theorem quartile_near {l : List Res} (h : ∀ r ∈ l, Tame r) (hd : Descending l) {n k : ℕ} (hn : k * n ≤ 2 ^ 53) (hl : k * (n + 1) / 4 < l.length) :
    ∃ b q, quartile (binary64.div (binary64.ofNat (k * n)) (binary64.ofNat 4)) (k * n / 4)
        (l[k * n / 4]'(lt_of_le_of_lt (Nat.div_le_div_right (Nat.mul_le_mul_left k (Nat.le_succ n))) hl)).confidence (l[k * (n + 1) / 4]).confidence = .fin b q ∧
      |q - statQuartile l n k| ≤ 1 / 2 ^ 22 ∧ |q| ≤ 1 ∧ binary32.rnd q = q ∧
      confidenceAt l (k * (n + 1) / 4) ≤ q ∧ q ≤ confidenceAt l (k * n / 4) := by
  have hle : k * n / 4 ≤ k * (n + 1) / 4 := Nat.div_le_div_right (Nat.mul_le_mul_left k (Nat.le_succ n))
  obtain ⟨b1, e1, x1, r1⟩ := confidenceAt_of h (i := k * n / 4) (by omega)
  obtain ⟨b2, e2, x2, r2⟩ := confidenceAt_of h hl
  obtain ⟨b, hq⟩ := quartile_eq (n := k * n) hn (s1 := b1) (s2 := b2) r1 r2 x1 x2
  have hanti := confidenceAt_anti h hd hle hl
  rw [e1, e2]
  have hm : k * n % 4 < 4 := Nat.mod_lt _ (by decide)
  have t0 : (0 : ℚ) ≤ ((k * n % 4 : ℕ) : ℚ) / 4 := by positivity
  have t1 : ((k * n % 4 : ℕ) : ℚ) / 4 ≤ 1 := by
    have : ((k * n % 4 : ℕ) : ℚ) ≤ 4 := by exact_mod_cast hm.le
    linarith
  have hQ : confidenceAt l (k * n / 4) * (((k * n % 4 : ℕ) : ℚ) / 4) + confidenceAt l (k * (n + 1) / 4) * (1 - ((k * n % 4 : ℕ) : ℚ) / 4) =
      statQuartile l n k := rfl
  rw [hQ] at hq
  set x := confidenceAt l (k * n / 4)
  set y := confidenceAt l (k * (n + 1) / 4)
  set t := ((k * n % 4 : ℕ) : ℚ) / 4
  have lo : y ≤ statQuartile l n k := by rw [← hQ]; nlinarith
  have hi : statQuartile l n k ≤ x := by rw [← hQ]; nlinarith
  have mono : ∀ {a b : ℚ}, a ≤ b → binary32.rnd (binary64.rnd a) ≤ binary32.rnd (binary64.rnd b) := fun h =>
    binary32.rnd_mono (by decide) (binary64.rnd_mono (by decide) h)
  have lo' := mono lo
  have hi' := mono hi
  rw [float_double r2, r2] at lo'
  rw [float_double r1, r1] at hi'
  have hx := abs_le.mp x1
  have hy := abs_le.mp x2
  refine ⟨b, _, hq, ?_, abs_le.mpr ⟨by linarith, by linarith⟩, binary32.rnd_idem (by decide) _, lo', hi'⟩
  have b1 : |statQuartile l n k| ≤ 1 := abs_le.mpr ⟨by linarith, by linarith⟩
  have n1 := near64 b1
  have b3 : |binary64.rnd (statQuartile l n k)| ≤ 1 := by
    have m1 := binary64.rnd_mono (by decide) lo
    have m2 := binary64.rnd_mono (by decide) hi
    rw [float_double r2] at m1
    rw [float_double r1] at m2
    exact abs_le.mpr ⟨by linarith, by linarith⟩
  have n2 := near32 b3
  have := abs_add_le (binary32.rnd (binary64.rnd (statQuartile l n k)) - binary64.rnd (statQuartile l n k))
    (binary64.rnd (statQuartile l n k) - statQuartile l n k)
  rw [sub_add_sub_cancel] at this
  norm_num at n1 n2 ⊢
  linarith

theorem fence_move {v h l Q1 Q3 : ℚ} {m : ℕ} (hm : m ≤ 6) (hv : |v - (h + m * (h - l))| ≤ 1 / 2 ^ 18) (h3 : |h - Q3| ≤ 1 / 2 ^ 22)
    (h1 : |l - Q1| ≤ 1 / 2 ^ 22) : |v - (Q3 + m * (Q3 - Q1))| ≤ 1 / 2 ^ 17 := by
  have hmq : (m : ℚ) ≤ 6 := by exact_mod_cast hm
  have hm0 : (0 : ℚ) ≤ m := Nat.cast_nonneg m
  have a : |(m : ℚ) * ((h - Q3) - (l - Q1))| ≤ 6 * (1 / 2 ^ 22 + 1 / 2 ^ 22) := by
    rw [abs_mul, abs_of_nonneg hm0]
    refine mul_le_mul hmq (le_trans (abs_sub _ _) (add_le_add h3 h1)) (abs_nonneg _) (by norm_num)
  have e : v - (Q3 + m * (Q3 - Q1)) = (v - (h + m * (h - l))) + (h - Q3) + m * ((h - Q3) - (l - Q1)) := by ring
  rw [e]
  refine le_trans (abs_add_le _ _) (le_trans (add_le_add (abs_add_le _ _) le_rfl) ?_)
  norm_num at *
  linarith

/-- All that stat prints, for a list in descending order. -/
theorem statres_all {c : Cfg} {l : List Res} {x : Res} (h : ∀ r ∈ l ++ [x], Tame r) (hd : Descending (l ++ [x])) (hc : 3 * (l.length + 1) ≤ c.sizeMax)
    (hn : 3 * (l.length + 1) ≤ 2 ^ 53) : ∃ st, statres c (l ++ [x]) l.length = some st ∧
    st.median.isfinite = true ∧ st.inner.isfinite = true ∧ st.outer.isfinite = true ∧
    |val st.median - (confidenceAt (l ++ [x]) (l.length / 2) + confidenceAt (l ++ [x]) ((l.length + 1) / 2)) / 2| ≤ 1 / 2 ^ 22 ∧
    |val st.inner - (statQuartile (l ++ [x]) l.length 3 + 3 * (statQuartile (l ++ [x]) l.length 3 - statQuartile (l ++ [x]) l.length 1))| ≤ 1 / 2 ^ 17 ∧
    |val st.outer - (statQuartile (l ++ [x]) l.length 3 + 6 * (statQuartile (l ++ [x]) l.length 3 - statQuartile (l ++ [x]) l.length 1))| ≤ 1 / 2 ^ 17 ∧
    st.mild = [] ∧ st.extreme = l := by
  set L := l ++ [x] with hL
  set n := l.length with hnl
  have hlen : L.length = n + 1 := by simp [hL, hnl]
  have sz1 : c.sz (n + 1) = n + 1 := Nat.mod_eq_of_lt (by omega)
  have sz2 : c.sz (n * 3) = 3 * n := by rw [mul_comm]; exact Nat.mod_eq_of_lt (by omega)
  have sz3 : c.sz ((n + 1) * 3) = 3 * (n + 1) := by rw [mul_comm]; exact Nat.mod_eq_of_lt (by omega)
  obtain ⟨b1, q1, e1, n1, u1, r1, lo1, hi1⟩ := quartile_near h hd (n := n) (k := 1) (by omega) (by omega)
  obtain ⟨b3, q3, e3, n3, u3, r3, lo3, hi3⟩ := quartile_near h hd (n := n) (k := 3) (by omega) (by omega)
  have place : 1 * (n + 1) / 4 ≤ 3 * n / 4 := by
    rw [one_mul]
    rcases Nat.eq_zero_or_pos n with h0 | h0
    · rw [h0]
    · omega
  have q31 : q3 ≤ q1 := le_trans hi3 (le_trans (confidenceAt_anti h hd (i := 1 * (n + 1) / 4) place (by omega)) lo1)
  have top : q3 ≤ confidenceAt L 0 := le_trans hi3 (confidenceAt_anti h hd (Nat.zero_le _) (by omega))
  obtain ⟨ci, vi, ei, ni, ti⟩ := fence_eq (m := 3) (by decide) (b1 := b3) (b2 := b1) u3 u1
  obtain ⟨co, vo, eo, no, tt⟩ := fence_eq (m := 6) (by decide) (b1 := b3) (b2 := b1) u3 u1
  have ti := ti q31 r3
  have tt := tt q31 r3
  have first : ∀ {b : Bool} {v : ℚ}, v ≤ q3 → reaching (.fin b v) l = l := by
    intro b v hv
    cases hl : l with
    | nil => rfl
    | cons r t =>
      refine List.dropWhile_cons_of_neg (p := fun r : Res => r.confidence.lt (.fin b v)) ?_
      obtain ⟨b0, e0, _⟩ := confidenceAt_of h (i := 0) (by omega)
      have : L[0]'(by omega) = r := by simp [hL, hl]
      rw [this] at e0
      rw [e0]
      simp only [Fl.lt, decide_eq_true_eq]
      linarith
  have none_below : ∀ {b : Bool} {v : ℚ}, v ≤ q3 → below (.fin b v) l = [] := by
    intro b v hv
    have := first (b := b) hv
    have e := List.takeWhile_append_dropWhile (p := fun r : Res => r.confidence.lt (.fin b v)) (l := l)
    unfold reaching at this
    rw [this] at e
    exact List.append_left_eq_self.mp e
  obtain ⟨m0, em0, um0, _⟩ := confidenceAt_of h (i := n / 2) (by omega)
  obtain ⟨m1, em1, um1, _⟩ := confidenceAt_of h (i := (n + 1) / 2) (by omega)
  unfold statres
  rw [sz1, sz2, sz3, confidence_some (i := n / 2) (by omega), confidence_some (i := (n + 1) / 2) (by omega), confidence_some (i := n / 4) (by omega),
    confidence_some (i := (n + 1) / 4) (by omega), confidence_some (i := 3 * n / 4) (by omega), confidence_some (i := 3 * (n + 1) / 4) (by omega)]
  simp only [one_mul] at e1
  simp only [Option.bind_eq_bind, Option.bind_some, Option.pure_def]
  rw [e1, e3, ei, eo, statScan_eq (by omega) (by omega)]
  simp only [Option.bind_some]
  rw [statScan_eq (by omega) (by omega)]
  simp only [Option.bind_some]
  rw [statRest_eq (by omega) (by omega)]
  simp only [Option.bind_some]
  have ht : L.take n = l := by simp [hL, hnl]
  rw [ht, List.drop_zero, Nat.zero_add, drop_below, ← List.drop_drop, drop_below, first ti, drop_below, first tt, none_below tt, em0, em1]
  refine ⟨_, rfl, ?_⟩
  have big : ∀ v : ℚ, |v| ≤ 100 → |v| ≤ 2 ^ 60 := fun v h => by linarith
  simp only [Fmt.add]
  set p := confidenceAt L (n / 2)
  set q := confidenceAt L ((n + 1) / 2)
  have a1 : |p + q| ≤ 2 := le_trans (abs_add_le _ _) (by linarith)
  obtain ⟨c1, d1⟩ := deliver32 (m0 && m1) (big (p + q) (by linarith))
  obtain ⟨c2, d2⟩ := deliver32 false (v := ((2 : ℕ) : ℚ)) (by norm_num)
  rw [d1, show binary32.ofNat 2 = binary32.deliver false ((2 : ℕ) : ℚ) from rfl, d2, binary32.rnd_natCast wf32 (n := 2) (by decide)]
  simp only [Fmt.div]
  rw [if_neg (by norm_num)]
  have k1 := near32 a1
  set r := binary32.rnd (p + q)
  have a2 : |r / ((2 : ℕ) : ℚ)| ≤ 2 := by
    have := abs_sub_abs_le_abs_sub r (p + q)
    rw [abs_div]
    norm_num at k1 ⊢
    linarith
  obtain ⟨c3, d3⟩ := deliver32 (xor c1 c2) (big (r / ((2 : ℕ) : ℚ)) (by linarith))
  rw [d3]
  have k2 := near32 a2
  refine ⟨rfl, rfl, rfl, ?_, ?_, ?_, trivial, trivial⟩
  · simp only [val]
    have e : binary32.rnd (r / ((2 : ℕ) : ℚ)) - (p + q) / 2 = (binary32.rnd (r / ((2 : ℕ) : ℚ)) - r / ((2 : ℕ) : ℚ)) + (r - (p + q)) / 2 := by
      push_cast; ring
    rw [e]
    refine le_trans (abs_add_le _ _) ?_
    rw [abs_div]
    norm_num at k1 k2 ⊢
    linarith
  · have := fence_move (m := 3) (by decide) ni n3 n1
    push_cast at this
    exact this
  · have := fence_move (m := 6) (by decide) no n3 n1
    push_cast at this
    exact this

end Verif
