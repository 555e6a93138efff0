import Verif.Spec.Fourier
import Verif.Proofs.Butterfly

/-! The butterflies of kissfft in exact arithmetic. -/

namespace Verif
open Spec Complex

/-- Roots of unity: `W n k` is `exp(-2 pi i k / n)`. -/
noncomputable def W (n k : ℕ) : ℂ := Complex.exp (-2 * Real.pi * Complex.I * k / n)

theorem W_zero (n : ℕ) : W n 0 = 1 := by simp [W]

theorem W_add (n a b : ℕ) : W n (a + b) = W n a * W n b := by
  unfold W
  rw [← Complex.exp_add]
  congr 1
  push_cast
  ring

theorem W_self {n : ℕ} (hn : n ≠ 0) : W n n = 1 := by
  unfold W
  have h : (n : ℂ) ≠ 0 := by exact_mod_cast hn
  rw [mul_div_cancel_right₀ _ h, show (-2 * Real.pi * Complex.I : ℂ) = -(2 * Real.pi * Complex.I) by ring,
    Complex.exp_neg, Complex.exp_two_pi_mul_I, inv_one]

theorem W_mul_self {n : ℕ} (hn : n ≠ 0) (k : ℕ) : W n (n * k) = 1 := by
  induction k with
  | zero => exact W_zero n
  | succ k ih => rw [Nat.mul_succ, W_add, ih, W_self hn, one_mul]

theorem W_mod {n : ℕ} (hn : n ≠ 0) (k : ℕ) : W n (k % n) = W n k := by
  conv_rhs => rw [← Nat.mod_add_div k n]
  rw [W_add, W_mul_self hn, mul_one]

theorem W_scale {f : ℕ} (hf : f ≠ 0) (n k : ℕ) : W (f * n) (f * k) = W n k := by
  unfold W
  congr 1
  have h : (f : ℂ) ≠ 0 := by exact_mod_cast hf
  push_cast
  rw [show (-2 * Real.pi * Complex.I * (f * k) : ℂ) = f * (-2 * Real.pi * Complex.I * k) by ring,
    mul_div_mul_left _ _ h]

theorem circle_toC (a : ℝ) : (circle a).toC = Complex.exp (a * Complex.I) := by
  apply Complex.ext
  · rw [Complex.exp_ofReal_mul_I_re]; rfl
  · rw [Complex.exp_ofReal_mul_I_im]; rfl

theorem toC_tw (st : FftCfg) (k : ℕ) : (tw exact st k).toC = W st.nfft k := by
  unfold tw
  show (circle _).toC = _
  rw [circle_toC, W]
  congr 1
  push_cast
  ring

theorem toC_cAdd (a b : Cpx ℝ) : (exact.cAdd a b).toC = a.toC + b.toC := by
  apply Complex.ext <;> simp [Arith.cAdd, Cpx.toC, exact]

theorem toC_cSub (a b : Cpx ℝ) : (exact.cSub a b).toC = a.toC - b.toC := by
  apply Complex.ext <;> simp [Arith.cSub, Cpx.toC, exact]

theorem toC_cMul (a b : Cpx ℝ) : (exact.cMul a b).toC = a.toC * b.toC := by
  apply Complex.ext <;> simp [Arith.cMul, Cpx.toC, exact]

theorem W_conj {n a b : ℕ} (hn : n ≠ 0) (h : a + b = n) : W n a = (starRingEnd ℂ) (W n b) := by
  have e : W n a * W n b = 1 := by rw [← W_add, h, W_self hn]
  have hc : (starRingEnd ℂ) (W n b) * W n b = 1 := by
    unfold W
    rw [← Complex.exp_conj, ← Complex.exp_add]
    rw [show (starRingEnd ℂ) (-2 * Real.pi * Complex.I * b / n) = 2 * Real.pi * Complex.I * b / n by
      simp [Complex.conj_ofReal, map_ofNat]]
    rw [show (2 * Real.pi * Complex.I * b / n + -2 * Real.pi * Complex.I * b / n : ℂ) = 0 by ring, Complex.exp_zero]
  have hne : W n b ≠ 0 := Complex.exp_ne_zero _
  exact mul_right_cancel₀ hne (e.trans hc.symm)

theorem W_two_one : W 2 1 = -1 := by
  unfold W
  rw [show (-2 * Real.pi * Complex.I * (1 : ℕ) / (2 : ℕ) : ℂ) = -(Real.pi * Complex.I) by push_cast; ring,
    Complex.exp_neg, Complex.exp_pi_mul_I]
  norm_num

theorem W_four_one : W 4 1 = -Complex.I := by
  unfold W
  rw [show (-2 * Real.pi * Complex.I * (1 : ℕ) / (4 : ℕ) : ℂ) = -(Real.pi / 2 * Complex.I) by push_cast; ring,
    Complex.exp_neg, Complex.exp_pi_div_two_mul_I, Complex.inv_I]

theorem W_three_re : (W 3 1).re = -(1 / 2) := by
  have e : W 3 1 = Complex.exp ((-(2 * Real.pi / 3) : ℝ) * Complex.I) := by
    unfold W
    congr 1
    push_cast
    ring
  rw [e, Complex.exp_ofReal_mul_I_re, Real.cos_neg, show 2 * Real.pi / 3 = Real.pi - Real.pi / 3 by ring,
    Real.cos_pi_sub, Real.cos_pi_div_three]

/-- What a radix `p` butterfly on `g 0, ..., g (p-1)` at position `k` delivers. -/
noncomputable def bflySum (n fstride p : ℕ) (g : ℕ → ℂ) (k : ℕ) : ℂ :=
  ∑ q ∈ Finset.range p, g q * W n (q * (fstride * k))

variable {st : FftCfg} {fstride m : ℕ} {out : List (Cpx ℝ)}

/-- Twiddle factors at `q * fstride * (k + q' * m)` split into a part for `k` and a `p`-th root of unity. -/
theorem W_split {p k q q' : ℕ} (hf : 0 < fstride) (hm : 0 < m) (hN : st.nfft = fstride * (p * m)) :
    W st.nfft (q * (fstride * (k + q' * m))) = W st.nfft (k * (fstride * q)) * W p (q * q') := by
  rw [show q * (fstride * (k + q' * m)) = k * (fstride * q) + (fstride * m) * (q * q') by ring, W_add]
  congr 1
  rw [hN, show fstride * (p * m) = fstride * m * p by ring, W_scale (by positivity)]

theorem bfly2_sum (hf : 0 < fstride) (hm : 0 < m) (hN : st.nfft = fstride * (2 * m)) (hlen : out.length = 2 * m) :
    ∃ r, kfBfly2 exact st fstride m out = some r ∧ r.length = 2 * m ∧ ∀ k q, k < m → q < 2 →
      (cget exact r (k + q * m)).toC =
        bflySum st.nfft fstride 2 (fun q => (cget exact out (k + q * m)).toC) (k + q * m) := by
  obtain ⟨r, h1, h2, h3⟩ := kfBfly2_spec exact hN hf hlen
  refine ⟨r, h1, h2, ?_⟩
  intro k q hk hq
  rw [h3 k q hk hq]
  unfold bflySum
  simp only [Finset.sum_range_succ, Finset.sum_range_zero, W_split hf hm hN]
  simp only [Nat.zero_mul, Nat.mul_zero, W_zero, Nat.one_mul, Nat.add_zero, zero_add, mul_one]
  have hq : q = 0 ∨ q = 1 := by omega
  rcases hq with rfl | rfl
  · rw [W_zero]
    simp only [if_true, bfly2Step, toC_cAdd, toC_cMul, toC_tw]
    ring
  · rw [W_two_one]
    simp only [bfly2Step, toC_cSub, toC_cMul, toC_tw, one_ne_zero, if_false]
    ring

theorem W_four_two : W 4 2 = -1 := by
  have := W_scale (f := 2) (by norm_num) 2 1
  rw [show (4 : ℕ) = 2 * 2 from rfl]; rw [Nat.mul_one] at this; rw [this, W_two_one]

theorem W_four_three : W 4 3 = Complex.I := by
  rw [show (3 : ℕ) = 2 + 1 from rfl, W_add, W_four_two, W_four_one]; ring

theorem bfly4_sum (hf : 0 < fstride) (hm : 0 < m) (hN : st.nfft = fstride * (4 * m)) (hlen : out.length = 4 * m) :
    ∃ r, kfBfly4 exact st fstride m out = some r ∧ r.length = 4 * m ∧ ∀ k q, k < m → q < 4 →
      (cget exact r (k + q * m)).toC =
        bflySum st.nfft fstride 4 (fun q => (cget exact out (k + q * m)).toC) (k + q * m) := by
  obtain ⟨r, h1, h2, h3⟩ := kfBfly4_spec exact hN hf hlen
  refine ⟨r, h1, h2, ?_⟩
  intro k q hk hq
  rw [h3 k q hk hq]
  unfold bflySum
  simp only [Finset.sum_range_succ, Finset.sum_range_zero, W_split hf hm hN]
  simp only [Nat.zero_mul, Nat.mul_zero, W_zero, Nat.one_mul, Nat.add_zero, zero_add, mul_one]
  simp only [← toC_tw]
  generalize cget exact out k = f0
  generalize cget exact out (k + m) = f1
  generalize cget exact out (k + 2 * m) = f2
  generalize cget exact out (k + 3 * m) = f3
  generalize tw exact st (k * fstride) = t1
  generalize tw exact st (k * (fstride * 2)) = t2
  generalize tw exact st (k * (fstride * 3)) = t3
  have w6 : W 4 6 = -1 := by rw [show (6 : ℕ) = 4 + 2 from rfl, W_add, W_self (by norm_num), W_four_two]; ring
  have w9 : W 4 9 = -Complex.I := by
    rw [show (9 : ℕ) = 4 * 2 + 1 from rfl, W_add, W_mul_self (by norm_num), W_four_one]; ring
  have w4 : W 4 4 = 1 := W_self (by norm_num)
  have hq : q = 0 ∨ q = 1 ∨ q = 2 ∨ q = 3 := by omega
  rcases hq with rfl | rfl | rfl | rfl <;>
    simp only [Nat.mul_zero, Nat.mul_one, W_zero, W_four_one, W_four_two, W_four_three, w4, w6, w9, Nat.reduceMul] <;>
    apply Complex.ext <;>
    simp [bfly4Step, Arith.cAdd, Arith.cSub, Arith.cMul, Cpx.toC, exact] <;> ring

theorem bfly3_sum (hf : 0 < fstride) (hm : 0 < m) (hN : st.nfft = fstride * (3 * m)) (hlen : out.length = 3 * m) :
    ∃ r, kfBfly3 exact st fstride m out = some r ∧ r.length = 3 * m ∧ ∀ k q, k < m → q < 3 →
      (cget exact r (k + q * m)).toC =
        bflySum st.nfft fstride 3 (fun q => (cget exact out (k + q * m)).toC) (k + q * m) := by
  obtain ⟨r, h1, h2, h3⟩ := kfBfly3_spec exact hN hf hm hlen
  refine ⟨r, h1, h2, ?_⟩
  intro k q hk hq
  rw [h3 k q hk hq]
  unfold bflySum
  simp only [Finset.sum_range_succ, Finset.sum_range_zero, W_split hf hm hN]
  simp only [Nat.zero_mul, Nat.mul_zero, W_zero, Nat.one_mul, Nat.add_zero, zero_add, mul_one]
  have he : W 3 1 = (tw exact st (fstride * m)).toC := by
    have := W_scale (f := fstride * m) (by positivity) 3 1
    rw [Nat.mul_one] at this
    rw [toC_tw, hN, show fstride * (3 * m) = fstride * m * 3 by ring, this]
  have hre := W_three_re
  rw [he] at hre
  have h2' : W 3 2 = (starRingEnd ℂ) (W 3 1) := W_conj (by norm_num) rfl
  have h4' : W 3 4 = W 3 1 := by
    rw [show (4 : ℕ) = 3 + 1 from rfl, W_add, W_self (by norm_num), one_mul]
  simp only [← toC_tw]
  generalize tw exact st (fstride * m) = e at *
  generalize cget exact out k = f0
  generalize cget exact out (k + m) = f1
  generalize cget exact out (k + 2 * m) = f2
  generalize tw exact st (k * fstride) = t1
  generalize tw exact st (k * (fstride * 2)) = t2
  have hre : e.r = -(1 / 2) := hre
  have hq : q = 0 ∨ q = 1 ∨ q = 2 := by omega
  rcases hq with rfl | rfl | rfl <;>
    simp only [Nat.mul_zero, Nat.mul_one, W_zero, h2', h4', he, Nat.reduceMul] <;>
    apply Complex.ext <;>
    simp [bfly3Step, Arith.halfOf, Arith.cAdd, Arith.cSub, Arith.cMul, Cpx.toC, exact, hre] <;> ring

theorem bfly5_sum (hf : 0 < fstride) (hm : 0 < m) (hN : st.nfft = fstride * (5 * m)) (hlen : out.length = 5 * m) :
    ∃ r, kfBfly5 exact st fstride m out = some r ∧ r.length = 5 * m ∧ ∀ k q, k < m → q < 5 →
      (cget exact r (k + q * m)).toC =
        bflySum st.nfft fstride 5 (fun q => (cget exact out (k + q * m)).toC) (k + q * m) := by
  obtain ⟨r, h1, h2, h3⟩ := kfBfly5_spec exact hN hf hm hlen
  refine ⟨r, h1, h2, ?_⟩
  intro k q hk hq
  rw [h3 k q hk hq]
  unfold bflySum
  simp only [Finset.sum_range_succ, Finset.sum_range_zero, W_split hf hm hN]
  simp only [Nat.zero_mul, Nat.mul_zero, W_zero, Nat.one_mul, Nat.add_zero, zero_add, mul_one]
  have hN' : fstride * (5 * m) = fstride * m * 5 := by ring
  have he : W 5 1 = (tw exact st (fstride * m)).toC := by
    have := W_scale (f := fstride * m) (by positivity) 5 1
    rw [Nat.mul_one] at this
    rw [toC_tw, hN, hN', this]
  have he2 : W 5 2 = (tw exact st (fstride * 2 * m)).toC := by
    have := W_scale (f := fstride * m) (by positivity) 5 2
    rw [toC_tw, hN, hN', ← this, show fstride * m * 2 = fstride * 2 * m by ring]
  have h3' : W 5 3 = (starRingEnd ℂ) (W 5 2) := W_conj (by norm_num) rfl
  have h4' : W 5 4 = (starRingEnd ℂ) (W 5 1) := W_conj (by norm_num) rfl
  have red : ∀ a b, W 5 (5 * a + b) = W 5 b := by
    intro a b; rw [W_add, W_mul_self (by norm_num), one_mul]
  have w6 : W 5 6 = W 5 1 := red 1 1
  have w8 : W 5 8 = W 5 3 := red 1 3
  have w9 : W 5 9 = W 5 4 := red 1 4
  have w12 : W 5 12 = W 5 2 := red 2 2
  have w16 : W 5 16 = W 5 1 := red 3 1
  simp only [← toC_tw]
  rw [show 2 * k * fstride = k * (fstride * 2) by ring, show 3 * k * fstride = k * (fstride * 3) by ring,
    show 4 * k * fstride = k * (fstride * 4) by ring]
  generalize tw exact st (fstride * m) = ya at *
  generalize tw exact st (fstride * 2 * m) = yb at *
  generalize cget exact out k = f0
  generalize cget exact out (k + m) = f1
  generalize cget exact out (k + 2 * m) = f2
  generalize cget exact out (k + 3 * m) = f3
  generalize cget exact out (k + 4 * m) = f4
  generalize tw exact st (k * fstride) = t1
  generalize tw exact st (k * (fstride * 2)) = t2
  generalize tw exact st (k * (fstride * 3)) = t3
  generalize tw exact st (k * (fstride * 4)) = t4
  have hq : q = 0 ∨ q = 1 ∨ q = 2 ∨ q = 3 ∨ q = 4 := by omega
  rcases hq with rfl | rfl | rfl | rfl | rfl <;>
    simp only [Nat.mul_zero, Nat.mul_one, W_zero, Nat.reduceMul, w6, w8, w9, w12, w16, h3', h4', he, he2] <;>
    apply Complex.ext <;>
    simp [bfly5Step, Arith.cAdd, Arith.cSub, Arith.cMul, Cpx.toC, exact] <;> ring

theorem generic_sum {intMax p : ℕ} (hp : 0 < p) (hf : 0 < fstride) (hm : 0 < m) (hN : st.nfft = fstride * (p * m))
    (hlen : out.length = p * m) (hint : 2 * st.nfft ≤ intMax) :
    ∃ r, genericLoops exact intMax st fstride m p out = some r ∧ r.length = p * m ∧ ∀ k q, k < m → q < p →
      (cget exact r (k + q * m)).toC =
        bflySum st.nfft fstride p (fun q => (cget exact out (k + q * m)).toC) (k + q * m) := by
  obtain ⟨r, h1, h2, h3⟩ := genericLoops_spec exact hp hN hf hlen hint
  refine ⟨r, h1, h2, ?_⟩
  intro k q hk hq
  rw [h3 k q hk hq]
  have hn : st.nfft ≠ 0 := by rw [hN]; positivity
  generalize k + q * m = pos
  have gen : ∀ d (g : ℕ → Cpx ℝ), (genericSum exact st fstride pos (d + 1) g).toC =
      bflySum st.nfft fstride (d + 1) (fun q => (g q).toC) pos := by
    intro d g
    induction d with
    | zero => simp [genericSum, bflySum, W_zero]
    | succ d ih =>
      unfold genericSum bflySum at *
      rw [Nat.add_sub_cancel] at ih ⊢
      rw [List.range'_1_concat, List.foldl_append, Finset.sum_range_succ, ← ih]
      simp only [List.foldl_cons, List.foldl_nil, toC_cAdd, toC_cMul, toC_tw, W_mod hn, Nat.add_comm 1 d]
  obtain ⟨d, rfl⟩ : ∃ d, p = d + 1 := ⟨p - 1, by omega⟩
  exact gen d _

end Verif
