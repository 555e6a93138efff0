import Verif.Proofs.Rounding
import Verif.Proofs.KissExact

/-! # The error of the bundled transform in rounded arithmetic -/

namespace Verif
open Spec Complex

/-- Working conditions: `R` is the unit of size, `u * R` the unit of error. -/
structure Units (u η B R : ℝ) : Prop where
  u0 : 0 ≤ u
  u1 : u ≤ 1 / 1024
  η0 : 0 ≤ η
  η1 : 16 * η ≤ u * R
  R0 : 0 ≤ R
  B1 : 64 * R ≤ B

theorem norm_W (n k : ℕ) : ‖W n k‖ = 1 := by
  unfold W
  rw [show (-2 * Real.pi * I * k / n : ℂ) = ((-2 * Real.pi * k / n : ℝ) : ℂ) * I by push_cast; ring, Complex.norm_exp_ofReal_mul_I]

section
variable {S : Type} {A : Arith S} {ok : S → Prop} {v : S → ℝ} {u η B R : ℝ}

theorem Ap.rotNeg (H : Rounded A ok v u η B) {a : Cpx S} {x : ℂ} {e m : ℝ} (h : Ap ok v e m a x) : Ap ok v e m ⟨a.i, A.neg a.r⟩ (-I * x) := by
  obtain ⟨n1, n2⟩ := H.neg h.r
  refine ⟨h.i, n1, ?_, by rw [norm_mul, norm_neg, norm_I, one_mul]; exact h.size⟩
  have : cval v ⟨a.i, A.neg a.r⟩ = -I * cval v a := by
    apply Complex.ext <;> simp [cval, n2]
  rw [this, ← mul_sub, norm_mul, norm_neg, norm_I, one_mul]
  exact h.err

theorem Ap.rotPos (H : Rounded A ok v u η B) {a : Cpx S} {x : ℂ} {e m : ℝ} (h : Ap ok v e m a x) : Ap ok v e m ⟨A.neg a.i, a.r⟩ (I * x) := by
  obtain ⟨n1, n2⟩ := H.neg h.i
  refine ⟨n1, h.r, ?_, by rw [norm_mul, norm_I, one_mul]; exact h.size⟩
  have : cval v ⟨A.neg a.i, a.r⟩ = I * cval v a := by
    apply Complex.ext <;> simp [cval, n2]
  rw [this, ← mul_sub, norm_mul, norm_I, one_mul]
  exact h.err

/-- `Ap` in the units of `Units`. -/
def Au (ok : S → Prop) (v : S → ℝ) (u R e m : ℝ) (z : Cpx S) (x : ℂ) : Prop := Ap ok v (e * (u * R)) (m * R) z x

theorem Au.mono {e m e' m' : ℝ} {z : Cpx S} {x : ℂ} (U : Units u η B R) (h : Au ok v u R e m z x) (he : e ≤ e') (hm : m ≤ m') :
    Au ok v u R e' m' z x :=
  Ap.mono h (mul_le_mul_of_nonneg_right he (mul_nonneg U.u0 U.R0)) (mul_le_mul_of_nonneg_right hm U.R0)

/-- Rounding a sum stays within one more unit for each unit of size. -/
theorem Units.add_le (U : Units u η B R) {e m : ℝ} (he : e ≤ 256) :
    e * (u * R) + u * (m * R + e * (u * R)) + 2 * η ≤ (e + m + 1) * (u * R) := by
  have h1 : 0 ≤ u * R := mul_nonneg U.u0 U.R0
  have h2 : e * u ≤ 1 / 4 := by nlinarith [U.u0, U.u1]
  have h3 : (e * u) * (u * R) ≤ 1 / 4 * (u * R) := mul_le_mul_of_nonneg_right h2 h1
  nlinarith [U.η1]

theorem Units.size_le (U : Units u η B R) {e m : ℝ} (he : e ≤ 256) (hm : m ≤ 15) : m * R + e * (u * R) ≤ 16 * R := by
  have h2 : e * u ≤ 1 / 4 := by nlinarith [U.u0, U.u1]
  have h3 : (e * u) * R ≤ 1 / 4 * R := mul_le_mul_of_nonneg_right h2 U.R0
  have h4 : m * R ≤ 15 * R := mul_le_mul_of_nonneg_right hm U.R0
  nlinarith [U.R0]

variable (H : Rounded A ok v u η B) (U : Units u η B R)
include H U

theorem Au.add {a b : Cpx S} {x y : ℂ} {e m e' m' : ℝ} (ha : Au ok v u R e m a x) (hb : Au ok v u R e' m' b y) (he : e + e' ≤ 256)
    (hm : m + m' ≤ 15) : Au ok v u R (e + e' + (m + m') + 1) (m + m') (A.cAdd a b) (x + y) := by
  have h0 := U.size_le he hm
  have h1 := U.R0
  have h2 := U.B1
  have h3 := U.add_le (m := m + m') he
  refine Ap.mono (Ap.add H U.u0 U.η0 ha hb (by linarith)) (by linarith) (by linarith)

theorem Au.sub {a b : Cpx S} {x y : ℂ} {e m e' m' : ℝ} (ha : Au ok v u R e m a x) (hb : Au ok v u R e' m' b y) (he : e + e' ≤ 256)
    (hm : m + m' ≤ 15) : Au ok v u R (e + e' + (m + m') + 1) (m + m') (A.cSub a b) (x - y) := by
  have h0 := U.size_le he hm
  have h1 := U.R0
  have h2 := U.B1
  have h3 := U.add_le (m := m + m') he
  refine Ap.mono (Ap.sub H U.u0 U.η0 ha hb (by linarith)) (by linarith) (by linarith)

theorem Au.addI {a b : Cpx S} {x y : ℂ} {e m e' m' : ℝ} (ha : Au ok v u R e m a x) (hb : Au ok v u R e' m' b y) (he : e + e' ≤ 256)
    (hm : m + m' ≤ 15) : Au ok v u R (e + e' + (m + m') + 1) (m + m') ⟨A.sub a.r b.i, A.add a.i b.r⟩ (x + I * y) := by
  have h0 := U.size_le he hm
  have h1 := U.R0
  have h2 := U.B1
  have h3 := U.add_le (m := m + m') he
  refine Ap.mono (Ap.addI H U.u0 U.η0 ha hb (by linarith)) (by linarith) (by linarith)

theorem Au.subI {a b : Cpx S} {x y : ℂ} {e m e' m' : ℝ} (ha : Au ok v u R e m a x) (hb : Au ok v u R e' m' b y) (he : e + e' ≤ 256)
    (hm : m + m' ≤ 15) : Au ok v u R (e + e' + (m + m') + 1) (m + m') ⟨A.add a.r b.i, A.sub a.i b.r⟩ (x - I * y) := by
  have h0 := U.size_le he hm
  have h1 := U.R0
  have h2 := U.B1
  have h3 := U.add_le (m := m + m') he
  refine Ap.mono (Ap.subI H U.u0 U.η0 ha hb (by linarith)) (by linarith) (by linarith)

theorem Au.subConj {a b : Cpx S} {x y : ℂ} {e m e' m' : ℝ} (ha : Au ok v u R e m a x) (hb : Au ok v u R e' m' b y) (he : e + e' ≤ 256)
    (hm : m + m' ≤ 15) : Au ok v u R (e + e' + (m + m') + 1) (m + m') ⟨A.sub a.r b.r, A.sub b.i a.i⟩ ((starRingEnd ℂ) (x - y)) := by
  have h0 := U.size_le he hm
  have h1 := U.R0
  have h2 := U.B1
  have h3 := U.add_le (m := m + m') he
  refine Ap.mono (Ap.subConj H U.u0 U.η0 ha hb (by linarith)) (by linarith) (by linarith)

theorem Au.mul {a w : Cpx S} {x ω : ℂ} {e m : ℝ} (ha : Au ok v u R e m a x) (hw : (ok w.r ∧ ok w.i) ∧ |v w.r - ω.re| ≤ u ∧ |v w.i - ω.im| ≤ u)
    (hω : ‖ω‖ ≤ 1) (he : e ≤ 64) (hm : m ≤ 8) : Au ok v u R (e + 7 * m + 1) m (A.cMul a w) (x * ω) := by
  have h1 : 0 ≤ u * R := mul_nonneg U.u0 U.R0
  have h2 : e * u ≤ 1 / 16 := by nlinarith [U.u0, U.u1]
  have h3 : (e * u) * (u * R) ≤ 1 / 16 * (u * R) := mul_le_mul_of_nonneg_right h2 h1
  have h4 : (e * u) * R ≤ 1 / 16 * R := mul_le_mul_of_nonneg_right h2 U.R0
  have h5 : m * R ≤ 8 * R := mul_le_mul_of_nonneg_right hm U.R0
  have h6 : u * R ≤ 1 / 1024 * R := mul_le_mul_of_nonneg_right U.u1 U.R0
  have h7 := U.η1
  have h8 := U.B1
  have h9 := U.R0
  refine Ap.mono (Ap.mul H U.u0 U.η0 ha hw.1 hw.2.1 hw.2.2 hω (by linarith [U.u1]) (by linarith)) (by linarith) le_rfl

theorem Au.scale {a : Cpx S} {s : S} {x : ℂ} {σ e m : ℝ} (ha : Au ok v u R e m a x) (hs : ok s) (hd : |v s - σ| ≤ u) (hσ : |σ| ≤ 1)
    (he : e ≤ 64) (hm : m ≤ 8) : Au ok v u R (e + 2 * m + 1) m ⟨A.mul a.r s, A.mul a.i s⟩ (x * σ) := by
  have h1 : 0 ≤ u * R := mul_nonneg U.u0 U.R0
  have h2 : e * u ≤ 1 / 16 := by nlinarith [U.u0, U.u1]
  have h3 : (e * u) * (u * R) ≤ 1 / 16 * (u * R) := mul_le_mul_of_nonneg_right h2 h1
  have h4 : (e * u) * R ≤ 1 / 16 * R := mul_le_mul_of_nonneg_right h2 U.R0
  have h5 : m * R ≤ 8 * R := mul_le_mul_of_nonneg_right hm U.R0
  have h6 : m * (u * R) ≤ 8 * (u * R) := mul_le_mul_of_nonneg_right hm h1
  have h7 := U.η1
  have h8 := U.B1
  have h9 := U.R0
  have h10 : u * (m * (u * R)) ≤ 1 / 1024 * (8 * (u * R)) :=
    le_trans (mul_le_mul_of_nonneg_left h6 U.u0) (mul_le_mul_of_nonneg_right U.u1 (by linarith))
  have h11 : u * ((e * u) * (u * R)) ≤ 1 / 1024 * (1 / 16 * (u * R)) :=
    le_trans (mul_le_mul_of_nonneg_left h3 U.u0) (mul_le_mul_of_nonneg_right U.u1 (by linarith))
  refine Ap.mono (Ap.scale H U.u0 U.η0 ha hs hd hσ (by linarith [U.u1]) (by linarith)) (by linarith) le_rfl

omit U in
/-- A twiddle factor from the table. -/
theorem tw_near {st : FftCfg} {k : ℕ} (hk : k < st.nfft) : (ok (tw A st k).r ∧ ok (tw A st k).i) ∧
    |v (tw A st k).r - (tw exact st k).toC.re| ≤ u ∧ |v (tw A st k).i - (tw exact st k).toC.im| ≤ u := H.tw st.nfft k hk

theorem bfly2_au {f0 f1 t1 : Cpx S} {x0 x1 w1 : Cpx ℝ} (h0 : Au ok v u R 0 1 f0 x0.toC) (h1 : Au ok v u R 0 1 f1 x1.toC)
    (ht1 : (ok t1.r ∧ ok t1.i) ∧ |v t1.r - w1.toC.re| ≤ u ∧ |v t1.i - w1.toC.im| ≤ u) (hw1 : ‖w1.toC‖ ≤ 1) :
    Au ok v u R 32 15 (bfly2Step A t1 f0 f1).1 (bfly2Step exact w1 x0 x1).1.toC ∧
    Au ok v u R 32 15 (bfly2Step A t1 f0 f1).2 (bfly2Step exact w1 x0 x1).2.toC := by
  have s0 := Au.mul H U h1 ht1 hw1 (by norm_num) (by norm_num)
  have a := Au.add H U h0 s0 (by norm_num) (by norm_num)
  have b := Au.sub H U h0 s0 (by norm_num) (by norm_num)
  simp only [bfly2Step, toC_cAdd, toC_cSub, toC_cMul]
  exact ⟨a.mono U (by norm_num) (by norm_num), b.mono U (by norm_num) (by norm_num)⟩

theorem bfly4_au {f0 f1 f2 f3 t1 t2 t3 : Cpx S} {x0 x1 x2 x3 w1 w2 w3 : Cpx ℝ} (h0 : Au ok v u R 0 1 f0 x0.toC)
    (h1 : Au ok v u R 0 1 f1 x1.toC) (h2 : Au ok v u R 0 1 f2 x2.toC) (h3 : Au ok v u R 0 1 f3 x3.toC)
    (ht1 : (ok t1.r ∧ ok t1.i) ∧ |v t1.r - w1.toC.re| ≤ u ∧ |v t1.i - w1.toC.im| ≤ u) (hw1 : ‖w1.toC‖ ≤ 1)
    (ht2 : (ok t2.r ∧ ok t2.i) ∧ |v t2.r - w2.toC.re| ≤ u ∧ |v t2.i - w2.toC.im| ≤ u) (hw2 : ‖w2.toC‖ ≤ 1)
    (ht3 : (ok t3.r ∧ ok t3.i) ∧ |v t3.r - w3.toC.re| ≤ u ∧ |v t3.i - w3.toC.im| ≤ u) (hw3 : ‖w3.toC‖ ≤ 1) :
    Au ok v u R 128 15 (bfly4Step A t1 t2 t3 f0 f1 f2 f3).1 (bfly4Step exact w1 w2 w3 x0 x1 x2 x3).1.toC ∧
    Au ok v u R 128 15 (bfly4Step A t1 t2 t3 f0 f1 f2 f3).2.1 (bfly4Step exact w1 w2 w3 x0 x1 x2 x3).2.1.toC ∧
    Au ok v u R 128 15 (bfly4Step A t1 t2 t3 f0 f1 f2 f3).2.2.1 (bfly4Step exact w1 w2 w3 x0 x1 x2 x3).2.2.1.toC ∧
    Au ok v u R 128 15 (bfly4Step A t1 t2 t3 f0 f1 f2 f3).2.2.2 (bfly4Step exact w1 w2 w3 x0 x1 x2 x3).2.2.2.toC := by
  have s0 := Au.mul H U h1 ht1 hw1 (by norm_num) (by norm_num)
  have s1 := Au.mul H U h2 ht2 hw2 (by norm_num) (by norm_num)
  have s2 := Au.mul H U h3 ht3 hw3 (by norm_num) (by norm_num)
  have s5 := Au.sub H U h0 s1 (by norm_num) (by norm_num)
  have g0 := Au.add H U h0 s1 (by norm_num) (by norm_num)
  have s3 := Au.add H U s0 s2 (by norm_num) (by norm_num)
  have s4 := Au.sub H U s0 s2 (by norm_num) (by norm_num)
  have r2 := Au.sub H U g0 s3 (by norm_num) (by norm_num)
  have r0 := Au.add H U g0 s3 (by norm_num) (by norm_num)
  have r1 := Au.subI H U s5 s4 (by norm_num) (by norm_num)
  have r3 := Au.addI H U s5 s4 (by norm_num) (by norm_num)
  have e1 : (bfly4Step exact w1 w2 w3 x0 x1 x2 x3).2.1.toC =
      x0.toC - x2.toC * w2.toC - I * (x1.toC * w1.toC - x3.toC * w3.toC) := by
    apply Complex.ext <;> simp [bfly4Step, Arith.cAdd, Arith.cSub, Arith.cMul, Cpx.toC, exact]
    ring
  have e3 : (bfly4Step exact w1 w2 w3 x0 x1 x2 x3).2.2.2.toC =
      x0.toC - x2.toC * w2.toC + I * (x1.toC * w1.toC - x3.toC * w3.toC) := by
    apply Complex.ext <;> simp [bfly4Step, Arith.cAdd, Arith.cSub, Arith.cMul, Cpx.toC, exact]
    ring
  rw [e1, e3]
  simp only [bfly4Step, toC_cAdd, toC_cSub, toC_cMul]
  exact ⟨r0.mono U (by norm_num) (by norm_num), r1.mono U (by norm_num) (by norm_num), r2.mono U (by norm_num) (by norm_num),
    r3.mono U (by norm_num) (by norm_num)⟩

theorem bfly3_au {f0 f1 f2 t1 t2 t : Cpx S} {x0 x1 x2 w1 w2 w : Cpx ℝ} (h0 : Au ok v u R 0 1 f0 x0.toC)
    (h1 : Au ok v u R 0 1 f1 x1.toC) (h2 : Au ok v u R 0 1 f2 x2.toC)
    (ht1 : (ok t1.r ∧ ok t1.i) ∧ |v t1.r - w1.toC.re| ≤ u ∧ |v t1.i - w1.toC.im| ≤ u) (hw1 : ‖w1.toC‖ ≤ 1)
    (ht2 : (ok t2.r ∧ ok t2.i) ∧ |v t2.r - w2.toC.re| ≤ u ∧ |v t2.i - w2.toC.im| ≤ u) (hw2 : ‖w2.toC‖ ≤ 1)
    (ht : (ok t.r ∧ ok t.i) ∧ |v t.r - w.toC.re| ≤ u ∧ |v t.i - w.toC.im| ≤ u) (hw : ‖w.toC‖ ≤ 1) :
    Au ok v u R 72 15 (bfly3Step A t t1 t2 f0 f1 f2).1 (bfly3Step exact w w1 w2 x0 x1 x2).1.toC ∧
    Au ok v u R 72 15 (bfly3Step A t t1 t2 f0 f1 f2).2.1 (bfly3Step exact w w1 w2 x0 x1 x2).2.1.toC ∧
    Au ok v u R 72 15 (bfly3Step A t t1 t2 f0 f1 f2).2.2 (bfly3Step exact w w1 w2 x0 x1 x2).2.2.toC := by
  have s1 := Au.mul H U h1 ht1 hw1 (by norm_num) (by norm_num)
  have s2 := Au.mul H U h2 ht2 hw2 (by norm_num) (by norm_num)
  have s3 := Au.add H U s1 s2 (by norm_num) (by norm_num)
  have s0 := Au.sub H U s1 s2 (by norm_num) (by norm_num)
  have hh := Au.scale H U s3 H.half.1 (σ := 1 / 2) (by rw [H.half.2]; simpa using U.u0) (by rw [abs_of_nonneg] <;> norm_num) (by norm_num) (by norm_num)
  have g1 := Au.sub H U h0 hh (by norm_num) (by norm_num)
  have z0 := Au.scale H U s0 ht.1.2 ht.2.2 (le_trans (Complex.abs_im_le_norm _) hw) (by norm_num) (by norm_num)
  have r0 := Au.add H U h0 s3 (by norm_num) (by norm_num)
  have r2 := Au.subI H U g1 z0 (by norm_num) (by norm_num)
  have r1 := Au.addI H U g1 z0 (by norm_num) (by norm_num)
  have e0 : (bfly3Step exact w w1 w2 x0 x1 x2).1.toC = x0.toC + (x1.toC * w1.toC + x2.toC * w2.toC) := by
    simp only [bfly3Step, toC_cAdd, toC_cMul]
  have e1 : (bfly3Step exact w w1 w2 x0 x1 x2).2.1.toC = x0.toC - (x1.toC * w1.toC + x2.toC * w2.toC) * ((1 / 2 : ℝ) : ℂ) +
      I * ((x1.toC * w1.toC - x2.toC * w2.toC) * (w.toC.im : ℂ)) := by
    apply Complex.ext <;> simp [bfly3Step, Arith.halfOf, Arith.cAdd, Arith.cSub, Arith.cMul, Cpx.toC, exact]
    ring
  have e2 : (bfly3Step exact w w1 w2 x0 x1 x2).2.2.toC = x0.toC - (x1.toC * w1.toC + x2.toC * w2.toC) * ((1 / 2 : ℝ) : ℂ) -
      I * ((x1.toC * w1.toC - x2.toC * w2.toC) * (w.toC.im : ℂ)) := by
    apply Complex.ext <;> simp [bfly3Step, Arith.halfOf, Arith.cAdd, Arith.cSub, Arith.cMul, Cpx.toC, exact]
  rw [e0, e1, e2]
  exact ⟨r0.mono U (by norm_num) (by norm_num), r1.mono U (by norm_num) (by norm_num), r2.mono U (by norm_num) (by norm_num)⟩

theorem bfly5_au {f0 f1 f2 f3 f4 t1 t2 t3 t4 ta tb : Cpx S} {x0 x1 x2 x3 x4 w1 w2 w3 w4 wa wb : Cpx ℝ} (h0 : Au ok v u R 0 1 f0 x0.toC)
    (h1 : Au ok v u R 0 1 f1 x1.toC) (h2 : Au ok v u R 0 1 f2 x2.toC) (h3 : Au ok v u R 0 1 f3 x3.toC) (h4 : Au ok v u R 0 1 f4 x4.toC)
    (ht1 : (ok t1.r ∧ ok t1.i) ∧ |v t1.r - w1.toC.re| ≤ u ∧ |v t1.i - w1.toC.im| ≤ u) (hw1 : ‖w1.toC‖ ≤ 1)
    (ht2 : (ok t2.r ∧ ok t2.i) ∧ |v t2.r - w2.toC.re| ≤ u ∧ |v t2.i - w2.toC.im| ≤ u) (hw2 : ‖w2.toC‖ ≤ 1)
    (ht3 : (ok t3.r ∧ ok t3.i) ∧ |v t3.r - w3.toC.re| ≤ u ∧ |v t3.i - w3.toC.im| ≤ u) (hw3 : ‖w3.toC‖ ≤ 1)
    (ht4 : (ok t4.r ∧ ok t4.i) ∧ |v t4.r - w4.toC.re| ≤ u ∧ |v t4.i - w4.toC.im| ≤ u) (hw4 : ‖w4.toC‖ ≤ 1)
    (hta : (ok ta.r ∧ ok ta.i) ∧ |v ta.r - wa.toC.re| ≤ u ∧ |v ta.i - wa.toC.im| ≤ u) (hwa : ‖wa.toC‖ ≤ 1)
    (htb : (ok tb.r ∧ ok tb.i) ∧ |v tb.r - wb.toC.re| ≤ u ∧ |v tb.i - wb.toC.im| ≤ u) (hwb : ‖wb.toC‖ ≤ 1) :
    Au ok v u R 200 15 (bfly5Step A ta tb t1 t2 t3 t4 f0 f1 f2 f3 f4).1 (bfly5Step exact wa wb w1 w2 w3 w4 x0 x1 x2 x3 x4).1.toC ∧
    Au ok v u R 200 15 (bfly5Step A ta tb t1 t2 t3 t4 f0 f1 f2 f3 f4).2.1 (bfly5Step exact wa wb w1 w2 w3 w4 x0 x1 x2 x3 x4).2.1.toC ∧
    Au ok v u R 200 15 (bfly5Step A ta tb t1 t2 t3 t4 f0 f1 f2 f3 f4).2.2.1 (bfly5Step exact wa wb w1 w2 w3 w4 x0 x1 x2 x3 x4).2.2.1.toC ∧
    Au ok v u R 200 15 (bfly5Step A ta tb t1 t2 t3 t4 f0 f1 f2 f3 f4).2.2.2.1 (bfly5Step exact wa wb w1 w2 w3 w4 x0 x1 x2 x3 x4).2.2.2.1.toC ∧
    Au ok v u R 200 15 (bfly5Step A ta tb t1 t2 t3 t4 f0 f1 f2 f3 f4).2.2.2.2 (bfly5Step exact wa wb w1 w2 w3 w4 x0 x1 x2 x3 x4).2.2.2.2.toC := by
  have s1 := Au.mul H U h1 ht1 hw1 (by norm_num) (by norm_num)
  have s2 := Au.mul H U h2 ht2 hw2 (by norm_num) (by norm_num)
  have s3 := Au.mul H U h3 ht3 hw3 (by norm_num) (by norm_num)
  have s4 := Au.mul H U h4 ht4 hw4 (by norm_num) (by norm_num)
  have s7 := Au.add H U s1 s4 (by norm_num) (by norm_num)
  have s10 := Au.sub H U s1 s4 (by norm_num) (by norm_num)
  have s8 := Au.add H U s2 s3 (by norm_num) (by norm_num)
  have s9 := Au.sub H U s2 s3 (by norm_num) (by norm_num)
  have r0 := Au.add H U h0 (Au.add H U s7 s8 (by norm_num) (by norm_num)) (by norm_num) (by norm_num)
  have sc : ∀ {a : Cpx S} {x : ℂ} {s : S} {σ : ℝ}, Au ok v u R (0 + 7 * 1 + 1 + (0 + 7 * 1 + 1) + (1 + 1) + 1) (1 + 1) a x → ok s → |v s - σ| ≤ u → |σ| ≤ 1 →
      Au ok v u R 24 2 ⟨A.mul a.r s, A.mul a.i s⟩ (x * σ) := fun h1 h2 h3 h4 =>
    (Au.scale H U h1 h2 h3 h4 (by norm_num) (by norm_num)).mono U (by norm_num) (by norm_num)
  have a1 := le_trans (Complex.abs_re_le_norm _) hwa
  have a2 := le_trans (Complex.abs_im_le_norm _) hwa
  have b1 := le_trans (Complex.abs_re_le_norm _) hwb
  have b2 := le_trans (Complex.abs_im_le_norm _) hwb
  have s5 := Au.add H U (Au.add H U h0 (sc s7 hta.1.1 hta.2.1 a1) (by norm_num) (by norm_num)) (sc s8 htb.1.1 htb.2.1 b1) (by norm_num) (by norm_num)
  have s11 := Au.add H U (Au.add H U h0 (sc s7 htb.1.1 htb.2.1 b1) (by norm_num) (by norm_num)) (sc s8 hta.1.1 hta.2.1 a1) (by norm_num) (by norm_num)
  have s6 := Au.subI H U (Ap.rotNeg H (sc s10 hta.1.2 hta.2.2 a2)) (sc s9 htb.1.2 htb.2.2 b2) (by norm_num) (by norm_num)
  have s12 := Au.subI H U (Ap.rotPos H (sc s10 htb.1.2 htb.2.2 b2)) (sc s9 hta.1.2 hta.2.2 a2) (by norm_num) (by norm_num)
  have r1 := Au.sub H U s5 s6 (by norm_num) (by norm_num)
  have r4 := Au.add H U s5 s6 (by norm_num) (by norm_num)
  have r2 := Au.add H U s11 s12 (by norm_num) (by norm_num)
  have r3 := Au.sub H U s11 s12 (by norm_num) (by norm_num)
  have fin : ∀ {z : Cpx S} {x y : ℂ} {e m : ℝ}, Au ok v u R e m z x → y = x → e ≤ 200 → m ≤ 15 → Au ok v u R 200 15 z y := by
    rintro z x _ e m h rfl h1 h2
    exact h.mono U h1 h2
  refine ⟨fin r0 ?_ (by norm_num) (by norm_num), fin r1 ?_ (by norm_num) (by norm_num), fin r2 ?_ (by norm_num) (by norm_num),
    fin r3 ?_ (by norm_num) (by norm_num), fin r4 ?_ (by norm_num) (by norm_num)⟩ <;>
  · apply Complex.ext <;> simp [bfly5Step, Arith.cAdd, Arith.cSub, Arith.cMul, Cpx.toC, exact]

/-- The numbers behind an array. -/
def imgs (v : S → ℝ) (l : List (Cpx S)) : List (Cpx ℝ) := l.map (fun z => ⟨v z.r, v z.i⟩)

omit H U in
theorem cget_imgs {l : List (Cpx S)} {i : ℕ} (h : i < l.length) : cget exact (imgs v l) i = ⟨v (cget A l i).r, v (cget A l i).i⟩ := by
  unfold cget imgs
  rw [List.getElem?_map, List.getElem?_eq_getElem h]
  rfl

/-- An array of numbers no larger than `R`. -/
def Sized (A : Arith S) (ok : S → Prop) (v : S → ℝ) (R : ℝ) (l : List (Cpx S)) : Prop :=
  ∀ i, i < l.length → ok (cget A l i).r ∧ ok (cget A l i).i ∧ ‖cval v (cget A l i)‖ ≤ R

omit H U in
theorem Sized.au {l : List (Cpx S)} (h : Sized A ok v R l) {i : ℕ} (hi : i < l.length) : Au ok v u R 0 1 (cget A l i) (cget exact (imgs v l) i).toC := by
  obtain ⟨h1, h2, h3⟩ := h i hi
  rw [cget_imgs (A := A) hi]
  refine ⟨h1, h2, ?_, ?_⟩
  · show ‖cval v (cget A l i) - cval v (cget A l i)‖ ≤ _
    rw [sub_self, norm_zero, zero_mul]
  · rw [one_mul]; exact h3

/-- What the error analysis of a butterfly says: entry `pos` of the result is a number within `d` of the exact butterfly of the entries
it is computed from. -/
def Bfly (A : Arith S) (ok : S → Prop) (v : S → ℝ) (st : FftCfg) (fstride m p : ℕ) (out : List (Cpx S)) (d : ℝ) (r : List (Cpx S)) : Prop :=
  r.length = p * m ∧ ∀ k q, k < m → q < p → (ok (cget A r (k + q * m)).r ∧ ok (cget A r (k + q * m)).i) ∧
    ‖cval v (cget A r (k + q * m)) - bflySum st.nfft fstride p (fun q => cval v (cget A out (k + q * m))) (k + q * m)‖ ≤ d

variable {st : FftCfg} {fstride m : ℕ} {out : List (Cpx S)}

omit H U in
/-- The exact butterfly of the numbers behind an array. -/
theorem bflySum_imgs {p k pos : ℕ} (hk : k < m) (hlen : out.length = p * m) :
    bflySum st.nfft fstride p (fun q => (cget exact (imgs v out) (k + q * m)).toC) pos =
    bflySum st.nfft fstride p (fun q => cval v (cget A out (k + q * m))) pos := by
  unfold bflySum
  refine Finset.sum_congr rfl (fun q hq => ?_)
  have hq : q < p := by simpa using hq
  simp only
  rw [cget_imgs (A := A) (by rw [hlen]; exact pos_lt hk hq)]
  rfl

omit H in
theorem Au.bfly {z : Cpx S} {x : ℂ} {e m : ℝ} (h : Au ok v u R e m z x) {d : ℝ} (he : e ≤ d) : (ok z.r ∧ ok z.i) ∧ ‖cval v z - x‖ ≤ d * (u * R) :=
  ⟨⟨h.r, h.i⟩, le_trans h.err (mul_le_mul_of_nonneg_right he (mul_nonneg U.u0 U.R0))⟩

omit H U in
theorem norm_tw (st : FftCfg) (k : ℕ) : ‖(tw exact st k).toC‖ ≤ 1 := by rw [toC_tw, norm_W]

theorem bfly2_err (hf : 0 < fstride) (hm : 0 < m) (hN : st.nfft = fstride * (2 * m)) (hlen : out.length = 2 * m) (hs : Sized A ok v R out) :
    ∃ r, kfBfly2 A st fstride m out = some r ∧ Bfly A ok v st fstride m 2 out (32 * (u * R)) r := by
  obtain ⟨r, h1, h2, h3⟩ := kfBfly2_spec A hN hf hlen
  have hlen' : (imgs v out).length = 2 * m := by simpa [imgs] using hlen
  obtain ⟨r', g1, -, g3⟩ := kfBfly2_spec exact hN hf hlen'
  obtain ⟨r'', k1, -, k3⟩ := bfly2_sum hf hm hN hlen'
  have : r'' = r' := Option.some.inj (k1.symm.trans g1)
  subst this
  refine ⟨r, h1, h2, ?_⟩
  intro k q hk hq
  have t1 := tw_lt hN hf hk (show 1 < 2 by omega)
  rw [Nat.mul_one] at t1
  have key := k3 k q hk hq
  rw [g3 k q hk hq, bflySum_imgs (A := A) hk hlen] at key
  rw [← key, h3 k q hk hq]
  obtain ⟨a, b⟩ := bfly2_au H U (hs.au (show k < out.length by omega)) (hs.au (show k + m < out.length by omega)) (tw_near H t1) (norm_tw st _)
  have hq : q = 0 ∨ q = 1 := by omega
  rcases hq with rfl | rfl
  · exact a.bfly U le_rfl
  · exact b.bfly U le_rfl

theorem bfly4_err (hf : 0 < fstride) (hm : 0 < m) (hN : st.nfft = fstride * (4 * m)) (hlen : out.length = 4 * m) (hs : Sized A ok v R out) :
    ∃ r, kfBfly4 A st fstride m out = some r ∧ Bfly A ok v st fstride m 4 out (128 * (u * R)) r := by
  obtain ⟨r, h1, h2, h3⟩ := kfBfly4_spec A hN hf hlen
  have hlen' : (imgs v out).length = 4 * m := by simpa [imgs] using hlen
  obtain ⟨r', g1, -, g3⟩ := kfBfly4_spec exact hN hf hlen'
  obtain ⟨r'', k1, -, k3⟩ := bfly4_sum hf hm hN hlen'
  have : r'' = r' := Option.some.inj (k1.symm.trans g1)
  subst this
  refine ⟨r, h1, h2, ?_⟩
  intro k q hk hq
  have t1 := tw_lt hN hf hk (show 1 < 4 by omega)
  rw [Nat.mul_one] at t1
  have t2 := tw_lt hN hf hk (show 2 < 4 by omega)
  have t3 := tw_lt hN hf hk (show 3 < 4 by omega)
  have key := k3 k q hk hq
  rw [g3 k q hk hq, bflySum_imgs (A := A) hk hlen] at key
  rw [← key, h3 k q hk hq]
  obtain ⟨a, b, c, d⟩ := bfly4_au H U (hs.au (show k < out.length by omega)) (hs.au (show k + m < out.length by omega))
    (hs.au (show k + 2 * m < out.length by omega)) (hs.au (show k + 3 * m < out.length by omega))
    (tw_near H t1) (norm_tw st _) (tw_near H t2) (norm_tw st _) (tw_near H t3) (norm_tw st _)
  have hq : q = 0 ∨ q = 1 ∨ q = 2 ∨ q = 3 := by omega
  rcases hq with rfl | rfl | rfl | rfl
  · exact a.bfly U le_rfl
  · exact b.bfly U le_rfl
  · exact c.bfly U le_rfl
  · exact d.bfly U le_rfl

theorem bfly3_err (hf : 0 < fstride) (hm : 0 < m) (hN : st.nfft = fstride * (3 * m)) (hlen : out.length = 3 * m) (hs : Sized A ok v R out) :
    ∃ r, kfBfly3 A st fstride m out = some r ∧ Bfly A ok v st fstride m 3 out (72 * (u * R)) r := by
  obtain ⟨r, h1, h2, h3⟩ := kfBfly3_spec A hN hf hm hlen
  have hlen' : (imgs v out).length = 3 * m := by simpa [imgs] using hlen
  obtain ⟨r', g1, -, g3⟩ := kfBfly3_spec exact hN hf hm hlen'
  obtain ⟨r'', k1, -, k3⟩ := bfly3_sum hf hm hN hlen'
  have : r'' = r' := Option.some.inj (k1.symm.trans g1)
  subst this
  refine ⟨r, h1, h2, ?_⟩
  intro k q hk hq
  have t1 := tw_lt hN hf hk (show 1 < 3 by omega)
  rw [Nat.mul_one] at t1
  have t2 := tw_lt hN hf hk (show 2 < 3 by omega)
  have t0 : fstride * m < st.nfft := by rw [hN]; exact Nat.mul_lt_mul_of_pos_left (by omega) hf
  have key := k3 k q hk hq
  rw [g3 k q hk hq, bflySum_imgs (A := A) hk hlen] at key
  rw [← key, h3 k q hk hq]
  obtain ⟨a, b, c⟩ := bfly3_au H U (hs.au (show k < out.length by omega)) (hs.au (show k + m < out.length by omega))
    (hs.au (show k + 2 * m < out.length by omega)) (tw_near H t1) (norm_tw st _) (tw_near H t2) (norm_tw st _) (tw_near H t0) (norm_tw st _)
  have hq : q = 0 ∨ q = 1 ∨ q = 2 := by omega
  rcases hq with rfl | rfl | rfl
  · exact a.bfly U le_rfl
  · exact b.bfly U le_rfl
  · exact c.bfly U le_rfl

theorem bfly5_err (hf : 0 < fstride) (hm : 0 < m) (hN : st.nfft = fstride * (5 * m)) (hlen : out.length = 5 * m) (hs : Sized A ok v R out) :
    ∃ r, kfBfly5 A st fstride m out = some r ∧ Bfly A ok v st fstride m 5 out (200 * (u * R)) r := by
  obtain ⟨r, h1, h2, h3⟩ := kfBfly5_spec A hN hf hm hlen
  have hlen' : (imgs v out).length = 5 * m := by simpa [imgs] using hlen
  obtain ⟨r', g1, -, g3⟩ := kfBfly5_spec exact hN hf hm hlen'
  obtain ⟨r'', k1, -, k3⟩ := bfly5_sum hf hm hN hlen'
  have : r'' = r' := Option.some.inj (k1.symm.trans g1)
  subst this
  refine ⟨r, h1, h2, ?_⟩
  intro k q hk hq
  have t1 := tw_lt hN hf hk (show 1 < 5 by omega)
  have t2 := tw_lt hN hf hk (show 2 < 5 by omega)
  have t3 := tw_lt hN hf hk (show 3 < 5 by omega)
  have t4 := tw_lt hN hf hk (show 4 < 5 by omega)
  rw [Nat.mul_one] at t1
  rw [show k * (fstride * 2) = 2 * k * fstride by ring] at t2
  rw [show k * (fstride * 3) = 3 * k * fstride by ring] at t3
  rw [show k * (fstride * 4) = 4 * k * fstride by ring] at t4
  have ta : fstride * m < st.nfft := by rw [hN]; exact Nat.mul_lt_mul_of_pos_left (by omega) hf
  have tb : fstride * 2 * m < st.nfft := by rw [hN, Nat.mul_assoc]; exact Nat.mul_lt_mul_of_pos_left (by omega) hf
  have key := k3 k q hk hq
  rw [g3 k q hk hq, bflySum_imgs (A := A) hk hlen] at key
  rw [← key, h3 k q hk hq]
  obtain ⟨a, b, c, d, e⟩ := bfly5_au H U (hs.au (show k < out.length by omega)) (hs.au (show k + m < out.length by omega))
    (hs.au (show k + 2 * m < out.length by omega)) (hs.au (show k + 3 * m < out.length by omega)) (hs.au (show k + 4 * m < out.length by omega))
    (tw_near H t1) (norm_tw st _) (tw_near H t2) (norm_tw st _) (tw_near H t3) (norm_tw st _) (tw_near H t4) (norm_tw st _)
    (tw_near H ta) (norm_tw st _) (tw_near H tb) (norm_tw st _)
  have hq : q = 0 ∨ q = 1 ∨ q = 2 ∨ q = 3 ∨ q = 4 := by omega
  rcases hq with rfl | rfl | rfl | rfl | rfl
  · exact a.bfly U le_rfl
  · exact b.bfly U le_rfl
  · exact c.bfly U le_rfl
  · exact d.bfly U le_rfl
  · exact e.bfly U le_rfl

/-- The general butterfly: a sum of `p` products. -/
theorem generic_err {intMax p : ℕ} (hp : 0 < p) (hf : 0 < fstride) (_hm : 0 < m) (hN : st.nfft = fstride * (p * m)) (hlen : out.length = p * m)
    (hint : 2 * st.nfft ≤ intMax) (hs : Sized A ok v R out) (hup : 64 * (u * p) ≤ 1) (hB : 4 * (p * R) ≤ B) :
    ∃ r, genericLoops A intMax st fstride m p out = some r ∧ Bfly A ok v st fstride m p out (((p : ℝ) - 1) * (9 + p) * (u * R)) r := by
  obtain ⟨r, h1, h2, h3⟩ := genericLoops_spec A hp hN hf hlen hint
  refine ⟨r, h1, h2, ?_⟩
  intro k q hk hq
  rw [h3 k q hk hq]
  have hn : 0 < st.nfft := by rw [hN]; positivity
  have hu0 := U.u0
  have hR0 := U.R0
  have huR : 0 ≤ u * R := mul_nonneg hu0 hR0
  have hη := U.η1
  set pos := k + q * m
  have gen : ∀ d, d + 1 ≤ p → Ap ok v (d * (10 + d) * (u * R)) ((d + 1) * R)
      (genericSum A st fstride pos (d + 1) (fun q => cget A out (k + q * m)))
      (bflySum st.nfft fstride (d + 1) (fun q => cval v (cget A out (k + q * m))) pos) := by
    intro d
    induction d with
    | zero =>
      intro _
      obtain ⟨g1, g2, g3⟩ := hs (k + 0 * m) (by rw [hlen]; exact pos_lt hk hp)
      simp only [genericSum, bflySum, Finset.sum_range_succ, Finset.sum_range_zero, zero_add, Nat.zero_mul, W_zero, mul_one, Nat.sub_self,
        List.range'_zero, List.foldl_nil]
      refine ⟨by simpa using g1, by simpa using g2, ?_, ?_⟩
      · rw [sub_self, norm_zero]; simp
      · simpa using g3
    | succ d ih =>
      intro hd
      have ih := ih (by omega)
      unfold genericSum bflySum at ih ⊢
      rw [Nat.add_sub_cancel] at ih ⊢
      rw [List.range'_1_concat, List.foldl_append, Finset.sum_range_succ]
      simp only [List.foldl_cons, List.foldl_nil, Nat.add_comm 1 d]
      set acc := (List.range' 1 d).foldl (fun acc q => A.cAdd acc (A.cMul (cget A out (k + q * m)) (tw A st ((q * (fstride * pos)) % st.nfft))))
        (cget A out (k + 0 * m))
      obtain ⟨g1, g2, g3⟩ := hs (k + (d + 1) * m) (by rw [hlen]; exact pos_lt hk (by omega))
      have term : Au ok v u R 0 1 (cget A out (k + (d + 1) * m)) (cval v (cget A out (k + (d + 1) * m))) := by
        refine ⟨g1, g2, ?_, by rw [one_mul]; exact g3⟩
        rw [sub_self, norm_zero, zero_mul]
      have term := Au.mul H U term (tw_near H (Nat.mod_lt ((d + 1) * (fstride * pos)) hn)) (norm_tw st _) (by norm_num) (by norm_num)
      rw [toC_tw, W_mod hn.ne'] at term
      have hdp : (d : ℝ) + 2 ≤ p := by exact_mod_cast hd
      have hd0 : (0 : ℝ) ≤ d := Nat.cast_nonneg d
      have hud : u * (d + 2) ≤ 1 / 64 := by nlinarith
      have hdR : (d + 2) * R ≤ p * R := mul_le_mul_of_nonneg_right hdp hR0
      -- the accumulated error is small next to the sum
      have small : (d * (10 + d)) * u ≤ (10 + d) / 64 := by nlinarith
      have small2 : (d * (10 + d)) * u * R ≤ (10 + d) / 64 * R := mul_le_mul_of_nonneg_right small hR0
      have small3 : (d * (10 + d)) * u * (u * R) ≤ (10 + d) / 64 * (u * R) := mul_le_mul_of_nonneg_right small huR
      have hu8 : 8 * (u * (u * R)) ≤ 1 / 64 * (u * R) := by
        have : 8 * u ≤ 1 / 64 := by linarith [U.u1]
        nlinarith
      have hu9 : 8 * (u * R) ≤ 1 / 64 * R := by
        have : 8 * u ≤ 1 / 64 := by linarith [U.u1]
        nlinarith
      refine Ap.mono (Ap.add H hu0 U.η0 ih term ?_) ?_ ?_
      · have : (d : ℝ) * R ≤ p * R := by linarith
        nlinarith [hB, hdR, small2, hu9]
      · push_cast
        have e : u * (((d : ℝ) + 1) * R) = (d + 1) * (u * R) := by ring
        have hduR : 0 ≤ (d : ℝ) * (u * R) := mul_nonneg hd0 huR
        linarith
      · push_cast; linarith
  have hp1 : ((p - 1 : ℕ) : ℝ) = (p : ℝ) - 1 := by push_cast [Nat.cast_sub hp]; ring
  have := gen (p - 1) (by omega)
  rw [Nat.sub_add_cancel hp, hp1] at this
  refine ⟨⟨this.r, this.i⟩, le_trans this.err (le_of_eq ?_)⟩
  ring

/-- The cost of a stage in the error bound: its radix, unless it does nothing. -/
def radixCost (p : ℕ) : ℕ := if p = 1 then 0 else p

/-- The cost of all stages. -/
def stageCost (fs : List (ℕ × ℕ)) : ℕ := (fs.map (fun x => radixCost x.1)).sum

omit H U in
theorem Bfly.mono {p : ℕ} {d d' : ℝ} {r : List (Cpx S)} (h : Bfly A ok v st fstride m p out d r) (hd : d ≤ d') : Bfly A ok v st fstride m p out d' r :=
  ⟨h.1, fun k q hk hq => ⟨(h.2 k q hk hq).1, (h.2 k q hk hq).2.trans hd⟩⟩

theorem butterfly_err (c : Cfg) {p : ℕ} (hp : 0 < p) (hm : 0 < m) (hN : st.nfft = fstride * (p * m)) (hf : 0 < fstride) (hlen : out.length = p * m)
    (hint : 2 * st.nfft ≤ c.intMax) (hs : Sized A ok v R out) (hup : 64 * (u * p) ≤ 1) (hB : 4 * (p * R) ≤ B) :
    Det [] (butterfly A c st fstride m p out) (Bfly A ok v st fstride m p out (8 * p * radixCost p * (u * R))) := by
  have huR : 0 ≤ u * R := mul_nonneg U.u0 U.R0
  unfold butterfly
  split
  · obtain ⟨r, h1, h2⟩ := bfly2_err H U hf hm hN hlen hs
    exact Det.lift h1 (h2.mono (by norm_num [radixCost]))
  · obtain ⟨r, h1, h2⟩ := bfly3_err H U hf hm hN hlen hs
    exact Det.lift h1 (h2.mono (by norm_num [radixCost]))
  · obtain ⟨r, h1, h2⟩ := bfly4_err H U hf hm hN hlen hs
    exact Det.lift h1 (h2.mono (by norm_num [radixCost]))
  · obtain ⟨r, h1, h2⟩ := bfly5_err H U hf hm hN hlen hs
    exact Det.lift h1 (h2.mono (by norm_num [radixCost]))
  · obtain ⟨r, h1, h2⟩ := generic_err H U hp hf hm hN hlen hint hs hup hB
    refine Det.mallocFree (Det.lift h1 (h2.mono (mul_le_mul_of_nonneg_right ?_ huR)))
    unfold radixCost
    split
    · rename_i h; subst h; norm_num
    · have : (2 : ℝ) ≤ p := by
        have : 2 ≤ p := by omega
        exact_mod_cast this
      nlinarith

omit H U

theorem cget_eq {l l' : List (Cpx S)} {i j : ℕ} (h : l[i]? = l'[j]?) : cget A l i = cget A l' j := by
  unfold cget; rw [h]

theorem norm_dft_le {n : ℕ} {x : ℕ → ℂ} {M : ℝ} (h : ∀ j, j < n → ‖x j‖ ≤ M) (k : ℕ) : ‖dft n x k‖ ≤ n * M := by
  rw [dft_eq]
  refine le_trans (norm_sum_le _ _) ?_
  calc ∑ j ∈ Finset.range n, ‖x j * W n (j * k)‖ ≤ ∑ j ∈ Finset.range n, M :=
        Finset.sum_le_sum (fun j hj => by rw [norm_mul, norm_W, mul_one]; exact h j (by simpa using hj))
    _ = n * M := by simp

include H in
theorem kfWork_err (c : Cfg) {f : List (Cpx S)} {M : ℝ} (hint : 2 * st.nfft ≤ c.intMax) (hu0 : 0 ≤ u) (hu1 : u ≤ 1 / 1024) (hη0 : 0 ≤ η)
    (hη1 : 16 * η ≤ u * M) (hM : 0 ≤ M) (hs : Sized A ok v M f) (fs : List (ℕ × ℕ)) :
    ∀ {N off fstride : ℕ}, Stages N fs → st.nfft = fstride * N → 0 < fstride →
      (∀ k, k < N → off + k * fstride < f.length) → 72 * (u * stageCost fs) ≤ 1 → 128 * (N * M) ≤ B →
      Det [] (kfWork A c st f 1 fs off fstride) (fun r => r.length = N ∧ ∀ k, k < N → (ok (cget A r k).r ∧ ok (cget A r k).i) ∧
        ‖cval v (cget A r k) - dft N (fun j => cval v (cget A f (off + j * fstride))) k‖ ≤ 9 * (N * M) * stageCost fs * u) := by
  induction fs with
  | nil => intro N off fstride h; exact h.elim
  | cons x rest ih =>
    obtain ⟨p, m⟩ := x
    rintro N off fstride ⟨hp, hm, rfl, hrest⟩ hN hf hin hcost hB
    unfold kfWork
    have hcs : stageCost ((p, m) :: rest) = radixCost p + stageCost rest := rfl
    rw [hcs] at hcost ⊢
    push_cast at hcost hB ⊢
    have hm1 : (1 : ℝ) ≤ m := by exact_mod_cast hm
    have hp1 : (1 : ℝ) ≤ p := by exact_mod_cast hp
    have hrc0 : (0 : ℝ) ≤ radixCost p := Nat.cast_nonneg _
    have hsc0 : (0 : ℝ) ≤ stageCost rest := Nat.cast_nonneg _
    have hcost1 : 72 * (u * radixCost p) ≤ 1 := by nlinarith
    have hcost2 : 72 * (u * stageCost rest) ≤ 1 := by nlinarith
    have hmM0 : 0 ≤ m * M := mul_nonneg (by linarith) hM
    have hmM : M ≤ m * M := by nlinarith
    have hpmM : m * M ≤ p * (m * M) := by nlinarith
    have hup : 64 * (u * p) ≤ 1 := by
      unfold radixCost at hcost1
      split at hcost1
      · rename_i h; subst h; norm_num; linarith
      · nlinarith
    set R := 9 / 8 * (m * M) with hR
    have huR : u * M ≤ u * R := mul_le_mul_of_nonneg_left (by linarith) hu0
    have U : Units u η B R := ⟨hu0, hu1, hη0, by linarith, by linarith, by linarith⟩
    have hBp : 4 * (p * R) ≤ B := by rw [hR]; linarith
    -- the exact transforms below are no larger than m * M
    have hsub : ∀ q, q < p → ∀ k, ‖dft m (fun j => cval v (cget A f (off + (q + j * p) * fstride))) k‖ ≤ m * M := by
      intro q hq k
      refine norm_dft_le (fun j hj => (hs _ (hin _ (stage_pos hq hj))).2.2) k
    -- from the partial transforms to the whole
    have hbf : ∀ out : List (Cpx S), (out.length = p * m ∧ ∀ q, q < p → ∀ k, k < m →
          (ok (cget A out (k + q * m)).r ∧ ok (cget A out (k + q * m)).i) ∧
          ‖cval v (cget A out (k + q * m)) - dft m (fun j => cval v (cget A f (off + (q + j * p) * fstride))) k‖ ≤
            9 * (m * M) * stageCost rest * u) →
        Det [] (butterfly A c st fstride m p out) (fun r => r.length = p * m ∧ ∀ k, k < p * m →
          (ok (cget A r k).r ∧ ok (cget A r k).i) ∧
          ‖cval v (cget A r k) - dft (p * m) (fun j => cval v (cget A f (off + j * fstride))) k‖ ≤
            9 * (p * m * M) * (radixCost p + stageCost rest) * u) := by
      rintro out ⟨hout, hval⟩
      have hsz : Sized A ok v R out := by
        intro i hi
        have hk : i % m < m := Nat.mod_lt _ hm
        have hq : i / m < p := by rw [Nat.div_lt_iff_lt_mul hm]; omega
        have hie : i = i % m + i / m * m := by rw [Nat.mul_comm]; exact (Nat.mod_add_div i m).symm
        generalize i % m = k at *
        generalize i / m = q at *
        subst hie
        obtain ⟨⟨a1, a2⟩, a3⟩ := hval q hq k hk
        refine ⟨a1, a2, ?_⟩
        have := norm_add_le (cval v (cget A out (k + q * m)) - dft m (fun j => cval v (cget A f (off + (q + j * p) * fstride))) k)
          (dft m (fun j => cval v (cget A f (off + (q + j * p) * fstride))) k)
        rw [sub_add_cancel] at this
        have h9 : 9 * (m * M) * stageCost rest * u ≤ 1 / 8 * (m * M) := by
          have : 9 * (stageCost rest * u) ≤ 1 / 8 := by linarith
          nlinarith
        have := hsub q hq k
        linarith
      refine Det.mono (butterfly_err H U c hp hm hN hf hout hint hsz hup hBp) ?_
      rintro r ⟨h1, h2⟩
      refine ⟨h1, ?_⟩
      intro K hK
      have hk : K % m < m := Nat.mod_lt _ hm
      have hq : K / m < p := by rw [Nat.div_lt_iff_lt_mul hm]; exact hK
      have hKe : K = K % m + K / m * m := by rw [Nat.mul_comm]; exact (Nat.mod_add_div K m).symm
      generalize K % m = k at *
      generalize K / m = q at *
      subst hKe
      obtain ⟨b1, b2⟩ := h2 k q hk hq
      refine ⟨b1, ?_⟩
      have hprop : ‖bflySum st.nfft fstride p (fun q => cval v (cget A out (k + q * m))) (k + q * m) -
          dft (p * m) (fun j => cval v (cget A f (off + j * fstride))) (k + q * m)‖ ≤ p * (9 * (m * M) * stageCost rest * u) := by
        rw [dft_step hp hm]
        unfold bflySum
        rw [← Finset.sum_sub_distrib]
        refine le_trans (norm_sum_le _ _) ?_
        refine le_trans (Finset.sum_le_sum (g := fun _ => 9 * (m * M) * stageCost rest * u) (fun q' hq' => ?_)) (le_of_eq (by simp))
        have hq' : q' < p := by simpa using hq'
        rw [show q' * (fstride * (k + q * m)) = fstride * (q' * (k + q * m)) by ring, hN, W_scale (by omega), ← sub_mul, norm_mul, norm_W, mul_one]
        exact (hval q' hq' k hk).2
      have := norm_add_le (cval v (cget A r (k + q * m)) - bflySum st.nfft fstride p (fun q => cval v (cget A out (k + q * m))) (k + q * m))
        (bflySum st.nfft fstride p (fun q => cval v (cget A out (k + q * m))) (k + q * m) -
          dft (p * m) (fun j => cval v (cget A f (off + j * fstride))) (k + q * m))
      rw [sub_add_sub_cancel] at this
      refine le_trans this (le_trans (add_le_add b2 hprop) (le_of_eq ?_))
      rw [hR]; ring
    by_cases h1 : m = 1
    · subst h1
      rw [if_pos rfl] at hrest ⊢
      subst hrest
      refine Det.bind (Det.mono (Det.collectM (len := 1) (P := fun k l => l = [cget A f (off + k * fstride)]) ?_) ?_) hbf
      · intro k hk
        have hk : k < p := by simpa using hk
        have := hin k (by omega)
        rw [Nat.mul_one]
        exact Det.lift (a := [cget A f (off + k * fstride)]) (by rw [rd_cget A this]; rfl) ⟨rfl, rfl⟩
      · rintro l ⟨hl, hP⟩
        refine ⟨by simpa using hl, ?_⟩
        intro q hq k hk
        obtain ⟨l', e1, e2⟩ := hP q (by simpa using hq)
        have e2 := e2 k hk
        have hk0 : k = 0 := by omega
        subst hk0
        have hg := hs _ (hin q (by omega))
        rw [cget_eq (A := A) e2, e1, dft_eq]
        simp only [List.getElem_range]
        refine ⟨⟨?_, ?_⟩, ?_⟩
        · simpa [cget] using hg.1
        · simpa [cget] using hg.2.1
        · simp [W_zero, cget, stageCost]
    · rw [if_neg h1] at hrest ⊢
      refine Det.bind (Det.mono (Det.collectM (len := m) (P := fun q l => ∀ k, k < m → (ok (cget A l k).r ∧ ok (cget A l k).i) ∧
          ‖cval v (cget A l k) - dft m (fun j => cval v (cget A f (off + (q + j * p) * fstride))) k‖ ≤ 9 * (m * M) * stageCost rest * u) ?_) ?_) hbf
      · intro k hk
        have hk : k < p := by simpa using hk
        rw [Nat.mul_one]
        refine Det.mono (ih hrest (by rw [hN, Nat.mul_assoc]) (Nat.mul_pos hf hp) ?_ hcost2 (by linarith)) ?_
        · intro j hj
          have := hin (k + j * p) (stage_pos hk hj)
          have e : (k + j * p) * fstride = k * fstride + j * (fstride * p) := by ring
          omega
        · rintro r ⟨hr1, hr2⟩
          refine ⟨hr1, ?_⟩
          intro i hi
          refine ⟨(hr2 i hi).1, ?_⟩
          have := (hr2 i hi).2
          have e : (fun j => cval v (cget A f (off + k * fstride + j * (fstride * p)))) = (fun j => cval v (cget A f (off + (k + j * p) * fstride))) := by
            funext j
            congr 2
            ring
          rwa [e] at this
      · rintro l ⟨hl, hP⟩
        refine ⟨by simpa using hl, ?_⟩
        intro q hq k hk
        obtain ⟨l', e1, e2⟩ := hP q (by simpa using hq)
        rw [cget_eq (A := A) (e2 k hk)]
        have := e1 k hk
        simpa using this

include H in
theorem kissFft_err (c : Cfg) {x : List (Cpx S)} {M : ℝ} (hint : 2 * st.nfft ≤ c.intMax) (hst : Stages st.nfft st.factors) (hx : st.nfft ≤ x.length)
    (hu0 : 0 ≤ u) (hu1 : u ≤ 1 / 1024) (hη0 : 0 ≤ η) (hη1 : 16 * η ≤ u * M) (hM : 0 ≤ M) (hs : Sized A ok v M x)
    (hcost : 72 * (u * stageCost st.factors) ≤ 1) (hB : 128 * (st.nfft * M) ≤ B) :
    Det [] (kissFft A c st x) (fun r => r.length = st.nfft ∧ ∀ k, k < st.nfft → (ok (cget A r k).r ∧ ok (cget A r k).i) ∧
      ‖cval v (cget A r k) - dft st.nfft (fun j => cval v (cget A x j)) k‖ ≤ 9 * (st.nfft * M) * stageCost st.factors * u) := by
  unfold kissFft
  refine Det.mono (kfWork_err H c hint hu0 hu1 hη0 hη1 hM hs st.factors (N := st.nfft) hst (by simp) Nat.one_pos ?_ hcost hB) ?_
  · intro k hk; omega
  · rintro r ⟨h1, h2⟩
    refine ⟨h1, fun k hk => ?_⟩
    simpa using h2 k hk

end

end Verif
