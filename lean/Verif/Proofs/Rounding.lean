import Verif.Proofs.FloatLemmas
import Verif.Spec.Fourier
import Verif.Spec.Basic
import Mathlib.Analysis.Complex.Norm

/-! # The error of rounded arithmetic -/

namespace Verif
open Spec

/-- Rounding is off by at most half a unit in the last place. -/
theorem Fmt.rnd_error (F : Fmt) (v : ℚ) : |F.rnd v - v| ≤ pow2 (-F.p) * |v| + pow2 (F.qmin - 1) := by
  have key : ∀ a : ℚ, 0 ≤ a → |F.rndAbs a - a| ≤ pow2 (-F.p) * a + pow2 (F.qmin - 1) := by
    intro a ha
    have hp := pow2_pos (-F.p : ℤ)
    have hq := pow2_pos (F.qmin - 1)
    rcases eq_or_lt_of_le ha with rfl | ha
    · have : F.rndAbs 0 = 0 := by simp [Fmt.rndAbs]
      rw [this]
      simp only [sub_zero, abs_zero, mul_zero, zero_add]
      exact hq.le
    · refine le_trans (F.rndAbs_err a) ?_
      have h1 := (ilog2_spec ha).1
      have e : pow2 F.qmin = 2 * pow2 (F.qmin - 1) := by rw [← pow2_succ, sub_add_cancel]
      have e2 : pow2 (ilog2 a - F.p + 1) = 2 * (pow2 (ilog2 a) * pow2 (-F.p)) := by rw [pow2_succ, sub_eq_add_neg, pow2_add]
      unfold Fmt.quantum
      rcases max_choice (ilog2 a - (F.p : ℤ) + 1) F.qmin with h | h
      · rw [h, e2]; nlinarith
      · rw [h, e]; nlinarith
  unfold Fmt.rnd
  split
  · rename_i h
    have := key (-v) (by linarith)
    rw [abs_of_neg h]
    rw [show -F.rndAbs (-v) - v = -(F.rndAbs (-v) - -v) by ring, abs_neg]
    exact this
  · rename_i h
    rw [abs_of_nonneg (not_lt.mp h)]
    exact key v (not_lt.mp h)

/-- Values up to half the largest power do not overflow. -/
theorem Fmt.rnd_lt (F : Fmt) (hF : F.WF) {v : ℚ} (h : |v| ≤ pow2 (F.emax - 1)) : |F.rnd v| < pow2 F.emax := by
  have h1 := hF.p_pos
  have h2 := hF.p_le
  have h3 := hF.qmin_le
  have hr : F.rnd (pow2 (F.emax - 1)) = pow2 (F.emax - 1) := by
    unfold Fmt.rnd
    rw [if_neg (not_lt.mpr (pow2_pos _).le)]
    exact F.rndAbs_pow2 h1 (by omega)
  obtain ⟨h4, h5⟩ := abs_le.mp h
  have a1 := F.rnd_mono h1 h5
  have a2 := F.rnd_mono h1 h4
  rw [hr] at a1
  rw [Fmt.rnd_neg, hr] at a2
  exact lt_of_le_of_lt (abs_le.mpr ⟨a2, a1⟩) (pow2_lt (by omega))

/-- A finite float whose sign bit agrees with its value. -/
def Fin (x : Fl) : Prop := ∃ b v, x = .fin b v ∧ (v ≠ 0 → b = decide (v < 0))

theorem Fmt.deliver_near (F : Fmt) (hF : F.WF) (s : Bool) {v : ℚ} (h : |v| ≤ pow2 (F.emax - 1)) :
    Fin (F.deliver s v) ∧ |val (F.deliver s v) - v| ≤ pow2 (-F.p) * |v| + pow2 (F.qmin - 1) := by
  unfold Fmt.deliver
  split
  · rename_i h0
    subst h0
    refine ⟨⟨s, 0, rfl, fun h => absurd rfl h⟩, ?_⟩
    simp only [val, sub_zero, abs_zero, mul_zero, zero_add]
    exact (pow2_pos _).le
  · rename_i h0
    simp only
    rw [if_neg (not_le.mpr (F.rnd_lt hF h))]
    refine ⟨⟨_, _, rfl, ?_⟩, F.rnd_error v⟩
    intro hr
    rcases lt_or_gt_of_ne h0 with hv | hv
    · have : F.rnd v ≤ 0 := by
        have := F.rnd_nonneg (v := -v) (by linarith)
        rw [Fmt.rnd_neg] at this
        linarith
      have : F.rnd v < 0 := lt_of_le_of_ne this hr
      simp [hv, this]
    · have : 0 ≤ F.rnd v := F.rnd_nonneg hv.le
      simp [not_lt.mpr hv.le, not_lt.mpr this]

/-- The value of a float as a real number. -/
noncomputable def rval (x : Fl) : ℝ := ((val x : ℚ) : ℝ)

/-- An arithmetic whose operations are off by at most `u` times the result plus `η` as long as results stay below `B`, and whose tables
are within `u` of the exact ones. -/
structure Rounded {S : Type} (A : Arith S) (ok : S → Prop) (v : S → ℝ) (u η B : ℝ) : Prop where
  add : ∀ {a b}, ok a → ok b → |v a + v b| ≤ B → ok (A.add a b) ∧ |v (A.add a b) - (v a + v b)| ≤ u * |v a + v b| + η
  sub : ∀ {a b}, ok a → ok b → |v a - v b| ≤ B → ok (A.sub a b) ∧ |v (A.sub a b) - (v a - v b)| ≤ u * |v a - v b| + η
  mul : ∀ {a b}, ok a → ok b → |v a * v b| ≤ B → ok (A.mul a b) ∧ |v (A.mul a b) - v a * v b| ≤ u * |v a * v b| + η
  neg : ∀ {a}, ok a → ok (A.neg a) ∧ v (A.neg a) = -v a
  zero : ok A.zero ∧ v A.zero = 0
  half : ok A.half ∧ v A.half = 1 / 2
  load : ∀ {a}, ok a → |v a| ≤ B → ok (A.load a) ∧ |v (A.load a) - v a| ≤ u * |v a| + η
  store : ∀ {a}, ok a → |v a| ≤ B → ok (A.store a) ∧ |v (A.store a) - v a| ≤ u * |v a| + η
  tw : ∀ n k, k < n → (ok (A.twiddle n k).r ∧ ok (A.twiddle n k).i) ∧
    |v (A.twiddle n k).r - (exact.twiddle n k).r| ≤ u ∧ |v (A.twiddle n k).i - (exact.twiddle n k).i| ≤ u
  stw : ∀ n k, k < n / 2 → (ok (A.superTwiddle n k).r ∧ ok (A.superTwiddle n k).i) ∧
    |v (A.superTwiddle n k).r - (exact.superTwiddle n k).r| ≤ u ∧ |v (A.superTwiddle n k).i - (exact.superTwiddle n k).i| ≤ u
  sh : ∀ n k, k < n → (ok (A.shift n k).r ∧ ok (A.shift n k).i) ∧
    |v (A.shift n k).r - (exact.shift n k).r| ≤ u ∧ |v (A.shift n k).i - (exact.shift n k).i| ≤ u

section
variable {S : Type} {A : Arith S} {ok : S → Prop} {v : S → ℝ} {u η B R : ℝ}

/-- The complex number behind a pair. -/
def cval (v : S → ℝ) (z : Cpx S) : ℂ := ⟨v z.r, v z.i⟩

/-- `z` is a number no further than `e` from `x`, which is at most `m`. -/
structure Ap (ok : S → Prop) (v : S → ℝ) (e m : ℝ) (z : Cpx S) (x : ℂ) : Prop where
  r : ok z.r
  i : ok z.i
  err : ‖cval v z - x‖ ≤ e
  size : ‖x‖ ≤ m

theorem norm_le_of_parts {z : ℂ} {e : ℝ} (he : 0 ≤ e) (h : z.re ^ 2 + z.im ^ 2 ≤ e ^ 2) : ‖z‖ ≤ e := by
  refine abs_le_of_sq_le_sq' ?_ he |>.2
  rw [Complex.sq_norm, Complex.normSq_apply]
  nlinarith

theorem parts_sq (z : ℂ) : z.re ^ 2 + z.im ^ 2 = ‖z‖ ^ 2 := by
  rw [Complex.sq_norm, Complex.normSq_apply]; ring

/-- Errors of both parts in proportion to the parts. -/
theorem norm_err {z : ℂ} {a b : ℝ} (hu : 0 ≤ u) (hη : 0 ≤ η) (h1 : |a - z.re| ≤ u * |z.re| + η) (h2 : |b - z.im| ≤ u * |z.im| + η) :
    ‖(⟨a, b⟩ : ℂ) - z‖ ≤ u * ‖z‖ + 2 * η := by
  have hz := norm_nonneg z
  refine norm_le_of_parts (by positivity) ?_
  have e1 : ((⟨a, b⟩ : ℂ) - z).re = a - z.re := rfl
  have e2 : ((⟨a, b⟩ : ℂ) - z).im = b - z.im := rfl
  rw [e1, e2]
  have s1 : (a - z.re) ^ 2 ≤ (u * |z.re| + η) ^ 2 := sq_le_sq' (by linarith [neg_abs_le (a - z.re)]) (le_trans (le_abs_self _) h1)
  have s2 : (b - z.im) ^ 2 ≤ (u * |z.im| + η) ^ 2 := sq_le_sq' (by linarith [neg_abs_le (b - z.im)]) (le_trans (le_abs_self _) h2)
  have p := parts_sq z
  have q1 := Complex.abs_re_le_norm z
  have q2 := Complex.abs_im_le_norm z
  have t1 := sq_abs z.re
  have t2 := sq_abs z.im
  have h3 : 0 ≤ u * η := mul_nonneg hu hη
  have h4 := mul_le_mul_of_nonneg_left q1 h3
  have h5 := mul_le_mul_of_nonneg_left q2 h3
  have h6 : u ^ 2 * (|z.re| ^ 2 + |z.im| ^ 2) = u ^ 2 * ‖z‖ ^ 2 := by rw [t1, t2, p]
  nlinarith [sq_nonneg η]

theorem Ap.le (h : Ap ok v e m z x) : ‖cval v z‖ ≤ m + e := by
  have := norm_add_le (cval v z - x) x
  rw [sub_add_cancel] at this
  linarith [h.err, h.size]

theorem Ap.mono {e m e' m' : ℝ} {z : Cpx S} {x : ℂ} (h : Ap ok v e m z x) (he : e ≤ e') (hm : m ≤ m') : Ap ok v e' m' z x :=
  ⟨h.r, h.i, h.err.trans he, h.size.trans hm⟩

/-- Any operation on both parts: if the parts of `w` are those of `y` up to rounding, and `y` is near `x`. -/
theorem Ap.of_parts {w : Cpx S} {x y : ℂ} {e m : ℝ} (hu : 0 ≤ u) (hη : 0 ≤ η) (h1 : ok w.r ∧ |v w.r - y.re| ≤ u * |y.re| + η)
    (h2 : ok w.i ∧ |v w.i - y.im| ≤ u * |y.im| + η) (hy : ‖y - x‖ ≤ e) (hx : ‖x‖ ≤ m) :
    Ap ok v (e + u * (m + e) + 2 * η) m w x := by
  refine ⟨h1.1, h2.1, ?_, hx⟩
  have h3 : ‖cval v w - y‖ ≤ u * ‖y‖ + 2 * η := norm_err hu hη h1.2 h2.2
  have h4 : ‖y‖ ≤ m + e := by
    have := norm_add_le (y - x) x
    rw [sub_add_cancel] at this
    linarith
  have h5 : cval v w - x = (cval v w - y) + (y - x) := by ring
  rw [h5]
  refine le_trans (norm_add_le _ _) ?_
  nlinarith

variable (H : Rounded A ok v u η B) (hu : 0 ≤ u) (hη : 0 ≤ η)
include H hu hη

theorem Ap.add {a b : Cpx S} {x y : ℂ} {e m e' m' : ℝ} (ha : Ap ok v e m a x) (hb : Ap ok v e' m' b y) (hB : m + m' + (e + e') ≤ B) :
    Ap ok v (e + e' + u * (m + m' + (e + e')) + 2 * η) (m + m') (A.cAdd a b) (x + y) := by
  have hn : ‖cval v a + cval v b‖ ≤ B := le_trans (norm_add_le _ _) (by linarith [ha.le, hb.le])
  refine Ap.of_parts (y := cval v a + cval v b) hu hη (H.add ha.r hb.r (le_trans (Complex.abs_re_le_norm (cval v a + cval v b)) hn))
    (H.add ha.i hb.i (le_trans (Complex.abs_im_le_norm (cval v a + cval v b)) hn)) ?_ (le_trans (norm_add_le _ _) (add_le_add ha.size hb.size))
  rw [show cval v a + cval v b - (x + y) = (cval v a - x) + (cval v b - y) by ring]
  exact le_trans (norm_add_le _ _) (add_le_add ha.err hb.err)

theorem Ap.sub {a b : Cpx S} {x y : ℂ} {e m e' m' : ℝ} (ha : Ap ok v e m a x) (hb : Ap ok v e' m' b y) (hB : m + m' + (e + e') ≤ B) :
    Ap ok v (e + e' + u * (m + m' + (e + e')) + 2 * η) (m + m') (A.cSub a b) (x - y) := by
  have hn : ‖cval v a - cval v b‖ ≤ B := le_trans (norm_sub_le _ _) (by linarith [ha.le, hb.le])
  refine Ap.of_parts (y := cval v a - cval v b) hu hη (H.sub ha.r hb.r (le_trans (Complex.abs_re_le_norm (cval v a - cval v b)) hn))
    (H.sub ha.i hb.i (le_trans (Complex.abs_im_le_norm (cval v a - cval v b)) hn)) ?_ (le_trans (norm_sub_le _ _) (add_le_add ha.size hb.size))
  rw [show cval v a - cval v b - (x - y) = (cval v a - x) - (cval v b - y) by ring]
  exact le_trans (norm_sub_le _ _) (add_le_add ha.err hb.err)

/-- `a - i b` -/
theorem Ap.subI {a b : Cpx S} {x y : ℂ} {e m e' m' : ℝ} (ha : Ap ok v e m a x) (hb : Ap ok v e' m' b y) (hB : m + m' + (e + e') ≤ B) :
    Ap ok v (e + e' + u * (m + m' + (e + e')) + 2 * η) (m + m') ⟨A.add a.r b.i, A.sub a.i b.r⟩ (x - Complex.I * y) := by
  have hI : ∀ z : ℂ, ‖Complex.I * z‖ = ‖z‖ := fun z => by rw [norm_mul, Complex.norm_I, one_mul]
  have hn : ‖cval v a - Complex.I * cval v b‖ ≤ B := le_trans (norm_sub_le _ _) (by rw [hI]; linarith [ha.le, hb.le])
  have e1 : (cval v a - Complex.I * cval v b).re = v a.r + v b.i := by simp [cval]
  have e2 : (cval v a - Complex.I * cval v b).im = v a.i - v b.r := by simp [cval]
  refine Ap.of_parts (y := cval v a - Complex.I * cval v b) hu hη ?_ ?_ ?_
    (le_trans (norm_sub_le _ _) (add_le_add ha.size (by rw [hI]; exact hb.size)))
  · rw [e1]; exact H.add ha.r hb.i (by rw [← e1]; exact le_trans (Complex.abs_re_le_norm _) hn)
  · rw [e2]; exact H.sub ha.i hb.r (by rw [← e2]; exact le_trans (Complex.abs_im_le_norm _) hn)
  · rw [show cval v a - Complex.I * cval v b - (x - Complex.I * y) = (cval v a - x) - Complex.I * (cval v b - y) by ring]
    exact le_trans (norm_sub_le _ _) (add_le_add ha.err (by rw [hI]; exact hb.err))

/-- `a + i b` -/
theorem Ap.addI {a b : Cpx S} {x y : ℂ} {e m e' m' : ℝ} (ha : Ap ok v e m a x) (hb : Ap ok v e' m' b y) (hB : m + m' + (e + e') ≤ B) :
    Ap ok v (e + e' + u * (m + m' + (e + e')) + 2 * η) (m + m') ⟨A.sub a.r b.i, A.add a.i b.r⟩ (x + Complex.I * y) := by
  have hI : ∀ z : ℂ, ‖Complex.I * z‖ = ‖z‖ := fun z => by rw [norm_mul, Complex.norm_I, one_mul]
  have hn : ‖cval v a + Complex.I * cval v b‖ ≤ B := le_trans (norm_add_le _ _) (by rw [hI]; linarith [ha.le, hb.le])
  have e1 : (cval v a + Complex.I * cval v b).re = v a.r - v b.i := by simp [cval]; ring
  have e2 : (cval v a + Complex.I * cval v b).im = v a.i + v b.r := by simp [cval]
  refine Ap.of_parts (y := cval v a + Complex.I * cval v b) hu hη ?_ ?_ ?_
    (le_trans (norm_add_le _ _) (add_le_add ha.size (by rw [hI]; exact hb.size)))
  · rw [e1]; exact H.sub ha.r hb.i (by rw [← e1]; exact le_trans (Complex.abs_re_le_norm _) hn)
  · rw [e2]; exact H.add ha.i hb.r (by rw [← e2]; exact le_trans (Complex.abs_im_le_norm _) hn)
  · rw [show cval v a + Complex.I * cval v b - (x + Complex.I * y) = (cval v a - x) + Complex.I * (cval v b - y) by ring]
    exact le_trans (norm_add_le _ _) (add_le_add ha.err (by rw [hI]; exact hb.err))

/-- The conjugate of `a - b` -/
theorem Ap.subConj {a b : Cpx S} {x y : ℂ} {e m e' m' : ℝ} (ha : Ap ok v e m a x) (hb : Ap ok v e' m' b y) (hB : m + m' + (e + e') ≤ B) :
    Ap ok v (e + e' + u * (m + m' + (e + e')) + 2 * η) (m + m') ⟨A.sub a.r b.r, A.sub b.i a.i⟩ ((starRingEnd ℂ) (x - y)) := by
  have hn : ‖cval v a - cval v b‖ ≤ B := le_trans (norm_sub_le _ _) (by linarith [ha.le, hb.le])
  have e1 : ((starRingEnd ℂ) (cval v a - cval v b)).re = v a.r - v b.r := by simp [cval]
  have e2 : ((starRingEnd ℂ) (cval v a - cval v b)).im = v b.i - v a.i := by simp [cval]; ring
  refine Ap.of_parts (y := (starRingEnd ℂ) (cval v a - cval v b)) hu hη ?_ ?_ ?_ ?_
  · rw [e1]; exact H.sub ha.r hb.r (le_trans (Complex.abs_re_le_norm (cval v a - cval v b)) hn)
  · rw [e2]
    refine H.sub hb.i ha.i ?_
    rw [abs_sub_comm]
    exact le_trans (Complex.abs_im_le_norm (cval v a - cval v b)) hn
  · rw [← map_sub, Complex.norm_conj, show cval v a - cval v b - (x - y) = (cval v a - x) - (cval v b - y) by ring]
    exact le_trans (norm_sub_le _ _) (add_le_add ha.err hb.err)
  · rw [Complex.norm_conj]
    exact le_trans (norm_sub_le _ _) (add_le_add ha.size hb.size)

/-- A real factor. -/
theorem Ap.scale {a : Cpx S} {s : S} {x : ℂ} {σ e m d : ℝ} (ha : Ap ok v e m a x) (hs : ok s) (hd : |v s - σ| ≤ d) (hσ : |σ| ≤ 1) (hd1 : d ≤ 1)
    (hB : 2 * (m + e) ≤ B) :
    Ap ok v (e + d * (m + e) + u * (m + (e + d * (m + e))) + 2 * η) m ⟨A.mul a.r s, A.mul a.i s⟩ (x * σ) := by
  have hd0 : 0 ≤ d := le_trans (abs_nonneg _) hd
  have hv : |v s| ≤ 2 := by
    have := abs_add_le (v s - σ) σ
    rw [sub_add_cancel] at this
    linarith
  have hle := ha.le
  have hy : ‖cval v a * (v s : ℂ)‖ ≤ B := by
    rw [norm_mul, Complex.norm_real, Real.norm_eq_abs]
    have := mul_le_mul hle hv (abs_nonneg _) (le_trans (norm_nonneg _) hle)
    linarith
  have e1 : (cval v a * (v s : ℂ)).re = v a.r * v s := by simp [cval]
  have e2 : (cval v a * (v s : ℂ)).im = v a.i * v s := by simp [cval]
  refine Ap.of_parts (y := cval v a * (v s : ℂ)) hu hη ?_ ?_ ?_ ?_
  · rw [e1]; exact H.mul ha.r hs (by rw [← e1]; exact le_trans (Complex.abs_re_le_norm _) hy)
  · rw [e2]; exact H.mul ha.i hs (by rw [← e2]; exact le_trans (Complex.abs_im_le_norm _) hy)
  · rw [show cval v a * (v s : ℂ) - x * σ = cval v a * ((v s - σ : ℝ) : ℂ) + (cval v a - x) * (σ : ℂ) by push_cast; ring]
    refine le_trans (norm_add_le _ _) ?_
    rw [norm_mul, norm_mul, Complex.norm_real, Complex.norm_real, Real.norm_eq_abs, Real.norm_eq_abs]
    have h1 : ‖cval v a‖ * |v s - σ| ≤ (m + e) * d := mul_le_mul hle hd (abs_nonneg _) (le_trans (norm_nonneg _) hle)
    have h2 : ‖cval v a - x‖ * |σ| ≤ e * 1 := mul_le_mul ha.err hσ (abs_nonneg _) (le_trans (norm_nonneg _) ha.err)
    linarith
  · rw [norm_mul, Complex.norm_real, Real.norm_eq_abs]
    have := mul_le_mul ha.size hσ (abs_nonneg _) (le_trans (norm_nonneg _) ha.size)
    linarith

/-- A factor from a table. -/
theorem Ap.mul {a w : Cpx S} {x ω : ℂ} {e m : ℝ} (ha : Ap ok v e m a x) (hw : ok w.r ∧ ok w.i) (h1 : |v w.r - ω.re| ≤ u)
    (h2 : |v w.i - ω.im| ≤ u) (hω : ‖ω‖ ≤ 1) (hu1 : u ≤ 1 / 64) (hB : 4 * (m + e) + 4 * η ≤ B) :
    Ap ok v (e + 7 * (u * (m + e)) + 8 * η) m (A.cMul a w) (x * ω) := by
  have hle := ha.le
  have hnn := norm_nonneg (cval v a)
  -- the table
  have hd : ‖cval v w - ω‖ ≤ 2 * u := by
    refine le_trans (Complex.norm_le_abs_re_add_abs_im _) ?_
    have : |(cval v w - ω).re| ≤ u := h1
    have : |(cval v w - ω).im| ≤ u := h2
    linarith
  have hw1 : ‖cval v w‖ ≤ 1 + 2 * u := by
    have := norm_add_le (cval v w - ω) ω
    rw [sub_add_cancel] at this
    linarith
  have hwn := norm_nonneg (cval v w)
  -- sums of products
  have cs : ∀ p q s t P Q : ℝ, 0 ≤ P → 0 ≤ Q → p ^ 2 + q ^ 2 = P ^ 2 → s ^ 2 + t ^ 2 = Q ^ 2 → |p * s| + |q * t| ≤ P * Q := by
    intro p q s t P Q hP hQ h h'
    refine abs_le_of_sq_le_sq' ?_ (mul_nonneg hP hQ) |>.2
    rw [abs_mul, abs_mul, mul_pow, ← h, ← h', ← sq_abs p, ← sq_abs q, ← sq_abs s, ← sq_abs t]
    nlinarith [sq_nonneg (|p| * |t| - |q| * |s|)]
  have pa : (v a.r) ^ 2 + (v a.i) ^ 2 = ‖cval v a‖ ^ 2 := parts_sq (cval v a)
  have pw : (v w.r) ^ 2 + (v w.i) ^ 2 = ‖cval v w‖ ^ 2 := parts_sq (cval v w)
  have c1 := cs _ _ _ _ _ _ hnn hwn pa pw
  have c2 := cs _ _ (v w.i) (v w.r) _ _ hnn hwn pa (by linarith)
  have hP : ‖cval v a‖ * ‖cval v w‖ ≤ (m + e) * (1 + 2 * u) := mul_le_mul hle hw1 hwn (le_trans hnn hle)
  set P := (m + e) * (1 + 2 * u) with hPdef
  have hP0 : 0 ≤ P := le_trans (mul_nonneg hnn hwn) hP
  have hme : 0 ≤ m + e := le_trans hnn hle
  have hP2 : P ≤ 2 * (m + e) := by rw [hPdef]; nlinarith
  -- one component
  have comp : ∀ a1 b1 a2 b2 : S, ok a1 → ok b1 → ok a2 → ok b2 → |v a1 * v b1| + |v a2 * v b2| ≤ P →
      (ok (A.sub (A.mul a1 b1) (A.mul a2 b2)) ∧ |v (A.sub (A.mul a1 b1) (A.mul a2 b2)) - (v a1 * v b1 - v a2 * v b2)| ≤ u * (2 + u) * P + 4 * η) ∧
      (ok (A.add (A.mul a1 b1) (A.mul a2 b2)) ∧ |v (A.add (A.mul a1 b1) (A.mul a2 b2)) - (v a1 * v b1 + v a2 * v b2)| ≤ u * (2 + u) * P + 4 * η) := by
    intro a1 b1 a2 b2 o1 o2 o3 o4 hp
    obtain ⟨k1, f1⟩ := H.mul o1 o2 (by linarith [abs_nonneg (v a2 * v b2)])
    obtain ⟨k2, f2⟩ := H.mul o3 o4 (by linarith [abs_nonneg (v a1 * v b1)])
    set m1 := v (A.mul a1 b1)
    set m2 := v (A.mul a2 b2)
    have n1 : |m1| ≤ |v a1 * v b1| + (u * |v a1 * v b1| + η) := by
      have := abs_add_le (m1 - v a1 * v b1) (v a1 * v b1)
      rw [sub_add_cancel] at this
      linarith
    have n2 : |m2| ≤ |v a2 * v b2| + (u * |v a2 * v b2| + η) := by
      have := abs_add_le (m2 - v a2 * v b2) (v a2 * v b2)
      rw [sub_add_cancel] at this
      linarith
    have hup := mul_le_mul_of_nonneg_left hp hu
    have huP : u * P ≤ 1 / 64 * P := mul_le_mul_of_nonneg_right hu1 hP0
    have nn : |m1| + |m2| ≤ P + u * P + 2 * η := by linarith
    have nb : |m1| + |m2| ≤ B := by linarith
    have huη : u * η ≤ 1 / 64 * η := mul_le_mul_of_nonneg_right hu1 hη
    constructor
    · obtain ⟨k3, f3⟩ := H.sub k1 k2 (le_trans (abs_sub _ _) nb)
      refine ⟨k3, ?_⟩
      have t : u * |m1 - m2| ≤ u * (P + u * P + 2 * η) := mul_le_mul_of_nonneg_left (le_trans (abs_sub _ _) nn) hu
      rw [show v (A.sub (A.mul a1 b1) (A.mul a2 b2)) - (v a1 * v b1 - v a2 * v b2) =
        (v (A.sub (A.mul a1 b1) (A.mul a2 b2)) - (m1 - m2)) + ((m1 - v a1 * v b1) - (m2 - v a2 * v b2)) by ring]
      refine le_trans (abs_add_le _ _) ?_
      have := abs_sub (m1 - v a1 * v b1) (m2 - v a2 * v b2)
      linarith
    · obtain ⟨k3, f3⟩ := H.add k1 k2 (le_trans (abs_add_le _ _) nb)
      refine ⟨k3, ?_⟩
      have t : u * |m1 + m2| ≤ u * (P + u * P + 2 * η) := mul_le_mul_of_nonneg_left (le_trans (abs_add_le _ _) nn) hu
      rw [show v (A.add (A.mul a1 b1) (A.mul a2 b2)) - (v a1 * v b1 + v a2 * v b2) =
        (v (A.add (A.mul a1 b1) (A.mul a2 b2)) - (m1 + m2)) + ((m1 - v a1 * v b1) + (m2 - v a2 * v b2)) by ring]
      refine le_trans (abs_add_le _ _) ?_
      have := abs_add_le (m1 - v a1 * v b1) (m2 - v a2 * v b2)
      linarith
  obtain ⟨⟨r1, r2⟩, _⟩ := comp a.r w.r a.i w.i ha.r hw.1 ha.i hw.2 (le_trans c1 hP)
  obtain ⟨_, ⟨i1, i2⟩⟩ := comp a.r w.i a.i w.r ha.r hw.2 ha.i hw.1 (le_trans c2 hP)
  refine ⟨r1, i1, ?_, ?_⟩
  · have hloc : ‖cval v (A.cMul a w) - cval v a * cval v w‖ ≤ 2 * (u * (2 + u) * P) + 8 * η := by
      refine le_trans (Complex.norm_le_abs_re_add_abs_im _) ?_
      have e1 : |(cval v (A.cMul a w) - cval v a * cval v w).re| ≤ u * (2 + u) * P + 4 * η := r2
      have e2 : |(cval v (A.cMul a w) - cval v a * cval v w).im| ≤ u * (2 + u) * P + 4 * η := i2
      linarith
    rw [show cval v (A.cMul a w) - x * ω = (cval v (A.cMul a w) - cval v a * cval v w) + (cval v a * (cval v w - ω) + (cval v a - x) * ω) by ring]
    refine le_trans (norm_add_le _ _) (le_trans (add_le_add hloc (norm_add_le _ _)) ?_)
    rw [norm_mul, norm_mul]
    have t1 : ‖cval v a‖ * ‖cval v w - ω‖ ≤ (m + e) * (2 * u) := mul_le_mul hle hd (norm_nonneg _) hme
    have t2 : ‖cval v a - x‖ * ‖ω‖ ≤ e * 1 := mul_le_mul ha.err hω (norm_nonneg _) (le_trans (norm_nonneg _) ha.err)
    have t3 : u * (2 + u) * P ≤ u * (m + e) * (5 / 2) := by
      rw [hPdef, show u * (2 + u) * ((m + e) * (1 + 2 * u)) = u * (m + e) * ((2 + u) * (1 + 2 * u)) by ring]
      refine mul_le_mul_of_nonneg_left ?_ (mul_nonneg hu hme)
      nlinarith
    linarith
  · rw [norm_mul]
    have := mul_le_mul ha.size hω (norm_nonneg _) (le_trans (norm_nonneg _) ha.size)
    linarith

end

end Verif
