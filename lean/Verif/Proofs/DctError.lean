import Verif.Proofs.KissError

/-! # The error of the real transform and the cosine transform -/

namespace Verif
open Spec Complex

section
variable {S : Type} {A : Arith S} {ok : S → Prop} {v : S → ℝ} {u η B R : ℝ}

/-- Element `i` of an array of scalars, zero outside. -/
def sget (A : Arith S) (l : List S) (i : ℕ) : S := (l[i]?).getD A.zero

theorem pairs_sget (l : List S) (j : ℕ) (h : 2 * j + 1 < l.length) : cget A (pairs l) j = ⟨sget A l (2 * j), sget A l (2 * j + 1)⟩ := by
  induction l using pairs.induct generalizing j with
  | case1 a b rest ih =>
    cases j with
    | zero => simp [pairs, cget, sget]
    | succ j =>
      have := ih j (by simp only [List.length_cons] at h; omega)
      rw [pairs]
      unfold cget sget at this ⊢
      rw [show 2 * (j + 1) = 2 * j + 2 by ring, List.getElem?_cons_succ, this]
      simp
  | case2 t ht =>
    match t, ht with
    | [], _ => simp at h
    | [a], _ => simp at h
    | a :: b :: r, ht => exact absurd rfl (ht a b r)

/-- One step of the unpacking, for complex numbers. -/
noncomputable def unpack1 (x y ω : ℂ) : ℂ := ((x + (starRingEnd ℂ) y) + (x - (starRingEnd ℂ) y) * ω) * ((1 / 2 : ℝ) : ℂ)
noncomputable def unpack2 (x y ω : ℂ) : ℂ := (starRingEnd ℂ) ((x + (starRingEnd ℂ) y) - (x - (starRingEnd ℂ) y) * ω) * ((1 / 2 : ℝ) : ℂ)

theorem fftrStep_exact (s a b : Cpx ℝ) : (fftrStep exact s a b).1.toC = unpack1 a.toC b.toC s.toC ∧
    (fftrStep exact s a b).2.toC = unpack2 a.toC b.toC s.toC := by
  constructor <;> apply Complex.ext <;>
    simp [unpack1, unpack2, fftrStep, Arith.halfOf, Arith.cAdd, Arith.cSub, Arith.cMul, Cpx.toC, exact] <;> ring

theorem unpack_diff {x y x' y' ω : ℂ} {E : ℝ} (hω : ‖ω‖ ≤ 1) (hx : ‖x - x'‖ ≤ E) (hy : ‖y - y'‖ ≤ E) :
    ‖unpack1 x y ω - unpack1 x' y' ω‖ ≤ 2 * E ∧ ‖unpack2 x y ω - unpack2 x' y' ω‖ ≤ 2 * E := by
  have hE : 0 ≤ E := le_trans (norm_nonneg _) hx
  have hc : ‖(starRingEnd ℂ) (y - y')‖ ≤ E := by rw [Complex.norm_conj]; exact hy
  have h1 : ‖(x - x') + (starRingEnd ℂ) (y - y')‖ ≤ 2 * E := le_trans (norm_add_le _ _) (by linarith)
  have h2 : ‖((x - x') - (starRingEnd ℂ) (y - y')) * ω‖ ≤ 2 * E := by
    rw [norm_mul]
    have : ‖(x - x') - (starRingEnd ℂ) (y - y')‖ ≤ 2 * E := le_trans (norm_sub_le _ _) (by linarith)
    have := mul_le_mul this hω (norm_nonneg _) (by linarith)
    linarith
  have hn : ‖(((1 / 2 : ℝ)) : ℂ)‖ = 1 / 2 := by rw [Complex.norm_real, Real.norm_eq_abs, abs_of_nonneg (by norm_num)]
  constructor
  · rw [show unpack1 x y ω - unpack1 x' y' ω =
      (((x - x') + (starRingEnd ℂ) (y - y')) + ((x - x') - (starRingEnd ℂ) (y - y')) * ω) * ((1 / 2 : ℝ) : ℂ) by
        unfold unpack1; simp only [map_sub]; ring, norm_mul, hn]
    have := norm_add_le ((x - x') + (starRingEnd ℂ) (y - y')) (((x - x') - (starRingEnd ℂ) (y - y')) * ω)
    linarith
  · rw [show unpack2 x y ω - unpack2 x' y' ω =
      (starRingEnd ℂ) (((x - x') + (starRingEnd ℂ) (y - y')) - ((x - x') - (starRingEnd ℂ) (y - y')) * ω) * ((1 / 2 : ℝ) : ℂ) by
        unfold unpack2; simp only [map_sub, map_add, map_mul]; ring, norm_mul, hn, Complex.norm_conj]
    have := norm_sub_le ((x - x') + (starRingEnd ℂ) (y - y')) (((x - x') - (starRingEnd ℂ) (y - y')) * ω)
    linarith

/-- The spectrum at both ends. -/
theorem dft_ends {n : ℕ} (hn0 : n ≠ 0) (x : ℕ → ℝ) :
    dft (2 * n) (fun j => (x j : ℂ)) 0 = (((dft n (fun j => (⟨x (2 * j), x (2 * j + 1)⟩ : ℂ)) 0).re +
      (dft n (fun j => (⟨x (2 * j), x (2 * j + 1)⟩ : ℂ)) 0).im : ℝ) : ℂ) ∧
    dft (2 * n) (fun j => (x j : ℂ)) n = (((dft n (fun j => (⟨x (2 * j), x (2 * j + 1)⟩ : ℂ)) 0).re -
      (dft n (fun j => (⟨x (2 * j), x (2 * j + 1)⟩ : ℂ)) 0).im : ℝ) : ℂ) := by
  have hE0 : dft n (fun j => (⟨x (2 * j), x (2 * j + 1)⟩ : ℂ)) 0 = (∑ j ∈ Finset.range n, (x (2 * j) : ℂ)) +
      Complex.I * ∑ j ∈ Finset.range n, (x (2 * j + 1) : ℂ) := by
    rw [dft_eq, Finset.mul_sum, ← Finset.sum_add_distrib]
    refine Finset.sum_congr rfl (fun j _ => ?_)
    rw [Nat.mul_zero, W_zero, mul_one]
    apply Complex.ext <;> simp
  have hr := congrArg Complex.re hE0
  have hi := congrArg Complex.im hE0
  constructor
  · rw [dft_double hn0, dft_eq n (fun j => (x (2 * j) : ℂ)), dft_eq n (fun j => (x (2 * j + 1) : ℂ)), hr, hi]
    simp only [Nat.mul_zero, W_zero, mul_one, one_mul]
    simp only [← Complex.ofReal_sum]
    simp
  · have e2 : W (2 * n) n = -1 := by
      have := W_scale hn0 2 1
      rw [Nat.mul_one, Nat.mul_comm, W_two_one] at this
      exact this
    rw [dft_double hn0, dft_eq n (fun j => (x (2 * j) : ℂ)), dft_eq n (fun j => (x (2 * j + 1) : ℂ)), hr, hi, e2]
    have e3 : ∀ j, W n (j * n) = 1 := fun j => by rw [Nat.mul_comm]; exact W_mul_self hn0 j
    simp only [e3, mul_one]
    simp only [← Complex.ofReal_sum]
    simp
    ring

variable (H : Rounded A ok v u η B)
include H

theorem fftr_au (U : Units u η B R) {a b s : Cpx S} {x y ω : ℂ} (ha : Au ok v u R 0 1 a x) (hb : Au ok v u R 0 1 b y)
    (hs : (ok s.r ∧ ok s.i) ∧ |v s.r - ω.re| ≤ u ∧ |v s.i - ω.im| ≤ u) (hω : ‖ω‖ ≤ 1) :
    Au ok v u R 35 4 (fftrStep A s a b).1 (unpack1 x y ω) ∧ Au ok v u R 35 4 (fftrStep A s a b).2 (unpack2 x y ω) := by
  have hb' : Au ok v u R 0 1 ⟨b.r, A.neg b.i⟩ ((starRingEnd ℂ) y) := by
    obtain ⟨n1, n2⟩ := H.neg hb.i
    refine ⟨hb.r, n1, ?_, by rw [Complex.norm_conj]; exact hb.size⟩
    have : cval v ⟨b.r, A.neg b.i⟩ = (starRingEnd ℂ) (cval v b) := by apply Complex.ext <;> simp [cval, n2]
    rw [this, ← map_sub, Complex.norm_conj]
    exact hb.err
  have f1 := Au.add H U ha hb' (by norm_num) (by norm_num)
  have f2 := Au.sub H U ha hb' (by norm_num) (by norm_num)
  have t := Au.mul H U f2 hs hω (by norm_num) (by norm_num)
  have hh : |v A.half - 1 / 2| ≤ u := by rw [H.half.2]; simpa using U.u0
  have r1 := Au.scale H U (Au.add H U f1 t (by norm_num) (by norm_num)) H.half.1 hh (by rw [abs_of_nonneg] <;> norm_num) (by norm_num) (by norm_num)
  have r2 := Au.scale H U (Au.subConj H U f1 t (by norm_num) (by norm_num)) H.half.1 hh (by rw [abs_of_nonneg] <;> norm_num) (by norm_num) (by norm_num)
  exact ⟨r1.mono U (by norm_num) (by norm_num), r2.mono U (by norm_num) (by norm_num)⟩

omit H in
theorem set_self {l : List (Cpx S)} {i : ℕ} {z : Cpx S} (h : i < l.length) : cget A (l.set i z) i = z := by
  unfold cget; rw [List.getElem?_set_self h]; rfl

omit H in
theorem set_ne {l : List (Cpx S)} {i j : ℕ} {z : Cpx S} (h : i ≠ j) : cget A (l.set i z) j = cget A l j := by
  unfold cget; rw [List.getElem?_set_ne h]

theorem fftrUnpack_err (U : Units u η B R) {st : FftCfg} {tmpbuf freqdata : List (Cpx S)} (h0 : 0 < st.nfft) (h1 : tmpbuf.length = st.nfft)
    (h2 : st.nfft < freqdata.length) (x : ℕ → ℝ) {E : ℝ} (hsz : Sized A ok v R tmpbuf)
    (ht : ∀ k, k < st.nfft → ‖cval v (cget A tmpbuf k) - dft st.nfft (fun j => (⟨x (2 * j), x (2 * j + 1)⟩ : ℂ)) k‖ ≤ E) :
    ∃ r, fftrUnpack A st tmpbuf freqdata = some r ∧ r.length = freqdata.length ∧ ∀ k, k ≤ st.nfft →
      (ok (cget A r k).r ∧ ok (cget A r k).i) ∧ ‖cval v (cget A r k) - dft (2 * st.nfft) (fun j => (x j : ℂ)) k‖ ≤ 2 * E + 35 * (u * R) := by
  set n := st.nfft with hn
  have hn0 : n ≠ 0 := by omega
  have huR : 0 ≤ u * R := mul_nonneg U.u0 U.R0
  have hR0 := U.R0
  have hB1 := U.B1
  have hη1 := U.η1
  unfold fftrUnpack
  rw [rd_cget A (show 0 < tmpbuf.length by omega)]
  simp only [Option.bind_eq_bind, Option.bind_some]
  rw [wr_eq (by omega), Option.bind_some, wr_eq (by rw [List.length_set]; omega), Option.bind_some]
  obtain ⟨hX0, hXn⟩ := dft_ends hn0 x
  -- both ends
  obtain ⟨o1, o2, o3⟩ := hsz 0 (by omega)
  have hz := ht 0 h0
  set z := cget A tmpbuf 0
  set Z := dft n (fun j => (⟨x (2 * j), x (2 * j + 1)⟩ : ℂ)) 0
  have pr : |v z.r| ≤ R := le_trans (Complex.abs_re_le_norm (cval v z)) o3
  have pi : |v z.i| ≤ R := le_trans (Complex.abs_im_le_norm (cval v z)) o3
  have dr : |v z.r - Z.re| ≤ E := le_trans (Complex.abs_re_le_norm (cval v z - Z)) hz
  have di : |v z.i - Z.im| ≤ E := le_trans (Complex.abs_im_le_norm (cval v z - Z)) hz
  have real : ∀ {a : S} {y : ℝ} {d : ℝ}, ok a → |v a - y| ≤ d → (ok (⟨a, A.zero⟩ : Cpx S).r ∧ ok (⟨a, A.zero⟩ : Cpx S).i) ∧
      ‖cval v ⟨a, A.zero⟩ - (y : ℂ)‖ ≤ d := by
    intro a y d ha hd
    refine ⟨⟨ha, H.zero.1⟩, ?_⟩
    have : cval v ⟨a, A.zero⟩ - (y : ℂ) = ((v a - y : ℝ) : ℂ) := by apply Complex.ext <;> simp [cval, H.zero.2]
    rw [this, Complex.norm_real]
    exact hd
  have end0 := real (y := Z.re + Z.im) (d := 2 * E + 35 * (u * R)) (H.add o1 o2 (le_trans (abs_add_le _ _) (by linarith))).1 (by
    obtain ⟨-, e⟩ := H.add o1 o2 (le_trans (abs_add_le _ _) (by linarith))
    rw [show v (A.add z.r z.i) - (Z.re + Z.im) = (v (A.add z.r z.i) - (v z.r + v z.i)) + ((v z.r - Z.re) + (v z.i - Z.im)) by ring]
    refine le_trans (abs_add_le _ _) ?_
    have := abs_add_le (v z.r - Z.re) (v z.i - Z.im)
    have : u * |v z.r + v z.i| ≤ u * (2 * R) := mul_le_mul_of_nonneg_left (le_trans (abs_add_le _ _) (by linarith)) U.u0
    linarith)
  have endn := real (y := Z.re - Z.im) (d := 2 * E + 35 * (u * R)) (H.sub o1 o2 (le_trans (abs_sub _ _) (by linarith))).1 (by
    obtain ⟨-, e⟩ := H.sub o1 o2 (le_trans (abs_sub _ _) (by linarith))
    rw [show v (A.sub z.r z.i) - (Z.re - Z.im) = (v (A.sub z.r z.i) - (v z.r - v z.i)) + ((v z.r - Z.re) - (v z.i - Z.im)) by ring]
    refine le_trans (abs_add_le _ _) ?_
    have := abs_sub (v z.r - Z.re) (v z.i - Z.im)
    have : u * |v z.r - v z.i| ≤ u * (2 * R) := mul_le_mul_of_nonneg_left (le_trans (abs_sub _ _) (by linarith)) U.u0
    linarith)
  obtain ⟨r, e1, e2, e3⟩ := loop_inv (P := fun K (l : List (Cpx S)) => l.length = freqdata.length ∧
      ∀ i, i ≤ n → (i < K ∨ n - i < K) → (ok (cget A l i).r ∧ ok (cget A l i).i) ∧
        ‖cval v (cget A l i) - dft (2 * n) (fun j => (x j : ℂ)) i‖ ≤ 2 * E + 35 * (u * R))
    (lo := 1) (hi := n / 2 + 1)
    (body := fun k freqdata => (rd tmpbuf k).bind fun fpk => (rd tmpbuf (n - k)).bind fun fpnk =>
      (stwAt A st (k - 1)).bind fun stw =>
        (wr freqdata k (fftrStep A stw fpk fpnk).1).bind fun freqdata =>
          wr freqdata (n - k) (fftrStep A stw fpk fpnk).2)
    (s := (freqdata.set 0 ⟨A.add z.r z.i, A.zero⟩).set n ⟨A.sub z.r z.i, A.zero⟩)
    (by omega)
    (by
      refine ⟨by simp, ?_⟩
      intro i hi hor
      by_cases hin : i = n
      · subst hin
        rw [set_self (by rw [List.length_set]; omega), hXn]
        exact endn
      · have : i = 0 := by omega
        subst this
        rw [set_ne (by omega), set_self (by omega), hX0]
        exact end0)
    (by
      rintro k l hk1 hk2 ⟨hl, hP⟩
      have hkn : k < n ∨ k = n := by omega
      have hkn : k < n := by
        rcases hkn with h | h
        · exact h
        · omega
      rw [rd_cget A (show k < tmpbuf.length by omega), rd_cget A (show n - k < tmpbuf.length by omega),
        stwAt_eq A (show k - 1 < st.nfft / 2 by omega)]
      simp only [Option.bind_some]
      rw [wr_eq (by omega), Option.bind_some, wr_eq (by rw [List.length_set]; omega)]
      have hω : ‖(exact.superTwiddle n (k - 1)).toC‖ ≤ 1 := by
        rw [toC_stw (by omega), norm_mul, norm_neg, norm_I, norm_W, one_mul]
      have near : ∀ j, j < n → Au ok v u R 0 1 (cget A tmpbuf j) (cval v (cget A tmpbuf j)) := by
        intro j hj
        obtain ⟨p1, p2, p3⟩ := hsz j (by omega)
        refine ⟨p1, p2, ?_, by rw [one_mul]; exact p3⟩
        rw [sub_self, norm_zero, zero_mul]
      obtain ⟨s1, s2⟩ := fftr_au H U (near k hkn) (near (n - k) (by omega)) (H.stw n (k - 1) (by omega)) hω
      obtain ⟨d1, d2⟩ := unpack_diff hω (ht k hkn) (ht (n - k) (by omega))
      obtain ⟨c1, c2⟩ := fftrStep_spec hn0 (by omega) hkn x (a := ⟨_, _⟩) (b := ⟨_, _⟩) (Complex.eta (dft n (fun j => (⟨x (2 * j), x (2 * j + 1)⟩ : ℂ)) k))
        (Complex.eta (dft n (fun j => (⟨x (2 * j), x (2 * j + 1)⟩ : ℂ)) (n - k)))
      rw [(fftrStep_exact _ _ _).1] at c1
      rw [(fftrStep_exact _ _ _).2] at c2
      have c1 : unpack1 (dft n (fun j => (⟨x (2 * j), x (2 * j + 1)⟩ : ℂ)) k) (dft n (fun j => (⟨x (2 * j), x (2 * j + 1)⟩ : ℂ)) (n - k))
        (exact.superTwiddle n (k - 1)).toC = _ := c1
      have c2 : unpack2 (dft n (fun j => (⟨x (2 * j), x (2 * j + 1)⟩ : ℂ)) k) (dft n (fun j => (⟨x (2 * j), x (2 * j + 1)⟩ : ℂ)) (n - k))
        (exact.superTwiddle n (k - 1)).toC = _ := c2
      rw [c1] at d1
      rw [c2] at d2
      have fin : ∀ {w : Cpx S} {a b : ℂ}, Au ok v u R 35 4 w a → ‖a - b‖ ≤ 2 * E → (ok w.r ∧ ok w.i) ∧ ‖cval v w - b‖ ≤ 2 * E + 35 * (u * R) := by
        intro w a b hw hab
        refine ⟨⟨hw.r, hw.i⟩, ?_⟩
        have := norm_add_le (cval v w - a) (a - b)
        rw [sub_add_sub_cancel] at this
        have := hw.err
        linarith
      refine ⟨_, rfl, by simpa using hl, ?_⟩
      intro i hi hor
      by_cases hik : n - k = i
      · rw [hik, set_self (by rw [List.length_set]; omega), ← hik]
        exact fin s2 d2
      · rw [set_ne hik]
        by_cases hik' : k = i
        · subst hik'
          rw [set_self (by omega)]
          exact fin s1 d1
        · rw [set_ne hik']
          exact hP i hi (by omega))
  exact ⟨r, e1, e2, fun k hk => e3 k hk (by omega)⟩

/-- The real transform: `S` is the cost of the factor table. -/
theorem kissFftr_err (c : Cfg) {st : FftCfg} {timedata : List S} {freqdata : List (Cpx S)} {M : ℝ} (hint : 2 * st.nfft ≤ c.intMax)
    (hst : Stages st.nfft st.factors) (h1 : timedata.length = 2 * st.nfft) (h2 : st.nfft < freqdata.length)
    (hu0 : 0 ≤ u) (hu1 : u ≤ 1 / 1024) (hη0 : 0 ≤ η) (hη1 : 16 * η ≤ u * M) (hM : 0 ≤ M)
    (hok : ∀ i, i < 2 * st.nfft → ok (sget A timedata i) ∧ |v (sget A timedata i)| ≤ M)
    (hcost : 72 * (u * stageCost st.factors) ≤ 1) (hB : 256 * (st.nfft * M) ≤ B) :
    Det [] (kissFftr A c st timedata freqdata) (fun r => r.length = freqdata.length ∧ ∀ k, k ≤ st.nfft →
      (ok (cget A r k).r ∧ ok (cget A r k).i) ∧
      ‖cval v (cget A r k) - dft (2 * st.nfft) (fun j => ((v (sget A timedata j) : ℝ) : ℂ)) k‖ ≤
        (27 * stageCost st.factors + 60) * (st.nfft * M) * u) := by
  have h0 := hst.pos
  have hn1 : (1 : ℝ) ≤ st.nfft := by exact_mod_cast h0
  have hnM : M ≤ st.nfft * M := by nlinarith
  have hS0 : (0 : ℝ) ≤ stageCost st.factors := Nat.cast_nonneg _
  unfold kissFftr
  have hpl : (pairs timedata).length = st.nfft := by rw [pairs_length, h1]; omega
  have hs : Sized A ok v (3 / 2 * M) (pairs timedata) := by
    intro i hi
    rw [pairs_sget _ _ (by omega)]
    obtain ⟨a1, a2⟩ := hok (2 * i) (by omega)
    obtain ⟨b1, b2⟩ := hok (2 * i + 1) (by omega)
    refine ⟨a1, b1, norm_le_of_parts (by linarith) ?_⟩
    have s1 : (v (sget A timedata (2 * i))) ^ 2 ≤ M ^ 2 := sq_le_sq' (by linarith [neg_abs_le (v (sget A timedata (2 * i)))]) (le_trans (le_abs_self _) a2)
    have s2 : (v (sget A timedata (2 * i + 1))) ^ 2 ≤ M ^ 2 :=
      sq_le_sq' (by linarith [neg_abs_le (v (sget A timedata (2 * i + 1)))]) (le_trans (le_abs_self _) b2)
    show (v (sget A timedata (2 * i))) ^ 2 + (v (sget A timedata (2 * i + 1))) ^ 2 ≤ _
    nlinarith
  have huM : 0 ≤ u * M := mul_nonneg hu0 hM
  refine Det.bind (kissFft_err H c hint hst (by omega) hu0 hu1 hη0 (M := 3 / 2 * M) (by linarith) (by linarith) hs hcost (by linarith)) ?_
  rintro tmp ⟨htmp, hval⟩
  set R := 27 / 16 * (st.nfft * M) with hR
  have huR : u * M ≤ u * R := mul_le_mul_of_nonneg_left (by linarith) hu0
  have U : Units u η B R := ⟨hu0, hu1, hη0, by linarith, by linarith, by linarith⟩
  have hval' : ∀ k, k < st.nfft → (ok (cget A tmp k).r ∧ ok (cget A tmp k).i) ∧
      ‖cval v (cget A tmp k) - dft st.nfft (fun j => (⟨v (sget A timedata (2 * j)), v (sget A timedata (2 * j + 1))⟩ : ℂ)) k‖ ≤
        9 * (st.nfft * (3 / 2 * M)) * stageCost st.factors * u := by
    intro k hk
    refine ⟨(hval k hk).1, ?_⟩
    have := (hval k hk).2
    have e : dft st.nfft (fun j => cval v (cget A (pairs timedata) j)) k =
        dft st.nfft (fun j => (⟨v (sget A timedata (2 * j)), v (sget A timedata (2 * j + 1))⟩ : ℂ)) k := by
      rw [dft_eq, dft_eq]
      refine Finset.sum_congr rfl (fun j hj => ?_)
      have hj : j < st.nfft := by simpa using hj
      rw [pairs_sget _ _ (by omega)]
      rfl
    rwa [e] at this
  have hsz : Sized A ok v R tmp := by
    intro k hk
    obtain ⟨⟨a1, a2⟩, a3⟩ := hval' k (by omega)
    refine ⟨a1, a2, ?_⟩
    have hb : ‖dft st.nfft (fun j => (⟨v (sget A timedata (2 * j)), v (sget A timedata (2 * j + 1))⟩ : ℂ)) k‖ ≤ st.nfft * (3 / 2 * M) := by
      refine norm_dft_le (fun j hj => ?_) k
      have := (hs j (by omega)).2.2
      rw [pairs_sget _ _ (by omega)] at this
      exact this
    have := norm_add_le (cval v (cget A tmp k) - dft st.nfft (fun j => (⟨v (sget A timedata (2 * j)), v (sget A timedata (2 * j + 1))⟩ : ℂ)) k)
      (dft st.nfft (fun j => (⟨v (sget A timedata (2 * j)), v (sget A timedata (2 * j + 1))⟩ : ℂ)) k)
    rw [sub_add_cancel] at this
    have h9 : 9 * (st.nfft * (3 / 2 * M)) * stageCost st.factors * u ≤ 1 / 8 * (st.nfft * (3 / 2 * M)) := by
      have : 9 * (stageCost st.factors * u) ≤ 1 / 8 := by linarith
      nlinarith
    rw [hR]
    linarith
  obtain ⟨r, e1, e2, e3⟩ := fftrUnpack_err H U h0 htmp h2 (fun j => v (sget A timedata j)) hsz (fun k hk => (hval' k hk).2)
  refine Det.lift e1 ⟨e2, fun k hk => ⟨(e3 k hk).1, le_trans (e3 k hk).2 ?_⟩⟩
  rw [hR]
  have : 0 ≤ st.nfft * M * u := mul_nonneg (by linarith) hu0
  nlinarith

omit H in
theorem sget_set_self {l : List S} {i : ℕ} {x : S} (h : i < l.length) : sget A (l.set i x) i = x := by
  unfold sget; rw [List.getElem?_set_self h]; rfl

omit H in
theorem sget_set_ne {l : List S} {i j : ℕ} {x : S} (h : i ≠ j) : sget A (l.set i x) j = sget A l j := by
  unfold sget; rw [List.getElem?_set_ne h]

omit H in
theorem rd_sget {l : List S} {i : ℕ} (h : i < l.length) : rd l i = some (sget A l i) := by
  rw [rd_eq h]; unfold sget; rw [List.getElem?_eq_getElem h]; rfl

omit H in
theorem norm_shift (n i : ℕ) : ‖(exact.shift n i).toC‖ ≤ 1 := by
  show ‖(circle _).toC‖ ≤ 1
  rw [circle_toC, Complex.norm_exp_ofReal_mul_I]

/-- The write-back of one row. -/
theorem dctStore_err (U : Units u η B R) {F : List (Cpx S)} {shiftCap j n length stride dist : ℕ} {f : List S} (hF : length ≤ F.length)
    (hs : length ≤ shiftCap) (hin : ∀ i, i < length → j * dist + i * stride < f.length) (hj : j < n) (hinj : Inj n length stride dist)
    (hsz : ∀ i, i < length → ok (cget A F i).r ∧ ok (cget A F i).i ∧ ‖cval v (cget A F i)‖ ≤ R) :
    ∃ r, dctStore A F shiftCap j length stride dist f = some r ∧ r.length = f.length ∧
      (∀ i, i < length → ok (sget A r (j * dist + i * stride)) ∧
        |v (sget A r (j * dist + i * stride)) - (cval v (cget A F i) * (exact.shift length i).toC).re| ≤ 11 * (u * R)) ∧
      (∀ p, (∀ i, i < length → j * dist + i * stride ≠ p) → sget A r p = sget A f p) := by
  have hval : ∀ i, i < length → ok (A.store (A.sub (A.mul (cget A F i).r (A.shift length i).r) (A.mul (cget A F i).i (A.shift length i).i))) ∧
      |v (A.store (A.sub (A.mul (cget A F i).r (A.shift length i).r) (A.mul (cget A F i).i (A.shift length i).i))) -
        (cval v (cget A F i) * (exact.shift length i).toC).re| ≤ 11 * (u * R) := by
    intro i hi
    obtain ⟨a1, a2, a3⟩ := hsz i hi
    have hau : Au ok v u R 0 1 (cget A F i) (cval v (cget A F i)) := by
      refine ⟨a1, a2, ?_, by rw [one_mul]; exact a3⟩
      rw [sub_self, norm_zero, zero_mul]
    have hm := Au.mul H U hau (H.sh length i hi) (norm_shift length i) (by norm_num) (by norm_num)
    set t := A.sub (A.mul (cget A F i).r (A.shift length i).r) (A.mul (cget A F i).i (A.shift length i).i) with ht
    set y := cval v (cget A F i) * (exact.shift length i).toC with hy
    have e1 : |v t - y.re| ≤ 8 * (u * R) := by
      refine le_trans (Complex.abs_re_le_norm (cval v (A.cMul (cget A F i) (A.shift length i)) - y)) (le_trans hm.err ?_)
      exact le_of_eq (by ring)
    have e2 : |y.re| ≤ R := by
      refine le_trans (Complex.abs_re_le_norm _) (le_trans hm.size (le_of_eq (one_mul _)))
    have huR : u * R ≤ 1 / 1024 * R := mul_le_mul_of_nonneg_right U.u1 U.R0
    have e3 : |v t| ≤ 2 * R := by
      have := abs_add_le (v t - y.re) y.re
      rw [sub_add_cancel] at this
      linarith [U.R0]
    obtain ⟨s1, s2⟩ := H.store (a := t) hm.r (by linarith [U.B1, U.R0])
    refine ⟨s1, ?_⟩
    have := abs_add_le (v (A.store t) - v t) (v t - y.re)
    rw [sub_add_sub_cancel] at this
    have h5 : u * |v t| ≤ u * (2 * R) := mul_le_mul_of_nonneg_left e3 U.u0
    linarith [U.η1, mul_nonneg U.u0 U.R0]
  unfold dctStore
  obtain ⟨r, e1, e2, e3, e4⟩ := loop_inv (P := fun K (l : List S) => l.length = f.length ∧
      (∀ i, i < K → ok (sget A l (j * dist + i * stride)) ∧
        |v (sget A l (j * dist + i * stride)) - (cval v (cget A F i) * (exact.shift length i).toC).re| ≤ 11 * (u * R)) ∧
      (∀ p, (∀ i, i < length → j * dist + i * stride ≠ p) → sget A l p = sget A f p))
    (lo := 0) (hi := length)
    (body := fun i f => do
      let Fi ← rd F i
      if i < shiftCap then
        let s := A.shift length i
        wr f (j * dist + i * stride) (A.store (A.sub (A.mul Fi.r s.r) (A.mul Fi.i s.i)))
      else none) (s := f) (Nat.zero_le _) ⟨rfl, fun i hi => absurd hi (by omega), fun _ _ => rfl⟩
    (by
      rintro i l - hi ⟨hl, hv, ho⟩
      rw [rd_cget A (show i < F.length by omega)]
      simp only [Option.bind_eq_bind, Option.bind_some]
      rw [if_pos (by omega), wr_eq (by rw [hl]; exact hin i hi)]
      refine ⟨_, rfl, by simpa using hl, ?_, ?_⟩
      · intro i' hi'
        by_cases h : i' = i
        · subst h
          rw [sget_set_self (by rw [hl]; exact hin i' hi)]
          exact hval i' hi
        · rw [sget_set_ne (fun e => h (hinj _ _ _ _ hj hj hi (by omega) e).2.symm)]
          exact hv i' (by omega)
      · intro p hp
        rw [sget_set_ne (hp i hi), ho p hp])
  exact ⟨r, e1, e2, e3, e4⟩

omit H in
theorem dct_le {n : ℕ} {x : ℕ → ℝ} {M : ℝ} (h : ∀ j, j < n → |x j| ≤ M) (k : ℕ) : |dct n x k| ≤ 2 * (n * M) := by
  unfold dct
  rw [abs_mul, abs_of_pos (by norm_num : (0 : ℝ) < 2)]
  refine mul_le_mul_of_nonneg_left ?_ (by norm_num)
  refine le_trans (Finset.abs_sum_le_sum_abs _ _) ?_
  calc ∑ j ∈ Finset.range n, |x j * Real.cos (Real.pi * (j + 1 / 2) * k / n)| ≤ ∑ j ∈ Finset.range n, M :=
        Finset.sum_le_sum (fun j hj => by
          rw [abs_mul]
          have h1 := h j (by simpa using hj)
          have h2 := Real.abs_cos_le_one (Real.pi * (j + 1 / 2) * k / n)
          have := mul_le_mul h1 h2 (abs_nonneg _) (le_trans (abs_nonneg _) h1)
          linarith)
    _ = n * M := by simp

omit H in
theorem dct_diff {n : ℕ} {x y : ℕ → ℝ} {M : ℝ} (h : ∀ j, j < n → |x j - y j| ≤ M) (k : ℕ) : |dct n x k - dct n y k| ≤ 2 * (n * M) := by
  have e : dct n x k - dct n y k = dct n (fun j => x j - y j) k := by
    unfold dct
    rw [← mul_sub, ← Finset.sum_sub_distrib]
    congr 1
    refine Finset.sum_congr rfl (fun j _ => ?_)
    ring
  rw [e]
  exact dct_le h k

/-- One row of `kiss_dct`. -/
theorem dctRow_err (c : Cfg) {st : FftCfg} {F0 : List (Cpx S)} {mirrorCap shiftCap j n length stride dist : ℕ} {f : List S} {M : ℝ}
    (hint : 2 * st.nfft ≤ c.intMax) (hst : Stages st.nfft st.factors) (hn : st.nfft = length)
    (hm : length * 2 ≤ mirrorCap) (hs : length ≤ shiftCap) (hF : length < F0.length)
    (hin : ∀ i, i < length → j * dist + i * stride < f.length) (hj : j < n) (hinj : Inj n length stride dist)
    (hu0 : 0 ≤ u) (hη0 : 0 ≤ η) (hη1 : 16 * η ≤ u * M) (hM : 0 ≤ M)
    (hok : ∀ i, i < length → ok (sget A f (j * dist + i * stride)) ∧ |v (sget A f (j * dist + i * stride))| ≤ M)
    (hcost : 512 * ((stageCost st.factors + 4) * u) ≤ 1) (hB : 512 * (length * M) ≤ B) :
    Det [] (dctRow A c st F0 mirrorCap shiftCap j length stride dist f) (fun r => r.length = f.length ∧
      (∀ i, i < length → ok (sget A r (j * dist + i * stride)) ∧
        |v (sget A r (j * dist + i * stride)) - dct length (fun i => v (sget A f (j * dist + i * stride))) i| ≤
          28 * (stageCost st.factors + 4) * (length * M) * u) ∧
      (∀ p, (∀ i, i < length → j * dist + i * stride ≠ p) → sget A r p = sget A f p)) := by
  have h0 := hst.pos
  have hS0 : (0 : ℝ) ≤ stageCost st.factors := Nat.cast_nonneg _
  have hSu0 : 0 ≤ stageCost st.factors * u := mul_nonneg hS0 hu0
  have hu1 : u ≤ 1 / 1024 := by linarith
  have hl1 : (1 : ℝ) ≤ length := by rw [← hn]; exact_mod_cast h0
  have hlM : M ≤ length * M := by nlinarith
  have huM : 0 ≤ u * M := mul_nonneg hu0 hM
  have huM1 : u * M ≤ 1 / 1024 * M := mul_le_mul_of_nonneg_right hu1 hM
  unfold dctRow
  have hmap : (List.range length).mapM (fun i => rd f (j * dist + i * stride)) =
      some ((List.range length).map (fun i => sget A f (j * dist + i * stride))) := by
    have : ∀ ks : List ℕ, (∀ q ∈ ks, j * dist + q * stride < f.length) →
        ks.mapM (fun q => rd f (j * dist + q * stride)) = some (ks.map (fun q => sget A f (j * dist + q * stride))) := by
      intro ks
      induction ks with
      | nil => intro _; rfl
      | cons k ks ih =>
        intro hk
        rw [List.mapM_cons, rd_sget (A := A) (hk k (by simp)), ih (fun q hq => hk q (by simp [hq]))]
        rfl
    exact this _ (fun q hq => hin q (by simpa using hq))
  refine Det.bind (Det.lift (P := fun r => r = (List.range length).map (fun i => sget A f (j * dist + i * stride))) hmap rfl) ?_
  rintro row rfl
  simp only
  rw [if_pos hm, List.map_map]
  set half := (List.range length).map (A.load ∘ fun i => sget A f (j * dist + i * stride)) with hhalf
  have hhl : half.length = length := by simp [hhalf]
  have hhg : ∀ i, i < length → half[i]? = some (A.load (sget A f (j * dist + i * stride))) := by
    intro i hi
    rw [hhalf, List.getElem?_map, List.getElem?_range hi]; rfl
  -- the loaded samples
  have hload : ∀ i, i < length → ok (A.load (sget A f (j * dist + i * stride))) ∧
      |v (A.load (sget A f (j * dist + i * stride))) - v (sget A f (j * dist + i * stride))| ≤ 17 / 16 * (u * M) := by
    intro i hi
    obtain ⟨a1, a2⟩ := hok i hi
    obtain ⟨b1, b2⟩ := H.load a1 (by linarith)
    refine ⟨b1, le_trans b2 ?_⟩
    have := mul_le_mul_of_nonneg_left a2 hu0
    linarith
  set M0 := 65 / 64 * M with hM0
  have hlow : ∀ i, i < length → sget A (half ++ half.reverse) i = A.load (sget A f (j * dist + i * stride)) := by
    intro i hi
    unfold sget
    rw [List.getElem?_append_left (by omega), hhg i hi]; rfl
  have hhigh : ∀ i, i < length → sget A (half ++ half.reverse) (2 * length - 1 - i) = A.load (sget A f (j * dist + i * stride)) := by
    intro i hi
    unfold sget
    rw [List.getElem?_append_right (by omega), List.getElem?_reverse (by omega)]
    rw [show half.length - 1 - (2 * length - 1 - i - half.length) = i by omega, hhg i hi]
    rfl
  have hok2 : ∀ i, i < 2 * st.nfft → ok (sget A (half ++ half.reverse) i) ∧ |v (sget A (half ++ half.reverse) i)| ≤ M0 := by
    intro i hi
    have : ∃ k, k < length ∧ sget A (half ++ half.reverse) i = A.load (sget A f (j * dist + k * stride)) := by
      rcases Nat.lt_or_ge i length with h | h
      · exact ⟨i, h, hlow i h⟩
      · refine ⟨2 * length - 1 - i, by omega, ?_⟩
        have := hhigh (2 * length - 1 - i) (by omega)
        rwa [show 2 * length - 1 - (2 * length - 1 - i) = i by omega] at this
    obtain ⟨k, hk, e⟩ := this
    rw [e]
    obtain ⟨b1, b2⟩ := hload k hk
    refine ⟨b1, ?_⟩
    have := abs_add_le (v (A.load (sget A f (j * dist + k * stride))) - v (sget A f (j * dist + k * stride))) (v (sget A f (j * dist + k * stride)))
    rw [sub_add_cancel] at this
    have := (hok k hk).2
    rw [hM0]
    linarith
  have hln : (st.nfft : ℝ) = length := by rw [hn]
  have huM0 : u * M ≤ u * M0 := mul_le_mul_of_nonneg_left (by linarith) hu0
  have hlM0 : length * M0 = 65 / 64 * (length * M) := by rw [hM0]; ring
  refine Det.bind (kissFftr_err H c hint hst (M := M0) (by simp [hhl]; omega) (by omega) hu0 hu1 hη0 (by linarith) (by linarith) hok2
    (by linarith) (by rw [hln, hlM0]; linarith)) ?_
  rintro F ⟨hFl, hFv⟩
  rw [hln] at hFv
  set D := (27 * stageCost st.factors + 60) * (length * M0) * u with hD
  have hlM00 : 0 ≤ length * M0 := by rw [hlM0]; linarith
  set R := 9 / 4 * (length * M0) with hR
  have huR : u * M ≤ u * R := mul_le_mul_of_nonneg_left (by rw [hR, hlM0]; linarith) hu0
  have U : Units u η B R := ⟨hu0, hu1, hη0, by linarith, by linarith, by rw [hR, hlM0]; linarith⟩
  have hDle : D ≤ 1 / 4 * (length * M0) := by
    have : (27 * stageCost st.factors + 60) * u ≤ 1 / 4 := by linarith
    have := mul_le_mul_of_nonneg_right this hlM00
    rw [hD]
    linarith
  have hsz : ∀ i, i < length → ok (cget A F i).r ∧ ok (cget A F i).i ∧ ‖cval v (cget A F i)‖ ≤ R := by
    intro i hi
    obtain ⟨⟨a1, a2⟩, a3⟩ := hFv i (by omega)
    refine ⟨a1, a2, ?_⟩
    have hb : ‖dft (2 * st.nfft) (fun j => ((v (sget A (half ++ half.reverse) j) : ℝ) : ℂ)) i‖ ≤ ((2 * st.nfft : ℕ) : ℝ) * M0 := by
      refine norm_dft_le (fun j hj => ?_) i
      rw [Complex.norm_real]
      exact (hok2 j hj).2
    push_cast at hb
    rw [hln] at hb
    have := norm_add_le (cval v (cget A F i) - dft (2 * st.nfft) (fun j => ((v (sget A (half ++ half.reverse) j) : ℝ) : ℂ)) i)
      (dft (2 * st.nfft) (fun j => ((v (sget A (half ++ half.reverse) j) : ℝ) : ℂ)) i)
    rw [sub_add_cancel] at this
    rw [hR]
    linarith
  obtain ⟨r, e1, e2, e3, e4⟩ := dctStore_err H U (F := F) (shiftCap := shiftCap) (f := f) (by omega) hs hin hj hinj hsz
  refine Det.lift e1 ⟨e2, ?_, e4⟩
  intro i hi
  refine ⟨(e3 i hi).1, ?_⟩
  have k1 := (e3 i hi).2
  have k2 : |(cval v (cget A F i) * (exact.shift length i).toC).re - dct length (fun i => v (A.load (sget A f (j * dist + i * stride)))) i| ≤ D := by
    have hd := dct_of_dft (n := length) (k := i) (by omega) (fun i => v (A.load (sget A f (j * dist + i * stride))))
      (fun i => v (sget A (half ++ half.reverse) i)) (fun k hk => by rw [hlow k hk]) (fun k hk => by rw [hhigh k hk])
    rw [← hd, ← Complex.sub_re, ← sub_mul]
    refine le_trans (Complex.abs_re_le_norm _) ?_
    rw [norm_mul]
    have a3 := (hFv i (by omega)).2
    rw [hn] at a3
    have := mul_le_mul a3 (norm_shift length i) (norm_nonneg _) (le_trans (norm_nonneg _) a3)
    linarith
  have k3 : |dct length (fun i => v (A.load (sget A f (j * dist + i * stride)))) i - dct length (fun i => v (sget A f (j * dist + i * stride))) i| ≤
      2 * (length * (17 / 16 * (u * M))) := dct_diff (fun k hk => (hload k hk).2) i
  have t1 := abs_add_le (v (sget A r (j * dist + i * stride)) - (cval v (cget A F i) * (exact.shift length i).toC).re)
    ((cval v (cget A F i) * (exact.shift length i).toC).re - dct length (fun i => v (sget A f (j * dist + i * stride))) i)
  have t2 := abs_add_le ((cval v (cget A F i) * (exact.shift length i).toC).re - dct length (fun i => v (A.load (sget A f (j * dist + i * stride)))) i)
    (dct length (fun i => v (A.load (sget A f (j * dist + i * stride)))) i - dct length (fun i => v (sget A f (j * dist + i * stride))) i)
  rw [sub_add_sub_cancel] at t1 t2
  refine le_trans t1 ?_
  have hlMu : 0 ≤ length * M * u := mul_nonneg (by linarith) hu0
  have hSlMu : 0 ≤ stageCost st.factors * (length * M * u) := mul_nonneg hS0 hlMu
  have eD : D = 65 / 64 * (27 * (stageCost st.factors * (length * M * u)) + 60 * (length * M * u)) := by rw [hD, hlM0]; ring
  have eR : 11 * (u * R) = 11 * (9 / 4) * (65 / 64) * (length * M * u) := by rw [hR, hlM0]; ring
  have e28 : 28 * (stageCost st.factors + 4) * (length * M) * u = 28 * (stageCost st.factors * (length * M * u)) + 112 * (length * M * u) := by ring
  rw [e28]
  linarith

/-- All rows. -/
theorem kissDct_err (c : Cfg) {st : FftCfg} {F0 : List (Cpx S)} {mirrorCap shiftCap n length stride dist : ℕ} {f : List S} {M : ℝ}
    (hint : 2 * st.nfft ≤ c.intMax) (hst : Stages st.nfft st.factors) (hn : st.nfft = length)
    (hm : length * 2 ≤ mirrorCap) (hs : length ≤ shiftCap) (hF : length < F0.length)
    (hin : ∀ j i, j < n → i < length → j * dist + i * stride < f.length) (hinj : Inj n length stride dist)
    (hu0 : 0 ≤ u) (hη0 : 0 ≤ η) (hη1 : 16 * η ≤ u * M) (hM : 0 ≤ M)
    (hok : ∀ j i, j < n → i < length → ok (sget A f (j * dist + i * stride)) ∧ |v (sget A f (j * dist + i * stride))| ≤ M)
    (hcost : 512 * ((stageCost st.factors + 4) * u) ≤ 1) (hB : 512 * (length * M) ≤ B) :
    Det [] (kissDct A c st F0 mirrorCap shiftCap n length stride dist f) (fun r => r.length = f.length ∧
      ∀ j i, j < n → i < length → ok (sget A r (j * dist + i * stride)) ∧
        |v (sget A r (j * dist + i * stride)) - dct length (fun i => v (sget A f (j * dist + i * stride))) i| ≤
          28 * (stageCost st.factors + 4) * (length * M) * u) := by
  unfold kissDct
  refine Det.mono (Det.foldlM (P := fun J (r : List S) => r.length = f.length ∧ ∀ j i, j < n → i < length →
      if j < J then ok (sget A r (j * dist + i * stride)) ∧
        |v (sget A r (j * dist + i * stride)) - dct length (fun i => v (sget A f (j * dist + i * stride))) i| ≤
          28 * (stageCost st.factors + 4) * (length * M) * u
      else sget A r (j * dist + i * stride) = sget A f (j * dist + i * stride))
      ⟨rfl, by intro j i _ _; rw [if_neg (by omega)]⟩ ?_) ?_
  · rintro J hJ l ⟨hl, hv⟩
    have hsame : ∀ i, i < length → sget A l (J * dist + i * stride) = sget A f (J * dist + i * stride) := by
      intro i hi
      have := hv J i hJ hi
      rwa [if_neg (lt_irrefl J)] at this
    refine Det.mono (dctRow_err H c hint hst hn hm hs hF (n := n) (M := M)
      (fun i hi => by rw [hl]; exact hin J i hJ hi) hJ hinj hu0 hη0 hη1 hM
      (fun i hi => by rw [hsame i hi]; exact hok J i hJ hi) hcost hB) ?_
    rintro r ⟨hr1, hr2, hr3⟩
    refine ⟨by omega, ?_⟩
    intro j i hj hi
    by_cases hjJ : j = J
    · subst hjJ
      rw [if_pos (by omega)]
      have := hr2 i hi
      have e : dct length (fun i => v (sget A l (j * dist + i * stride))) i = dct length (fun i => v (sget A f (j * dist + i * stride))) i := by
        unfold dct
        congr 1
        refine Finset.sum_congr rfl (fun i' hi' => ?_)
        simp only
        rw [hsame i' (by simpa using hi')]
      rwa [e] at this
    · have hne := hr3 (j * dist + i * stride) (fun i' hi' e => hjJ (hinj _ _ _ _ hJ hj hi' hi e).1.symm)
      have := hv j i hj hi
      by_cases h : j < J
      · rw [if_pos h] at this
        rw [if_pos (by omega), hne]
        exact this
      · rw [if_neg h] at this
        rw [if_neg (by omega), hne]
        exact this
  · rintro r ⟨hr1, hr2⟩
    refine ⟨hr1, fun j i hj hi => ?_⟩
    have := hr2 j i hj hi
    rwa [if_pos hj] at this

/-- The two-dimensional transform. -/
theorem kissTransform_err {c : Cfg} {p : KissPlan} {w h : ℕ} (g : KissGood c p w h) {junk : Cpx S} {f : List S} {M : ℝ}
    (hf : f.length = w * h) (hu0 : 0 ≤ u) (hη0 : 0 ≤ η) (hη1 : 16 * η ≤ u * M) (hM : 0 ≤ M)
    (hok : ∀ i, i < w * h → ok (sget A f i) ∧ |v (sget A f i)| ≤ M)
    (hcost0 : 512 * ((stageCost g.cfg0.2.factors + 4) * u) ≤ 1) (hcost1 : 512 * ((stageCost g.cfg1.2.factors + 4) * u) ≤ 1)
    (hB : 1100 * (w * h * M) ≤ B) :
    Det p.blocks (kissTransform A c junk p f) (fun r => r.length = w * h ∧
      ∀ x y, x < w → y < h → ok (sget A r (y * w + x)) ∧
        |v (sget A r (y * w + x)) - dct2 w h (fun i j => v (sget A f (j * w + i))) x y| ≤
          58 * (stageCost g.cfg0.2.factors + stageCost g.cfg1.2.factors + 8) * (w * h * M) * u) := by
  have hb : p.blocks = [p.block, g.cfg0.1, g.shift0.1] ++ (if w = h then [] else [g.cfg1.1, g.shift1.1]) ++
      [g.mirror.1, g.F.1] := by
    unfold KissPlan.blocks
    rw [g.cfg0_eq, g.cfg1_eq, g.mirror_eq, g.F_eq, g.shift0_eq, g.shift1_eq, g.width, g.height]
    simp [blk]
  have hc1 : g.cfg1.1 ∈ p.blocks := by
    rw [hb]
    by_cases e : w = h
    · rw [(g.same e).2]; simp
    · rw [if_neg e]; simp
  have hs1 : g.shift1.1 ∈ p.blocks := by
    rw [hb]
    by_cases e : w = h
    · rw [(g.same e).1]; simp
    · rw [if_neg e]; simp
  have hw0 : 0 < w := by have := g.stages0.pos; rwa [g.n0] at this
  have hh0 : 0 < h := by have := g.stages1.pos; rwa [g.n1] at this
  have hw1 : (1 : ℝ) ≤ w := by exact_mod_cast hw0
  have hh1 : (1 : ℝ) ≤ h := by exact_mod_cast hh0
  have hwM0 : 0 ≤ w * M := mul_nonneg (by linarith) hM
  have hwM : M ≤ w * M := by nlinarith
  have hwhM : w * M ≤ w * h * M := by nlinarith
  unfold kissTransform
  refine Det.bind (Det.touch (by rw [hb]; simp)) (fun _ _ => ?_)
  refine Det.bind (Det.lift (P := fun x => x = g.cfg0) g.cfg0_eq rfl) ?_
  rintro _ rfl
  refine Det.bind (Det.lift (P := fun x => x = g.cfg1) g.cfg1_eq rfl) ?_
  rintro _ rfl
  refine Det.bind (Det.lift (P := fun x => x = g.mirror) g.mirror_eq rfl) ?_
  rintro _ rfl
  refine Det.bind (Det.lift (P := fun x => x = g.F) g.F_eq rfl) ?_
  rintro _ rfl
  refine Det.bind (Det.lift (P := fun x => x = g.shift0) g.shift0_eq rfl) ?_
  rintro _ rfl
  refine Det.bind (Det.lift (P := fun x => x = g.shift1) g.shift1_eq rfl) ?_
  rintro _ rfl
  refine Det.bind (Det.touch (by rw [hb]; simp)) (fun _ _ => ?_)
  refine Det.bind (Det.touch hc1) (fun _ _ => ?_)
  refine Det.bind (Det.touch (by rw [hb]; simp)) (fun _ _ => ?_)
  refine Det.bind (Det.touch (by rw [hb]; simp)) (fun _ _ => ?_)
  refine Det.bind (Det.touch (by rw [hb]; simp)) (fun _ _ => ?_)
  refine Det.bind (Det.touch hs1) (fun _ _ => ?_)
  rw [g.width, g.height]
  set S0 : ℝ := (stageCost g.cfg0.2.factors : ℝ) with hS0
  set S1 : ℝ := (stageCost g.cfg1.2.factors : ℝ) with hS1
  have hS00 : 0 ≤ S0 := Nat.cast_nonneg _
  have hS10 : 0 ≤ S1 := Nat.cast_nonneg _
  refine Det.bind (Det.weaken (kissDct_err H c (by rw [g.n0]; exact g.int0) g.stages0 g.n0 g.mirror0 g.s0
      (by rw [List.length_replicate]; exact g.F0) (n := h) (stride := 1) (dist := w) (f := f) (M := M) ?_ inj_row hu0 hη0 hη1 hM
      (fun j i hj hi => hok _ (index_row hj hi)) hcost0 (by linarith)) (by simp)) ?_
  · intro j i hj hi
    rw [hf]; exact index_row hj hi
  · rintro f' ⟨hf', hv'⟩
    set M' := 33 / 16 * (w * M) with hM'
    have hsmall : 28 * (S0 + 4) * (w * M) * u ≤ 1 / 16 * (w * M) := by
      have : 28 * ((S0 + 4) * u) ≤ 1 / 16 := by linarith
      have := mul_le_mul_of_nonneg_right this hwM0
      linarith
    have hok' : ∀ j i, j < w → i < h → ok (sget A f' (j * 1 + i * w)) ∧ |v (sget A f' (j * 1 + i * w))| ≤ M' := by
      intro j i hj hi
      have a := hv' i j hi hj
      rw [show i * w + j * 1 = j * 1 + i * w by ring] at a
      refine ⟨a.1, ?_⟩
      have hd := dct_le (n := w) (x := fun k => v (sget A f (i * w + k * 1))) (M := M) (fun k hk => (hok _ (index_row hi hk)).2) j
      have := abs_add_le (v (sget A f' (j * 1 + i * w)) - dct w (fun k => v (sget A f (i * w + k * 1))) j) (dct w (fun k => v (sget A f (i * w + k * 1))) j)
      rw [sub_add_cancel] at this
      have := a.2
      rw [hM']
      linarith
    have huM' : u * M ≤ u * M' := mul_le_mul_of_nonneg_left (by rw [hM']; linarith) hu0
    refine Det.weaken (Det.mono (kissDct_err H c (by rw [g.n1]; exact g.int1) g.stages1 g.n1 g.mirror1 g.s1
      (by rw [List.length_replicate]; exact g.F1) (n := w) (stride := w) (dist := 1) (f := f') (M := M') ?_ inj_col hu0 hη0 (by linarith)
      (by rw [hM']; linarith) hok' hcost1 (by rw [hM']; nlinarith)) ?_) (by simp)
    · intro j i hj hi
      rw [hf', hf]; exact index_col hj hi
    · rintro r ⟨hr, hv⟩
      refine ⟨by omega, ?_⟩
      intro x y hx hy
      have a := hv x y hx hy
      rw [show x * 1 + y * w = y * w + x by ring] at a
      refine ⟨a.1, ?_⟩
      have k1 : |dct h (fun i => v (sget A f' (x * 1 + i * w))) y - dct2 w h (fun i j => v (sget A f (j * w + i))) x y| ≤
          2 * (h * (28 * (S0 + 4) * (w * M) * u)) := by
        unfold dct2
        refine dct_diff (fun j hj => ?_) y
        have := (hv' j x hj hx).2
        rw [show j * w + x * 1 = x * 1 + j * w by ring] at this
        have e : (fun i => v (sget A f (j * w + i * 1))) = fun i => v (sget A f (j * w + i)) := by funext i; rw [Nat.mul_one]
        rw [e] at this
        exact this
      have t := abs_add_le (v (sget A r (y * w + x)) - dct h (fun i => v (sget A f' (x * 1 + i * w))) y)
        (dct h (fun i => v (sget A f' (x * 1 + i * w))) y - dct2 w h (fun i j => v (sget A f (j * w + i))) x y)
      rw [sub_add_sub_cancel] at t
      refine le_trans t (le_trans (add_le_add a.2 k1) ?_)
      have hX : 0 ≤ w * h * M * u := mul_nonneg (by linarith) hu0
      have hX0 : 0 ≤ S0 * (w * h * M * u) := mul_nonneg hS00 hX
      have hX1 : 0 ≤ S1 * (w * h * M * u) := mul_nonneg hS10 hX
      have e1 : 28 * (S1 + 4) * (h * M') * u = 28 * (33 / 16) * (S1 * (w * h * M * u)) + 28 * (33 / 16) * 4 * (w * h * M * u) := by rw [hM']; ring
      have e2 : 2 * (h * (28 * (S0 + 4) * (w * M) * u)) = 56 * (S0 * (w * h * M * u)) + 224 * (w * h * M * u) := by ring
      have e3 : 58 * (S0 + S1 + 8) * (w * h * M) * u = 58 * (S0 * (w * h * M * u)) + 58 * (S1 * (w * h * M * u)) + 464 * (w * h * M * u) := by ring
      rw [e1, e2, e3]
      linarith

end

end Verif
