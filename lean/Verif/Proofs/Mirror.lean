import Verif.Proofs.Interpolate
import Verif.Proofs.FloatLemmas
import Verif.Spec.Mirror
import Verif.Spec.Evidence

/-! The cosine transform of mirrored, rescaled and brightened pictures; scores of tables that differ in signs. -/

namespace Verif
open Spec Real

theorem dct_mirror {n : ℕ} (x : ℕ → ℝ) (k : ℕ) : dct n (fun j => x (n - 1 - j)) k = (-1) ^ k * dct n x k := by
  unfold dct
  rw [← Finset.sum_range_reflect (fun j => x (n - 1 - j) * cos (π * ((j : ℝ) + 1 / 2) * k / n)), mul_left_comm, Finset.mul_sum _ _ ((-1 : ℝ) ^ k)]
  refine congrArg _ ?_
  refine Finset.sum_congr rfl (fun j hj => ?_)
  rw [Finset.mem_range] at hj
  have hn : (n : ℝ) ≠ 0 := by exact_mod_cast (by omega : n ≠ 0)
  have e1 : n - 1 - (n - 1 - j) = j := by omega
  have e2 : ((n - 1 - j : ℕ) : ℝ) = n - 1 - j := by
    rw [Nat.cast_sub (by omega), Nat.cast_sub (by omega)]; push_cast; ring
  have e3 : π * ((n : ℝ) - 1 - j + 1 / 2) * k / n = k * π - π * (j + 1 / 2) * k / n := by field_simp; ring
  rw [e1, e2, e3, cos_nat_mul_pi_sub]
  ring

/-- A constant has no coefficients but the first. -/
theorem dct_const {n : ℕ} (b : ℝ) {k : ℕ} (k0 : 0 < k) (kn : k < n) : dct n (fun _ => b) k = 0 := by
  have hn : (0 : ℝ) < n := by exact_mod_cast (by omega : 0 < n)
  have hk : (0 : ℝ) < k := by exact_mod_cast k0
  have hkn : (k : ℝ) < n := by exact_mod_cast kn
  set t : ℝ := π * k / n with ht
  have t0 : 0 < t := by positivity
  have t1 : t < π := by
    rw [ht, div_lt_iff₀ hn]
    exact mul_lt_mul_of_pos_left hkn pi_pos
  have hs : sin (t / 2) ≠ 0 := (sin_pos_of_pos_of_lt_pi (by linarith) (by linarith [pi_pos])).ne'
  have key : ∀ m : ℕ, 2 * sin (t / 2) * ∑ j ∈ Finset.range m, cos (t * (j + 1 / 2)) = sin (t * m) := by
    intro m
    induction m with
    | zero => simp
    | succ m ih =>
      rw [Finset.sum_range_succ, mul_add, ih]
      have e1 : t * ((m + 1 : ℕ) : ℝ) = t * (m + 1 / 2) + t / 2 := by push_cast; ring
      have e2 : t * (m : ℝ) = t * (m + 1 / 2) - t / 2 := by ring
      rw [e1, e2, sin_add, sin_sub]
      ring
  have h0 : ∑ j ∈ Finset.range n, cos (t * (j + 1 / 2)) = 0 := by
    have := key n
    rw [show t * n = k * π by rw [ht]; field_simp, sin_nat_mul_pi] at this
    rcases mul_eq_zero.mp this with h | h
    · exact absurd h (mul_ne_zero two_ne_zero hs)
    · exact h
  unfold dct
  rw [← Finset.mul_sum]
  rw [Finset.sum_congr rfl (fun j _ => by rw [show π * ((j : ℝ) + 1 / 2) * k / n = t * (j + 1 / 2) by rw [ht]; ring]), h0]
  ring

theorem dct_add {n : ℕ} (x y : ℕ → ℝ) (k : ℕ) : dct n (fun j => x j + y j) k = dct n x k + dct n y k := by
  unfold dct
  rw [← mul_add, ← Finset.sum_add_distrib]
  congr 1
  exact Finset.sum_congr rfl (fun j _ => by ring)

theorem dct2_congr {w h : ℕ} {x y : ℕ → ℕ → ℝ} (hxy : ∀ i j, i < w → j < h → x i j = y i j) (u v : ℕ) : dct2 w h x u v = dct2 w h y u v :=
  dct_congr (fun j hj => dct_congr (fun i hi => hxy i j hi hj) u) v

theorem dct2_bright {w h : ℕ} (x : ℕ → ℕ → ℝ) (b : ℝ) {u v : ℕ} (hu : u < w) (hv : v < h) (h0 : u ≠ 0 ∨ v ≠ 0) :
    dct2 w h (fun i j => x i j + b) u v = dct2 w h x u v := by
  unfold dct2
  simp only [dct_add, dct_add (fun j => dct w (fun i => x i j) u) (fun _ => dct w (fun _ => b) u)]
  rcases Nat.eq_zero_or_pos u with rfl | hu0
  · rw [dct_const _ (by omega) hv, add_zero]
  · rw [dct_const b hu0 hu, dct_smul 0 (fun _ => (0 : ℝ)) (fun _ => 0) (fun _ _ => by simp)]
    simp

/-- The spectrum of a reoriented picture. -/
theorem reoriented_dct2 {w h : ℕ} {x y : ℕ → ℕ → ℝ} (hxy : Reoriented w h x y) :
    ∃ c : ℝ, c ≠ 0 ∧ ∃ a b : ℕ, ∀ u v, dct2 w h y u v = c * ((-1) ^ (a * u) * (-1) ^ (b * v)) * dct2 w h x u v := by
  induction hxy with
  | @mirror x y hy =>
    refine ⟨1, one_ne_zero, 1, 0, fun u v => ?_⟩
    rw [dct2_congr hy]
    unfold dct2
    rw [dct_smul ((-1) ^ u) (fun j => dct w (fun i => x (w - 1 - i) j) u) (fun j => dct w (fun i => x i j) u)
      (fun j _ => dct_mirror (fun i => x i j) u)]
    simp
  | @upside x y hy =>
    refine ⟨1, one_ne_zero, 0, 1, fun u v => ?_⟩
    rw [dct2_congr hy]
    unfold dct2
    rw [dct_mirror (fun j => dct w (fun i => x i j) u) v]
    simp
  | @contrast x y c hc hy =>
    refine ⟨c, hc, 0, 0, fun u v => ?_⟩
    rw [dct2_congr hy]
    unfold dct2
    rw [dct_smul c (fun j => dct w (fun i => c * x i j) u) (fun j => dct w (fun i => x i j) u) (fun j _ => dct_smul c _ _ (fun i _ => rfl) u)]
    simp
  | trans _ _ ih1 ih2 =>
    obtain ⟨c1, h1, a1, b1, q1⟩ := ih1
    obtain ⟨c2, h2, a2, b2, q2⟩ := ih2
    refine ⟨c2 * c1, mul_ne_zero h2 h1, a1 + a2, b1 + b2, fun u v => ?_⟩
    rw [q2, q1, add_mul, add_mul, pow_add, pow_add]
    ring

theorem same_dct2 {w h : ℕ} {x y : ℕ → ℕ → ℝ} (hxy : SamePicture w h x y) :
    ∃ c : ℝ, c ≠ 0 ∧ ∃ a b : ℕ, ∀ u v, u < w → v < h → (u ≠ 0 ∨ v ≠ 0) →
      dct2 w h y u v = c * ((-1) ^ (a * u) * (-1) ^ (b * v)) * dct2 w h x u v := by
  obtain ⟨z, b, hz, hy⟩ := hxy
  obtain ⟨c, hc, a', b', q⟩ := reoriented_dct2 hz
  exact ⟨c, hc, a', b', fun u v hu hv h0 => by rw [dct2_congr hy, dct2_bright z b hu hv h0, q]⟩

/-- Two exact spectra that have the same pairs of equal and of different signs about `N`. -/
def Alike (X X' : ℕ → ℕ → ℝ) (n range N : ℕ) : Prop :=
  ∀ y < n, ∀ i, 1 ≤ i → i ≤ range → ∃ c > 0, X' y (N - i) * X' y (N + i) = c * (X y (N - i) * X y (N + i))

theorem factor_pos {c : ℝ} (hc : c ≠ 0) {a b N i v : ℕ} (hi : i ≤ N) :
    0 < (c * ((-1) ^ (a * (N - i)) * (-1) ^ (b * v))) * (c * ((-1 : ℝ) ^ (a * (N + i)) * (-1) ^ (b * v))) := by
  have e : (-1 : ℝ) ^ (a * (N + i)) = (-1) ^ (a * (N - i)) := by
    rw [show a * (N + i) = a * (N - i) + 2 * (a * i) by
      rw [Nat.mul_sub, Nat.mul_add]; have := Nat.mul_le_mul_left a hi; omega, pow_add, pow_mul (-1 : ℝ) 2]
    simp
  rw [e]
  exact mul_self_pos.mpr (mul_ne_zero hc (mul_ne_zero (pow_ne_zero _ (by norm_num)) (pow_ne_zero _ (by norm_num))))

theorem alike_rows {w h : ℕ} {x y : ℕ → ℕ → ℝ} (hxy : SamePicture w h x y) {range N : ℕ} (h1 : range < N) (h2 : N + range < w) :
    Alike (fun v u => dct2 w h x u v) (fun v u => dct2 w h y u v) h range N := by
  obtain ⟨c, hc, a, b, q⟩ := same_dct2 hxy
  intro v hv i i1 i2
  refine ⟨_, factor_pos hc (a := a) (b := b) (v := v) (show i ≤ N by omega), ?_⟩
  simp only
  rw [q _ v (by omega) hv (Or.inl (by omega)), q _ v (by omega) hv (Or.inl (by omega))]
  ring

theorem alike_cols {w h : ℕ} {x y : ℕ → ℕ → ℝ} (hxy : SamePicture w h x y) {range N : ℕ} (h1 : range < N) (h2 : N + range < h) :
    Alike (fun u v => dct2 w h x u v) (fun u v => dct2 w h y u v) w range N := by
  obtain ⟨c, hc, a, b, q⟩ := same_dct2 hxy
  intro u hu i i1 i2
  refine ⟨_, factor_pos hc (a := b) (b := a) (v := u) (show i ≤ N by omega), ?_⟩
  simp only
  rw [q u _ hu (by omega) (Or.inr (by omega)), q u _ hu (by omega) (Or.inr (by omega))]
  ring

theorem alike_rows' {w h : ℕ} {x y : ℕ → ℕ → ℝ} (hxy : Reoriented w h x y) {range N : ℕ} (h1 : range ≤ N) :
    Alike (fun v u => dct2 w h x u v) (fun v u => dct2 w h y u v) h range N := by
  obtain ⟨c, hc, a, b, q⟩ := reoriented_dct2 hxy
  intro v hv i i1 i2
  refine ⟨_, factor_pos hc (a := a) (b := b) (v := v) (show i ≤ N by omega), ?_⟩
  simp only
  rw [q, q]
  ring

theorem alike_cols' {w h : ℕ} {x y : ℕ → ℕ → ℝ} (hxy : Reoriented w h x y) {range N : ℕ} (h1 : range ≤ N) :
    Alike (fun u v => dct2 w h x u v) (fun u v => dct2 w h y u v) w range N := by
  obtain ⟨c, hc, a, b, q⟩ := reoriented_dct2 hxy
  intro u hu i i1 i2
  refine ⟨_, factor_pos hc (a := b) (b := a) (v := u) (show i ≤ N by omega), ?_⟩
  simp only
  rw [q, q]
  ring

/-- The signs of two nonzero numbers differ if their product is negative. -/
theorem signs_differ {a b : ℝ} (ha : a ≠ 0) (hb : b ≠ 0) : (decide (a < 0) ≠ decide (b < 0)) ↔ a * b < 0 := by
  rw [mul_neg_iff]
  rcases lt_or_gt_of_ne ha with h1 | h1 <;> rcases lt_or_gt_of_ne hb with h2 | h2 <;> simp [h1, h2, h1.not_gt, h2.not_gt]

theorem clear_pair {d d' : ℝ} {l r l' r' : Fl} {L R L' R' c : ℝ} (hl : Within d l L) (hr : Within d r R) (hl' : Within d' l' L') (hr' : Within d' r' R')
    (cl : d ≤ |L|) (cr : d ≤ |R|) (cl' : d' ≤ |L'|) (cr' : d' ≤ |R'|) (hc : 0 < c) (h : L' * R' = c * (L * R)) :
    l.signbit ≠ r.signbit ↔ l'.signbit ≠ r'.signbit := by
  have d0 := within_pos hl
  have d0' := within_pos hl'
  have n1 : L ≠ 0 := abs_pos.mp (by linarith)
  have n2 : R ≠ 0 := abs_pos.mp (by linarith)
  have n3 : L' ≠ 0 := abs_pos.mp (by linarith)
  have n4 : R' ≠ 0 := abs_pos.mp (by linarith)
  rw [within_sign hl cl, within_sign hr cr, within_sign hl' cl', within_sign hr' cr', signs_differ n1 n2, signs_differ n3 n4, h]
  constructor
  · exact fun h => mul_neg_of_pos_of_neg hc h
  · intro h
    by_contra h0
    exact absurd h (not_lt.mpr (mul_nonneg hc.le (not_lt.mp h0)))

theorem clear_alike {d d' : ℝ} {g g' : ℕ → ℕ → Fl} {X X' : ℕ → ℕ → ℝ} {n range N : ℕ} (hX : Alike X X' n range N) (hN : range ≤ N)
    (h : Computed d g X n range N) (h' : Computed d' g' X' n range N) (hc : Clear d X n range N) (hc' : Clear d' X' n range N) :
    signMatches g n range N = signMatches g' n range N := by
  unfold signMatches
  congr 1
  refine Finset.filter_congr ?_
  rintro ⟨y, i⟩ hm
  simp only [Finset.mem_product, Finset.mem_range, Finset.mem_Icc] at hm
  obtain ⟨hy, i1, i2⟩ := hm
  obtain ⟨c, c0, e⟩ := hX y hy i i1 i2
  have a1 : N - range ≤ N - i := by omega
  have a2 : N - i ≤ N + range := by omega
  have a3 : N - range ≤ N + i := by omega
  have a4 : N + i ≤ N + range := by omega
  exact clear_pair (h y hy _ a1 a2) (h y hy _ a3 a4) (h' y hy _ a1 a2) (h' y hy _ a3 a4) (hc y hy _ a1 a2 (by omega)) (hc y hy _ a3 a4 (by omega))
    (hc' y hy _ a1 a2 (by omega)) (hc' y hy _ a3 a4 (by omega)) c0 e

theorem neg_neg' (c : Fl) : c.neg.neg = c := by cases c <;> simp [Fl.neg]

theorem signbit_neg (c : Fl) : c.neg.signbit = !c.signbit := by cases c <;> rfl

theorem fabs_neg (c : Fl) : c.neg.fabs = c.fabs := by cases c <;> simp [Fl.neg, Fl.fabs]

theorem conv_neg (F : Fmt) (c : Fl) : F.conv c.neg = (F.conv c).neg ∨ ∃ b v, c = .fin b v ∧ v ≠ 0 ∧ (F.conv c.neg).fabs = (F.conv c).fabs := by
  cases c with
  | nan s => left; rfl
  | inf s => left; rfl
  | fin s v =>
    by_cases hv : v = 0
    · subst hv; left; simp [Fmt.conv, Fl.neg, Fmt.deliver]
    · right
      refine ⟨s, v, rfl, hv, ?_⟩
      simp only [Fmt.conv, Fl.neg, Fmt.deliver, neg_eq_zero, hv, if_false, F.rnd_neg, abs_neg]
      split_ifs <;> simp [Fl.fabs]

theorem conv_neg_fabs (F : Fmt) (c : Fl) : (F.conv c.neg).fabs = (F.conv c).fabs := by
  rcases conv_neg F c with h | ⟨_, _, _, _, h⟩
  · rw [h, fabs_neg]
  · exact h

theorem div_neg_neg {F : Fmt} {a d : Fl} (ha : ∀ b, a ≠ .nan b) (hd : ∀ b, d ≠ .nan b) : F.div a.neg d.neg = F.div a d := by
  cases a with
  | nan b => exact absurd rfl (ha b)
  | inf b =>
    cases d with
    | nan b => exact absurd rfl (hd b)
    | inf b => rfl
    | fin c v => cases b <;> cases c <;> rfl
  | fin b x =>
    cases d with
    | nan b => exact absurd rfl (hd b)
    | inf c => cases b <;> cases c <;> rfl
    | fin c v => cases b <;> cases c <;> simp [Fmt.div, Fl.neg, neg_div_neg_eq]

theorem magHit_neg (s : Sys) {a b : Fl} (ha : ∀ c, a ≠ .nan c) (hb : ∀ c, b ≠ .nan c) : magHit s a.neg b.neg = magHit s a b := by
  unfold magHit
  simp only [fabs_neg]
  set m := (if (Fl.fin false (pow2 (1 - (s.cfg.inter.p : ℤ)))).lt b.fabs then b.fabs else s.cfg.coeff.conv (.fin false (pow2 (1 - (s.cfg.inter.p : ℤ))))) with hm
  have hm' : ∀ c, m ≠ .nan c := by
    intro c
    rw [hm]
    split_ifs
    · cases b with
      | nan c' => exact absurd rfl (hb c')
      | inf c' => simp [Fl.fabs]
      | fin c' v => simp [Fl.fabs]
    · simp only [Fmt.conv, Fmt.deliver]
      split_ifs <;> simp
  have e : m.copysign b.neg = (m.copysign b).neg := by
    unfold Fl.copysign
    rw [signbit_neg]
    cases b.signbit <;> simp [neg_neg']
  rw [e, div_neg_neg ha]
  intro c
  unfold Fl.copysign
  cases hmm : m with
  | nan c' => exact absurd hmm (hm' c')
  | inf c' => cases b.signbit <;> simp [Fl.fabs, Fl.neg]
  | fin c' v => cases b.signbit <;> simp [Fl.fabs, Fl.neg]

theorem crosses_neg (l m r : Fl) : crosses l.neg m.neg r.neg = crosses l m r := by
  have hlt : ∀ a b : Fl, a.neg.lt b.neg = b.lt a := by
    intro a b
    cases a <;> cases b <;> simp [Fl.neg, Fl.lt, Bool.and_comm]
  unfold crosses
  simp only [hlt, signbit_neg]
  have : ((!l.signbit) != (!r.signbit)) = (l.signbit != r.signbit) := by cases l.signbit <;> cases r.signbit <;> rfl
  rw [this, Bool.and_comm (m.lt l), Bool.and_comm (l.lt m), Bool.or_comm]

/-- Scores of two tables that differ in signs, the same for both coefficients of a pair: the same, except for the zero crossing method,
which needs the sign of the coefficient in the middle to change as well. -/
theorem frameScore_turned {s : Sys} {d : Detect} {g g' : ℕ → ℕ → Fl} {n range x : ℕ} (hr : 0 < range) (hx : range ≤ x) {σ : ℕ → ℕ → Bool}
    (h : ∀ y < n, ∀ z, x - range ≤ z → z ≤ x + range → g' y z = turned (σ y z) (g y z))
    (hσ : ∀ y < n, ∀ i, 1 ≤ i → i ≤ range → σ y (x - i) = σ y (x + i))
    (hz : d = .zerox → ∀ y < n, σ y x = σ y (x - 1))
    (hm : d = .mag → ∀ y < n, ∀ z, x - range ≤ z → z ≤ x + range → ∀ b, g y z ≠ .nan b) :
    frameScore s d g' n range x = frameScore s d g n range x := by
  have hsign : signMatches g' n range x = signMatches g n range x := by
    unfold signMatches
    congr 1
    refine Finset.filter_congr ?_
    rintro ⟨y, i⟩ hm
    simp only [Finset.mem_product, Finset.mem_range, Finset.mem_Icc] at hm
    simp only
    rw [h y hm.1 (x - i) (by omega) (by omega), h y hm.1 (x + i) (by omega) (by omega), hσ y hm.1 i hm.2.1 hm.2.2]
    unfold turned
    split_ifs
    · rw [signbit_neg, signbit_neg]; simp
    · rfl
  cases d with
  | sign => simp only [frameScore, hsign]
  | mag =>
    have : pairMatches (magHit s) g' n range x = pairMatches (magHit s) g n range x := by
      unfold pairMatches
      congr 1
      refine Finset.filter_congr ?_
      rintro ⟨y, i⟩ hm'
      simp only [Finset.mem_product, Finset.mem_range, Finset.mem_Icc] at hm'
      simp only
      rw [h y hm'.1 (x - i) (by omega) (by omega), h y hm'.1 (x + i) (by omega) (by omega), hσ y hm'.1 i hm'.2.1 hm'.2.2]
      unfold turned
      split_ifs
      · rw [magHit_neg s (hm rfl y hm'.1 _ (by omega) (by omega)) (hm rfl y hm'.1 _ (by omega) (by omega))]
      · rfl
    simp only [frameScore, this]
  | zerox =>
    have : crossings g' n x = crossings g n x := by
      unfold crossings
      congr 1
      refine Finset.filter_congr ?_
      intro y hm
      rw [Finset.mem_range] at hm
      rw [h y hm (x - 1) (by omega) (by omega), h y hm (x + 1) (by omega) (by omega), h y hm x (by omega) (by omega),
        ← hσ y hm 1 le_rfl hr, hz rfl y hm]
      unfold turned
      split_ifs
      · rw [crosses_neg]
      · rfl
    simp only [frameScore, this]
  | orig =>
    have hmean : ∀ z, x - range ≤ z → z ≤ x + range → meanMag s.cfg g' n z = meanMag s.cfg g n z := by
      intro z h1 h2
      unfold meanMag
      congr 2
      refine List.map_congr_left ?_
      intro y hy
      rw [List.mem_range] at hy
      rw [h y hy z h1 h2]
      unfold turned
      split_ifs
      · rw [conv_neg_fabs]
      · rfl
    have hl : ∀ (τ : ℕ → ℕ), (∀ i < range, x - range ≤ τ i ∧ τ i ≤ x + range) →
        (List.range range).map (fun i => meanMag s.cfg g' n (τ i)) = (List.range range).map (fun i => meanMag s.cfg g n (τ i)) := by
      intro τ hτ
      refine List.map_congr_left ?_
      intro i hi
      rw [List.mem_range] at hi
      exact hmean _ (hτ i hi).1 (hτ i hi).2
    have : origPasses s.cfg g' n range x = origPasses s.cfg g n range x := by
      unfold origPasses
      rw [hl (fun i => x - (i + 1)) (fun i hi => by omega), hl (fun i => x + (i + 1)) (fun i hi => by omega),
        hmean x (by omega) (by omega)]
    simp only [frameScore, this, hsign]

end Verif
