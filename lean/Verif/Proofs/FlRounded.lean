import Verif.Spec.Accuracy
import Verif.Proofs.DctError
import Verif.Proofs.FactorPrime
import Verif.Proofs.KissStill

/-! # The machine's arithmetic meets the error bounds -/

namespace Verif
open Spec

/-- The cost of the stages is the sum of the prime factors. -/
theorem stageCost_eq {n : ℕ} (hn : 0 < n) {fs : List (ℕ × ℕ)} (h : kfFactor n = some fs) (hst : Stages n fs) :
    stageCost fs = primeSum n := by
  rcases Nat.lt_or_ge n 2 with h1 | h1
  · obtain rfl : n = 1 := by omega
    rw [show kfFactor 1 = some [(1, 1)] by decide +kernel] at h
    cases h
    simp [stageCost, radixCost, primeSum]
  · have hpr := kfFactor_prime h1 h
    rw [← hst.prod]
    unfold stageCost
    clear h hst h1 hn
    induction fs with
    | nil => simp [primeSum]
    | cons x fs ih =>
      have ih := ih (fun y hy => hpr y (by simp [hy]))
      have hx := hpr x (by simp)
      simp only [List.map_cons, List.sum_cons, List.prod_cons]
      have hx0 : x.1 ≠ 0 := by
        rcases hx with h | h
        · omega
        · exact h.ne_zero
      have hp0 : (fs.map Prod.fst).prod ≠ 0 := by
        rw [Ne, List.prod_eq_zero_iff]
        simp only [List.mem_map, not_exists, not_and]
        intro y hy e
        rcases hpr y (by simp [hy]) with h | h
        · omega
        · exact h.ne_zero e
      rw [ih]
      unfold primeSum
      rw [(Nat.perm_primeFactorsList_mul hx0 hp0).sum_eq, List.sum_append]
      congr 1
      unfold radixCost
      rcases hx with h | h
      · rw [h, if_neg (by norm_num), show (4 : ℕ) = 2 * 2 by norm_num, (Nat.perm_primeFactorsList_mul two_ne_zero two_ne_zero).sum_eq,
          Nat.primeFactorsList_prime Nat.prime_two]; rfl
      · rw [if_neg h.ne_one, Nat.primeFactorsList_prime h]; simp

theorem Fin.tab {u : ℝ} {c : Fl} {x : ℝ} (h : Tabulated u c x) : Fin c ∧ |rval c - x| ≤ u := by
  obtain ⟨b, v, e, h1, h2⟩ := h
  subst e
  exact ⟨⟨b, v, rfl, h1⟩, h2⟩

theorem deliver_rval (F : Fmt) (hF : F.WF) (s : Bool) {v : ℚ} {u η B : ℝ} (hu : ((pow2 (-F.p) : ℚ) : ℝ) ≤ u)
    (hη : ((pow2 (F.qmin - 1) : ℚ) : ℝ) ≤ η) (hB : B ≤ ((pow2 (F.emax - 1) : ℚ) : ℝ)) (h : |(v : ℝ)| ≤ B) :
    Fin (F.deliver s v) ∧ |rval (F.deliver s v) - v| ≤ u * |(v : ℝ)| + η := by
  have h' : |v| ≤ pow2 (F.emax - 1) := by
    have := h.trans hB
    rw [← Rat.cast_abs] at this
    exact_mod_cast this
  obtain ⟨h1, h2⟩ := F.deliver_near hF s h'
  refine ⟨h1, ?_⟩
  have h2 : |rval (F.deliver s v) - v| ≤ ((pow2 (-F.p) : ℚ) : ℝ) * |(v : ℝ)| + ((pow2 (F.qmin - 1) : ℚ) : ℝ) := by
    unfold rval
    rw [← Rat.cast_sub, ← Rat.cast_abs, ← Rat.cast_abs, ← Rat.cast_mul, ← Rat.cast_add]
    exact_mod_cast h2
  have := mul_le_mul_of_nonneg_right hu (abs_nonneg (v : ℝ))
  linarith

theorem pow2_le_pow2 {a b : ℤ} (h : a ≤ b) : ((pow2 a : ℚ) : ℝ) ≤ ((pow2 b : ℚ) : ℝ) := by
  rcases eq_or_lt_of_le h with rfl | h
  · exact le_rfl
  · exact_mod_cast (pow2_lt h).le

theorem Spec.Accurate.coeff {s : Sys} {u : ℝ} (h : Accurate s u) (hc : s.cfg.coeff.WF) (b : Bool) {v : ℚ}
    (hv : |(v : ℝ)| ≤ ((pow2 (s.cfg.kiss.emax - 1) : ℚ) : ℝ)) :
    Fin (s.cfg.coeff.deliver b v) ∧ |rval (s.cfg.coeff.deliver b v) - v| ≤ u * |(v : ℝ)| + ((pow2 (s.cfg.kiss.qmin - 1) : ℚ) : ℝ) := by
  obtain ⟨h1, h2, h3⟩ := h.finer
  exact deliver_rval s.cfg.coeff hc b ((pow2_le_pow2 (by omega)).trans h.unit) (pow2_le_pow2 (by omega)) (pow2_le_pow2 (by omega)) hv

theorem Spec.Accurate.rounded {s : Sys} {u : ℝ} (h : Accurate s u) (hc : s.cfg.coeff.WF) :
    Rounded s.arith Fin rval u ((pow2 (s.cfg.kiss.qmin - 1) : ℚ) : ℝ) ((pow2 (s.cfg.kiss.emax - 1) : ℚ) : ℝ) := by
  have key : ∀ (b : Bool) (v : ℚ), |(v : ℝ)| ≤ ((pow2 (s.cfg.kiss.emax - 1) : ℚ) : ℝ) → Fin (s.cfg.kiss.deliver b v) ∧
      |rval (s.cfg.kiss.deliver b v) - v| ≤ u * |(v : ℝ)| + ((pow2 (s.cfg.kiss.qmin - 1) : ℚ) : ℝ) :=
    fun b v hv => deliver_rval _ h.kiss b h.unit le_rfl le_rfl hv
  constructor
  · rintro _ _ ⟨ba, a, rfl, _⟩ ⟨bb, b, rfl, _⟩ hB
    have := key (ba && bb) (a + b) (by push_cast; exact hB)
    push_cast at this
    exact this
  · rintro _ _ ⟨ba, a, rfl, _⟩ ⟨bb, b, rfl, _⟩ hB
    have := key (ba && !bb) (a + -b) (by push_cast; exact hB)
    rw [Rat.cast_add, Rat.cast_neg] at this
    show _ ∧ |_ - ((a : ℝ) - b)| ≤ u * |(a : ℝ) - b| + _
    rw [sub_eq_add_neg (a : ℝ)]
    exact this
  · rintro _ _ ⟨ba, a, rfl, _⟩ ⟨bb, b, rfl, _⟩ hB
    have := key (xor ba bb) (a * b) (by push_cast; exact hB)
    push_cast at this
    exact this
  · rintro _ ⟨ba, a, rfl, ha⟩
    refine ⟨⟨!ba, -a, rfl, ?_⟩, ?_⟩
    · intro h0
      have h0 : a ≠ 0 := by simpa using h0
      rw [ha h0]
      rcases lt_or_gt_of_ne h0 with h | h
      · simp [h, h.le]
      · simp [h, not_lt.mpr h.le]
    · show (((-a : ℚ)) : ℝ) = -((a : ℚ) : ℝ)
      push_cast; rfl
  · refine ⟨⟨false, 0, rfl, fun h => absurd rfl h⟩, ?_⟩
    show (((0 : ℚ)) : ℝ) = 0
    norm_num
  · refine ⟨⟨false, 1 / 2, rfl, fun _ => by norm_num⟩, ?_⟩
    show (((1 / 2 : ℚ)) : ℝ) = 1 / 2
    norm_num
  · rintro _ ⟨ba, a, rfl, _⟩ hB
    exact key ba a hB
  · rintro _ ⟨ba, a, rfl, _⟩ hB
    exact h.coeff hc ba hB
  · intro n k hk
    obtain ⟨h1, h2⟩ := h.twiddle n k hk
    exact ⟨⟨(Fin.tab h1).1, (Fin.tab h2).1⟩, (Fin.tab h1).2, (Fin.tab h2).2⟩
  · intro n k hk
    obtain ⟨h1, h2⟩ := h.superTwiddle n k hk
    exact ⟨⟨(Fin.tab h1).1, (Fin.tab h2).1⟩, (Fin.tab h1).2, (Fin.tab h2).2⟩
  · intro n k hk
    obtain ⟨h1, h2⟩ := h.shift n k hk
    exact ⟨⟨(Fin.tab h1).1, (Fin.tab h2).1⟩, (Fin.tab h1).2, (Fin.tab h2).2⟩

theorem dct2_diff {w h : ℕ} {x y : ℕ → ℕ → ℝ} {D : ℝ} (hd : ∀ i j, i < w → j < h → |x i j - y i j| ≤ D) (a b : ℕ) :
    |dct2 w h x a b - dct2 w h y a b| ≤ 4 * (w * h * D) := by
  unfold dct2
  have := dct_diff (n := h) (x := fun j => dct w (fun i => x i j) a) (y := fun j => dct w (fun i => y i j) a) (M := 2 * (w * D))
    (fun j hj => dct_diff (fun i hi => hd i j hi hj) a) b
  refine this.trans (le_of_eq (by ring))

/-- A frame in the machine's arithmetic. -/
theorem transform_err {s : Sys} {u M : ℝ} {w h : ℕ} (ha : Accurate s u) (hc : s.cfg.coeff.WF) (hmod : Moderate s u M w h) {p : KissPlan}
    (g : KissGood s.cfg p w h) (w0 : 0 < w) (h0 : 0 < h) {image : List Fl} (hb : Sampled M w h image) :
    Det p.blocks (kissTransform s.arith s.cfg ⟨s.env.junk, s.env.junk⟩ p ((image.take (w * h)).map s.cfg.coeff.conv)) (fun r =>
      ∀ x y, x < w → y < h → Within (errorBound u M w h) ((r[y * w + x]?).getD (.nan false)) (dct2 w h (pixel w image) x y)) := by
  have hη : (0 : ℝ) < ((pow2 (s.cfg.kiss.qmin - 1) : ℚ) : ℝ) := by exact_mod_cast pow2_pos _
  have hu0 : (0 : ℝ) < u := lt_of_lt_of_le (by exact_mod_cast pow2_pos _) ha.unit
  have hM : 0 < M := by
    by_contra hM
    have := mul_nonneg hu0.le (by linarith : 0 ≤ -M)
    linarith [hmod.small]
  have hw1 : (1 : ℝ) ≤ w := by exact_mod_cast w0
  have hh1 : (1 : ℝ) ≤ h := by exact_mod_cast h0
  have hX : 0 < w * h * M := by positivity
  have hMX : M ≤ w * h * M := by
    have : (1 : ℝ) ≤ w * h := by nlinarith
    nlinarith
  have hcost0 : (0 : ℝ) ≤ primeSum w := Nat.cast_nonneg _
  have hcost1 : (0 : ℝ) ≤ primeSum h := Nat.cast_nonneg _
  have hu1 : u ≤ 1 / 2048 := by
    have := hmod.width
    have : 0 ≤ primeSum w * u := mul_nonneg hcost0 hu0.le
    linarith
  have huM : u * M ≤ 1 / 2048 * M := mul_le_mul_of_nonneg_right hu1 hM.le
  -- the loaded samples
  have hlenl : ∀ i, i < w * h → ∃ b, ∃ q : ℚ, image[i]? = some (.fin b q) ∧ |(q : ℝ)| ≤ M := by
    intro i hi
    have hm := Nat.mod_lt i w0
    have hd : i / w < h := (Nat.div_lt_iff_lt_mul w0).2 (by rwa [Nat.mul_comm])
    have := hb (i % w) (i / w) hm hd
    rwa [show i / w * w + i % w = i by rw [Nat.mul_comm]; exact Nat.div_add_mod i w] at this
  have hlen : w * h ≤ image.length := by
    by_contra hl
    obtain ⟨b, q, e, _⟩ := hlenl (w * h - 1) (by have := Nat.mul_pos w0 h0; omega)
    rw [List.getElem?_eq_none (by omega)] at e
    cases e
  set f := (image.take (w * h)).map s.cfg.coeff.conv with hf
  have hget : ∀ i, i < w * h → ∃ b, ∃ q : ℚ, image[i]? = some (.fin b q) ∧ |(q : ℝ)| ≤ M ∧ sget s.arith f i = s.cfg.coeff.deliver b q := by
    intro i hi
    obtain ⟨b, q, e, hq⟩ := hlenl i hi
    refine ⟨b, q, e, hq, ?_⟩
    unfold sget
    rw [hf, List.getElem?_map, List.getElem?_take_of_lt hi, e]
    rfl
  have hld : ∀ i, i < w * h → Fin (sget s.arith f i) ∧ |rval (sget s.arith f i) - ((val ((image[i]?).getD (.fin false 0)) : ℚ) : ℝ)| ≤
      17 / 16 * (u * M) ∧ |rval (sget s.arith f i)| ≤ 1025 / 1024 * M := by
    intro i hi
    obtain ⟨b, q, e, hq, e2⟩ := hget i hi
    obtain ⟨k1, k2⟩ := ha.coeff hc b (v := q) (by linarith [hmod.large])
    rw [e2, e]
    have hq' := mul_le_mul_of_nonneg_left hq hu0.le
    have k3 : |rval (s.cfg.coeff.deliver b q) - q| ≤ 17 / 16 * (u * M) := by linarith [hmod.small]
    refine ⟨k1, k3, ?_⟩
    have := abs_add_le (rval (s.cfg.coeff.deliver b q) - q) q
    rw [sub_add_cancel] at this
    linarith
  have e0 : (stageCost g.cfg0.2.factors : ℝ) = primeSum w := by
    have h1 := g.fac0
    have h2 := g.stages0
    rw [g.n0] at h1 h2
    rw [stageCost_eq w0 h1 h2]
  have e1 : (stageCost g.cfg1.2.factors : ℝ) = primeSum h := by
    have h1 := g.fac1
    have h2 := g.stages1
    rw [g.n1] at h1 h2
    rw [stageCost_eq h0 h1 h2]
  have huM2 : u * M ≤ u * (1025 / 1024 * M) := mul_le_mul_of_nonneg_left (by linarith) hu0.le
  have eM : (w : ℝ) * h * (1025 / 1024 * M) = 1025 / 1024 * (w * h * M) := by ring
  refine Det.mono (kissTransform_err (ha.rounded hc) g (junk := ⟨s.env.junk, s.env.junk⟩) (f := f) (M := 1025 / 1024 * M)
    (by simp [hf, hlen]) hu0.le hη.le (by linarith [hmod.small]) (by linarith) (fun i hi => ⟨(hld i hi).1, (hld i hi).2.2⟩)
    (by rw [e0]; exact hmod.width) (by rw [e1]; exact hmod.height) (by rw [eM]; linarith [hmod.large])) ?_
  rintro r ⟨hr, hv⟩
  intro x y hx hy
  obtain ⟨⟨b, q, k1, k2⟩, k3⟩ := hv x y hx hy
  have hidx : y * w + x < r.length := by rw [hr]; have := index_row (w := w) (h := h) hy hx; omega
  have hs : sget s.arith r (y * w + x) = (r[y * w + x]?).getD (.nan false) := by
    unfold sget
    rw [List.getElem?_eq_getElem hidx]; rfl
  rw [← hs, k1]
  refine ⟨q, b, rfl, k2, ?_⟩
  rw [k1] at k3
  have k3 : |(q : ℝ) - dct2 w h (fun i j => rval (sget s.arith f (j * w + i))) x y| ≤ _ := k3
  rw [e0, e1, eM] at k3
  have k4 : |dct2 w h (fun i j => rval (sget s.arith f (j * w + i))) x y - dct2 w h (pixel w image) x y| ≤ 4 * (w * h * (17 / 16 * (u * M))) :=
    dct2_diff (fun i j hi hj => (hld (j * w + i) (by have := index_row (w := w) (h := h) hj hi; omega)).2.1) x y
  have t := abs_add_le ((q : ℝ) - dct2 w h (fun i j => rval (sget s.arith f (j * w + i))) x y)
    (dct2 w h (fun i j => rval (sget s.arith f (j * w + i))) x y - dct2 w h (pixel w image) x y)
  rw [sub_add_sub_cancel] at t
  refine lt_of_le_of_lt t (lt_of_le_of_lt (add_le_add k3 k4) ?_)
  have hXu : 0 < w * h * M * u := mul_pos hX hu0
  have hX0 : 0 ≤ primeSum w * (w * h * M * u) := mul_nonneg hcost0 hXu.le
  have hX1 : 0 ≤ primeSum h * (w * h * M * u) := mul_nonneg hcost1 hXu.le
  have d1 : 58 * ((primeSum w : ℝ) + primeSum h + 8) * (1025 / 1024 * (w * h * M)) * u =
      58 * (1025 / 1024) * (primeSum w * (w * h * M * u) + primeSum h * (w * h * M * u) + 8 * (w * h * M * u)) := by ring
  have d2 : 4 * (w * h * (17 / 16 * (u * M))) = 4 * (17 / 16) * (w * h * M * u) := by ring
  have d3 : errorBound u M w h = 60 * (primeSum w * (w * h * M * u) + primeSum h * (w * h * M * u) + 8 * (w * h * M * u)) := by
    unfold errorBound; ring
  rw [d1, d2, d3]
  linarith

end Verif
