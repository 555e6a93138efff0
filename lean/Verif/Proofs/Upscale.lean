import Verif.Spec.Fourier
import Mathlib.Analysis.SpecialFunctions.Trigonometric.Bounds

/-! The cosine transform of an enlarged sequence. -/

namespace Verif
open Spec Real

/-- Telescoping sum of cosines at half steps. -/
theorem sum_cos_half (t a : ℝ) (s : ℕ) :
    2 * sin (t / 2) * ∑ b ∈ Finset.range s, cos (t * (a + b + 1 / 2)) = sin (t * (a + s)) - sin (t * a) := by
  induction s with
  | zero => simp
  | succ s ih =>
    rw [Finset.sum_range_succ, mul_add, ih]
    have h1 : sin (t * (a + (s + 1 : ℕ))) = sin (t * (a + s + 1 / 2) + t / 2) := by
      congr 1; push_cast; ring
    have h2 : sin (t * (a + s)) = sin (t * (a + s + 1 / 2) - t / 2) := by
      congr 1; ring
    rw [h1, h2, sin_add, sin_sub]
    ring

theorem sum_blocks {N s : ℕ} (g : ℕ → ℝ) :
    ∑ i ∈ Finset.range (s * N), g i = ∑ a ∈ Finset.range N, ∑ b ∈ Finset.range s, g (s * a + b) := by
  induction N with
  | zero => simp
  | succ N ih => rw [Nat.mul_succ, Finset.sum_range_add, ih, Finset.sum_range_succ]

/-- Replicating every sample `s` times multiplies the cosine transform by a ratio of sines. -/
theorem dct_replicate {N s : ℕ} (hN : 0 < N) (hs : 0 < s) (x o : ℕ → ℝ) (hx : ∀ i, i < s * N → x i = o (i / s)) (k : ℕ) :
    sin (π * k / (2 * (s * N))) * dct (s * N) x k = sin (π * k / (2 * N)) * dct N o k := by
  have hN' : (N : ℝ) ≠ 0 := by exact_mod_cast hN.ne'
  have hs' : (s : ℝ) ≠ 0 := by exact_mod_cast hs.ne'
  unfold dct
  rw [sum_blocks, Finset.mul_sum, Finset.mul_sum, Finset.mul_sum, Finset.mul_sum]
  refine Finset.sum_congr rfl (fun a ha => ?_)
  have ha : a < N := by simpa using ha
  set t := π * k / (s * N) with ht
  have e1 : ∀ b ∈ Finset.range s, x (s * a + b) * cos (π * ((s * a + b : ℕ) + 1 / 2) * k / (s * N : ℕ)) =
      o a * cos (t * ((s * a : ℝ) + b + 1 / 2)) := by
    intro b hb
    have hb : b < s := by simpa using hb
    rw [hx _ (by
      have : s * (a + 1) ≤ s * N := Nat.mul_le_mul_left _ ha
      rw [Nat.mul_succ] at this
      omega), Nat.mul_add_div hs, Nat.div_eq_of_lt hb, Nat.add_zero]
    congr 2
    rw [ht]
    push_cast
    ring
  rw [Finset.sum_congr rfl e1, ← Finset.mul_sum]
  have h := sum_cos_half t (s * a) s
  have e2 : t / 2 = π * k / (2 * (s * N)) := by rw [ht]; field_simp
  rw [e2] at h
  have h3 : sin (t * (s * a + s)) - sin (t * (s * a)) =
      2 * sin (π * k / (2 * N)) * cos (π * (a + 1 / 2) * k / N) := by
    have p1 : t * (s * a + s) = π * (a + 1 / 2) * k / N + π * k / (2 * N) := by
      rw [ht]; field_simp; ring
    have p2 : t * (s * a) = π * (a + 1 / 2) * k / N - π * k / (2 * N) := by
      rw [ht]; field_simp; ring
    rw [p1, p2, sin_add, sin_sub]
    ring
  rw [h3] at h
  calc sin (π * k / (2 * (s * N))) * (2 * (o a * ∑ b ∈ Finset.range s, cos (t * ((s * a : ℝ) + b + 1 / 2))))
      = o a * (2 * sin (π * k / (2 * (s * N))) * ∑ b ∈ Finset.range s, cos (t * ((s * a : ℝ) + b + 1 / 2))) := by ring
    _ = _ := by rw [h]; ring

/-- The cosine transform continued beyond its length is antisymmetric about the length. -/
theorem dct_antisym {N : ℕ} (hN : 0 < N) (o : ℕ → ℝ) {j : ℕ} (hj : j ≤ N) : dct N o (N + j) = -dct N o (N - j) := by
  have hN' : (N : ℝ) ≠ 0 := by exact_mod_cast hN.ne'
  unfold dct
  rw [Finset.mul_sum, Finset.mul_sum, ← Finset.sum_neg_distrib]
  refine Finset.sum_congr rfl (fun a _ => ?_)
  have h0 : cos (π * (a + 1 / 2)) = 0 := by
    rw [show π * ((a : ℝ) + 1 / 2) = π / 2 + a * π by ring, cos_add_nat_mul_pi, cos_pi_div_two, mul_zero]
  have e1 : π * ((a : ℝ) + 1 / 2) * (N + j : ℕ) / N = π * (a + 1 / 2) + π * (a + 1 / 2) * j / N := by
    push_cast; field_simp
  have e2 : π * ((a : ℝ) + 1 / 2) * (N - j : ℕ) / N = π * (a + 1 / 2) - π * (a + 1 / 2) * j / N := by
    rw [Nat.cast_sub hj]; field_simp
  rw [e1, e2, cos_add, cos_sub, h0]
  ring

theorem sin_pos_frac {k d : ℕ} (hk : 0 < k) (hd : k < 2 * d) : 0 < sin (π * k / (2 * d)) := by
  have hd0 : (0 : ℝ) < 2 * d := by
    have : 0 < 2 * d := by omega
    exact_mod_cast this
  apply sin_pos_of_pos_of_lt_pi
  · have : (0 : ℝ) < k := by exact_mod_cast hk
    positivity
  · rw [div_lt_iff₀ hd0]
    have : (k : ℝ) < 2 * d := by exact_mod_cast hd
    exact mul_lt_mul_of_pos_left this pi_pos

/-- About the original length `N` the transform of a replicated sequence is antisymmetric up to positive factors. -/
theorem dct_enlarged {N s : ℕ} (hN : 0 < N) (hs : 2 ≤ s) :
    ∀ j, j < N → ∃ c > 0, ∀ x o : ℕ → ℝ, (∀ i, i < s * N → x i = o (i / s)) →
      dct (s * N) x (N + j) = -c * dct (s * N) x (N - j) := by
  intro j hj
  have h2 : 2 * N ≤ s * N := Nat.mul_le_mul_right _ hs
  have p1 := sin_pos_frac (k := N + j) (d := s * N) (by omega) (by omega)
  have p2 := sin_pos_frac (k := N - j) (d := s * N) (by omega) (by omega)
  have p3 := sin_pos_frac (k := N + j) (d := N) (by omega) (by omega)
  have p4 := sin_pos_frac (k := N - j) (d := N) (by omega) (by omega)
  rw [Nat.cast_mul] at p1 p2
  set a := sin (π * (N + j : ℕ) / (2 * (s * N))) with ha
  set b := sin (π * (N - j : ℕ) / (2 * (s * N))) with hb
  set a' := sin (π * (N + j : ℕ) / (2 * N)) with ha'
  set b' := sin (π * (N - j : ℕ) / (2 * N)) with hb'
  refine ⟨a' * b / (a * b'), by positivity, ?_⟩
  intro x o hx
  have e1 := dct_replicate hN (by omega) x o hx (N + j)
  have e2 := dct_replicate hN (by omega) x o hx (N - j)
  rw [dct_antisym hN o hj.le] at e1
  rw [← ha, ← ha'] at e1
  rw [← hb, ← hb'] at e2
  have hO : dct N o (N - j) = b * dct (s * N) x (N - j) / b' := by
    rw [e2]; field_simp
  have hX : dct (s * N) x (N + j) = -(a' * dct N o (N - j)) / a := by
    rw [eq_div_iff p1.ne']; linarith
  rw [hX, hO]
  field_simp

/-- At the original length the transform of a replicated sequence vanishes. -/
theorem dct_enlarged_zero {N s : ℕ} (hN : 0 < N) (hs : 2 ≤ s) (x o : ℕ → ℝ) (hx : ∀ i, i < s * N → x i = o (i / s)) :
    dct (s * N) x N = 0 := by
  have h2 : 2 * N ≤ s * N := Nat.mul_le_mul_right _ hs
  have p1 := sin_pos_frac (k := N) (d := s * N) (by omega) (by omega)
  rw [Nat.cast_mul] at p1
  have e1 := dct_replicate hN (by omega) x o hx N
  have e2 := dct_antisym hN o (Nat.zero_le N)
  rw [Nat.add_zero, Nat.sub_zero] at e2
  have : dct N o N = 0 := by linarith
  rw [this, mul_zero] at e1
  rcases mul_eq_zero.mp e1 with h | h
  · exact absurd h p1.ne'
  · exact h

theorem dct_smul {n : ℕ} (c : ℝ) (x y : ℕ → ℝ) (h : ∀ i, i < n → x i = c * y i) (k : ℕ) : dct n x k = c * dct n y k := by
  unfold dct
  rw [Finset.mul_sum, Finset.mul_sum, Finset.mul_sum]
  refine Finset.sum_congr rfl (fun i hi => ?_)
  rw [h i (by simpa using hi)]
  ring

/-- The two-dimensional transform of an image whose columns are replicated. -/
theorem dct2_wide {N s h : ℕ} (hN : 0 < N) (hs : 2 ≤ s) {x o : ℕ → ℕ → ℝ}
    (hx : ∀ i j, i < s * N → j < h → x i j = o (i / s) j) {j : ℕ} (hj : j < N) :
    ∃ c > 0, ∀ v, dct2 (s * N) h x (N + j) v = -c * dct2 (s * N) h x (N - j) v := by
  obtain ⟨c, hc, hall⟩ := dct_enlarged hN hs j hj
  refine ⟨c, hc, fun v => ?_⟩
  unfold dct2
  apply dct_smul
  intro b hb
  exact hall _ (fun i => o i b) (fun i hi => hx i b hi hb)

theorem dct2_wide_zero {N s h : ℕ} (hN : 0 < N) (hs : 2 ≤ s) {x o : ℕ → ℕ → ℝ}
    (hx : ∀ i j, i < s * N → j < h → x i j = o (i / s) j) (v : ℕ) : dct2 (s * N) h x N v = 0 := by
  unfold dct2
  rw [dct_smul 0 _ (fun _ => 0), zero_mul]
  intro b hb
  rw [zero_mul]
  exact dct_enlarged_zero hN hs _ (fun i => o i b) (fun i hi => hx i b hi hb)

theorem dct_congr {n : ℕ} {x y : ℕ → ℝ} (h : ∀ i, i < n → x i = y i) (k : ℕ) : dct n x k = dct n y k := by
  rw [dct_smul 1 x y (fun i hi => by rw [h i hi, one_mul]), one_mul]

/-- The two-dimensional transform of an image whose rows are replicated. -/
theorem dct2_tall {N s w : ℕ} (hN : 0 < N) (hs : 2 ≤ s) {x o : ℕ → ℕ → ℝ}
    (hx : ∀ i j, i < w → j < s * N → x i j = o i (j / s)) {j : ℕ} (hj : j < N) :
    ∃ c > 0, ∀ u, dct2 w (s * N) x u (N + j) = -c * dct2 w (s * N) x u (N - j) := by
  obtain ⟨c, hc, hall⟩ := dct_enlarged hN hs j hj
  refine ⟨c, hc, fun u => ?_⟩
  unfold dct2
  exact hall _ (fun b => dct w (fun i => o i b) u) (fun b hb => dct_congr (fun i hi => hx i b hi hb) u)

theorem dct2_tall_zero {N s w : ℕ} (hN : 0 < N) (hs : 2 ≤ s) {x o : ℕ → ℕ → ℝ}
    (hx : ∀ i j, i < w → j < s * N → x i j = o i (j / s)) (u : ℕ) : dct2 w (s * N) x u N = 0 := by
  unfold dct2
  exact dct_enlarged_zero hN hs _ (fun b => dct w (fun i => o i b) u) (fun b hb => dct_congr (fun i hi => hx i b hi hb) u)

end Verif
