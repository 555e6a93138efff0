import Verif.Proofs.Interpolate

/-! The responses of repetition and of linear interpolation. -/

namespace Verif
open Spec Real

/-- Sum of cosines in arithmetic progression. -/
theorem sum_cos (θ φ : ℝ) (n : ℕ) :
    ∑ b ∈ Finset.range n, 2 * sin (θ / 2) * cos (θ * (b + 1 / 2) + φ) = sin (n * θ + φ) - sin φ := by
  induction n with
  | zero => simp
  | succ n ih =>
    rw [Finset.sum_range_succ, ih]
    have e1 : ((n + 1 : ℕ) : ℝ) * θ + φ = (θ * (n + 1 / 2) + φ) + θ / 2 := by push_cast; ring
    have e2 : (n : ℝ) * θ + φ = (θ * (n + 1 / 2) + φ) - θ / 2 := by ring
    rw [e1, e2, sin_add, sin_sub]
    ring

/-- The Fejér kernel. -/
theorem fejer (θ : ℝ) (n : ℕ) :
    (n + 2 * ∑ m ∈ Finset.range n, ((n : ℝ) - (m + 1)) * cos (θ * (m + 1))) * sin (θ / 2) ^ 2 = sin (n * θ / 2) ^ 2 := by
  have dir : ∀ n : ℕ, (1 + 2 * ∑ m ∈ Finset.range n, cos (θ * (m + 1))) * sin (θ / 2) = sin (n * θ + θ / 2) := by
    intro n
    have h := sum_cos θ (θ / 2) n
    have e : ∀ b : ℕ, θ * ((b : ℝ) + 1 / 2) + θ / 2 = θ * (b + 1) := fun b => by ring
    simp only [e] at h
    rw [← Finset.mul_sum] at h
    linarith
  induction n with
  | zero => simp
  | succ n ih =>
    have e : (((n + 1 : ℕ) : ℝ) + 2 * ∑ m ∈ Finset.range (n + 1), (((n + 1 : ℕ) : ℝ) - (m + 1)) * cos (θ * (m + 1))) =
        (n + 2 * ∑ m ∈ Finset.range n, ((n : ℝ) - (m + 1)) * cos (θ * (m + 1))) + (1 + 2 * ∑ m ∈ Finset.range n, cos (θ * (m + 1))) := by
      rw [Finset.sum_range_succ]
      have : ∀ m ∈ Finset.range n, (((n + 1 : ℕ) : ℝ) - (m + 1)) * cos (θ * (m + 1)) = ((n : ℝ) - (m + 1)) * cos (θ * (m + 1)) + cos (θ * (m + 1)) := by
        intro m _; push_cast; ring
      rw [Finset.sum_congr rfl this, Finset.sum_add_distrib]
      push_cast
      ring
    rw [e, add_mul, ih]
    have d := dir n
    have hd : (1 + 2 * ∑ m ∈ Finset.range n, cos (θ * (m + 1))) * sin (θ / 2) ^ 2 = sin (n * θ + θ / 2) * sin (θ / 2) := by
      rw [← d]; ring
    rw [hd]
    have e1 : (n : ℝ) * θ + θ / 2 = n * θ / 2 + (n * θ / 2 + θ / 2) := by ring
    have e2 : ((n + 1 : ℕ) : ℝ) * θ / 2 = n * θ / 2 + θ / 2 := by push_cast; ring
    rw [e1, e2]
    set A := (n : ℝ) * θ / 2
    set B := θ / 2
    rw [sin_add A (A + B), sin_add A B, cos_add A B]
    have h1 := sin_sq_add_cos_sq A
    have h2 := sin_sq_add_cos_sq B
    have h3 : sin B ^ 2 = 1 - cos B ^ 2 := by linarith
    have h4 : cos A ^ 2 = 1 - sin A ^ 2 := by linarith
    ring_nf
    rw [h3, h4]
    ring

/-- The Fejér kernel at half integers. -/
theorem fejer_half (θ : ℝ) (n : ℕ) :
    (2 * ∑ m ∈ Finset.range n, ((n : ℝ) - (m + 1 / 2)) * cos (θ * (m + 1 / 2))) * sin (θ / 2) ^ 2 = cos (θ / 2) * sin (n * θ / 2) ^ 2 := by
  have dir : ∀ n : ℕ, (2 * ∑ m ∈ Finset.range n, cos (θ * (m + 1 / 2))) * sin (θ / 2) = sin (n * θ) := by
    intro n
    have h := sum_cos θ 0 n
    simp only [add_zero, sin_zero, sub_zero] at h
    rw [← Finset.mul_sum] at h
    linarith
  induction n with
  | zero => simp
  | succ n ih =>
    have e : (2 * ∑ m ∈ Finset.range (n + 1), (((n + 1 : ℕ) : ℝ) - (m + 1 / 2)) * cos (θ * (m + 1 / 2))) =
        (2 * ∑ m ∈ Finset.range n, ((n : ℝ) - (m + 1 / 2)) * cos (θ * (m + 1 / 2))) +
          (2 * ∑ m ∈ Finset.range n, cos (θ * (m + 1 / 2))) + cos (θ * (n + 1 / 2)) := by
      rw [Finset.sum_range_succ]
      have : ∀ m ∈ Finset.range n, (((n + 1 : ℕ) : ℝ) - (m + 1 / 2)) * cos (θ * (m + 1 / 2)) =
          ((n : ℝ) - (m + 1 / 2)) * cos (θ * (m + 1 / 2)) + cos (θ * (m + 1 / 2)) := by
        intro m _; push_cast; ring
      rw [Finset.sum_congr rfl this, Finset.sum_add_distrib]
      push_cast
      ring
    rw [e, add_mul, add_mul, ih]
    have d := dir n
    have hd : (2 * ∑ m ∈ Finset.range n, cos (θ * (m + 1 / 2))) * sin (θ / 2) ^ 2 = sin (n * θ) * sin (θ / 2) := by
      rw [← d]; ring
    rw [hd]
    have e1 : sin ((n : ℝ) * θ) = sin (n * θ / 2 + n * θ / 2) := by congr 1; ring
    have e2 : ((n + 1 : ℕ) : ℝ) * θ / 2 = n * θ / 2 + θ / 2 := by push_cast; ring
    have e3 : θ * ((n : ℝ) + 1 / 2) = n * θ / 2 + (n * θ / 2 + θ / 2) := by ring
    rw [e3, e2, e1]
    set A := (n : ℝ) * θ / 2
    set B := θ / 2
    rw [sin_add A A, cos_add A (A + B), sin_add A B, cos_add A B]
    have h1 := sin_sq_add_cos_sq A
    have h2 := sin_sq_add_cos_sq B
    have h3 : sin B ^ 2 = 1 - cos B ^ 2 := by linarith
    have h4 : cos A ^ 2 = 1 - sin A ^ 2 := by linarith
    have h5 : sin B ^ 3 = sin B * (1 - cos B ^ 2) := by rw [← h3]; ring
    ring_nf
    rw [h5, h3, h4]
    ring

theorem nearest_pos {s N k : ℕ} (hs : 0 < s) (k0 : 0 < k) (hk : k < 2 * N) : 0 < (nearest s).response N k := by
  have hN : 0 < N := by omega
  have hs' : (0 : ℝ) < s := by exact_mod_cast hs
  have hN' : (0 : ℝ) < N := by exact_mod_cast hN
  set θ := π * k / (s * N) with hθ
  have e : (nearest s).response N k = ∑ b ∈ Finset.range s, cos (θ * (b + 1 / 2) + -(s * θ / 2)) := by
    unfold Kernel.response nearest
    refine Finset.sum_congr rfl (fun b _ => ?_)
    rw [Finset.sum_singleton, one_mul]
    congr 1
    rw [hθ]
    field_simp
    push_cast
    ring
  have h := sum_cos θ (-(s * θ / 2)) s
  rw [← Finset.mul_sum, ← e] at h
  have e2 : (s : ℝ) * θ + -(s * θ / 2) = s * θ / 2 := by ring
  rw [e2, sin_neg, sub_neg_eq_add] at h
  have p1 : 0 < sin (s * θ / 2) := by
    have := sin_pos_frac (k := k) (d := N) k0 hk
    rwa [show (s : ℝ) * θ / 2 = π * k / (2 * N) by rw [hθ]; field_simp]
  have p2 : 0 < sin (θ / 2) := by
    have := sin_pos_frac (k := k) (d := s * N) k0 (lt_of_lt_of_le hk (Nat.mul_le_mul_left 2 (Nat.le_mul_of_pos_left N hs)))
    rwa [show θ / 2 = π * k / (2 * (s * N : ℕ)) by rw [hθ]; push_cast; field_simp]
  by_contra hneg
  have : 2 * sin (θ / 2) * (nearest s).response N k ≤ 0 := mul_nonpos_of_nonneg_of_nonpos (by linarith) (not_lt.mp hneg)
  linarith

/-- Triangle times cosine. -/
noncomputable def tri (s : ℕ) (θ u : ℝ) : ℝ := max 0 (1 - |u| / s) * cos (θ * u)

theorem tri_neg (s : ℕ) (θ u : ℝ) : tri s θ (-u) = tri s θ u := by
  unfold tri
  rw [abs_neg, mul_neg, cos_neg]

theorem tri_out {s : ℕ} (hs : 0 < s) (θ : ℝ) {u : ℝ} (hu : (s : ℝ) ≤ u) : tri s θ u = 0 := by
  have hs' : (0 : ℝ) < s := by exact_mod_cast hs
  unfold tri
  rw [abs_of_nonneg (by linarith), max_eq_left, zero_mul]
  have : 1 ≤ u / s := by rw [le_div_iff₀ hs']; linarith
  linarith

theorem tri_in {s : ℕ} (hs : 0 < s) (θ : ℝ) {u : ℝ} (h0 : 0 ≤ u) (hu : u ≤ s) : s * tri s θ u = (s - u) * cos (θ * u) := by
  have hs' : (0 : ℝ) < s := by exact_mod_cast hs
  unfold tri
  rw [abs_of_nonneg h0, max_eq_right]
  · field_simp
  · have : u / s ≤ 1 := by rw [div_le_iff₀ hs']; linarith
    linarith

theorem linear_sum {s N k : ℕ} (hs : 0 < s) (hN : 0 < N) : (linear s).response N k =
    ∑ n ∈ Finset.range (s + s + s), tri s (π * k / (s * N)) (n + 1 / 2 - 3 * s / 2) := by
  have hs' : (s : ℝ) ≠ 0 := by exact_mod_cast hs.ne'
  have hN' : (N : ℝ) ≠ 0 := by exact_mod_cast hN.ne'
  have e : ∀ (b : ℕ) (t : ℤ), (linear s).weight b t * cos (π * k * (b + 1 / 2 - s / 2 - s * t) / (s * N)) =
      tri s (π * k / (s * N)) (b + 1 / 2 - s / 2 - s * t) := by
    intro b t
    unfold linear tri
    simp only
    congr 2
    · rw [show ((b : ℝ) + 1 / 2) / s - 1 / 2 - t = (b + 1 / 2 - s / 2 - s * t) / s by field_simp, abs_div, Nat.abs_cast]
    · ring
  rw [Finset.sum_range_add, Finset.sum_range_add]
  unfold Kernel.response
  have hb : ∀ b : ℕ, ∑ t ∈ (linear s).taps, (linear s).weight b t * cos (π * k * (b + 1 / 2 - s / 2 - s * t) / (s * N)) =
      tri s (π * k / (s * N)) (b + 1 / 2 - 3 * s / 2) + tri s (π * k / (s * N)) ((s + b : ℕ) + 1 / 2 - 3 * s / 2) +
        tri s (π * k / (s * N)) ((s + s + b : ℕ) + 1 / 2 - 3 * s / 2) := by
    intro b
    simp only [e]
    show ∑ t ∈ ({-1, 0, 1} : Finset ℤ), _ = _
    rw [Finset.sum_insert (by decide), Finset.sum_insert (by decide), Finset.sum_singleton]
    have a1 : (b : ℝ) + 1 / 2 - s / 2 - s * ((-1 : ℤ) : ℝ) = (s + s + b : ℕ) + 1 / 2 - 3 * s / 2 := by push_cast; ring
    have a2 : (b : ℝ) + 1 / 2 - s / 2 - s * ((0 : ℤ) : ℝ) = (s + b : ℕ) + 1 / 2 - 3 * s / 2 := by push_cast; ring
    have a3 : (b : ℝ) + 1 / 2 - s / 2 - s * ((1 : ℤ) : ℝ) = b + 1 / 2 - 3 * s / 2 := by push_cast; ring
    rw [a1, a2, a3]
    ring
  rw [Finset.sum_congr rfl (fun b _ => hb b), Finset.sum_add_distrib, Finset.sum_add_distrib]

theorem linear_even {r : ℕ} (hr : 0 < r) (θ : ℝ) : ∑ n ∈ Finset.range (2 * r + 2 * r + 2 * r), tri (2 * r) θ (n + 1 / 2 - 3 * (2 * r : ℕ) / 2) =
    2 * ∑ m ∈ Finset.range (2 * r), tri (2 * r) θ (m + 1 / 2) := by
  rw [show 2 * r + 2 * r + 2 * r = 3 * r + 3 * r by ring, Finset.sum_range_add, ← Finset.sum_range_reflect]
  have h1 : ∀ n ∈ Finset.range (3 * r), tri (2 * r) θ ((3 * r - 1 - n : ℕ) + 1 / 2 - 3 * (2 * r : ℕ) / 2) = tri (2 * r) θ (n + 1 / 2) := by
    intro n hn
    have hn : n < 3 * r := by simpa using hn
    rw [← tri_neg]
    congr 1
    rw [Nat.cast_sub (by omega), Nat.cast_sub (by omega)]
    push_cast
    ring
  have h2 : ∀ n ∈ Finset.range (3 * r), tri (2 * r) θ ((3 * r + n : ℕ) + 1 / 2 - 3 * (2 * r : ℕ) / 2) = tri (2 * r) θ (n + 1 / 2) := by
    intro n _
    congr 1
    push_cast
    ring
  rw [Finset.sum_congr rfl h1, Finset.sum_congr rfl h2]
  have h3 : ∑ n ∈ Finset.range (3 * r), tri (2 * r) θ (n + 1 / 2) = ∑ n ∈ Finset.range (2 * r), tri (2 * r) θ (n + 1 / 2) := by
    rw [show 3 * r = 2 * r + r by ring, Finset.sum_range_add, add_eq_left]
    refine Finset.sum_eq_zero (fun m _ => ?_)
    refine tri_out (by omega) θ ?_
    push_cast
    linarith [Nat.cast_nonneg (α := ℝ) m]
  rw [h3]
  ring

theorem linear_odd (r : ℕ) (θ : ℝ) :
    ∑ n ∈ Finset.range ((2 * r + 1) + (2 * r + 1) + (2 * r + 1)), tri (2 * r + 1) θ (n + 1 / 2 - 3 * (2 * r + 1 : ℕ) / 2) =
    1 + 2 * ∑ m ∈ Finset.range (2 * r + 1), tri (2 * r + 1) θ (m + 1) := by
  rw [show (2 * r + 1) + (2 * r + 1) + (2 * r + 1) = (3 * r + 1) + 1 + (3 * r + 1) by ring, Finset.sum_range_add, Finset.sum_range_succ,
    ← Finset.sum_range_reflect]
  have h1 : ∀ n ∈ Finset.range (3 * r + 1), tri (2 * r + 1) θ ((3 * r + 1 - 1 - n : ℕ) + 1 / 2 - 3 * (2 * r + 1 : ℕ) / 2) =
      tri (2 * r + 1) θ (n + 1) := by
    intro n hn
    have hn : n < 3 * r + 1 := by simpa using hn
    rw [← tri_neg]
    congr 1
    rw [Nat.cast_sub (by omega), Nat.cast_sub (by omega)]
    push_cast
    ring
  have h2 : ∀ n ∈ Finset.range (3 * r + 1), tri (2 * r + 1) θ ((3 * r + 1 + 1 + n : ℕ) + 1 / 2 - 3 * (2 * r + 1 : ℕ) / 2) =
      tri (2 * r + 1) θ (n + 1) := by
    intro n _
    congr 1
    push_cast
    ring
  have h0 : tri (2 * r + 1) θ ((3 * r + 1 : ℕ) + 1 / 2 - 3 * (2 * r + 1 : ℕ) / 2) = 1 := by
    rw [show ((3 * r + 1 : ℕ) : ℝ) + 1 / 2 - 3 * (2 * r + 1 : ℕ) / 2 = 0 by push_cast; ring]
    simp [tri]
  rw [Finset.sum_congr rfl h1, Finset.sum_congr rfl h2, h0]
  have h3 : ∑ n ∈ Finset.range (3 * r + 1), tri (2 * r + 1) θ (n + 1) = ∑ n ∈ Finset.range (2 * r + 1), tri (2 * r + 1) θ (n + 1) := by
    rw [show 3 * r + 1 = 2 * r + 1 + r by ring, Finset.sum_range_add, add_eq_left]
    refine Finset.sum_eq_zero (fun m _ => ?_)
    refine tri_out (by omega) θ ?_
    push_cast
    linarith [Nat.cast_nonneg (α := ℝ) m]
  rw [h3]
  ring

theorem linear_pos {s N k : ℕ} (hs : 0 < s) (k0 : 0 < k) (hk : k < 2 * N) : 0 < (linear s).response N k := by
  have hN : 0 < N := by omega
  have hs' : (0 : ℝ) < s := by exact_mod_cast hs
  have hN' : (0 : ℝ) < N := by exact_mod_cast hN
  have hk' : (k : ℝ) < 2 * N := by exact_mod_cast hk
  rw [linear_sum hs hN]
  set θ := π * k / (s * N) with hθ
  have p1 : 0 < sin (s * θ / 2) := by
    have := sin_pos_frac (k := k) (d := N) k0 hk
    rwa [show (s : ℝ) * θ / 2 = π * k / (2 * N) by rw [hθ]; field_simp]
  have p2 : 0 < sin (θ / 2) := by
    have := sin_pos_frac (k := k) (d := s * N) k0 (lt_of_lt_of_le hk (Nat.mul_le_mul_left 2 (Nat.le_mul_of_pos_left N hs)))
    rwa [show θ / 2 = π * k / (2 * (s * N : ℕ)) by rw [hθ]; push_cast; field_simp]
  -- it suffices to know the product with a positive number
  have fin : ∀ {R c : ℝ}, 0 < c → R * sin (θ / 2) ^ 2 = c * sin (s * θ / 2) ^ 2 → 0 < R := by
    intro R c hc h
    have h1 : 0 < c * sin (s * θ / 2) ^ 2 := by positivity
    rw [← h] at h1
    exact (mul_pos_iff_of_pos_right (by positivity)).mp h1
  rcases Nat.even_or_odd' s with ⟨r, rfl | rfl⟩
  · have hr : 0 < r := by omega
    rw [linear_even hr]
    have f := fejer_half θ (2 * r)
    have hc : 0 < cos (θ / 2) := by
      refine cos_pos_of_mem_Ioo ⟨?_, ?_⟩
      · have : 0 < θ := by rw [hθ]; have : (0 : ℝ) < k := by exact_mod_cast k0
                           positivity
        have := pi_pos
        linarith
      · rw [hθ]
        have h2r : (2 : ℝ) ≤ (2 * r : ℕ) := by have : 2 ≤ 2 * r := by omega
                                               exact_mod_cast this
        have : π * k / ((2 * r : ℕ) * N) < π := by
          rw [div_lt_iff₀ (by positivity)]
          refine mul_lt_mul_of_pos_left ?_ pi_pos
          nlinarith
        linarith
    have e : ∑ m ∈ Finset.range (2 * r), (((2 * r : ℕ) : ℝ) - (m + 1 / 2)) * cos (θ * (m + 1 / 2)) =
        (2 * r : ℕ) * ∑ m ∈ Finset.range (2 * r), tri (2 * r) θ (m + 1 / 2) := by
      rw [Finset.mul_sum]
      refine Finset.sum_congr rfl (fun m hm => (tri_in hs θ (by positivity) ?_).symm)
      have hm : m + 1 ≤ 2 * r := by simpa using hm
      have : (m : ℝ) + 1 ≤ (2 * r : ℕ) := by exact_mod_cast hm
      linarith
    rw [e] at f
    have := fin hc f
    refine (mul_pos_iff_of_pos_right hs').mp ?_
    linarith
  · rw [linear_odd]
    have f := fejer θ (2 * r + 1)
    have e : ∑ m ∈ Finset.range (2 * r + 1), (((2 * r + 1 : ℕ) : ℝ) - (m + 1)) * cos (θ * (m + 1)) =
        (2 * r + 1 : ℕ) * ∑ m ∈ Finset.range (2 * r + 1), tri (2 * r + 1) θ (m + 1) := by
      rw [Finset.mul_sum]
      refine Finset.sum_congr rfl (fun m hm => (tri_in hs θ (by positivity) ?_).symm)
      have hm : m + 1 ≤ 2 * r + 1 := by simpa using hm
      have : (m : ℝ) + 1 ≤ (2 * r + 1 : ℕ) := by exact_mod_cast hm
      linarith
    rw [e] at f
    have := fin one_pos (f.trans (one_mul _).symm)
    refine (mul_pos_iff_of_pos_right hs').mp ?_
    linarith

theorem nearest_even' {s N range : ℕ} (hs : 0 < s) (hr : range < N) : (nearest s).Even N range := fun _ _ _ =>
  mul_pos (nearest_pos hs (by omega) (by omega)) (nearest_pos hs (by omega) (by omega))

theorem linear_even' {s N range : ℕ} (hs : 0 < s) (hr : range < N) : (linear s).Even N range := fun _ _ _ =>
  mul_pos (linear_pos hs (by omega) (by omega)) (linear_pos hs (by omega) (by omega))

end Verif
