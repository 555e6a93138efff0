import Verif.Proofs.FullScore
import Verif.Spec.Interpolate

/-! The cosine transform of a sequence enlarged by an interpolation filter. -/

namespace Verif
open Spec Real

/-- A sum over a period may start anywhere. -/
theorem sum_period {n : ℕ} {G : ℤ → ℝ} (hG : ∀ a, G (a + n) = G a) (t : ℤ) :
    ∑ a ∈ Finset.range n, G (a + t) = ∑ a ∈ Finset.range n, G a := by
  have step : ∀ t : ℤ, ∑ a ∈ Finset.range n, G (a + (t + 1)) = ∑ a ∈ Finset.range n, G (a + t) := by
    intro t
    have h1 := Finset.sum_range_succ (fun a : ℕ => G (a + t)) n
    have h2 := Finset.sum_range_succ' (fun a : ℕ => G (a + t)) n
    have h3 : G ((n : ℕ) + t) = G ((0 : ℕ) + t) := by
      rw [add_comm, hG]; simp
    have h4 : ∀ a ∈ Finset.range n, G (((a + 1 : ℕ) : ℤ) + t) = G (a + (t + 1)) := by
      intro a _; congr 1; push_cast; ring
    rw [h1, Finset.sum_congr rfl h4, h3] at h2
    linarith
  induction t using Int.induction_on with
  | zero => simp
  | succ t ih => rw [step, ih]
  | pred t ih => rw [← step, sub_add_cancel, ih]

theorem mirrored_period {N : ℕ} (o : ℕ → ℝ) (j : ℤ) : mirrored N o (j + (2 * N : ℕ)) = mirrored N o j := by
  unfold mirrored
  rw [Int.add_emod_right]

theorem mirrored_mem {N : ℕ} (o : ℕ → ℝ) {j : ℕ} (hj : j < N) : mirrored N o j = o j := by
  unfold mirrored
  rw [Int.emod_eq_of_lt (by omega) (by omega)]
  simp [hj]

theorem mirrored_mirror {N : ℕ} (hN : 0 < N) (o : ℕ → ℝ) (j : ℤ) : mirrored N o (2 * N - 1 - j) = mirrored N o j := by
  have h0 : (0 : ℤ) < (2 * N : ℕ) := by omega
  set m := j % (2 * N : ℕ) with hm
  have m0 : 0 ≤ m := Int.emod_nonneg _ h0.ne'
  have m1 : m < (2 * N : ℕ) := Int.emod_lt_of_pos _ h0
  have e : (2 * N - 1 - j) % (2 * N : ℕ) = 2 * N - 1 - m := by
    have : 2 * (N : ℤ) - 1 - j = (2 * N - 1 - m) + (2 * N : ℕ) * (-(j / (2 * N : ℕ))) := by
      have := Int.mul_ediv_add_emod j (2 * N : ℕ)
      rw [← hm] at this
      linarith
    rw [this, Int.add_mul_emod_self_left, Int.emod_eq_of_lt (by push_cast at m1; omega) (by push_cast at m1 ⊢; omega)]
  unfold mirrored
  rw [e, ← hm]
  simp only
  lift m to ℕ using m0 with m'
  push_cast at m1
  have e2 : ((2 : ℤ) * N - 1 - m').toNat = 2 * N - 1 - m' := by omega
  rw [e2, Int.toNat_natCast]
  by_cases h : m' < N
  · rw [if_pos h, if_neg (by omega), show 2 * N - 1 - (2 * N - 1 - m') = m' by omega]
  · rw [if_neg h, if_pos (by omega)]

/-- The second half of a period of a mirrored sequence repeats the first. -/
theorem sum_mirror {N : ℕ} (G : ℤ → ℝ) (hG : ∀ a, G (2 * N - 1 - a) = G a) :
    ∑ a ∈ Finset.range (2 * N), G a = 2 * ∑ a ∈ Finset.range N, G a := by
  rw [two_mul, Finset.sum_range_add, two_mul]
  congr 1
  rw [← Finset.sum_range_reflect]
  refine Finset.sum_congr rfl (fun a ha => ?_)
  have ha : a < N := by simpa using ha
  rw [← hG a]
  congr 1
  omega

/-- The transform of the original as a sum over a period. -/
theorem dct_period {N : ℕ} (hN : 0 < N) (o : ℕ → ℝ) (k : ℕ) :
    ∑ a ∈ Finset.range (2 * N), mirrored N o a * cos (π * ((a : ℝ) + 1 / 2) * k / N) = dct N o k := by
  have hN' : (N : ℝ) ≠ 0 := by exact_mod_cast hN.ne'
  have h := sum_mirror (N := N) (fun a => mirrored N o a * cos (π * ((a : ℝ) + 1 / 2) * k / N)) (by
    intro a
    rw [mirrored_mirror hN]
    congr 1
    rw [← cos_neg, ← cos_add_nat_mul_two_pi _ k]
    congr 1
    push_cast
    field_simp
    ring)
  simp only [Int.cast_natCast] at h
  rw [h]
  unfold dct
  refine congrArg _ (Finset.sum_congr rfl (fun a ha => ?_))
  rw [mirrored_mem o (by simpa using ha)]

/-- Summing over the samples that replace one, in the opposite order. -/
theorem Spec.Kernel.flip {s : ℕ} (F : Kernel s) (g : ℝ → ℤ → ℝ) :
    ∑ b ∈ Finset.range s, ∑ t ∈ F.taps, F.weight b t * g b t =
      ∑ b ∈ Finset.range s, ∑ t ∈ F.taps, F.weight b t * g (s - 1 - b) (-t) := by
  rw [← Finset.sum_range_reflect]
  refine Finset.sum_congr rfl (fun b hb => ?_)
  have hb : b < s := by simpa using hb
  refine Finset.sum_bij' (fun t _ => -t) (fun t _ => -t) ?_ ?_ ?_ ?_ ?_
  · exact fun t ht => F.taps_neg t ht
  · exact fun t ht => F.taps_neg t ht
  · intro t _; simp
  · intro t _; simp
  · intro t ht
    have := F.weight_neg b hb (-t) (F.taps_neg t ht)
    rw [neg_neg] at this
    rw [this, neg_neg]
    congr 2
    rw [Nat.sub_sub, Nat.cast_sub (by omega)]
    push_cast
    ring

/-- The transform of an enlarged sequence is that of the original, continued, times the response of the filter. -/
theorem dct_filtered {s N : ℕ} (hN : 0 < N) (hs : 0 < s) (F : Kernel s) {o x : ℕ → ℝ} (hx : Enlarged F N o x) (k : ℕ) :
    dct (s * N) x k = F.response N k * dct N o k := by
  have hN' : (N : ℝ) ≠ 0 := by exact_mod_cast hN.ne'
  have hs' : (s : ℝ) ≠ 0 := by exact_mod_cast hs.ne'
  set θ := π * k / (s * N) with hθ
  -- the sum over a period
  let P : ℝ := ∑ a ∈ Finset.range (2 * N), ∑ b ∈ Finset.range s, ∑ t ∈ F.taps,
    F.weight b t * (mirrored N o (a + t) * cos (θ * (s * a + b + 1 / 2)))
  have h1 : P = dct (s * N) x k := by
    have h := sum_mirror (N := N) (fun a => ∑ b ∈ Finset.range s, ∑ t ∈ F.taps,
      F.weight b t * (mirrored N o (a + t) * cos (θ * (s * a + b + 1 / 2)))) (by
      intro a
      rw [F.flip (fun b t => mirrored N o (2 * N - 1 - a + t) * cos (θ * (s * ((2 * N - 1 - a : ℤ) : ℝ) + b + 1 / 2)))]
      refine Finset.sum_congr rfl (fun b _ => Finset.sum_congr rfl (fun t _ => ?_))
      congr 2
      · rw [← mirrored_mirror hN o (a + t)]
        congr 1; ring
      · rw [← cos_neg, ← cos_add_nat_mul_two_pi _ k]
        congr 1
        rw [hθ]
        push_cast
        field_simp
        ring)
    simp only [Int.cast_natCast] at h
    show P = _
    unfold dct
    rw [sum_blocks]
    refine h.trans (congrArg _ (Finset.sum_congr rfl (fun a ha => Finset.sum_congr rfl (fun b hb => ?_))))
    rw [hx a (by simpa using ha) b (by simpa using hb), Finset.sum_mul]
    refine Finset.sum_congr rfl (fun t _ => ?_)
    rw [mul_assoc]
    congr 3
    rw [hθ]
    push_cast
    field_simp
  rw [← h1]
  have h2 : P = ∑ b ∈ Finset.range s, ∑ t ∈ F.taps, F.weight b t *
      ∑ a ∈ Finset.range (2 * N), mirrored N o a * cos (θ * (s * (a - t) + b + 1 / 2)) := by
    show (∑ a ∈ Finset.range (2 * N), ∑ b ∈ Finset.range s, ∑ t ∈ F.taps,
      F.weight b t * (mirrored N o (a + t) * cos (θ * (s * a + b + 1 / 2)))) = _
    rw [Finset.sum_comm]
    refine Finset.sum_congr rfl (fun b _ => ?_)
    rw [Finset.sum_comm]
    refine Finset.sum_congr rfl (fun t _ => ?_)
    rw [← Finset.mul_sum]
    congr 1
    have h := sum_period (n := 2 * N) (G := fun a => mirrored N o a * cos (θ * (s * (a - t) + b + 1 / 2))) (by
      intro a
      rw [mirrored_period]
      congr 1
      rw [← cos_add_nat_mul_two_pi (θ * (s * (a - t) + b + 1 / 2)) k]
      congr 1
      rw [hθ]
      push_cast
      field_simp
      ring) t
    simp only [Int.cast_natCast] at h
    rw [← h]
    refine Finset.sum_congr rfl (fun a _ => ?_)
    congr 2
    push_cast
    ring
  have h3 : ∀ (b : ℕ) (t : ℤ), ∑ a ∈ Finset.range (2 * N), mirrored N o a * cos (θ * (s * (a - t) + b + 1 / 2)) =
      cos (θ * (b + 1 / 2 - s / 2 - s * t)) * dct N o k -
        sin (θ * (b + 1 / 2 - s / 2 - s * t)) * ∑ a ∈ Finset.range (2 * N), mirrored N o a * sin (θ * s * (a + 1 / 2)) := by
    intro b t
    rw [← dct_period hN o k, Finset.mul_sum, Finset.mul_sum, ← Finset.sum_sub_distrib]
    refine Finset.sum_congr rfl (fun a _ => ?_)
    have e : θ * (s * ((a : ℝ) - t) + b + 1 / 2) = θ * s * (a + 1 / 2) + θ * (b + 1 / 2 - s / 2 - s * t) := by ring
    have e2 : π * ((a : ℝ) + 1 / 2) * k / N = θ * s * (a + 1 / 2) := by rw [hθ]; field_simp
    rw [e, e2, cos_add]
    ring
  have h4 : ∑ b ∈ Finset.range s, ∑ t ∈ F.taps, F.weight b t * sin (θ * (b + 1 / 2 - s / 2 - s * t)) = 0 := by
    have h := F.flip (fun b t => sin (θ * (b + 1 / 2 - s / 2 - s * t)))
    have e : ∑ b ∈ Finset.range s, ∑ t ∈ F.taps, F.weight b t * sin (θ * (((s : ℝ) - 1 - b) + 1 / 2 - s / 2 - s * ((-t : ℤ) : ℝ))) =
        -∑ b ∈ Finset.range s, ∑ t ∈ F.taps, F.weight b t * sin (θ * (b + 1 / 2 - s / 2 - s * t)) := by
      rw [← Finset.sum_neg_distrib]
      refine Finset.sum_congr rfl (fun b _ => ?_)
      rw [← Finset.sum_neg_distrib]
      refine Finset.sum_congr rfl (fun t _ => ?_)
      rw [← mul_neg, ← sin_neg]
      congr 2
      push_cast
      ring
    rw [e] at h
    linarith
  rw [h2]
  rw [Finset.sum_congr rfl (fun b _ => Finset.sum_congr rfl (fun t _ => by rw [h3 b t, mul_sub]))]
  simp only [Finset.sum_sub_distrib]
  have h5 : ∑ b ∈ Finset.range s, ∑ t ∈ F.taps, F.weight b t * (sin (θ * (b + 1 / 2 - s / 2 - s * t)) *
      ∑ a ∈ Finset.range (2 * N), mirrored N o a * sin (θ * s * (a + 1 / 2))) = 0 := by
    simp only [← mul_assoc, ← Finset.sum_mul]
    rw [h4, zero_mul]
  rw [h5, sub_zero]
  unfold Kernel.response
  rw [Finset.sum_mul]
  refine Finset.sum_congr rfl (fun b _ => ?_)
  rw [Finset.sum_mul]
  refine Finset.sum_congr rfl (fun t _ => ?_)
  rw [mul_assoc]
  congr 3
  rw [hθ]
  field_simp

/-! ## Two dimensions -/

/-- The exact spectrum changes its sign at `N`: coefficients at equal distances up to `range` have opposite signs or vanish together, and
the one at `N` vanishes. -/
structure Flips (X : ℕ → ℕ → ℝ) (n range N : ℕ) : Prop where
  sides : ∀ y < n, ∀ i, 1 ≤ i → i ≤ range → ∃ c > 0, X y (N + i) = -c * X y (N - i)
  middle : ∀ y < n, X y N = 0

theorem dct_middle {N : ℕ} (hN : 0 < N) (o : ℕ → ℝ) : dct N o N = 0 := by
  have e := dct_antisym hN o (Nat.zero_le N)
  rw [Nat.add_zero, Nat.sub_zero] at e
  linarith

theorem flip_factor {N range i : ℕ} (hN : 0 < N) {s : ℕ} {F : Kernel s} (hF : F.Even N range) (h1 : 1 ≤ i) (h2 : i ≤ range)
    (hr : range ≤ N) : ∃ c > 0, ∀ o : ℕ → ℝ, F.response N (N + i) * dct N o (N + i) = -c * (F.response N (N - i) * dct N o (N - i)) := by
  have hp := hF i h1 h2
  have hl : F.response N (N - i) ≠ 0 := by intro h; rw [h, zero_mul] at hp; exact lt_irrefl _ hp
  refine ⟨F.response N (N + i) / F.response N (N - i), ?_, fun o => ?_⟩
  · rw [show F.response N (N + i) / F.response N (N - i) = (F.response N (N - i) * F.response N (N + i)) / F.response N (N - i) ^ 2 by
      field_simp]
    exact div_pos hp (by positivity)
  · rw [dct_antisym hN o (by omega : i ≤ N)]
    field_simp

theorem rows_flip {s N h range : ℕ} (hN : 0 < N) (hs : 0 < s) {F : Kernel s} (hF : F.Even N range) (hr : range ≤ N) {y : ℕ → ℕ → ℝ}
    (hy : RowsEnlarged F N h y) : Flips (fun v u => dct2 (s * N) h y u v) h range N := by
  choose! o ho using hy
  have key : ∀ u v, dct2 (s * N) h y u v = dct h (fun j => F.response N u * dct N (o j) u) v := fun u v =>
    dct_congr (fun j hj => dct_filtered hN hs F (ho j hj) u) v
  refine ⟨fun v _ i h1 h2 => ?_, fun v _ => ?_⟩
  · obtain ⟨c, c0, hc⟩ := flip_factor hN hF h1 h2 hr
    refine ⟨c, c0, ?_⟩
    show dct2 _ _ _ _ _ = _ * dct2 _ _ _ _ _
    rw [key, key]
    exact dct_smul _ _ _ (fun j _ => hc (o j)) v
  · show dct2 _ _ _ _ _ = 0
    rw [key, dct_smul 0 _ (fun _ => 0) (fun j _ => by rw [dct_middle hN, mul_zero, zero_mul]), zero_mul]

theorem mirrored_dct {N w : ℕ} (o : ℕ → ℕ → ℝ) (u : ℕ) (j : ℤ) :
    mirrored N (fun a => dct w (fun i => o i a) u) j = dct w (fun i => mirrored N (o i) j) u := by
  unfold mirrored
  simp only
  split <;> rfl

theorem cols_enlarged {s N w : ℕ} {F : Kernel s} {o y : ℕ → ℕ → ℝ} (ho : ∀ i < w, Enlarged F N (o i) (fun j => y i j)) (u : ℕ) :
    Enlarged F N (fun a => dct w (fun i => o i a) u) (fun j => dct w (fun i => y i j) u) := by
  intro a ha b hb
  show dct w (fun i => y i (s * a + b)) u = _
  rw [dct_congr (fun i hi => ho i hi a ha b hb)]
  simp only [mirrored_dct]
  unfold dct
  simp only [Finset.sum_mul, Finset.mul_sum]
  rw [Finset.sum_comm]
  refine Finset.sum_congr rfl (fun t _ => Finset.sum_congr rfl (fun i _ => ?_))
  ring

theorem cols_flip {s N w range : ℕ} (hN : 0 < N) (hs : 0 < s) {F : Kernel s} (hF : F.Even N range) (hr : range ≤ N) {y : ℕ → ℕ → ℝ}
    (hy : ColsEnlarged F N w y) : Flips (fun u v => dct2 w (s * N) y u v) w range N := by
  choose! o ho using hy
  have key : ∀ u v, dct2 w (s * N) y u v = F.response N v * dct N (fun a => dct w (fun i => o i a) u) v := fun u v =>
    dct_filtered hN hs F (cols_enlarged ho u) v
  refine ⟨fun u _ i h1 h2 => ?_, fun u _ => ?_⟩
  · obtain ⟨c, c0, hc⟩ := flip_factor hN hF h1 h2 hr
    refine ⟨c, c0, ?_⟩
    show dct2 _ _ _ _ _ = _ * dct2 _ _ _ _ _
    rw [key, key]
    exact hc _
  · show dct2 _ _ _ _ _ = 0
    rw [key, dct_middle hN, mul_zero]

/-! ## Evidence -/

theorem within_pos {d x : ℝ} {c : Fl} (h : Within d c x) : 0 < d := by
  obtain ⟨v, b, _, _, hlt⟩ := h
  exact lt_of_le_of_lt (abs_nonneg _) hlt

theorem clear_signs {d : ℝ} {g : ℕ → ℕ → Fl} {X : ℕ → ℕ → ℝ} {n range N : ℕ} (hX : Flips X n range N) (h : Computed d g X n range N) :
    clearPairs d X n range N ≤ signMatches g n range N := by
  classical
  unfold clearPairs signMatches
  refine Finset.card_le_card ?_
  intro p hp
  rw [Finset.mem_filter] at hp ⊢
  obtain ⟨hm, hl, hr⟩ := hp
  refine ⟨hm, ?_⟩
  rw [Finset.mem_product, Finset.mem_range, Finset.mem_Icc] at hm
  obtain ⟨hy, h1, h2⟩ := hm
  have wl := h p.1 hy (N - p.2) (by omega) (by omega)
  have wr := h p.1 hy (N + p.2) (by omega) (by omega)
  rw [within_sign wl hl, within_sign wr hr]
  obtain ⟨c, c0, hc⟩ := hX.sides p.1 hy p.2 h1 h2
  refine opposite c0 hc ?_
  intro h0
  rw [h0, abs_zero] at hl
  exact absurd (within_pos wl) (not_lt.mpr hl)

theorem clear_crossings {d : ℝ} {g : ℕ → ℕ → Fl} {X : ℕ → ℕ → ℝ} {n N : ℕ} (hX : Flips X n 1 N) (h : Computed d g X n 1 N) :
    clearPairs (2 * d) X n 1 N ≤ crossings g n N := by
  classical
  unfold clearPairs crossings
  refine Finset.card_le_card_of_injOn Prod.fst ?_ ?_
  · intro p hp
    rw [Finset.mem_coe, Finset.mem_filter] at hp ⊢
    obtain ⟨hm, hl, hr⟩ := hp
    rw [Finset.mem_product, Finset.mem_range, Finset.mem_Icc] at hm
    obtain ⟨hy, h1, h2⟩ := hm
    obtain ⟨y, i⟩ := p
    obtain rfl : i = 1 := by simp only at h1 h2; omega
    simp only at hy hl hr ⊢
    refine ⟨by simpa using hy, ?_⟩
    have wl := h y hy (N - 1) (by omega) (by omega)
    have wm := h y hy N (by omega) (by omega)
    have wr := h y hy (N + 1) (by omega) (by omega)
    have d0 := within_pos wl
    obtain ⟨c, c0, hc⟩ := hX.sides y hy 1 le_rfl le_rfl
    have hX0 := hX.middle y hy
    have hl0 : X y (N - 1) ≠ 0 := by
      intro h0; rw [h0, abs_zero] at hl; linarith
    have hs : (g y (N - 1)).signbit ≠ (g y (N + 1)).signbit := by
      rw [within_sign wl (by linarith), within_sign wr (by linarith)]
      exact opposite c0 hc hl0
    obtain ⟨vl, bl, el, _, dl⟩ := wl
    obtain ⟨vm, bm, em, _, dm⟩ := wm
    obtain ⟨vr, br, er, _, dr⟩ := wr
    unfold crosses
    rw [Bool.and_eq_true]
    refine ⟨by simpa using hs, ?_⟩
    rw [el, em, er]
    rw [hX0, sub_zero] at dm
    rw [abs_lt] at dl dm dr
    simp only [Fl.lt, Bool.or_eq_true, Bool.and_eq_true, decide_eq_true_eq]
    rcases lt_or_gt_of_ne hl0 with h1 | h1
    · have h2 : 0 < X y (N + 1) := by rw [hc]; nlinarith
      rw [abs_of_neg h1] at hl
      rw [abs_of_pos h2] at hr
      left
      constructor
      · have : (vl : ℝ) < vm := by linarith
        exact_mod_cast this
      · have : (vm : ℝ) < vr := by linarith
        exact_mod_cast this
    · have h2 : X y (N + 1) < 0 := by rw [hc]; nlinarith
      rw [abs_of_pos h1] at hl
      rw [abs_of_neg h2] at hr
      right
      constructor
      · have : (vm : ℝ) < vl := by linarith
        exact_mod_cast this
      · have : (vr : ℝ) < vm := by linarith
        exact_mod_cast this
  · intro p hp q hq hpq
    rw [Finset.mem_coe, Finset.mem_filter, Finset.mem_product, Finset.mem_Icc, Finset.mem_range] at hp hq
    ext
    · exact hpq
    · have := hp.1.2; have := hq.1.2; omega

/-! ## Rounded samples -/

theorem dct_apart {n : ℕ} {x y : ℕ → ℝ} {e : ℝ} (h : ∀ i < n, |x i - y i| ≤ e) (k : ℕ) : |dct n x k - dct n y k| ≤ 2 * n * e := by
  unfold dct
  rw [← mul_sub, ← Finset.sum_sub_distrib, abs_mul, abs_two, mul_assoc]
  refine mul_le_mul_of_nonneg_left ?_ zero_le_two
  refine le_trans (Finset.abs_sum_le_sum_abs _ _) ?_
  refine le_trans (Finset.sum_le_card_nsmul _ _ e ?_) (by simp)
  intro i hi
  have hi : i < n := by simpa using hi
  rw [← sub_mul, abs_mul]
  have h1 := h i hi
  have h2 := abs_cos_le_one (π * ((i : ℝ) + 1 / 2) * k / n)
  calc _ ≤ e * 1 := mul_le_mul h1 h2 (abs_nonneg _) (le_trans (abs_nonneg _) h1)
    _ = e := mul_one e

theorem dct2_apart {w h : ℕ} {x y : ℕ → ℕ → ℝ} {e : ℝ} (hxy : ∀ i j, i < w → j < h → |x i j - y i j| ≤ e) (u v : ℕ) :
    |dct2 w h x u v - dct2 w h y u v| ≤ 4 * (w * h * e) := by
  unfold dct2
  refine le_trans (dct_apart (fun j hj => dct_apart (fun i hi => hxy i j hi hj) u) v) (le_of_eq ?_)
  ring

theorem within_shift {d e x y : ℝ} {c : Fl} (h : Within d c x) (hxy : |x - y| ≤ e) : Within (d + e) c y := by
  obtain ⟨v, b, h1, h2, h3⟩ := h
  refine ⟨v, b, h1, h2, ?_⟩
  have := abs_sub_le (v : ℝ) x y
  linarith

/-! ## Responses -/

theorem response_curve {s : ℕ} (F : Kernel s) {N : ℕ} (hN : 0 < N) (k : ℕ) : F.response N k = F.curve (k / N) := by
  have hN' : (N : ℝ) ≠ 0 := by exact_mod_cast hN.ne'
  unfold Kernel.response Kernel.curve
  refine Finset.sum_congr rfl (fun b _ => Finset.sum_congr rfl (fun t _ => ?_))
  congr 2
  rcases Nat.eq_zero_or_pos s with rfl | hs
  · simp
  · have hs' : (s : ℝ) ≠ 0 := by exact_mod_cast hs.ne'
    field_simp

theorem curve_continuous {s : ℕ} (F : Kernel s) : Continuous F.curve := by
  unfold Kernel.curve
  fun_prop

theorem even_near {s : ℕ} (F : Kernel s) (h : F.curve 1 ≠ 0) : ∃ δ > 0, ∀ N range : ℕ, (range : ℝ) ≤ δ * N → F.Even N range := by
  have hc : Continuous (fun x => F.curve (1 - x) * F.curve (1 + x)) :=
    ((curve_continuous F).comp (by fun_prop)).mul ((curve_continuous F).comp (by fun_prop))
  have h0 : 0 < F.curve (1 - 0) * F.curve (1 + 0) := by
    rw [sub_zero, add_zero]; exact mul_self_pos.mpr h
  obtain ⟨δ, d0, hd⟩ := Metric.mem_nhds_iff.mp (hc.continuousAt.eventually (lt_mem_nhds h0))
  refine ⟨min (δ / 2) (1 / 2), by positivity, ?_⟩
  intro N range hr i h1 h2
  have hN : 0 < N := by
    rcases Nat.eq_zero_or_pos N with rfl | h
    · exfalso
      have : (1 : ℝ) ≤ range := by exact_mod_cast le_trans h1 h2
      simp at hr
      subst hr
      omega
    · exact h
  have hN' : (0 : ℝ) < N := by exact_mod_cast hN
  have hi : (i : ℝ) ≤ min (δ / 2) (1 / 2) * N := le_trans (by exact_mod_cast h2) hr
  have hx : (i : ℝ) / N ≤ min (δ / 2) (1 / 2) := by rw [div_le_iff₀ hN']; exact hi
  have hiN : i ≤ N := by
    have : (i : ℝ) / N ≤ 1 := le_trans hx (le_trans (min_le_right _ _) (by norm_num))
    rw [div_le_one hN'] at this
    exact_mod_cast this
  have hmem : (i : ℝ) / N ∈ Metric.ball (0 : ℝ) δ := by
    rw [Metric.mem_ball, dist_zero_right, Real.norm_eq_abs, abs_of_nonneg (by positivity)]
    exact lt_of_le_of_lt (le_trans hx (min_le_left _ _)) (by linarith)
  have := hd hmem
  have this : 0 < F.curve (1 - i / N) * F.curve (1 + i / N) := this
  rw [response_curve F hN, response_curve F hN, Nat.cast_sub hiN, Nat.cast_add]
  rw [show ((N : ℝ) - i) / N = 1 - i / N by field_simp, show ((N : ℝ) + i) / N = 1 + i / N by field_simp]
  exact this

end Verif
