import Verif.Spec.Video
import Verif.Proofs.Resample

/-! # Sure shares of enlarged and scaled pictures (for C82) -/

namespace Verif

open Spec

theorem alias_nonneg (κ : Curve) {N M k : ℕ} : 0 ≤ κ.alias N M k := by
  unfold Curve.alias
  refine tsum_nonneg fun _ => ?_
  split
  · exact le_rfl
  · exact abs_nonneg _

theorem possible_le {d : ℝ} {X : ℕ → ℕ → ℝ} {n range N : ℕ} : possibleShare d X n range N ≤ 1 := by
  classical
  unfold possibleShare
  refine div_le_one_of_le₀ ?_ (by positivity)
  have := Finset.card_filter_le (Finset.range n ×ˢ Finset.Icc 1 range) (fun p => ClearPair d X N p → X p.1 (N - p.2) * X p.1 (N + p.2) < 0)
  rw [Finset.card_product, Finset.card_range, Nat.card_Icc, Nat.add_sub_cancel] at this
  exact_mod_cast this

theorem sure_ge {d e : ℝ} {t : ℚ} {X : ℕ → ℕ → ℝ} {n range N : ℕ} (hn : 0 < n) (hr : 0 < range) (hde : d ≤ e)
    (h : ∀ y < n, ∀ i, 1 ≤ i → i ≤ range → e ≤ |X y (N - i)| → e ≤ |X y (N + i)| → X y (N - i) * X y (N + i) < 0)
    (ht : t * (n * range) ≤ clearPairs e X n range N) : t ≤ sureShare d X n range N := by
  classical
  unfold sureShare
  rw [le_div_iff₀ (by exact_mod_cast Nat.mul_pos hn hr)]
  refine le_trans ht ?_
  unfold clearPairs
  refine Nat.cast_le.mpr (Finset.card_le_card fun p hp => ?_)
  rw [Finset.mem_filter] at hp ⊢
  obtain ⟨hm, hl, hr⟩ := hp
  refine ⟨hm, ⟨le_trans hde hl, le_trans hde hr⟩, ?_⟩
  rw [Finset.mem_product, Finset.mem_range, Finset.mem_Icc] at hm
  exact h _ hm.1 _ hm.2.1 hm.2.2 hl hr

theorem sure_flips {d : ℝ} {t : ℚ} {X : ℕ → ℕ → ℝ} {n range N : ℕ} (hd : 0 < d) (hn : 0 < n) (hr : 0 < range) (hX : Flips X n range N)
    (ht : t * (n * range) ≤ clearPairs d X n range N) : t ≤ sureShare d X n range N := by
  refine sure_ge hn hr le_rfl (fun y hy i h1 h2 hl hr => ?_) ht
  obtain ⟨c, c0, e⟩ := hX.sides y hy i h1 h2
  rw [e]
  have : 0 < X y (N - i) ^ 2 := by
    rw [← sq_abs]
    exact pow_pos (lt_of_lt_of_le hd hl) 2
  nlinarith

theorem sure_near {a d : ℝ} {t : ℚ} {X : ℕ → ℕ → ℝ} {n range N : ℕ} (hd : 0 < d) (ha : 0 ≤ a) (hn : 0 < n) (hr : 0 < range)
    (hX : NearFlips a X n range N) (ht : t * (n * range) ≤ clearPairs (d + a) X n range N) : t ≤ sureShare d X n range N := by
  obtain ⟨Z, hZ, hnear⟩ := hX
  refine sure_ge hn hr (by linarith) (fun y hy i h1 h2 hl hr => ?_) ht
  obtain ⟨c, c0, e⟩ := hZ.sides y hy i h1 h2
  obtain ⟨l1, l2, l3⟩ := same_sign (hnear y hy (N - i) (by omega) (by omega)) hd hl
  obtain ⟨r1, r2, r3⟩ := same_sign (hnear y hy (N + i) (by omega) (by omega)) hd hr
  rw [e] at r1 r2
  rcases lt_or_gt_of_ne l3 with h | h
  · exact mul_neg_of_neg_of_pos (l2.mpr h) (r1.mpr (by nlinarith))
  · exact mul_neg_of_pos_of_neg (l1.mpr h) (r2.mpr (by nlinarith))

end Verif
