import Verif.Proofs.ListLemmas
import Verif.Proofs.Evidence
import Verif.Proofs.Mirror
import Verif.Spec.EndToEnd

/-! From the exact spectrum of a picture to the lists for its only frame. -/

namespace Verif

open Spec

variable {s : Sys}

/-- The mean over one frame with a score is that score. -/
theorem meanAt_one (hF : s.cfg.inter.WF) (hp : Precise s.cfg) {g : List Fl → ℕ → ℕ → Fl} {n range x : ℕ}
    (n0 : 0 < n) (r0 : 0 < range) (hnr : n * range ≤ 2 ^ s.cfg.inter.p) {f : List Fl} :
    meanAt s .sign g n range [f] x = .fin false (s.cfg.inter.rnd (signMatches (g f) n range x / (n * range))) := by
  obtain ⟨h1, e0, e1⟩ := ratio_exact hF hp n0 r0 hnr (signMatches_le (g f) n range x)
  set e : ℚ := signMatches (g f) n range x / (n * range) with he
  obtain ⟨q0, q1⟩ := rnd_unit hF e0 e1
  have hid := s.cfg.inter.rnd_idem hF.p_pos e
  have h2 : total s .sign g n range [f] x = .fin false (s.cfg.inter.rnd e) := by
    show s.cfg.inter.add (.fin false 0) (ratio s.cfg (signMatches (g f) n range x) n range) = _
    rw [h1]
    unfold Fmt.add
    simp only [Bool.and_self]
    rw [zero_add, deliver_unit hF q0 q1, hid]
  unfold meanAt mean
  rw [h2, List.length_singleton, ofNat_exact hF hp.p_lt Nat.one_le_two_pow]
  unfold Fmt.div
  simp only
  rw [if_neg (by norm_num), Bool.xor_false, Nat.cast_one, div_one, deliver_unit hF q0 q1, hid]

/-- Where the coefficients are clear, the sign bits of the computed ones are those of the exact ones. -/
theorem clear_opposite {d : ℝ} {g : ℕ → ℕ → Fl} {X : ℕ → ℕ → ℝ} {n range N : ℕ} (hN : range ≤ N) (hc : Computed d g X n range N)
    (hX : Clear d X n range N) : signMatches g n range N = oppositePairs X n range N := by
  classical
  unfold signMatches oppositePairs
  congr 1
  refine Finset.filter_congr ?_
  rintro ⟨y, i⟩ hp
  simp only [Finset.mem_product, Finset.mem_range, Finset.mem_Icc] at hp
  obtain ⟨hy, i1, i2⟩ := hp
  have wl := hc y hy (N - i) (by omega) (by omega)
  have wr := hc y hy (N + i) (by omega) (by omega)
  have cl := hX y hy (N - i) (by omega) (by omega) (by omega)
  have cr := hX y hy (N + i) (by omega) (by omega) (by omega)
  have hd : 0 < d := by
    obtain ⟨v, b, _, _, hlt⟩ := wl
    exact lt_of_le_of_lt (abs_nonneg _) hlt
  simp only
  rw [within_sign wl cl, within_sign wr cr]
  have nl : X y (N - i) ≠ 0 := by intro h; rw [h, abs_zero] at cl; linarith
  have nr : X y (N + i) ≠ 0 := by intro h; rw [h, abs_zero] at cr; linarith
  rw [mul_neg_iff]
  rcases lt_or_gt_of_ne nl with h1 | h1 <;> rcases lt_or_gt_of_ne nr with h2 | h2 <;>
    simp [h1, h2, h1.le, h2.le, not_lt.mpr h1.le, not_lt.mpr h2.le]

/-- The list for one dimension after a single frame. -/
theorem exactList (hF : s.cfg.inter.WF) (hp : Precise s.cfg) (h1 : Exact s.cfg 1) {q : Params} {len n : ℕ} {g : List Fl → ℕ → ℕ → Fl} {f : List Fl}
    {l : List Res} (hl : Listed s .sign q len g n [f] l) (hf : q.compressionFilter = 0) (hu : InUnit q.threshold)
    (ht : binary32.rnd (val q.threshold) = val q.threshold) (n0 : 0 < n) (r0 : 0 < q.range) (hnr : n * len ≤ 2 ^ s.cfg.inter.p)
    {d : ℝ} {X : ℕ → ℕ → ℝ} (hc : ∀ y < n, ∀ x < len, Within d (g f y x) (X y x)) :
    ExactList s.cfg.inter d (val q.threshold) q.range len n X l := by
  obtain ⟨init, e1, e2, e3⟩ := hl.parts
  refine ⟨hl.sorted, ⟨init, e1, ?_, fun r hr => ⟨((e3 r).mp hr).1, ((e3 r).mp hr).2.1⟩⟩, ?_⟩
  · refine e2.map_on ?_
    rintro ⟨i, c⟩ ha ⟨j, c'⟩ hb hij
    have h5 := ((e3 _).mp ha).2.2.2.2
    have h6 := ((e3 _).mp hb).2.2.2.2
    simp only at hij h5 h6
    subst hij
    rw [h5, h6]
  · intro N hN1 hN2 hcl c
    have hne : (⟨N, c⟩ : Res) ≠ sentinel len := by
      intro h
      have : N = len := congrArg Res.index h
      omega
    have hm := meanAt_one (s := s) hF hp (g := g) (x := N) (f := f) n0 r0 (le_trans (Nat.mul_le_mul_left n (by omega)) hnr)
    rw [clear_opposite hN1 (fun y hy x _ hx => hc y hy x (by omega)) hcl] at hm
    change meanAt s .sign g n q.range [f] N = .fin false (s.cfg.inter.rnd (share X n q.range N)) at hm
    have hsh : 0 ≤ share X n q.range N ∧ share X n q.range N ≤ 1 := by
      obtain ⟨_, a, b⟩ := ratio_exact hF hp n0 r0 (le_trans (Nat.mul_le_mul_left n (by omega)) hnr) (signMatches_le (g f) n q.range N)
      rw [clear_opposite hN1 (fun y hy x _ hx => hc y hy x (by omega)) hcl] at a b
      exact ⟨a, b⟩
    obtain ⟨s0, s1⟩ := rnd_unit hF hsh.1 hsh.2
    obtain ⟨b, t, et, t0, t1⟩ := hu
    rw [et] at ht ⊢
    obtain ⟨b', ec⟩ := conv_unit_eq (F := s.cfg.inter) hF (b := b) (t := t) ⟨b, t, rfl, t0, t1⟩
    have htt : s.cfg.inter.rnd t = t := by
      have := rnd_times hF h1.small t0 ht h1.digits
      rwa [Nat.cast_one, one_mul] at this
    rw [e1]
    simp only [List.mem_append, List.mem_singleton]
    rw [or_iff_left hne, e3]
    simp only
    rw [hm, et, ec, htt, conv_unit_false binary32_wf s0 s1]
    have hfo : filteredOut len q.compressionFilter (N - q.range) = false := by rw [hf]; simp [filteredOut]
    simp only [Fl.ge, Fl.lt, Bool.not_eq_true', decide_eq_false_iff_not, not_lt, val, hN1, hN2, hfo, true_and]
    tauto

end Verif
