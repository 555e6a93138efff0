import Verif.Proofs.EndToEnd
import Verif.Spec.Video

/-! From the exact spectra of several pictures to the lists for their frames. -/

namespace Verif

open Spec

variable {s : Sys}

/-- Two lists whose elements correspond have sums in the same order, up to the number of elements times the error. -/
theorem sum_below {α β : Type} {R : α → β → Prop} {f : α → ℚ} {g : β → ℚ} {e : ℚ} {as : List α} {bs : List β} (h : List.Forall₂ R as bs)
    (hR : ∀ a b, R a b → f a ≤ g b + e) : (as.map f).sum ≤ (bs.map g).sum + as.length * e := by
  induction h with
  | nil => simp
  | @cons a b as bs h1 h2 ih =>
    have i1 := hR a b h1
    simp only [List.map_cons, List.sum_cons, List.length_cons]
    push_cast
    linarith

theorem sum_above {α β : Type} {R : α → β → Prop} {f : α → ℚ} {g : β → ℚ} {e : ℚ} {as : List α} {bs : List β} (h : List.Forall₂ R as bs)
    (hR : ∀ a b, R a b → g b ≤ f a + e) : (bs.map g).sum ≤ (as.map f).sum + as.length * e := by
  rw [h.length_eq]
  exact sum_below h.flip (fun b a h => hR a b h)

/-- The computed signs differ for all sure pairs, and only for possible ones. -/
theorem share_between {d : ℝ} {g : ℕ → ℕ → Fl} {X : ℕ → ℕ → ℝ} {n range N : ℕ} (hc : Computed d g X n range N) :
    sureShare d X n range N ≤ (signMatches g n range N : ℚ) / (n * range) ∧ (signMatches g n range N : ℚ) / (n * range) ≤ possibleShare d X n range N := by
  classical
  have key : ∀ p ∈ (Finset.range n ×ˢ Finset.Icc 1 range : Finset (ℕ × ℕ)), ClearPair d X N p →
      ((g p.1 (N - p.2)).signbit ≠ (g p.1 (N + p.2)).signbit ↔ X p.1 (N - p.2) * X p.1 (N + p.2) < 0) := by
    rintro ⟨y, i⟩ hp ⟨cl, cr⟩
    simp only [Finset.mem_product, Finset.mem_range, Finset.mem_Icc] at hp cl cr
    obtain ⟨hy, i1, i2⟩ := hp
    have wl := hc y hy (N - i) (by omega) (by omega)
    have wr := hc y hy (N + i) (by omega) (by omega)
    have hd := within_pos wl
    simp only
    rw [within_sign wl cl, within_sign wr cr]
    have nl : X y (N - i) ≠ 0 := by intro h; rw [h, abs_zero] at cl; linarith
    have nr : X y (N + i) ≠ 0 := by intro h; rw [h, abs_zero] at cr; linarith
    rw [mul_neg_iff]
    rcases lt_or_gt_of_ne nl with h1 | h1 <;> rcases lt_or_gt_of_ne nr with h2 | h2 <;>
      simp [h1, h2, h1.le, h2.le, not_lt.mpr h1.le, not_lt.mpr h2.le]
  unfold sureShare possibleShare signMatches
  constructor
  · refine div_le_div_of_nonneg_right ?_ (by positivity)
    refine Nat.cast_le.mpr (Finset.card_le_card fun p hp => ?_)
    rw [Finset.mem_filter] at hp ⊢
    exact ⟨hp.1, (key p hp.1 hp.2.1).mpr hp.2.2⟩
  · refine div_le_div_of_nonneg_right ?_ (by positivity)
    refine Nat.cast_le.mpr (Finset.card_le_card fun p hp => ?_)
    rw [Finset.mem_filter] at hp ⊢
    exact ⟨hp.1, fun h => (key p hp.1 h).mp hp.2⟩

/-- For a clear size all three shares are the same. -/
theorem share_clear {d : ℝ} {X : ℕ → ℕ → ℝ} {n range N : ℕ} (hN : range ≤ N) (hX : Clear d X n range N) :
    sureShare d X n range N = share X n range N ∧ possibleShare d X n range N = share X n range N := by
  classical
  have key : ∀ p ∈ (Finset.range n ×ˢ Finset.Icc 1 range : Finset (ℕ × ℕ)), ClearPair d X N p := by
    rintro ⟨y, i⟩ hp
    simp only [Finset.mem_product, Finset.mem_range, Finset.mem_Icc] at hp
    exact ⟨hX y hp.1 _ (by simp only; omega) (by simp only; omega) (by simp only; omega), hX y hp.1 _ (by simp only; omega) (by simp only; omega) (by simp only; omega)⟩
  unfold sureShare possibleShare share oppositePairs
  constructor <;> congr 3 <;> refine Finset.filter_congr fun p hp => ?_
  · simp [key p hp]
  · simp [key p hp]

theorem mean_clear {d : ℝ} {Xs : List (ℕ → ℕ → ℝ)} {n range N : ℕ} (hN : range ≤ N) (hX : ∀ X ∈ Xs, Clear d X n range N) :
    meanSure d Xs n range N = meanShare Xs n range N ∧ meanPossible d Xs n range N = meanShare Xs n range N := by
  unfold meanSure meanPossible meanShare
  constructor <;> congr 2 <;> refine List.map_congr_left fun X h => ?_
  · exact (share_clear hN (hX X h)).1
  · exact (share_clear hN (hX X h)).2

/-- The list for one dimension after several frames. -/
theorem meanList (hF : s.cfg.inter.WF) (hp : Precise s.cfg) {q : Params} {len n : ℕ} {g : List Fl → ℕ → ℕ → Fl} {fs : List (List Fl)}
    {l : List Res} (hl : Listed s .sign q len g n fs l) (hx : Exact s.cfg fs.length) (hne : fs ≠ []) (hf : q.compressionFilter = 0)
    (hu : InUnit q.threshold) (ht : binary32.rnd (val q.threshold) = val q.threshold) (n0 : 0 < n) (r0 : 0 < q.range)
    (hnr : n * len ≤ 2 ^ s.cfg.inter.p) {d : ℝ} {Xs : List (ℕ → ℕ → ℝ)}
    (hc : List.Forall₂ (fun f X => ∀ y < n, ∀ x < len, Within d (g f y x) (X y x)) fs Xs) :
    MeanList d ((fs.length + 2) * pow2 (-s.cfg.inter.p)) ((fs.length + 2) * pow2 (-s.cfg.inter.p) + 1 / 2 ^ 24) (val q.threshold) q.range len n Xs l := by
  obtain ⟨init, e1, e2, e3⟩ := hl.parts
  have hpos : 0 < fs.length := List.length_pos_iff.mpr hne
  have hpos' : (0 : ℚ) < fs.length := by exact_mod_cast hpos
  have hlen := hc.length_eq
  have hone := hx.mono (j := 1) hpos
  have hpow := hx.count
  have hmemX : ∀ f ∈ fs, ∃ X ∈ Xs, ∀ y < n, ∀ x < len, Within d (g f y x) (X y x) := by
    intro f hfm
    obtain ⟨i, hi, rfl⟩ := List.getElem_of_mem hfm
    exact ⟨Xs[i], List.getElem_mem _, (List.forall₂_iff_get.mp hc).2 i hi (by omega)⟩
  have hnr' : ∀ N, N + q.range < len → n * q.range ≤ 2 ^ s.cfg.inter.p := fun N h => le_trans (Nat.mul_le_mul_left n (by omega)) hnr
  have hmean : ∀ N, q.range ≤ N → N + q.range < len → ∃ v, meanAt s .sign g n q.range fs N = .fin false v ∧
      0 ≤ v ∧ v ≤ 1 ∧ meanSure d Xs n q.range N - (fs.length + 2) * pow2 (-s.cfg.inter.p) ≤ v ∧
      v ≤ meanPossible d Xs n q.range N + (fs.length + 2) * pow2 (-s.cfg.inter.p) := by
    intro N h1 h2
    have hn : n ≤ 2 ^ s.cfg.inter.p := le_trans (Nat.le_mul_of_pos_right n r0) (hnr' N h2)
    have hr : q.range ≤ 2 ^ s.cfg.inter.p := le_trans (Nat.le_mul_of_pos_left _ n0) (hnr' N h2)
    obtain ⟨v, ev, v0, v1⟩ := meanAt_unit hF hp (d := .sign) (g := g) (x := N) hn hr n0 r0 hpow hne
    have h3 := meanAt_err hF hp (d := .sign) (g := g) (x := N) hn hr n0 r0 hpow hne
    rw [ev, show val (.fin false v) = v from rfl] at h3
    have one : ∀ f X, (∀ y < n, ∀ x < len, Within d (g f y x) (X y x)) →
        sureShare d X n q.range N ≤ val (meanAt s .sign g n q.range [f] N) + pow2 (-s.cfg.inter.p) ∧
        val (meanAt s .sign g n q.range [f] N) ≤ possibleShare d X n q.range N + pow2 (-s.cfg.inter.p) := by
      intro f X hw
      rw [meanAt_one hF hp n0 r0 (hnr' N h2)]
      obtain ⟨_, a, b⟩ := ratio_exact hF hp n0 r0 (hnr' N h2) (signMatches_le (g f) n q.range N)
      have h6 := s.cfg.inter.rnd_err hF (K := 1) le_rfl a (by exact_mod_cast b)
      rw [Nat.cast_one, one_mul] at h6
      have h7 := abs_le.mp h6
      obtain ⟨h8, h9⟩ := share_between (d := d) (g := g f) (X := X) (n := n) (range := q.range) (N := N) (fun y hy x _ hx => hw y hy x (by omega))
      show _ ≤ s.cfg.inter.rnd _ + _ ∧ s.cfg.inter.rnd _ ≤ _
      constructor <;> linarith [h7.1, h7.2]
    have h4 := sum_above hc (fun f X h => (one f X h).1)
    have h5 := sum_below hc (fun f X h => (one f X h).2)
    have h6 : meanSure d Xs n q.range N ≤ (fs.map (fun f => val (meanAt s .sign g n q.range [f] N))).sum / fs.length + pow2 (-s.cfg.inter.p) := by
      unfold meanSure
      rw [← hlen, div_add' _ _ _ hpos'.ne', div_le_div_iff_of_pos_right hpos', mul_comm]
      exact h4
    have h7 : (fs.map (fun f => val (meanAt s .sign g n q.range [f] N))).sum / fs.length ≤ meanPossible d Xs n q.range N + pow2 (-s.cfg.inter.p) := by
      unfold meanPossible
      rw [← hlen, div_add' _ _ _ hpos'.ne', div_le_div_iff_of_pos_right hpos', mul_comm]
      exact h5
    have h8 := abs_le.mp h3
    have e : ((fs.length : ℚ) + 2) * pow2 (-s.cfg.inter.p) = (fs.length + 1) * pow2 (-s.cfg.inter.p) + pow2 (-s.cfg.inter.p) := by ring
    rw [e]
    exact ⟨v, ev, v0, v1, by linarith [h8.1], by linarith [h8.2]⟩
  have hmem : ∀ N c, N + q.range < len → (⟨N, c⟩ : Res) ∈ l → (⟨N, c⟩ : Res) ∈ init := by
    intro N c h2 h
    rw [e1, List.mem_append, List.mem_singleton] at h
    rcases h with h | h
    · exact h
    · have : N = len := congrArg Res.index h
      omega
  obtain ⟨b, t, et, t0, t1⟩ := hu
  rw [et] at ht ⊢
  have htt : s.cfg.inter.rnd t = t := by
    have := rnd_times hF hone.small t0 ht hone.digits
    rwa [Nat.cast_one, one_mul] at this
  obtain ⟨b', ec⟩ := conv_unit_eq (F := s.cfg.inter) hF (b := b) (t := t) ⟨b, t, rfl, t0, t1⟩
  rw [htt] at ec
  have hge : ∀ v : ℚ, (Fl.fin false v).ge (.fin b' t) = true ↔ t ≤ v := by
    intro v
    simp only [Fl.ge, Fl.lt, Bool.not_eq_true', decide_eq_false_iff_not, not_lt]
  refine ⟨hl.sorted, ⟨init, e1, ?_, fun r hr => ⟨((e3 r).mp hr).1, ((e3 r).mp hr).2.1⟩⟩, ?_, ?_, ?_⟩
  · refine e2.map_on ?_
    rintro ⟨i, c⟩ ha ⟨j, c'⟩ hb hij
    have h5 := ((e3 _).mp ha).2.2.2.2
    have h6 := ((e3 _).mp hb).2.2.2.2
    simp only at hij h5 h6
    subst hij
    rw [h5, h6]
  · intro N h1 h2 hle
    obtain ⟨v, ev, v0, v1, hv, _⟩ := hmean N h1 h2
    refine ⟨binary32.conv (.fin false v), ?_⟩
    rw [e1, List.mem_append]
    left
    rw [e3]
    simp only
    rw [ev, et, ec, hge]
    refine ⟨h1, h2, by rw [hf]; simp [filteredOut], ?_, rfl⟩
    simp only [val] at hle
    linarith
  · intro N h1 h2 c hm
    obtain ⟨v, ev, v0, v1, hv, hv'⟩ := hmean N h1 h2
    obtain ⟨_, _, _, h3, h4⟩ := (e3 _).mp (hmem N c h2 hm)
    simp only at h3 h4
    rw [ev, et, ec, hge] at h3
    rw [ev, conv_unit_false binary32_wf v0 v1] at h4
    have h5 := binary32.rnd_err binary32_wf (K := 1) le_rfl v0 (by exact_mod_cast v1)
    have e : pow2 (-binary32.p) = 1 / 2 ^ 24 := by decide +kernel
    rw [e, Nat.cast_one, one_mul] at h5
    have h6 := abs_le.mp h5
    refine ⟨?_, _, h4, ?_, ?_⟩
    · simp only [val]
      linarith
    · linarith [h6.1]
    · linarith [h6.2]
  · intro N h1 h2 lo hi l0 hi1 hlo hhi hall
    have hb := listed_between hF hp hl n0 r0 (hnr' N h2) hx hne h1 h2 l0 hi1 hlo hhi (fun f hfm => by
      obtain ⟨X, hX, hw⟩ := hmemX f hfm
      show lo ≤ signMatches (g f) n q.range N / (n * q.range) ∧ (signMatches (g f) n q.range N : ℚ) / (n * q.range) ≤ hi
      obtain ⟨h8, h9⟩ := share_between (d := d) (g := g f) (X := X) (n := n) (range := q.range) (N := N) (fun y hy x _ hx => hw y hy x (by omega))
      exact ⟨le_trans (hall X hX).1 h8, le_trans h9 (hall X hX).2⟩) et (by rw [et]; exact ⟨b, t, rfl, t0, t1⟩)
    refine ⟨fun c hm => hb.1 _ hm rfl, fun h => ?_, fun h c hm => hb.2.2 ht h _ hm rfl⟩
    obtain ⟨⟨_, c⟩, hr, rfl⟩ := hb.2.1 h hf
    exact ⟨c, hr⟩

end Verif
