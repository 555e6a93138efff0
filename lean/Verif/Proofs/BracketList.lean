import Verif.Proofs.Video
import Verif.Spec.AnyMethod

/-! From bounds for the evidence of single frames to the lists. -/

namespace Verif

open Spec

variable {s : Sys}

theorem meanAt_evidence (hF : s.cfg.inter.WF) (hp : Precise s.cfg) {d : Detect} {g : List Fl → ℕ → ℕ → Fl} {n range N : ℕ} (n0 : 0 < n) (r0 : 0 < range)
    (hnr : n * range ≤ 2 ^ s.cfg.inter.p) (f : List Fl) :
    |val (meanAt s d g n range [f] N) - evidence s d (g f) n range N| ≤ pow2 (-s.cfg.inter.p) := by
  have hn : n ≤ 2 ^ s.cfg.inter.p := le_trans (Nat.le_mul_of_pos_right n r0) hnr
  have hr : range ≤ 2 ^ s.cfg.inter.p := le_trans (Nat.le_mul_of_pos_left _ n0) hnr
  rw [meanAt_single hF hp hn hr n0 r0]
  obtain ⟨h1, h2, h3⟩ := frameScore_evidence hF hp (d := d) (g := g f) (x := N) n0 r0 hnr
  rcases h1 with h1 | ⟨h1, e⟩
  · rw [h1]
    have := s.cfg.inter.rnd_err hF (K := 1) le_rfl h2 (by exact_mod_cast h3)
    rw [Nat.cast_one, one_mul] at this
    exact this
  · rw [h1, e]
    simp only [Option.getD, val, sub_zero, abs_zero]
    exact (pow2_pos _).le

/-- The list for one dimension after several frames. -/
theorem bracketList (hF : s.cfg.inter.WF) (hp : Precise s.cfg) {q : Params} {len n : ℕ} {g : List Fl → ℕ → ℕ → Fl} {fs : List (List Fl)} {d : Detect}
    {l : List Res} (hl : Listed s d q len g n fs l) (hx : Exact s.cfg fs.length) (hne : fs ≠ [])
    (hu : InUnit q.threshold) (ht : binary32.rnd (val q.threshold) = val q.threshold) (n0 : 0 < n) (r0 : 0 < q.range)
    (hnr : n * len ≤ 2 ^ s.cfg.inter.p) {lo hi : (ℕ → ℕ → ℝ) → ℕ → ℚ} {Xs : List (ℕ → ℕ → ℝ)} {R : List Fl → (ℕ → ℕ → ℝ) → Prop}
    (hc : List.Forall₂ R fs Xs) (hR : ∀ f X, R f X → ∀ N, q.range ≤ N → N + q.range < len →
      lo X N ≤ evidence s d (g f) n q.range N ∧ evidence s d (g f) n q.range N ≤ hi X N) :
    BracketList lo hi ((fs.length + 2) * pow2 (-s.cfg.inter.p)) ((fs.length + 2) * pow2 (-s.cfg.inter.p) + 1 / 2 ^ 24) (val q.threshold)
      q.compressionFilter q.range len Xs l := by
  obtain ⟨init, e1, e2, e3⟩ := hl.parts
  have hpos : 0 < fs.length := List.length_pos_iff.mpr hne
  have hpos' : (0 : ℚ) < fs.length := by exact_mod_cast hpos
  have hlen := hc.length_eq
  have hone := hx.mono (j := 1) hpos
  have hpow := hx.count
  have hmemX : ∀ f ∈ fs, ∃ X ∈ Xs, R f X := by
    intro f hfm
    obtain ⟨i, hi, rfl⟩ := List.getElem_of_mem hfm
    exact ⟨Xs[i], List.getElem_mem _, (List.forall₂_iff_get.mp hc).2 i hi (by omega)⟩
  have hnr' : ∀ N, N + q.range < len → n * q.range ≤ 2 ^ s.cfg.inter.p := fun N h => le_trans (Nat.mul_le_mul_left n (by omega)) hnr
  have hmean : ∀ N, q.range ≤ N → N + q.range < len → ∃ v, meanAt s d g n q.range fs N = .fin false v ∧
      0 ≤ v ∧ v ≤ 1 ∧ meanOf (lo · N) Xs - (fs.length + 2) * pow2 (-s.cfg.inter.p) ≤ v ∧
      v ≤ meanOf (hi · N) Xs + (fs.length + 2) * pow2 (-s.cfg.inter.p) := by
    intro N h1 h2
    have hn : n ≤ 2 ^ s.cfg.inter.p := le_trans (Nat.le_mul_of_pos_right n r0) (hnr' N h2)
    have hr : q.range ≤ 2 ^ s.cfg.inter.p := le_trans (Nat.le_mul_of_pos_left _ n0) (hnr' N h2)
    obtain ⟨v, ev, v0, v1⟩ := meanAt_unit hF hp (d := d) (g := g) (x := N) hn hr n0 r0 hpow hne
    have h3 := meanAt_err hF hp (d := d) (g := g) (x := N) hn hr n0 r0 hpow hne
    rw [ev, show val (.fin false v) = v from rfl] at h3
    have one : ∀ f X, R f X → lo X N ≤ val (meanAt s d g n q.range [f] N) + pow2 (-s.cfg.inter.p) ∧
        val (meanAt s d g n q.range [f] N) ≤ hi X N + pow2 (-s.cfg.inter.p) := by
      intro f X hw
      have h7 := abs_le.mp (meanAt_evidence hF hp (d := d) (g := g) (N := N) n0 r0 (hnr' N h2) f)
      obtain ⟨h8, h9⟩ := hR f X hw N h1 h2
      constructor <;> linarith [h7.1, h7.2]
    have h4 := sum_above hc (fun f X h => (one f X h).1)
    have h5 := sum_below hc (fun f X h => (one f X h).2)
    have h6 : meanOf (lo · N) Xs ≤ (fs.map (fun f => val (meanAt s d g n q.range [f] N))).sum / fs.length + pow2 (-s.cfg.inter.p) := by
      unfold meanOf
      rw [← hlen, div_add' _ _ _ hpos'.ne', div_le_div_iff_of_pos_right hpos', mul_comm]
      exact h4
    have h7 : (fs.map (fun f => val (meanAt s d g n q.range [f] N))).sum / fs.length ≤ meanOf (hi · N) Xs + pow2 (-s.cfg.inter.p) := by
      unfold meanOf
      rw [← hlen, div_add' _ _ _ hpos'.ne', div_le_div_iff_of_pos_right hpos', mul_comm]
      exact h5
    have h8 := abs_le.mp h3
    have e : ((fs.length : ℚ) + 2) * pow2 (-s.cfg.inter.p) = (fs.length + 1) * pow2 (-s.cfg.inter.p) + pow2 (-s.cfg.inter.p) := by ring
    rw [e]
    exact ⟨v, ev, v0, v1, by linarith [h8.1], by linarith [h8.2]⟩
  have hmem : ∀ N c, N + q.range < len → (⟨N, c⟩ : Res) ∈ l → (⟨N, c⟩ : Res) ∈ init := by
    intro N c h2 h
    rw [e1, List.mem_append, List.mem_singleton] at h
    rcases h with h | h
    · exact h
    · have : N = len := congrArg Res.index h
      omega
  obtain ⟨b, t, et, t0, t1⟩ := hu
  rw [et] at ht ⊢
  have htt : s.cfg.inter.rnd t = t := by
    have := rnd_times hF hone.small t0 ht hone.digits
    rwa [Nat.cast_one, one_mul] at this
  obtain ⟨b', ec⟩ := conv_unit_eq (F := s.cfg.inter) hF (b := b) (t := t) ⟨b, t, rfl, t0, t1⟩
  rw [htt] at ec
  have hge : ∀ v : ℚ, (Fl.fin false v).ge (.fin b' t) = true ↔ t ≤ v := by
    intro v
    simp only [Fl.ge, Fl.lt, Bool.not_eq_true', decide_eq_false_iff_not, not_lt]
  refine ⟨hl.sorted, ⟨init, e1, ?_, fun r hr => ⟨((e3 r).mp hr).1, ((e3 r).mp hr).2.1, ((e3 r).mp hr).2.2.1⟩⟩, ?_, ?_, ?_⟩
  · refine e2.map_on ?_
    rintro ⟨i, c⟩ ha ⟨j, c'⟩ hb hij
    have h5 := ((e3 _).mp ha).2.2.2.2
    have h6 := ((e3 _).mp hb).2.2.2.2
    simp only at hij h5 h6
    subst hij
    rw [h5, h6]
  · intro N h1 h2 hfo hle
    obtain ⟨v, ev, v0, v1, hv, _⟩ := hmean N h1 h2
    refine ⟨binary32.conv (.fin false v), ?_⟩
    rw [e1, List.mem_append]
    left
    rw [e3]
    simp only
    rw [ev, et, ec, hge]
    refine ⟨h1, h2, hfo, ?_, rfl⟩
    simp only [val] at hle
    linarith
  · intro N h1 h2 c hm
    obtain ⟨v, ev, v0, v1, hv, hv'⟩ := hmean N h1 h2
    obtain ⟨_, _, _, h3, h4⟩ := (e3 _).mp (hmem N c h2 hm)
    simp only at h3 h4
    rw [ev, et, ec, hge] at h3
    rw [ev, conv_unit_false binary32_wf v0 v1] at h4
    have h5 := binary32.rnd_err binary32_wf (K := 1) le_rfl v0 (by exact_mod_cast v1)
    have e : pow2 (-binary32.p) = 1 / 2 ^ 24 := by decide +kernel
    rw [e, Nat.cast_one, one_mul] at h5
    have h6 := abs_le.mp h5
    refine ⟨?_, _, h4, ?_, ?_⟩
    · simp only [val]
      linarith
    · linarith [h6.1]
    · linarith [h6.2]
  · intro N h1 h2 a b'' l0 hi1 hlo hhi hall
    have hev : ∀ f ∈ fs, a ≤ evidence s d (g f) n q.range N ∧ evidence s d (g f) n q.range N ≤ b'' := by
      intro f hfm
      obtain ⟨X, hX, hw⟩ := hmemX f hfm
      obtain ⟨h8, h9⟩ := hR f X hw N h1 h2
      exact ⟨le_trans (hall X hX).1 h8, le_trans h9 (hall X hX).2⟩
    have hb := listed_between hF hp hl n0 r0 (hnr' N h2) hx hne h1 h2 l0 hi1 hlo hhi hev et (by rw [et]; exact ⟨b, t, rfl, t0, t1⟩)
    refine ⟨fun c hm => hb.1 _ hm rfl, fun h hfo => ?_, fun h c hm => hb.2.2 ht h _ hm rfl⟩
    obtain ⟨v, e, v1, v2⟩ := meanAt_between hF hp n0 r0 (hnr' N h2) l0 hi1 hlo hhi hne hx hev
    refine ⟨binary32.conv (meanAt s d g n q.range fs N), ?_⟩
    rw [e1, List.mem_append]
    left
    rw [e3]
    refine ⟨h1, h2, hfo, ?_, rfl⟩
    show (meanAt s d g n q.range fs N).ge _ = true
    rw [e, et, ec, hge]
    have h3 := rnd_times hF hone.small l0 hlo hone.digits
    rw [Nat.cast_one, one_mul] at h3
    have h4 := s.cfg.inter.rnd_mono hF.p_pos h
    simp only [val] at h
    first
      | linarith
      | (rw [htt] at h4; linarith)

end Verif
