import Verif.Proofs.ListLemmas
import Verif.Proofs.PointLemmas
import Verif.Proofs.Upscale
import Verif.Spec.Upscale

/-! A position with full score in every frame; sign changes in the spectra of enlarged images. -/

namespace Verif
open Spec

variable {s : Sys}

/-- A position with full score in every frame is listed with confidence 1 and only confidence 1 before it. -/
theorem listed_full (hF : s.cfg.inter.WF) (hpr : Precise s.cfg) {d : Detect} {q : Params} {len n x : ℕ}
    {g : List Fl → ℕ → ℕ → Fl} {fs : List (List Fl)} {l : List Res} (hl : Listed s d q len g n fs l) (n0 : 0 < n)
    (r0 : 0 < q.range) (np : n ≤ 2 ^ s.cfg.inter.p) (lp : len ≤ 2 ^ s.cfg.inter.p) (hk : fs.length ≤ 2 ^ s.cfg.inter.p)
    (hne : fs ≠ []) (ht : InUnit q.threshold) (hf : q.compressionFilter = 0) (hx1 : q.range ≤ x) (hx2 : x + q.range < len)
    (hall : ∀ f ∈ fs, frameScore s d (g f) n q.range x = some (.fin false 1)) :
    ⟨x, .fin false 1⟩ ∈ l ∧ ∀ before after, l = before ++ ⟨x, .fin false 1⟩ :: after →
      ∀ r ∈ before, r.confidence = .fin false 1 := by
  have hrp : q.range ≤ 2 ^ s.cfg.inter.p := by omega
  have hone : meanAt s d g n q.range fs x = .fin false 1 := meanAt_ones hF hpr hk hne hall
  obtain ⟨init, h1, h2, h3⟩ := hl.parts
  have hmem : (⟨x, .fin false 1⟩ : Res) ∈ init := by
    rw [h3]
    refine ⟨hx1, hx2, by rw [hf]; rfl, ?_, ?_⟩
    · show (meanAt s _ g n q.range fs x).ge _ = true
      rw [hone]
      obtain ⟨b, v, e, v0, v1⟩ := conv_unit hF ht
      rw [e]
      simp only [Fl.ge, Fl.lt]
      simpa using v1
    · show Fl.fin false 1 = binary32.conv (meanAt s _ g n q.range fs x)
      rw [hone]
      decide +kernel
  refine ⟨by rw [h1]; simp [hmem], ?_⟩
  intro before after hsplit r hr
  have hge : r.confidence.ge (.fin false 1) = true := by
    have := hl.sorted
    rw [hsplit] at this
    unfold Descending at this
    rw [List.pairwise_append] at this
    exact this.2.2 r hr ⟨x, .fin false 1⟩ (by simp)
  have hrl : r ∈ init ++ [sentinel len] := by rw [← h1, hsplit]; simp [hr]
  rcases List.mem_append.mp hrl with hri | hri
  · obtain ⟨_, _, _, _, hc⟩ := (h3 r).mp hri
    obtain ⟨v, e, v0, v1⟩ := meanAt_unit hF hpr (d := d) (g := g) (x := r.index) np hrp n0 r0 (fs := fs) hk hne
    rw [e, conv_unit_false binary32_wf v0 v1] at hc
    rw [hc] at hge ⊢
    have h1 : 1 ≤ binary32.rnd v := by simpa [Fl.ge, Fl.lt] using hge
    have h2 := (rnd_unit binary32_wf v0 v1).2
    rw [le_antisymm h2 h1]
  · rw [List.mem_singleton] at hri
    rw [hri] at hge
    norm_num [sentinel, Fl.ge, Fl.lt] at hge

/-- A coefficient computed with less error than its size has the right sign. -/
theorem within_sign {d x : ℝ} {c : Fl} (h : Within d c x) (hx : d ≤ |x|) : c.signbit = decide (x < 0) := by
  obtain ⟨v, b, rfl, hb, hd⟩ := h
  rw [abs_lt] at hd
  show b = _
  by_cases h0 : x < 0
  · rw [abs_of_neg h0] at hx
    have hv : v < 0 := by
      have : (v : ℝ) < 0 := by linarith
      exact_mod_cast this
    rw [hb hv.ne, decide_eq_true hv, decide_eq_true h0]
  · rw [abs_of_nonneg (not_lt.mp h0)] at hx
    have hv : 0 < v := by
      have : (0 : ℝ) < v := by linarith
      exact_mod_cast this
    rw [hb hv.ne', decide_eq_false (not_lt.mpr hv.le), decide_eq_false h0]

theorem opposite {x y c : ℝ} (hc : 0 < c) (h : y = -c * x) (hx : x ≠ 0) : decide (x < 0) ≠ decide (y < 0) := by
  rcases lt_or_gt_of_ne hx with h1 | h1
  · have : 0 < y := by rw [h]; nlinarith
    rw [decide_eq_true h1, decide_eq_false (not_lt.mpr this.le)]; simp
  · have : y < 0 := by rw [h]; nlinarith
    rw [decide_eq_false (not_lt.mpr h1.le), decide_eq_true this]; simp

/-- An exact spectrum that is antisymmetric up to positive factors and vanishes at `N`. -/
def Crosses (X : ℕ → ℕ → ℝ) (n N : ℕ) : Prop :=
  (∀ j, j < N → ∃ c > 0, ∀ y < n, X y (N + j) = -c * X y (N - j)) ∧ ∀ y < n, X y N = 0

theorem resolved_signs {d m : ℝ} {g : ℕ → ℕ → Fl} {X : ℕ → ℕ → ℝ} {n range N : ℕ} (hX : Crosses X n N) (hr : range < N)
    (hdm : d ≤ m) (h : Resolved d m g X n range N) : ∀ y < n, ∀ i, 1 ≤ i → i ≤ range →
      (g y (N - i)).signbit ≠ (g y (N + i)).signbit := by
  intro y hy i h1 h2
  obtain ⟨wl, ml⟩ := h y hy (N - i) (by omega) (by omega)
  obtain ⟨wr, mr⟩ := h y hy (N + i) (by omega) (by omega)
  have ml := ml (by omega)
  have mr := mr (by omega)
  have hd : 0 < d := by
    obtain ⟨v, b, _, _, hlt⟩ := wl
    exact lt_of_le_of_lt (abs_nonneg _) hlt
  rw [within_sign wl (by linarith), within_sign wr (by linarith)]
  obtain ⟨c, hc, hall⟩ := hX.1 i (by omega)
  refine opposite hc (hall y hy) ?_
  intro h0
  rw [h0, abs_zero] at ml
  linarith

theorem resolved_crosses {d : ℝ} {g : ℕ → ℕ → Fl} {X : ℕ → ℕ → ℝ} {n N : ℕ} (hX : Crosses X n N) (hN : 1 < N)
    (h : Resolved d (2 * d) g X n 1 N) : crossings g n N = n := by
  have hall : ∀ y < n, crosses (g y (N - 1)) (g y N) (g y (N + 1)) = true := by
    intro y hy
    obtain ⟨wl, ml⟩ := h y hy (N - 1) (by omega) (by omega)
    obtain ⟨wm, _⟩ := h y hy N (by omega) (by omega)
    obtain ⟨wr, mr⟩ := h y hy (N + 1) (by omega) (by omega)
    have ml := ml (by omega)
    have mr := mr (by omega)
    have hd : 0 < d := by
      obtain ⟨v, b, _, _, hlt⟩ := wl
      exact lt_of_le_of_lt (abs_nonneg _) hlt
    have hs := resolved_signs hX hN (by linarith) h y hy 1 le_rfl le_rfl
    obtain ⟨c, hc, hcall⟩ := hX.1 1 hN
    have hX1 := hcall y hy
    have hX0 := hX.2 y hy
    obtain ⟨vl, bl, el, _, dl⟩ := wl
    obtain ⟨vm, bm, em, _, dm⟩ := wm
    obtain ⟨vr, br, er, _, dr⟩ := wr
    unfold crosses
    rw [Bool.and_eq_true]
    refine ⟨by simpa using hs, ?_⟩
    rw [el, em, er]
    rw [hX0, sub_zero] at dm
    rw [abs_lt] at dl dm dr
    simp only [Fl.lt, Bool.or_eq_true, Bool.and_eq_true, decide_eq_true_eq]
    have hl0 : X y (N - 1) ≠ 0 := by
      intro h0; rw [h0, abs_zero] at ml; linarith
    rcases lt_or_gt_of_ne hl0 with h1 | h1
    · have h2 : 0 < X y (N + 1) := by rw [hX1]; nlinarith
      rw [abs_of_neg h1] at ml
      rw [abs_of_pos h2] at mr
      left
      constructor
      · have : (vl : ℝ) < vm := by linarith
        exact_mod_cast this
      · have : (vm : ℝ) < vr := by linarith
        exact_mod_cast this
    · have h2 : X y (N + 1) < 0 := by rw [hX1]; nlinarith
      rw [abs_of_pos h1] at ml
      rw [abs_of_neg h2] at mr
      right
      constructor
      · have : (vm : ℝ) < vl := by linarith
        exact_mod_cast this
      · have : (vr : ℝ) < vm := by linarith
        exact_mod_cast this
  unfold crossings
  rw [Finset.filter_true_of_mem (fun y hy => hall y (by simpa using hy)), Finset.card_range]

theorem widened_crosses {k N h : ℕ} {image : List Fl} (hk : 2 ≤ k) (hN : 0 < N) (hw : Widened k (k * N) h image) :
    Crosses (fun y x => dct2 (k * N) h (pixel (k * N) image) x y) h N := by
  have hx : ∀ i j, i < k * N → j < h → pixel (k * N) image i j = (fun a j => pixel (k * N) image (a * k) j) (i / k) j := by
    intro i j hi hj
    show pixel _ _ _ _ = pixel _ _ _ _
    unfold pixel
    rw [hw i j hi hj]
  constructor
  · intro j hj
    obtain ⟨c, hc, hall⟩ := dct2_wide (x := pixel (k * N) image) (o := fun a j => pixel (k * N) image (a * k) j) hN hk hx hj
    exact ⟨c, hc, fun y _ => hall y⟩
  · intro y _
    exact dct2_wide_zero (x := pixel (k * N) image) (o := fun a j => pixel (k * N) image (a * k) j) hN hk hx y

theorem heightened_crosses {k N w : ℕ} {image : List Fl} (hk : 2 ≤ k) (hN : 0 < N) (hw : Heightened k w (k * N) image) :
    Crosses (fun y x => dct2 w (k * N) (pixel w image) y x) w N := by
  have hx : ∀ i j, i < w → j < k * N → pixel w image i j = (fun i a => pixel w image i (a * k)) i (j / k) := by
    intro i j hi hj
    show pixel _ _ _ _ = pixel _ _ _ _
    unfold pixel
    rw [hw i j hi hj]
  constructor
  · intro j hj
    obtain ⟨c, hc, hall⟩ := dct2_tall (x := pixel w image) (o := fun i a => pixel w image i (a * k)) hN hk hx hj
    exact ⟨c, hc, fun y _ => hall y⟩
  · intro y _
    exact dct2_tall_zero (x := pixel w image) (o := fun i a => pixel w image i (a * k)) hN hk hx y

theorem frameScore_zerox_full (hF : s.cfg.inter.WF) (hpr : Precise s.cfg) {g : ℕ → ℕ → Fl} {n range x : ℕ} (n0 : 0 < n)
    (np : n ≤ 2 ^ s.cfg.inter.p) (h : crossings g n x = n) : frameScore s .zerox g n range x = some (.fin false 1) := by
  show some (s.cfg.inter.div (s.cfg.inter.ofNat (crossings g n x)) (s.cfg.inter.ofNat n)) = _
  have hn' : (0 : ℚ) < n := by exact_mod_cast n0
  rw [h, ofNat_exact hF hpr.p_lt np]
  unfold Fmt.div
  simp only
  rw [if_neg (ne_of_gt hn'), Bool.xor_false, div_self hn'.ne', deliver_unit hF zero_le_one le_rfl, s.cfg.inter.rnd_one hF]

end Verif
