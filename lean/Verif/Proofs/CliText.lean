import Verif.Model.CliText
import Verif.Spec.CliText
import Verif.Spec.Cli
import Verif.Proofs.ImgRead
import Verif.Proofs.Rounding
import Verif.Proofs.PngLemmas
import Mathlib.Data.Nat.Digits.Lemmas

/-! # Lemmas on the text the command prints -/

namespace Verif.Props

open Spec

/-! ## Numbers -/

theorem value_append (a b : List UInt8) : value (a ++ b) = value a * 10 ^ b.length + value b := by
  unfold value
  rw [List.reverse_append, List.map_append, Nat.ofDigits_append]
  simp
  ring

theorem value_zeros (n : ℕ) (l : List UInt8) : value (List.replicate n (ch '0') ++ l) = value l := by
  rw [value_append]
  have : value (List.replicate n (ch '0')) = 0 := by
    induction n with
    | zero => rfl
    | succ n ih =>
      rw [List.replicate_succ, ← List.singleton_append, value_append, ih]
      simp only [Nat.add_zero]
      have : value [ch '0'] = 0 := by decide
      rw [this, Nat.zero_mul]
  rw [this, Nat.zero_mul, Nat.zero_add]

theorem printZu_length {n k : ℕ} (hk : 0 < k) (h : n < 10 ^ k) : (printZu n).length ≤ k := by
  unfold printZu
  by_cases h0 : n = 0
  · rw [if_pos h0]; exact hk
  · rw [if_neg h0, List.length_map, List.length_reverse]
    exact (Nat.digits_length_le_iff (by norm_num) n).mpr h

theorem printZu_digits (n : ℕ) : Digits (printZu n) := (printZu_numeral n).2.1

theorem digits_append {a b : List UInt8} (ha : Digits a) (hb : Digits b) : Digits (a ++ b) := fun x hx =>
  (List.mem_append.mp hx).elim (ha x) (hb x)

theorem not_mem_digits {l : List UInt8} (h : Digits l) {c : UInt8} (hc : ¬ (48 ≤ c.toNat ∧ c.toNat ≤ 57)) : c ∉ l := fun hm => hc (h c hm)

/-- The digits after the point. -/
theorem fraction_numeral {k m : ℕ} (hk : 0 < k) (h : m < 10 ^ k) :
    Numeral m (List.replicate (k - (printZu m).length) (ch '0') ++ printZu m) ∧
      (List.replicate (k - (printZu m).length) (ch '0') ++ printZu m).length = k := by
  have hl := printZu_length hk h
  obtain ⟨h1, h2, h3⟩ := printZu_numeral m
  refine ⟨⟨by simp [h1], digits_append ?_ h2, by rw [value_zeros, h3]⟩, by simp; omega⟩
  intro b hb
  rw [List.eq_of_mem_replicate hb]
  decide

theorem printFixed_decimal {k : ℕ} (hk : 0 < k) (neg : Bool) (m : ℕ) :
    Decimal k ((if neg then -1 else 1) * ((m : ℚ) / 10 ^ k)) ((if neg then [ch '-'] else []) ++ printFixed k m) := by
  have hlt : m % 10 ^ k < 10 ^ k := Nat.mod_lt _ (by positivity)
  obtain ⟨h1, h2⟩ := fraction_numeral hk hlt
  refine ⟨neg, m / 10 ^ k, m % 10 ^ k, _, _, ?_, printZu_numeral _, h1, h2, ?_⟩
  · simp [printFixed]
  · congr 1
    have h := Nat.div_add_mod m (10 ^ k)
    have h' : ((10 : ℚ) ^ k) * ((m / 10 ^ k : ℕ) : ℚ) + ((m % 10 ^ k : ℕ) : ℚ) = (m : ℚ) := by exact_mod_cast h
    rw [← h']
    field_simp

theorem printF_gives {k : ℕ} (hk : 0 < k) (s : Bool) (v : ℚ) : Gives k (1 / 2 / 10 ^ k) v (printF k (.fin s v)) := by
  have hn : 0 ≤ rne (|v| * 10 ^ k) := rne_nonneg (by positivity)
  have hm : (((rne (|v| * 10 ^ k)).toNat : ℕ) : ℚ) = ((rne (|v| * 10 ^ k) : ℤ) : ℚ) := by
    have := Int.toNat_of_nonneg hn
    exact_mod_cast this
  have hnear := rne_near (|v| * 10 ^ k)
  have h10 : (0 : ℚ) < 10 ^ k := by positivity
  have hdiv : |((rne (|v| * 10 ^ k) : ℤ) : ℚ) / 10 ^ k - (|v|)| ≤ 1 / 2 / 10 ^ k := by
    rw [abs_le] at hnear ⊢
    constructor
    · rw [neg_le_sub_iff_le_add, ← add_div, le_div_iff₀ h10]; linarith
    · rw [sub_le_iff_le_add, div_le_iff₀ h10, add_mul, div_mul_cancel₀ _ h10.ne']; linarith
  unfold printF
  by_cases hneg : v < 0 ∨ v = 0 ∧ s = true
  · simp only [if_pos hneg]
    refine ⟨_, printFixed_decimal hk true _, ?_⟩
    rw [hm]
    have : |v| = -v := by rcases hneg with h | ⟨h, _⟩ <;> [exact abs_of_neg h; simp [h]]
    simp only [if_true, neg_mul, one_mul]
    rw [← abs_neg]
    rw [this] at hdiv ⊢
    convert hdiv using 2
    ring
  · simp only [if_neg hneg]
    refine ⟨_, printFixed_decimal hk false _, ?_⟩
    rw [hm]
    have : |v| = v := abs_of_nonneg (by by_contra h; exact hneg (Or.inl (not_le.mp h)))
    simp only [Bool.false_eq_true, if_false, one_mul]
    rw [this] at hdiv ⊢
    exact hdiv

/-- A byte that is not in the text of any floating point number. -/
theorem not_mem_printF {c : UInt8} (hc : ¬ (48 ≤ c.toNat ∧ c.toNat ≤ 57)) (hc' : c ∉ cs "-.nanif") (k : ℕ) (x : Fl) : c ∉ printF k x := by
  have hsub : ∀ t : List UInt8, (∀ b ∈ t, b ∈ cs "-.nanif") → c ∉ t := fun t h hm => hc' (h c hm)
  have hsign : ∀ q : Prop, [Decidable q] → c ∉ (if q then [ch '-'] else []) := fun q _ => by
    split
    · exact hsub _ (by decide)
    · simp
  cases x with
  | nan s => exact fun h => (List.mem_append.mp h).elim (hsign _) (hsub _ (by decide))
  | inf s => exact fun h => (List.mem_append.mp h).elim (hsign _) (hsub _ (by decide))
  | fin s v =>
    refine fun h => (List.mem_append.mp h).elim (hsign _) ?_
    have hz := not_mem_digits (fun b hb => by rw [List.eq_of_mem_replicate hb]; decide : Digits (List.replicate (k - (printZu ((rne (|v| * 10 ^ k)).toNat % 10 ^ k)).length) (ch '0'))) hc
    simp only [printFixed, List.mem_append]
    refine not_or.mpr ⟨not_or.mpr ⟨not_mem_digits (printZu_digits _) hc, hsub _ (by decide)⟩, not_or.mpr ⟨hz, not_mem_digits (printZu_digits _) hc⟩⟩

/-! ## Percentages -/

theorem percent_value {s : Bool} {v : ℚ} (h0 : 0 ≤ v) (h1 : v ≤ 1) :
    ∃ s', binary32.mul (.fin s v) (binary32.ofNat 100) = .fin s' (binary32.rnd (v * 100)) := by
  rw [ofNat_eq (by norm_num)]
  simp only [Fmt.mul, Bool.xor_false, Nat.cast_ofNat]
  unfold Fmt.deliver
  split
  · rename_i h; exact ⟨_, by rw [h, Fmt.rnd_zero]⟩
  · have := Fmt.rnd_lt binary32 binary32_wf (v := v * 100) (by
      rw [abs_of_nonneg (by positivity)]
      have : (100 : ℚ) ≤ pow2 (binary32.emax - 1) := by norm_num [binary32, pow2_eq, zpow_neg, ← zpow_natCast]
      nlinarith)
    rw [if_neg (not_le.mpr this)]
    exact ⟨_, rfl⟩

theorem percent_error {v : ℚ} (h0 : 0 ≤ v) (h1 : v ≤ 1) : |binary32.rnd (v * 100) - v * 100| ≤ 1 / 10 ^ 5 := by
  refine le_trans (Fmt.rnd_error binary32 (v * 100)) ?_
  rw [abs_of_nonneg (by positivity)]
  have a1 : pow2 (-(binary32.p : ℤ)) = 1 / 2 ^ 24 := by norm_num [binary32, pow2_eq, zpow_neg, ← zpow_natCast]
  have a2 : pow2 (binary32.qmin - 1) = 1 / 2 ^ 150 := by norm_num [binary32, pow2_eq, zpow_neg, ← zpow_natCast]
  rw [a1, a2]
  norm_num
  linarith

theorem percent_gives {s : Bool} {v : ℚ} (h0 : 0 ≤ v) (h1 : v ≤ 1) :
    Gives 2 (1 / 2 / 10 ^ 2 + 1 / 10 ^ 5) (100 * v) (printF 2 (binary32.mul (.fin s v) (binary32.ofNat 100))) := by
  obtain ⟨s', e⟩ := percent_value (s := s) h0 h1
  rw [e]
  obtain ⟨q, h2, h3⟩ := printF_gives (k := 2) (by norm_num) s' (binary32.rnd (v * 100))
  refine ⟨q, h2, ?_⟩
  have h4 := percent_error h0 h1
  have := abs_add_le (q - binary32.rnd (v * 100)) (binary32.rnd (v * 100) - v * 100)
  rw [sub_add_sub_cancel] at this
  rw [mul_comm 100 v]
  linarith

/-! ## Lines and words -/

theorem oneLine_append {a b : List UInt8} (ha : OneLine a) (hb : OneLine b) : OneLine (a ++ b) := fun h => (List.mem_append.mp h).elim ha hb

theorem oneLine_digits {a : List UInt8} (h : Digits a) : OneLine a := not_mem_digits h (by decide)

theorem solid_digits {a : List UInt8} (h : Digits a) : Solid a := fun b hb => by have := h b hb; omega

theorem solid_append {a b : List UInt8} (ha : Solid a) (hb : Solid b) : Solid (a ++ b) := fun x hx => (List.mem_append.mp hx).elim (ha x) (hb x)

theorem solid_printF (k : ℕ) (x : Fl) : Solid (printF k x) := by
  intro b hb h
  have : b ∈ ([32, 9, 10, 11, 12, 13] : List UInt8) := by
    have hb : b = UInt8.ofNat b.toNat := by simp
    rw [hb]
    have : b.toNat = 32 ∨ b.toNat = 9 ∨ b.toNat = 10 ∨ b.toNat = 11 ∨ b.toNat = 12 ∨ b.toNat = 13 := by omega
    rcases this with h | h | h | h | h | h <;> rw [h] <;> decide
  have key : ∀ c ∈ ([32, 9, 10, 11, 12, 13] : List UInt8), ¬ (48 ≤ c.toNat ∧ c.toNat ≤ 57) ∧ c ∉ cs "-.nanif" := by decide
  exact not_mem_printF (key b this).1 (key b this).2 k x hb

theorem oneLine_solid {a : List UInt8} (h : Solid a) : OneLine a := fun hm => h _ hm (by decide)

theorem oneLine_blanks (n : ℕ) : OneLine (blanks n) := fun h => by
  have := List.eq_of_mem_replicate h
  revert this; decide

theorem entries_words (conf : Bool) (l : List Res) : ∃ ws, Words ws (l.map (cliEntry conf)).flatten ∧ OneLine (l.map (cliEntry conf)).flatten ∧
    (conf = false → List.Forall₂ Numeral (l.map Res.index) ws) ∧ (conf = true → List.Forall₂ Entry l ws) := by
  induction l with
  | nil => exact ⟨[], ⟨rfl, by simp⟩, by simp [OneLine], fun _ => .nil, fun _ => .nil⟩
  | cons r l ih =>
    obtain ⟨ws, ⟨h1, h2⟩, h3, h4, h5⟩ := ih
    have hs : Solid (printZu r.index ++ (if conf then ch ':' :: printF 6 r.confidence else [])) := by
      refine solid_append (solid_digits (printZu_digits _)) ?_
      split
      · exact solid_append (a := [ch ':']) (fun b hb => by rw [List.mem_singleton.mp hb]; decide) (solid_printF _ _)
      · simp [Solid]
    refine ⟨(printZu r.index ++ (if conf then ch ':' :: printF 6 r.confidence else [])) :: ws, ⟨?_, ?_⟩, ?_, ?_, ?_⟩
    · rw [List.map_cons, List.flatten_cons, h1]
      rfl
    · intro x hx
      rcases List.mem_cons.mp hx with rfl | hx
      · exact ⟨by simp [(printZu_numeral r.index).1], hs⟩
      · exact h2 x hx
    · rw [List.map_cons, List.flatten_cons]
      refine oneLine_append (oneLine_append (oneLine_solid hs) ?_) h3
      simp [OneLine]; decide
    · rintro rfl
      exact .cons (by simpa using printZu_numeral r.index) (h4 rfl)
    · rintro rfl
      refine .cons ⟨_, _, rfl, printZu_numeral _, ?_⟩ (h5 rfl)
      rintro s v hr
      rw [hr]
      exact printF_gives (by norm_num) s v

theorem lists_legible {conf : Bool} {rw rh : List Res} : ∃ a b x y, Lines [a, b] (cliText (.lists conf rw rh)) ∧ Words x a ∧ Words y b ∧
    (conf = false → List.Forall₂ Numeral (rw.map Res.index) x ∧ List.Forall₂ Numeral (rh.map Res.index) y) ∧
    (conf = true → List.Forall₂ Entry rw x ∧ List.Forall₂ Entry rh y) := by
  obtain ⟨x, h1, h2, h3, h4⟩ := entries_words conf rw
  obtain ⟨y, k1, k2, k3, k4⟩ := entries_words conf rh
  refine ⟨_, _, x, y, ⟨by simp [cliText], ?_⟩, h1, k1, fun h => ⟨h3 h, k3 h⟩, fun h => ⟨h4 h, k4 h⟩⟩
  intro l hl
  simp only [List.mem_cons, List.not_mem_nil, or_false] at hl
  rcases hl with rfl | rfl
  · exact h2
  · exact k2

theorem pair_print (a b : ℕ) (sep : Char) : Pair a b sep (printZu a ++ ch sep :: printZu b) := ⟨_, _, rfl, printZu_numeral _, printZu_numeral _⟩

theorem oneLine_pair (a b : ℕ) {sep : Char} (h : ch '\n' ≠ ch sep) : OneLine (printZu a ++ ch sep :: printZu b) := by
  refine oneLine_append (oneLine_digits (printZu_digits _)) ?_
  intro hm
  rcases List.mem_cons.mp hm with hm | hm
  · exact h hm
  · exact oneLine_digits (printZu_digits _) hm

theorem cliCell_cell (r : Res) : Cell r (cliCell r) := by
  refine ⟨_, _, rfl, printZu_numeral _, not_mem_printF (by decide) (by decide) _ _, ?_⟩
  rintro s v hr h0 h1
  rw [hr]
  exact percent_gives h0 h1

theorem cell_length {r : Res} {s : Bool} {v : ℚ} (hi : r.index < 100000) (hr : r.confidence = .fin s v) (h0 : 0 ≤ v) (h1 : v ≤ 9999 / 10000) :
    (cliCell r).length = 14 := by
  obtain ⟨s', e⟩ := percent_value (s := s) h0 (by linarith)
  have h4 := percent_error h0 (by linarith)
  have hn : 0 ≤ binary32.rnd (v * 100) := Fmt.rnd_nonneg _ (by positivity)
  have hl1 : (printZu r.index).length ≤ 5 := printZu_length (by norm_num) (by omega)
  have hm : (rne (|binary32.rnd (v * 100)| * 10 ^ 2)).toNat < 10000 := by
    rw [abs_of_nonneg hn]
    rw [abs_le] at h4
    have : rne (binary32.rnd (v * 100) * 10 ^ 2) ≤ rne ((9999 : ℤ) + 1 / 1000 : ℚ) := by
      refine rne_mono ?_
      push_cast
      linarith [h4.2]
    have h5 : rne ((9999 : ℤ) + 1 / 1000 : ℚ) = 9999 := by decide +kernel
    omega
  have hl2 : (printF 2 (.fin s' (binary32.rnd (v * 100)))).length ≤ 5 := by
    have hf := (fraction_numeral (k := 2) (by norm_num) (Nat.mod_lt (rne (|binary32.rnd (v * 100)| * 10 ^ 2)).toNat (by norm_num : 10 ^ 2 > 0))).2
    rw [List.length_append] at hf
    have hq : (printZu ((rne (|binary32.rnd (v * 100)| * 10 ^ 2)).toNat / 10 ^ 2)).length ≤ 2 :=
      printZu_length (by norm_num) ((Nat.div_lt_iff_lt_mul (by norm_num)).mpr (by omega))
    simp only [printF, printFixed, List.length_append]
    split
    · rename_i h
      have hz : binary32.rnd (v * 100) = 0 := by
        rcases h with h | h
        · exact absurd h (not_lt.mpr hn)
        · exact h.1
      rw [hz] at hf hq ⊢
      have h1 : (rne (|(0 : ℚ)| * 10 ^ 2)).toNat = 0 := by decide +kernel
      rw [h1] at hf ⊢
      have h2 : (printZu (0 / 10 ^ 2)).length = 1 := by decide +kernel
      simp only [List.length_singleton]
      omega
    · simp only [List.length_singleton, List.length_nil]
      omega
  unfold cliCell padLeft
  rw [hr, e]
  simp only [List.length_append, List.length_replicate, cs]
  simp
  omega

theorem oneLine_cell (r : Res) : OneLine (cliCell r) := by
  unfold cliCell padLeft
  refine oneLine_append (oneLine_append (oneLine_append (oneLine_append (oneLine_blanks _) (oneLine_digits (printZu_digits _))) ?_)
    (oneLine_append (oneLine_blanks _) (oneLine_solid (solid_printF _ _)))) ?_ <;> (unfold OneLine; decide)

/-- A row without its line break. -/
def rowBody (rw rh : List Res) (i : ℕ) : List UInt8 :=
  (match rw[i]? with
    | some r => cliCell r ++ cs "   "
    | none => padLeft 17 []) ++
  (match rh[i]? with
    | some r => cliCell r
    | none => [])

theorem row_print {rw rh : List Res} {i : ℕ} (h : i < max rw.length rh.length) : Row rw[i]? rh[i]? (rowBody rw rh i) ∧ OneLine (rowBody rw rh i) := by
  have e1 : cs "   " = blanks 3 := by decide
  have e2 : padLeft 17 [] = blanks 17 := by decide
  unfold rowBody
  rw [e1, e2]
  rcases h1 : rw[i]? with _ | a <;> rcases h2 : rh[i]? with _ | b
  · rw [List.getElem?_eq_none_iff] at h1 h2; omega
  · exact ⟨.height (cliCell_cell b), oneLine_append (oneLine_blanks _) (oneLine_cell b)⟩
  · simp only [List.append_nil]
    exact ⟨.width (cliCell_cell a), oneLine_append (oneLine_cell a) (oneLine_blanks _)⟩
  · exact ⟨.both (cliCell_cell a) (cliCell_cell b), oneLine_append (oneLine_append (oneLine_cell a) (oneLine_blanks _)) (oneLine_cell b)⟩

theorem report_legible {W H bw bh : ℕ} {rw rh : List Res} {flag : Bool} (hf : flag = true ↔ rw = [] ∧ rh = []) :
    Report W H bw bh rw rh (cliText (.report W H bw bh flag rw rh)) := by
  refine ⟨_, _, (List.range (max rw.length rh.length)).map (rowBody rw rh), pair_print W H 'x', pair_print bw bh 'x', ⟨?_, ?_⟩, by simp, ?_⟩
  · have hrows : ((List.range (max rw.length rh.length)).map (cliRow rw rh)).flatten =
        (((List.range (max rw.length rh.length)).map (rowBody rw rh)).map (· ++ [ch '\n'])).flatten := by
      rw [List.map_map]; rfl
    by_cases h : rw = [] ∧ rh = []
    · obtain ⟨rfl, rfl⟩ := h
      have := hf.mpr ⟨rfl, rfl⟩
      subst this
      simp [cliText, cs, ch]
    · have hz : max rw.length rh.length ≠ 0 := by
        intro hz
        refine h ⟨List.eq_nil_of_length_eq_zero ?_, List.eq_nil_of_length_eq_zero ?_⟩ <;> omega
      have : flag = false := by
        cases flag with
        | false => rfl
        | true => exact absurd (hf.mp rfl) h
      subst this
      simp only [cliText, if_neg h, if_pos hz, hrows, Bool.false_eq_true, if_false]
      simp [cs, ch]
  · intro l hl
    simp only [List.mem_append, List.mem_cons, List.not_mem_nil, or_false] at hl
    rcases hl with (rfl | rfl) | hl
    · exact oneLine_append (by unfold OneLine; decide) (oneLine_pair _ _ (by decide))
    · refine oneLine_append (oneLine_append (by unfold OneLine; decide) (oneLine_pair _ _ (by decide))) ?_
      split <;> (unfold OneLine; decide)
    · split at hl
      · cases hl
      · rcases List.mem_cons.mp hl with rfl | hl
        · unfold OneLine; decide
        · obtain ⟨i, hi, rfl⟩ := List.mem_map.mp hl
          exact (row_print (List.mem_range.mp hi)).2
  · intro i row h
    rw [List.getElem?_map, Option.map_eq_some_iff] at h
    obtain ⟨j, hj, rfl⟩ := h
    rw [List.getElem?_eq_some_iff] at hj
    obtain ⟨hi, hj⟩ := hj
    rw [List.getElem_range] at hj
    subst hj
    exact (row_print (by simpa using hi)).1

theorem prints_legible {vb : ℤ} {W H : ℕ} {rw rh : List Res} (h1 : rw ≠ []) (h2 : rh ≠ []) {out : Shown} (h : Prints vb W H rw rh out) :
    Legible vb W H rw rh (cliText out) := by
  rcases h with ⟨rfl, rfl⟩ | ⟨rfl, a, b, ha, hb, rfl⟩ | ⟨hv, rfl⟩ | ⟨hv, a, b, ha, hb, rfl⟩
  · exact ⟨fun _ => rfl, by norm_num, by norm_num, by norm_num, by norm_num⟩
  · refine ⟨by norm_num, fun _ => ⟨a, b, _, ha, hb, ⟨?_, ?_⟩, pair_print _ _ ' '⟩, by norm_num, by norm_num, by norm_num⟩
    · simp [cliText]
    · intro l hl
      rw [List.mem_singleton.mp hl]
      exact oneLine_pair _ _ (by decide)
  · obtain ⟨a, b, x, y, k1, k2, k3, k4, k5⟩ := lists_legible (conf := decide (vb = 3)) (rw := rw) (rh := rh)
    rcases hv with rfl | rfl
    · exact ⟨by norm_num, by norm_num, fun _ => ⟨a, b, x, y, k1, k2, k3, k4 (by decide)⟩, by norm_num, by norm_num⟩
    · exact ⟨by norm_num, by norm_num, by norm_num, fun _ => ⟨a, b, x, y, k1, k2, k3, k5 (by decide)⟩, by norm_num⟩
  · refine ⟨fun h => absurd h (by omega), fun h => absurd h (by omega), fun h => absurd h (by omega), fun h => absurd h (by omega), fun _ =>
      ⟨a, b, ha, hb, report_legible ?_⟩⟩
    rw [decide_eq_true_iff]
    have key : ∀ l : List Res, l ≠ [] → (l.length = 1 ↔ l.dropLast = []) := by
      intro l hl
      rw [← List.length_eq_zero_iff, List.length_dropLast]
      have := List.length_pos_iff.mpr hl
      omega
    rw [key rw h1, key rh h2]

end Verif.Props
