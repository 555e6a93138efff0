import Verif.Proofs.CliRun
import Verif.Spec.Tools

/-! What the stat tool reads and prints. -/

namespace Verif

open Spec

theorem rd_lt {α : Type} {l : List α} {i : ℕ} (h : i < l.length) : rd l i = some l[i] := List.getElem?_eq_getElem h

theorem confidence_some {l : List Res} {i : ℕ} (h : i < l.length) : confidence l i = some l[i].confidence := by
  unfold confidence; rw [rd_lt h]; rfl

/-- The candidates from the first on that reaches a limit. -/
def reaching (x : Fl) (l : List Res) : List Res := l.dropWhile (fun r => r.confidence.lt x)

/-- The candidates before. -/
def below (x : Fl) (l : List Res) : List Res := l.takeWhile (fun r => r.confidence.lt x)

theorem statScan_eq {l : List Res} {n : ℕ} {x : Fl} {fuel i : ℕ} (hn : n ≤ l.length) (hf : n ≤ fuel + i) :
    statScan l n x fuel i = some (i + (below x ((l.take n).drop i)).length, below x ((l.take n).drop i)) := by
  induction fuel generalizing i with
  | zero =>
    have : (l.take n).drop i = [] := List.drop_eq_nil_of_le (by rw [List.length_take]; omega)
    rw [this]; rfl
  | succ fuel ih =>
    unfold statScan
    by_cases hi : i < n
    · rw [if_pos hi, rd_lt (by omega)]
      have hd : (l.take n).drop i = l[i] :: (l.take n).drop (i + 1) := by
        rw [List.drop_eq_getElem_cons (by rw [List.length_take]; omega), List.getElem_take]
      simp only [Option.bind_eq_bind, Option.bind_some, Option.pure_def]
      by_cases hc : l[i].confidence.lt x = true
      · rw [if_pos hc, ih (by omega), hd]
        simp only [Option.bind_some, below]
        rw [List.takeWhile_cons_of_pos (p := fun r : Res => r.confidence.lt x) hc, List.length_cons]
        simp only [Option.some.injEq, Prod.mk.injEq, and_true]
        omega
      · rw [if_neg hc, hd]
        simp only [below]
        rw [List.takeWhile_cons_of_neg (p := fun r : Res => r.confidence.lt x) hc]
        rfl
    · rw [if_neg hi]
      have : (l.take n).drop i = [] := List.drop_eq_nil_of_le (by rw [List.length_take]; omega)
      rw [this]; rfl

theorem statRest_eq {l : List Res} {n : ℕ} {fuel i : ℕ} (hn : n ≤ l.length) (hf : n ≤ fuel + i) :
    statRest l n fuel i = some ((l.take n).drop i) := by
  induction fuel generalizing i with
  | zero =>
    have : (l.take n).drop i = [] := List.drop_eq_nil_of_le (by rw [List.length_take]; omega)
    rw [this]; rfl
  | succ fuel ih =>
    unfold statRest
    by_cases hi : i < n
    · rw [if_pos hi, rd_lt (by omega), ih (by omega)]
      simp only [Option.bind_eq_bind, Option.bind_some, Option.pure_def]
      rw [List.drop_eq_getElem_cons (l := l.take n) (i := i) (by rw [List.length_take]; omega), List.getElem_take]
    · rw [if_neg hi]
      have : (l.take n).drop i = [] := List.drop_eq_nil_of_le (by rw [List.length_take]; omega)
      rw [this]

theorem drop_below (x : Fl) (l : List Res) : l.drop (below x l).length = reaching x l := by
  unfold below reaching
  induction l with
  | nil => rfl
  | cons r l ih =>
    by_cases h : r.confidence.lt x = true
    · rw [List.takeWhile_cons_of_pos (p := fun r : Res => r.confidence.lt x) h, List.dropWhile_cons_of_pos (p := fun r : Res => r.confidence.lt x) h]
      exact ih
    · rw [List.takeWhile_cons_of_neg (p := fun r : Res => r.confidence.lt x) h, List.dropWhile_cons_of_neg (p := fun r : Res => r.confidence.lt x) h]
      rfl

theorem sz_le (c : Cfg) (n : ℕ) : c.sz n ≤ n := Nat.mod_le _ _

/-- All elements `statres` reads exist. -/
theorem statres_eq (c : Cfg) (init : List Res) (last : Res) : ∃ inner outer median, statres c (init ++ [last]) init.length =
    some ⟨median, inner, outer, below outer (reaching inner init), reaching outer (reaching inner init)⟩ ∧
    ∃ a b, confidence (init ++ [last]) (init.length / 2) = some a ∧ confidence (init ++ [last]) (c.sz (init.length + 1) / 2) = some b ∧
      median = binary32.div (binary32.add a b) (binary32.ofNat 2) := by
  have hl : (init ++ [last]).length = init.length + 1 := by simp
  have b1 := sz_le c (init.length + 1)
  have b2 := sz_le c (init.length * 3)
  have b3 := sz_le c (c.sz (init.length + 1) * 3)
  unfold statres
  rw [confidence_some (i := init.length / 2) (by omega), confidence_some (i := c.sz (init.length + 1) / 2) (by omega),
    confidence_some (i := init.length / 4) (by omega), confidence_some (i := c.sz (init.length + 1) / 4) (by omega),
    confidence_some (i := c.sz (init.length * 3) / 4) (by omega), confidence_some (i := c.sz (c.sz (init.length + 1) * 3) / 4) (by omega)]
  simp only [Option.bind_eq_bind, Option.bind_some, Option.pure_def]
  rw [statScan_eq (by omega) (by omega)]
  simp only [Option.bind_some]
  rw [statScan_eq (by omega) (by omega)]
  simp only [Option.bind_some]
  rw [statRest_eq (by omega) (by omega)]
  simp only [Option.bind_some]
  have ht : (init ++ [last]).take init.length = init := by simp
  rw [ht, List.drop_zero, Nat.zero_add, drop_below, ← List.drop_drop, drop_below, drop_below]
  exact ⟨_, _, _, rfl, _, _, rfl, rfl, rfl⟩

theorem lt_of_ge_lt {x y z : Fl} (h : x.ge y = true) (h' : x.lt z = true) : y.lt z = true := by
  have hx : Num x := by cases x <;> simp_all [Fl.ge, Num, Fl.isnan]
  have hy : Num y := by cases x <;> cases y <;> simp_all [Fl.ge, Num, Fl.isnan]
  have hz : Num z := by cases x <;> cases z <;> simp_all [Fl.lt, Num, Fl.isnan]
  have h1 : ¬ x.lt y = true := by cases x <;> cases y <;> simp_all [Fl.ge]
  rw [lt_rank hx hz] at h'
  rw [lt_rank hy hz]
  rw [lt_rank hx hy] at h1
  push Not at h1
  obtain ⟨h2, h3⟩ := h1
  rcases h' with h' | ⟨h4, h5⟩
  · exact Or.inl (lt_of_le_of_lt h2 h')
  · rcases lt_or_eq_of_le h2 with h2 | h2
    · exact Or.inl (by omega)
    · exact Or.inr ⟨by omega, lt_of_le_of_lt (h3 h2.symm) h5⟩

theorem reaching_all_or_none {l : List Res} (h : Descending l) (x : Fl) : reaching x l = [] ∨ reaching x l = l := by
  cases l with
  | nil => exact Or.inl rfl
  | cons r l =>
    by_cases hr : r.confidence.lt x = true
    · refine Or.inl (List.dropWhile_eq_nil_iff.mpr ?_)
      intro y hy
      rcases List.mem_cons.mp hy with rfl | hy
      · exact hr
      · exact lt_of_ge_lt ((List.pairwise_cons.mp h).1 y hy) hr
    · exact Or.inr (List.dropWhile_cons_of_neg (p := fun r : Res => r.confidence.lt x) hr)

end Verif
