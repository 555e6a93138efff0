import Verif.Model.Getopt
import Verif.Spec.Words
import Verif.Proofs.CliMain

/-! How the words of the command line become options. -/

namespace Verif

open Spec

variable {permute : Bool}

theorem optKind_switch {c : Char} {o : CliOpt} (h : (c, o) ∈ switches) : optKind (ch c) optString = some false ∧ deliver (ch c) [] = o := by
  simp only [switches, List.mem_cons, List.not_mem_nil, or_false, Prod.mk.injEq] at h
  rcases h with ⟨rfl, rfl⟩ | ⟨rfl, rfl⟩ | ⟨rfl, rfl⟩ <;> exact ⟨by decide, by decide⟩

theorem optKind_valued {c : Char} {f : List UInt8 → CliOpt} (h : (c, f) ∈ valued) : optKind (ch c) optString = some true ∧ deliver (ch c) = f := by
  simp only [valued, List.mem_cons, List.not_mem_nil, or_false, Prod.mk.injEq] at h
  rcases h with ⟨rfl, rfl⟩ | ⟨rfl, rfl⟩ | ⟨rfl, rfl⟩ | ⟨rfl, rfl⟩ | ⟨rfl, rfl⟩ | ⟨rfl, rfl⟩ | ⟨rfl, rfl⟩ | ⟨rfl, rfl⟩ | ⟨rfl, rfl⟩ <;>
    exact ⟨by decide, by funext a; rfl⟩

theorem optKind_cases (b : UInt8) : (∃ c o, (c, o) ∈ switches ∧ b = ch c) ∨ (∃ c f, (c, f) ∈ valued ∧ b = ch c) ∨
    ((∀ c o, (c, o) ∈ switches → b ≠ ch c) ∧ (∀ c f, (c, f) ∈ valued → b ≠ ch c)) := by
  by_cases h1 : ∃ c o, (c, o) ∈ switches ∧ b = ch c
  · exact Or.inl h1
  by_cases h2 : ∃ c f, (c, f) ∈ valued ∧ b = ch c
  · exact Or.inr (Or.inl h2)
  · exact Or.inr (Or.inr ⟨fun c o h e => h1 ⟨c, o, h, e⟩, fun c f h e => h2 ⟨c, f, h, e⟩⟩)

theorem optKind_unknown {b : UInt8} (h1 : ∀ c o, (c, o) ∈ switches → b ≠ ch c) (h2 : ∀ c f, (c, f) ∈ valued → b ≠ ch c) :
    optKind b optString = none := by
  have a1 := h1 'h' .h (by simp [switches])
  have a2 := h1 'V' .V (by simp [switches])
  have a3 := h1 'p' .p (by simp [switches])
  have b1 := h2 'm' .m (by simp [valued])
  have b2 := h2 'v' .v (by simp [valued])
  have b3 := h2 't' .t (by simp [valued])
  have b4 := h2 'R' .R (by simp [valued])
  have b5 := h2 'r' .r (by simp [valued])
  have b6 := h2 'x' .x (by simp [valued])
  have b7 := h2 'f' .f (by simp [valued])
  have b8 := h2 'o' .o (by simp [valued])
  have b9 := h2 'n' .n (by simp [valued])
  have e : optString = [ch 'v', ch ':', ch 'm', ch ':', ch 't', ch ':', ch 'x', ch ':', ch 'r', ch ':', ch 'p', ch 'n', ch ':', ch 'o', ch ':',
    ch 'R', ch ':', ch 'f', ch ':', ch 'h', ch 'V'] := by decide
  rw [e]
  have hc : ¬ (ch ':' = b ∧ b ≠ ch ':') := fun ⟨h, h'⟩ => h' h.symm
  simp only [optKind, Ne.symm a1, Ne.symm a2, Ne.symm a3, Ne.symm b1, Ne.symm b2, Ne.symm b3, Ne.symm b4, Ne.symm b5, Ne.symm b6, Ne.symm b7, Ne.symm b8,
    Ne.symm b9, false_and, if_false, hc]

theorem letter_word {b : UInt8} {o : CliOpt} (h : Letter b o) (t : List UInt8) :
    getoptWord (b :: t) = (o :: (getoptWord t).1, (getoptWord t).2) := by
  cases h with
  | switch h =>
    obtain ⟨h1, h2⟩ := optKind_switch h
    simp only [getoptWord, h1, h2]
  | unknown h1 h2 => simp only [getoptWord, optKind_unknown h1 h2]

theorem letters_word {t : List UInt8} {os : List CliOpt} (h : Letters t os) (t' : List UInt8) :
    getoptWord (t ++ t') = (os ++ (getoptWord t').1, (getoptWord t').2) := by
  induction h with
  | nil => rfl
  | cons hb _ ih => rw [List.cons_append, letter_word hb, ih]; rfl

theorem valued_word {c : Char} {f : List UInt8 → CliOpt} (h : (c, f) ∈ valued) {a : List UInt8} (ha : a ≠ []) : getoptWord (ch c :: a) = ([f a], none) := by
  obtain ⟨h1, h2⟩ := optKind_valued h
  simp only [getoptWord, h1, h2, if_neg ha]

theorem valued_wait {c : Char} {f : List UInt8 → CliOpt} (h : (c, f) ∈ valued) : getoptWord [ch c] = ([], some (ch c)) := by
  obtain ⟨h1, _⟩ := optKind_valued h
  simp only [getoptWord, h1, if_true]

theorem getopt_dash {t : List UInt8} (h1 : t ≠ []) (h2 : t ≠ [ch '-']) (words : List (List UInt8)) : getopt permute none ((ch '-' :: t) :: words) =
    ((getoptWord t).1 ++ (getopt permute (getoptWord t).2 words).1, (getopt permute (getoptWord t).2 words).2) := by
  have e1 : cs "--" = [ch '-', ch '-'] := by decide
  have e2 : cs "-" = [ch '-'] := by decide
  rw [getopt, if_neg (by rw [e1]; simpa using h2), if_pos ⟨rfl, by rw [e2]; simpa using h1⟩]
  rfl

theorem getopt_wait {c : Char} {f : List UInt8 → CliOpt} (h : (c, f) ∈ valued) (a : List UInt8) (words : List (List UInt8)) :
    getopt permute (some (ch c)) (a :: words) = (f a :: (getopt permute none words).1, (getopt permute none words).2) := by
  obtain ⟨_, h2⟩ := optKind_valued h
  rw [getopt, h2]

theorem dash_valued {t a : List UInt8} {os : List CliOpt} {c : Char} {f : List UInt8 → CliOpt} (h : Letters t os) (hc : (c, f) ∈ valued) :
    t ++ ch c :: a ≠ [] ∧ t ++ ch c :: a ≠ [ch '-'] := by
  refine ⟨by simp, fun e => ?_⟩
  cases t with
  | cons b t => simp at e
  | nil =>
    simp only [List.nil_append, List.cons.injEq] at e
    have := e.1
    simp only [valued, List.mem_cons, List.not_mem_nil, or_false, Prod.mk.injEq] at hc
    rcases hc with ⟨rfl, rfl⟩ | ⟨rfl, rfl⟩ | ⟨rfl, rfl⟩ | ⟨rfl, rfl⟩ | ⟨rfl, rfl⟩ | ⟨rfl, rfl⟩ | ⟨rfl, rfl⟩ | ⟨rfl, rfl⟩ | ⟨rfl, rfl⟩ <;>
      exact absurd this (by decide)

theorem getopt_operand {w : List UInt8} (h : Operand w) (words : List (List UInt8)) : getopt permute none (w :: words) =
    if permute then ((getopt permute none words).1, w :: (getopt permute none words).2) else ([], w :: words) := by
  have e1 : cs "--" = [ch '-', ch '-'] := by decide
  have e2 : cs "-" = [ch '-'] := by decide
  rw [getopt, if_neg, if_neg]
  · rintro ⟨h1, h2⟩
    rcases h with h | h
    · exact h h1
    · exact h2 (h.trans e2.symm)
  · rintro rfl
    rcases h with h | h
    · exact h (by decide)
    · revert h; decide

/-- `getopt` finds what the command line says. -/
theorem getopt_of_line {words operands : List (List UInt8)} {opts : List CliOpt} (h : CommandLine permute words opts operands) :
    getopt permute none words = (opts, operands) := by
  induction h with
  | nil => rfl
  | phrase hp _ ih =>
    cases hp with
    | switches h1 h2 h3 =>
      have e := letters_word h1 []
      rw [List.append_nil] at e
      rw [List.cons_append, List.nil_append, getopt_dash h2 h3, e]
      simp only [getoptWord, ih, List.append_nil]
    | joined h1 h2 h3 =>
      obtain ⟨d1, d2⟩ := dash_valued h1 h2
      rw [List.cons_append, List.nil_append, getopt_dash d1 d2, letters_word h1, valued_word h2 h3]
      simp only [ih]
    | separate h1 h2 =>
      obtain ⟨d1, d2⟩ := dash_valued (a := []) h1 h2
      rw [List.cons_append, List.cons_append, List.nil_append, getopt_dash d1 d2, letters_word h1, valued_wait h2]
      simp only [getopt_wait h2, ih, List.append_nil, List.append_assoc, List.cons_append, List.nil_append]
  | dashes => rw [getopt, if_pos rfl]
  | missing h1 h2 =>
    obtain ⟨d1, d2⟩ := dash_valued (a := []) h1 h2
    rw [getopt_dash d1 d2, letters_word h1, valued_wait h2]
    simp only [getopt, List.append_nil]
  | operand h1 h2 _ ih => rw [getopt_operand h2, h1, if_pos rfl, ← h1, ih]
  | rest h1 h2 => rw [getopt_operand h2, h1, if_neg (by simp)]

/-- Letters up to an option with an argument. -/
theorem letters_split (t : List UInt8) : (∃ os, Letters t os) ∨ ∃ t' os c f a, Letters t' os ∧ (c, f) ∈ valued ∧ t = t' ++ ch c :: a := by
  induction t with
  | nil => exact Or.inl ⟨_, .nil⟩
  | cons b t ih =>
    rcases optKind_cases b with ⟨c, o, h, rfl⟩ | ⟨c, f, h, rfl⟩ | ⟨h1, h2⟩
    · rcases ih with ⟨os, ih⟩ | ⟨t', os, c', f, a, h1, h2, rfl⟩
      · exact Or.inl ⟨_, .cons (.switch h) ih⟩
      · exact Or.inr ⟨_, _, c', f, a, .cons (.switch h) h1, h2, rfl⟩
    · exact Or.inr ⟨[], [], c, f, t, .nil, h, rfl⟩
    · rcases ih with ⟨os, ih⟩ | ⟨t', os, c', f, a, h3, h4, rfl⟩
      · exact Or.inl ⟨_, .cons (.unknown h1 h2) ih⟩
      · exact Or.inr ⟨_, _, c', f, a, .cons (.unknown h1 h2) h3, h4, rfl⟩

/-- Every command line can be read. -/
theorem line_exists (permute : Bool) : ∀ (n : ℕ) (words : List (List UInt8)), words.length ≤ n → ∃ opts operands, CommandLine permute words opts operands := by
  intro n
  induction n with
  | zero => intro words h; cases List.length_eq_zero_iff.mp (Nat.le_zero.mp h); exact ⟨_, _, .nil⟩
  | succ n ih =>
    rintro (_ | ⟨w, words⟩) h
    · exact ⟨_, _, .nil⟩
    rw [List.length_cons] at h
    obtain ⟨opts, operands, hl⟩ := ih words (by omega)
    by_cases hop : Operand w
    · cases permute with
      | true => exact ⟨_, _, .operand rfl hop hl⟩
      | false => exact ⟨_, _, .rest rfl hop⟩
    unfold Operand at hop
    push Not at hop
    obtain ⟨h1, h2⟩ := hop
    cases w with
    | nil => cases h1
    | cons b t =>
      cases h1
      have ht : t ≠ [] := by rintro rfl; exact h2 rfl
      by_cases hd : t = [ch '-']
      · subst hd
        exact ⟨_, _, (.dashes : CommandLine permute (cs "--" :: words) [] words)⟩
      rcases letters_split t with ⟨os, h3⟩ | ⟨t', os, c, f, a, h3, h4, rfl⟩
      · exact ⟨_, _, .phrase (.switches h3 ht hd) hl⟩
      · by_cases ha : a = []
        · subst ha
          cases words with
          | nil => exact ⟨_, _, .missing h3 h4⟩
          | cons w words =>
            obtain ⟨opts, operands, hl⟩ := ih words (by rw [List.length_cons] at h; omega)
            exact ⟨_, _, .phrase (.separate h3 h4) hl⟩
        · exact ⟨_, _, .phrase (.joined h3 h4 ha) hl⟩

end Verif
