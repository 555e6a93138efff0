import Verif.Proofs.CliText

/-! # What the command prints can be read in one way only -/

namespace Verif.Props

open Spec

theorem split_unique {c : UInt8} {a b x y : List UInt8} (ha : c ∉ a) (hb : c ∉ b) (h : a ++ c :: x = b ++ c :: y) : a = b ∧ x = y := by
  induction a generalizing b with
  | nil =>
    cases b with
    | nil => exact ⟨rfl, (List.cons.inj h).2⟩
    | cons d b => exact absurd (by rw [(List.cons.inj h).1]; simp) hb
  | cons d a ih =>
    cases b with
    | nil => exact absurd (by rw [(List.cons.inj h).1]; simp) ha
    | cons d' b =>
      obtain ⟨h1, h2⟩ := ih (fun hm => ha (by simp [hm])) (fun hm => hb (by simp [hm])) (List.cons.inj h).2
      exact ⟨by rw [(List.cons.inj h).1, h1], h2⟩

theorem numeral_unique {n m : ℕ} {t : List UInt8} (h : Numeral n t) (h' : Numeral m t) : n = m := h.2.2.symm.trans h'.2.2

theorem lines_unique {ls ls' : List (List UInt8)} {t : List UInt8} (h : Lines ls t) (h' : Lines ls' t) : ls = ls' := by
  induction ls generalizing ls' t with
  | nil =>
    cases ls' with
    | nil => rfl
    | cons l ls' =>
      have := h.1.symm.trans h'.1
      simp at this
  | cons l ls ih =>
    cases ls' with
    | nil =>
      have := h.1.symm.trans h'.1
      simp at this
    | cons l' ls' =>
      have := h.1.symm.trans h'.1
      simp only [List.map_cons, List.flatten_cons, List.append_assoc, List.singleton_append] at this
      obtain ⟨rfl, h2⟩ := split_unique (h.2 l (by simp)) (h'.2 l' (by simp)) this
      rw [ih (t := (ls.map (· ++ [ch '\n'])).flatten) ⟨rfl, fun x hx => h.2 x (by simp [hx])⟩ ⟨h2, fun x hx => h'.2 x (by simp [hx])⟩]

theorem words_unique {ls ls' : List (List UInt8)} {t : List UInt8} (h : Words ls t) (h' : Words ls' t) : ls = ls' := by
  have hs : ∀ {x : List UInt8}, Solid x → ch ' ' ∉ x := fun h hm => h _ hm (by decide)
  induction ls generalizing ls' t with
  | nil =>
    cases ls' with
    | nil => rfl
    | cons l ls' =>
      have := h.1.symm.trans h'.1
      simp at this
  | cons l ls ih =>
    cases ls' with
    | nil =>
      have := h.1.symm.trans h'.1
      simp at this
    | cons l' ls' =>
      have := h.1.symm.trans h'.1
      simp only [List.map_cons, List.flatten_cons, List.append_assoc, List.singleton_append] at this
      obtain ⟨rfl, h2⟩ := split_unique (hs (h.2 l (by simp)).2) (hs (h'.2 l' (by simp)).2) this
      rw [ih (t := (ls.map (· ++ [ch ' '])).flatten) ⟨rfl, fun x hx => h.2 x (by simp [hx])⟩ ⟨h2, fun x hx => h'.2 x (by simp [hx])⟩]

theorem pair_unique {a b a' b' : ℕ} {sep : Char} (hsep : ¬ (48 ≤ (ch sep).toNat ∧ (ch sep).toNat ≤ 57)) {t : List UInt8} (h : Pair a b sep t)
    (h' : Pair a' b' sep t) : a = a' ∧ b = b' := by
  obtain ⟨x, y, rfl, h1, h2⟩ := h
  obtain ⟨x', y', e, k1, k2⟩ := h'
  obtain ⟨rfl, rfl⟩ := split_unique (not_mem_digits h1.2.1 hsep) (not_mem_digits k1.2.1 hsep) e
  exact ⟨numeral_unique h1 k1, numeral_unique h2 k2⟩

theorem numerals_unique {l l' : List ℕ} {ws : List (List UInt8)} (h : List.Forall₂ Numeral l ws) (h' : List.Forall₂ Numeral l' ws) : l = l' := by
  induction h generalizing l' with
  | nil => cases h'; rfl
  | cons h1 _ ih =>
    cases h' with
    | cons k1 k2 => rw [numeral_unique h1 k1, ih k2]

theorem decimal_unique {k : ℕ} {q q' : ℚ} {t : List UInt8} (h : Decimal k q t) (h' : Decimal k q' t) : q = q' := by
  obtain ⟨neg, n, m, i, f, rfl, h1, h2, _, rfl⟩ := h
  obtain ⟨neg', n', m', i', f', e, k1, k2, _, rfl⟩ := h'
  have hd : ∀ {x : List UInt8}, Digits x → ch '.' ∉ x := fun h => not_mem_digits h (by decide)
  have hm : ∀ {x y : List UInt8} {n : ℕ}, Numeral n x → (x ++ ch '.' :: y).head? ≠ some (ch '-') := by
    intro x y n h e
    obtain ⟨a, x', rfl⟩ := List.exists_cons_of_ne_nil h.1
    rw [List.cons_append, List.head?_cons] at e
    exact not_mem_digits h.2.1 (c := ch '-') (by decide) (by rw [← Option.some.inj e]; simp)
  have same : neg = neg' ∧ i ++ ch '.' :: f = i' ++ ch '.' :: f' := by
    cases neg <;> cases neg' <;> simp only [if_true, if_false, Bool.false_eq_true, List.nil_append, List.cons_append] at e
    · exact ⟨rfl, e⟩
    · exact absurd (by rw [e]; rfl) (hm (y := f) h1)
    · exact absurd (by rw [← e]; rfl) (hm (y := f') k1)
    · exact ⟨rfl, (List.cons.inj e).2⟩
  obtain ⟨rfl, e'⟩ := same
  obtain ⟨rfl, rfl⟩ := split_unique (hd h1.2.1) (hd k1.2.1) e'
  rw [numeral_unique h1 k1, numeral_unique h2 k2]

/-- Two entries that read the same: same size, and the same confidence up to rounding. -/
def Same (a b : Res) : Prop := a.index = b.index ∧ ∀ s v s' v', a.confidence = .fin s v → b.confidence = .fin s' v' → |v - v'| ≤ 1 / 10 ^ 6

theorem entry_unique {r r' : Res} {t : List UInt8} (h : Entry r t) (h' : Entry r' t) : Same r r' := by
  obtain ⟨x, y, rfl, h1, h2⟩ := h
  obtain ⟨x', y', e, k1, k2⟩ := h'
  obtain ⟨rfl, rfl⟩ := split_unique (not_mem_digits h1.2.1 (by decide)) (not_mem_digits k1.2.1 (by decide)) e
  refine ⟨numeral_unique h1 k1, fun s v s' v' hv hv' => ?_⟩
  obtain ⟨q, h3, h4⟩ := h2 s v hv
  obtain ⟨q', k3, k4⟩ := k2 s' v' hv'
  rw [decimal_unique k3 h3] at k4
  rw [abs_le] at h4 k4 ⊢
  constructor <;> linarith [h4.1, h4.2, k4.1, k4.2]

theorem entries_unique {l l' : List Res} {ws : List (List UInt8)} (h : List.Forall₂ Entry l ws) (h' : List.Forall₂ Entry l' ws) :
    List.Forall₂ Same l l' := by
  induction h generalizing l' with
  | nil => cases h'; exact .nil
  | cons h1 _ ih =>
    cases h' with
    | cons k1 k2 => exact .cons (entry_unique h1 k1) (ih k2)

/-! ## The table -/

/-- A cell up to its last character. -/
theorem cell_parts {r : Res} {t : List UInt8} (h : Cell r t) :
    ∃ a b, t = blanks (5 - a.length) ++ (a ++ ch ' ' :: b) ++ [ch ')'] ∧ Numeral r.index a ∧ ch ')' ∉ blanks (5 - a.length) ++ (a ++ ch ' ' :: b) := by
  obtain ⟨a, b, rfl, h1, h2, _⟩ := h
  refine ⟨a, ch '(' :: (blanks (5 - b.length) ++ b ++ [ch '%']), ?_, h1, ?_⟩
  · simp [cs]
  · have hb : ∀ n, ch ')' ∉ blanks n := fun n h => by
      have := List.eq_of_mem_replicate h
      revert this; decide
    simp only [List.mem_append, List.mem_cons, List.not_mem_nil, or_false, not_or]
    exact ⟨hb _, not_mem_digits h1.2.1 (by decide), by decide, by decide, ⟨hb _, h2⟩, by decide⟩

theorem blanks_digits {n m : ℕ} {a b x y : List UInt8} (ha : Digits a) (hb : Digits b) (ha' : a ≠ []) (hb' : b ≠ [])
    (h : blanks n ++ (a ++ ch ' ' :: x) = blanks m ++ (b ++ ch ' ' :: y)) : n = m ∧ a = b ∧ x = y := by
  have hsp : ∀ {x : List UInt8}, Digits x → ch ' ' ∉ x := fun h => not_mem_digits h (by decide)
  induction n generalizing m with
  | zero =>
    cases m with
    | zero =>
      obtain ⟨h1, h2⟩ := split_unique (hsp ha) (hsp hb) h
      exact ⟨rfl, h1, h2⟩
    | succ m =>
      obtain ⟨c, a', rfl⟩ := List.exists_cons_of_ne_nil ha'
      have := (List.cons.inj h).1
      exact absurd (by rw [← this]; simp) (hsp ha)
  | succ n ih =>
    cases m with
    | zero =>
      obtain ⟨c, b', rfl⟩ := List.exists_cons_of_ne_nil hb'
      have := (List.cons.inj h).1
      exact absurd (by rw [this]; simp) (hsp hb)
    | succ m =>
      obtain ⟨h1, h2⟩ := ih (List.cons.inj h).2
      exact ⟨by rw [h1], h2⟩

theorem cell_unique {r r' : Res} {s s' x y : List UInt8} (h : Cell r s) (h' : Cell r' s') (e : s ++ x = s' ++ y) : r.index = r'.index ∧ x = y := by
  obtain ⟨a, b, rfl, h1, h2⟩ := cell_parts h
  obtain ⟨a', b', rfl, k1, k2⟩ := cell_parts h'
  rw [List.append_assoc _ [ch ')'] x, List.append_assoc _ [ch ')'] y] at e
  obtain ⟨e1, e2⟩ := split_unique h2 k2 e
  obtain ⟨_, rfl, _⟩ := blanks_digits h1.2.1 k1.2.1 h1.1 k1.1 e1
  exact ⟨numeral_unique h1 k1, e2⟩

theorem cell_not_blank {r : Res} {s x y : List UInt8} (h : Cell r s) : s ++ x ≠ blanks 17 ++ y := by
  obtain ⟨a, b, rfl, h1, _⟩ := cell_parts h
  intro e
  have hl : 0 < a.length := List.length_pos_iff.mpr h1.1
  have e1 : ((blanks (5 - a.length) ++ (a ++ ch ' ' :: b) ++ [ch ')']) ++ x)[5 - a.length]? = a[0]? := by
    rw [List.append_assoc, List.append_assoc, List.getElem?_append_right (by simp [blanks])]
    simp only [blanks, List.length_replicate, Nat.sub_self]
    rw [List.append_assoc, List.getElem?_append_left hl]
  have e2 : (blanks 17 ++ y)[5 - a.length]? = some (ch ' ') := by
    rw [List.getElem?_append_left (by simp [blanks]; omega)]
    simp only [blanks, List.getElem?_replicate]
    rw [if_pos (by omega)]
  rw [e, e2] at e1
  have := List.mem_of_getElem? e1.symm
  exact not_mem_digits h1.2.1 (by decide) this

theorem row_unique {o1 o2 p1 p2 : Option Res} {t : List UInt8} (h : Row o1 o2 t) (h' : Row p1 p2 t) :
    o1.map Res.index = p1.map Res.index ∧ o2.map Res.index = p2.map Res.index := by
  have ne : ∀ {r : Res} {s : List UInt8}, Cell r s → blanks 3 ≠ blanks 3 ++ s := by
    intro r s hc e
    obtain ⟨a, b, rfl, _⟩ := cell_parts hc
    have := congrArg List.length e
    simp at this
  generalize ht : t = t' at h
  cases h with
  | both h1 h2 =>
    cases h' with
    | both k1 k2 =>
      simp only [List.append_assoc] at ht
      obtain ⟨e1, e2⟩ := cell_unique k1 h1 ht
      obtain ⟨e3, _⟩ := cell_unique (x := []) (y := []) k2 h2 (by simpa using List.append_cancel_left e2)
      exact ⟨congrArg some e1.symm, congrArg some e3.symm⟩
    | width k1 =>
      simp only [List.append_assoc] at ht
      exact absurd (cell_unique k1 h1 ht).2 (ne h2)
    | height k1 =>
      rw [List.append_assoc] at ht
      exact absurd ht.symm (cell_not_blank h1)
  | width h1 =>
    cases h' with
    | both k1 k2 =>
      simp only [List.append_assoc] at ht
      exact absurd (cell_unique k1 h1 ht).2.symm (ne k2)
    | width k1 => exact ⟨congrArg some (cell_unique k1 h1 ht).1.symm, rfl⟩
    | height k1 => exact absurd ht.symm (cell_not_blank h1)
  | height h1 =>
    cases h' with
    | both k1 k2 =>
      rw [List.append_assoc] at ht
      exact absurd ht (cell_not_blank k1)
    | width k1 => exact absurd ht (cell_not_blank k1)
    | height k1 =>
      obtain ⟨e3, _⟩ := cell_unique (x := []) (y := []) k1 h1 (by simpa using List.append_cancel_left ht)
      exact ⟨rfl, congrArg some e3.symm⟩

theorem rows_unique {rw rh rw' rh' : List Res} {rows : List (List UInt8)} (h : rows.length = max rw.length rh.length)
    (h' : rows.length = max rw'.length rh'.length) (hr : ∀ (i : ℕ) row, rows[i]? = some row → Row rw[i]? rh[i]? row)
    (hr' : ∀ (i : ℕ) row, rows[i]? = some row → Row rw'[i]? rh'[i]? row) :
    rw.map Res.index = rw'.map Res.index ∧ rh.map Res.index = rh'.map Res.index := by
  have key : ∀ i : ℕ, (rw[i]?.map Res.index = rw'[i]?.map Res.index) ∧ (rh[i]?.map Res.index = rh'[i]?.map Res.index) := by
    intro i
    rcases hi : rows[i]? with _ | row
    · rw [List.getElem?_eq_none_iff] at hi
      rw [List.getElem?_eq_none (l := rw) (by omega), List.getElem?_eq_none (l := rw') (by omega), List.getElem?_eq_none (l := rh) (by omega),
        List.getElem?_eq_none (l := rh') (by omega)]
      exact ⟨rfl, rfl⟩
    · exact row_unique (hr i row hi) (hr' i row hi)
  constructor <;> refine List.ext_getElem? (fun i => ?_) <;> rw [List.getElem?_map, List.getElem?_map]
  · exact (key i).1
  · exact (key i).2

theorem report_unique {W H bw bh W' H' bw' bh' : ℕ} {rw rh rw' rh' : List Res} {t : List UInt8} (h : Report W H bw bh rw rh t)
    (h' : Report W' H' bw' bh' rw' rh' t) :
    W = W' ∧ H = H' ∧ bw = bw' ∧ bh = bh' ∧ rw.map Res.index = rw'.map Res.index ∧ rh.map Res.index = rh'.map Res.index := by
  obtain ⟨g, b, rows, h1, h2, h3, h4, h5⟩ := h
  obtain ⟨g', b', rows', k1, k2, k3, k4, k5⟩ := h'
  have e := lines_unique h3 k3
  simp only [List.cons_append, List.nil_append, List.cons.injEq] at e
  obtain ⟨e1, e2, e3⟩ := e
  have e1 := List.append_cancel_left e1
  subst e1
  have hsep : ¬ (48 ≤ (ch 'x').toNat ∧ (ch 'x').toNat ≤ 57) := by decide
  obtain ⟨rfl, rfl⟩ := pair_unique hsep h1 k1
  have hflag : (rw = [] ∧ rh = []) ↔ (rw' = [] ∧ rh' = []) := by
    by_cases p : rw = [] ∧ rh = [] <;> by_cases q : rw' = [] ∧ rh' = [] <;> simp only [p, q, if_true, if_false, and_self, iff_true] at e3 ⊢
    · cases e3
    · cases e3
  simp only [hflag, List.append_assoc] at e2
  have e2 := List.append_cancel_right (List.append_cancel_left e2)
  subst e2
  obtain ⟨rfl, rfl⟩ := pair_unique hsep h2 k2
  refine ⟨rfl, rfl, rfl, rfl, ?_⟩
  by_cases p : rw = [] ∧ rh = []
  · obtain ⟨rfl, rfl⟩ := hflag.mp p
    obtain ⟨rfl, rfl⟩ := p
    exact ⟨rfl, rfl⟩
  · rw [if_neg p, if_neg (fun q => p (hflag.mpr q))] at e3
    have e3 := (List.cons.inj e3).2
    subst e3
    exact rows_unique h4 k4 h5 k5

end Verif.Props
