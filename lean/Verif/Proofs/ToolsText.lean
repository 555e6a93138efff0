import Verif.Spec.ToolsOutput
import Verif.Proofs.CliText
import Verif.Proofs.ProfileLemmas

/-! # Times, rows and percentages as the tools print them -/

namespace Verif

open Spec Props

/-! ## Times -/

theorem diffts_micros (a b : Timeval) : micros (diffts a b) = micros b - micros a := by
  unfold diffts micros
  split <;> simp only <;> ring

theorem diffts_normal {a b : Timeval} (ha : NormalTime a) (hb : NormalTime b) (h : micros a ≤ micros b) : NormalTime (diffts a b) := by
  obtain ⟨a1, a2, a3⟩ := ha
  obtain ⟨b1, b2, b3⟩ := hb
  unfold micros at h
  unfold diffts NormalTime
  split <;> simp only <;> omega

theorem addTime_spec {t d : Timeval} (ht : NormalTime t) (hd : NormalTime d) : NormalTime (addTime t d) ∧ micros (addTime t d) = micros t + micros d := by
  obtain ⟨a1, a2, a3⟩ := ht
  obtain ⟨b1, b2, b3⟩ := hd
  unfold addTime NormalTime micros
  simp only
  rw [Int.tdiv_eq_ediv_of_nonneg (by omega), Int.tmod_eq_emod_of_nonneg (by omega)]
  omega

theorem addTimes_length (ts : List Timeval) (figs : List Timed) : (addTimes ts figs).length = ts.length := by
  induction ts generalizing figs with
  | nil => cases figs <;> simp [addTimes]
  | cons t ts ih =>
    cases figs with
    | nil => simp [addTimes]
    | cons g figs => cases g <;> simp [addTimes, ih]

theorem addTimes_getElem (ts : List Timeval) (figs : List Timed) (k : ℕ) :
    (addTimes ts figs)[k]? = ts[k]?.map (fun t => match figs[k]? with
      | some (some x) => addTime t x.1
      | _ => t) := by
  induction ts generalizing figs k with
  | nil => cases figs <;> simp [addTimes]
  | cons t ts ih =>
    cases figs with
    | nil => cases h : (t :: ts)[k]? <;> simp [addTimes, h]
    | cons g figs =>
      cases g with
      | none => cases k with
        | zero => simp [addTimes]
        | succ k => simp [addTimes, ih]
      | some x => cases k with
        | zero => simp [addTimes]
        | succ k => simp [addTimes, ih]

/-- The totals of the times. -/
theorem times_eq (images : List (List Timed)) (ts : List Timeval) (k : ℕ) (t : Timeval) (h : ts[k]? = some t) (ht : NormalTime t)
    (hi : ∀ figs ∈ images, ∀ x ∈ figs, ∀ y, x = some y → NormalTime y.1) :
    ∃ t', (images.foldl addTimes ts)[k]? = some t' ∧ NormalTime t' ∧ micros t' = micros t + timeSum images k := by
  induction images generalizing ts t with
  | nil => exact ⟨t, h, ht, by simp [timeSum]⟩
  | cons g images ih =>
    have hk := addTimes_getElem ts g k
    rw [h, Option.map_some] at hk
    rw [List.foldl_cons]
    have hi' := fun figs hf => hi figs (List.mem_cons_of_mem _ hf)
    cases hg : g[k]? with
    | none =>
      rw [hg] at hk
      obtain ⟨t', h1, h2, h3⟩ := ih _ t hk ht hi'
      exact ⟨t', h1, h2, by rw [h3]; simp [timeSum, hg]⟩
    | some x =>
      cases x with
      | none =>
        rw [hg] at hk
        obtain ⟨t', h1, h2, h3⟩ := ih _ t hk ht hi'
        exact ⟨t', h1, h2, by rw [h3]; simp [timeSum, hg]⟩
      | some y =>
        rw [hg] at hk
        have hy : NormalTime y.1 := hi g List.mem_cons_self _ (List.mem_of_getElem? hg) y rfl
        obtain ⟨k1, k2⟩ := addTime_spec ht hy
        obtain ⟨t', h1, h2, h3⟩ := ih _ _ hk k1 hi'
        exact ⟨t', h1, h2, by rw [h3, k2]; simp [timeSum, hg, add_assoc]⟩

theorem times_length (images : List (List Timed)) (ts : List Timeval) : (images.foldl addTimes ts).length = ts.length := by
  induction images generalizing ts with
  | nil => rfl
  | cons g images ih => rw [List.foldl_cons, ih, addTimes_length]

/-! ## The text of a time -/

theorem printLd_pos {n : ℤ} (h : 0 ≤ n) (k : ℕ) : printLd k n = List.replicate (k - (printZu n.toNat).length) (ch '0') ++ printZu n.toNat := by
  unfold printLd
  simp only
  rw [if_neg (not_lt.mpr h), List.nil_append, show n.natAbs = n.toNat by omega]

theorem timeText_cell {t : Timeval} (ht : NormalTime t) : TimeCell t (timeText t) := by
  obtain ⟨h1, h2, h3⟩ := ht
  obtain ⟨f1, f2⟩ := fraction_numeral (k := 9) (m := t.usec.toNat) (by norm_num) (by norm_num; omega)
  have hs : printLd 1 t.sec = printZu t.sec.toNat := by
    rw [printLd_pos h1]
    have : 1 - (printZu t.sec.toNat).length = 0 := by
      have := List.length_pos_iff.mpr (printZu_numeral t.sec.toNat).1
      omega
    rw [this]
    rfl
  have hd : Decimal 9 ((t.sec : ℚ) + (t.usec : ℚ) / 10 ^ 9) (printZu t.sec.toNat ++ ch '.' :: printLd 9 t.usec) := by
    refine ⟨false, t.sec.toNat, t.usec.toNat, _, _, rfl, printZu_numeral _, by rw [printLd_pos h2]; exact f1, by rw [printLd_pos h2]; exact f2, ?_⟩
    have e1 : ((t.sec.toNat : ℕ) : ℚ) = (t.sec : ℚ) := by exact_mod_cast Int.toNat_of_nonneg h1
    have e2 : ((t.usec.toNat : ℕ) : ℚ) = (t.usec : ℚ) := by exact_mod_cast Int.toNat_of_nonneg h2
    rw [e1, e2]
    simp
  refine ⟨_, ?_, hd⟩
  unfold timeText padLeft
  rw [hs]
  have hl : (printZu t.sec.toNat ++ ch '.' :: printLd 9 t.usec).length = (printZu t.sec.toNat).length + 10 := by
    rw [List.length_append, List.length_cons, printLd_pos h2, f2]
  rw [hl, show 12 - ((printZu t.sec.toNat).length + 10) = 2 - (printZu t.sec.toNat).length by omega]
  simp [blanks]

theorem numeral_split {a b a' b' : List UInt8} (ha : Digits a) (ha' : Digits a') (h : a ++ ch '.' :: b = a' ++ ch '.' :: b') : a = a' ∧ b = b' := by
  induction a generalizing a' with
  | nil =>
    cases a' with
    | nil => simpa using h
    | cons x a' =>
      simp only [List.nil_append, List.cons_append, List.cons.injEq] at h
      have := ha' x List.mem_cons_self
      rw [← h.1] at this
      exact absurd this (by decide)
  | cons x a ih =>
    cases a' with
    | nil =>
      simp only [List.nil_append, List.cons_append, List.cons.injEq] at h
      have := ha x List.mem_cons_self
      rw [h.1] at this
      exact absurd this (by decide)
    | cons y a' =>
      simp only [List.cons_append, List.cons.injEq] at h
      obtain ⟨e1, e2⟩ := ih (fun b hb => ha b (List.mem_cons_of_mem _ hb)) (fun b hb => ha' b (List.mem_cons_of_mem _ hb)) h.2
      exact ⟨by rw [h.1, e1], e2⟩

/-- A decimal number can be read in one way only. -/
theorem decimal_unique {k k' : ℕ} {q q' : ℚ} {t : List UInt8} (h : Decimal k q t) (h' : Decimal k' q' t) : q = q' := by
  obtain ⟨neg, n, m, i, f, rfl, a1, a2, a3, rfl⟩ := h
  obtain ⟨neg', n', m', i', f', e, b1, b2, b3, rfl⟩ := h'
  have head : ∀ {n : ℕ} {i : List UInt8}, Numeral n i → ∀ f g, i ++ f ≠ ch '-' :: g := by
    rintro n i ⟨c1, c2, _⟩ f g h
    cases i with
    | nil => exact c1 rfl
    | cons x i =>
      simp only [List.cons_append, List.cons.injEq] at h
      have := c2 x List.mem_cons_self
      rw [h.1] at this
      revert this
      decide
  have hneg : neg = neg' := by
    cases neg <;> cases neg'
    · rfl
    · simp only [Bool.false_eq_true, if_false, if_true, List.nil_append, List.singleton_append] at e
      exact absurd e (head a1 _ _)
    · simp only [Bool.false_eq_true, if_false, if_true, List.nil_append, List.singleton_append] at e
      exact absurd e.symm (head b1 _ _)
    · rfl
  subst hneg
  have e := List.append_cancel_left e
  obtain ⟨e1, e2⟩ := numeral_split a1.2.1 b1.2.1 e
  subst e1 e2
  have : n = n' := a1.2.2.symm.trans b1.2.2
  subst this
  have : m = m' := a2.2.2.symm.trans b2.2.2
  subst this
  rw [← a3, ← b3]

theorem decimal_head {k : ℕ} {q : ℚ} {t : List UInt8} (h : Decimal k q t) : t.head? ≠ some (ch ' ') := by
  obtain ⟨neg, n, m, i, f, rfl, ⟨a1, a2, _⟩, _⟩ := h
  cases neg
  · cases i with
    | nil => exact absurd rfl a1
    | cons x i =>
      have := a2 x List.mem_cons_self
      simp only [Bool.false_eq_true, if_false, List.nil_append, List.cons_append, List.head?_cons, ne_eq, Option.some.injEq]
      rintro rfl
      revert this
      decide
  · simp only [if_true, List.singleton_append, List.head?_cons, ne_eq, Option.some.injEq]
    decide

theorem blanks_unique {n n' : ℕ} {a b : List UInt8} (ha : a.head? ≠ some (ch ' ')) (hb : b.head? ≠ some (ch ' ')) (h : blanks n ++ a = blanks n' ++ b) : a = b := by
  induction n generalizing n' with
  | zero =>
    cases n' with
    | zero => simpa [blanks] using h
    | succ n' =>
      simp only [blanks, List.replicate_zero, List.nil_append, List.replicate_succ, List.cons_append] at h
      rw [h] at ha
      simp at ha
  | succ n ih =>
    cases n' with
    | zero =>
      simp only [blanks, List.replicate_zero, List.nil_append, List.replicate_succ, List.cons_append] at h
      rw [← h] at hb
      simp at hb
    | succ n' =>
      simp only [blanks, List.replicate_succ, List.cons_append, List.cons.injEq, true_and] at h
      exact ih h

/-! ## Rows -/

theorem profilePadding_spec (ms : List Method) (h : ms ≠ []) : (∀ x ∈ ms, (cs x.name).length ≤ profilePadding ms) ∧ ∃ x ∈ ms, (cs x.name).length = profilePadding ms := by
  induction ms with
  | nil => exact absurd rfl h
  | cons m ms ih =>
    by_cases hm : ms = []
    · subst hm
      simp [profilePadding]
    · obtain ⟨h1, x, h2, h3⟩ := ih hm
      unfold profilePadding
      refine ⟨?_, ?_⟩
      · intro y hy
        rcases List.mem_cons.mp hy with rfl | hy
        · exact le_max_left _ _
        · exact le_trans (h1 y hy) (le_max_right _ _)
      · rcases le_total (cs m.name).length (profilePadding ms) with h | h
        · exact ⟨x, List.mem_cons_of_mem _ h2, by rw [h3, max_eq_right h]⟩
        · exact ⟨m, List.mem_cons_self, by rw [max_eq_left h]⟩

theorem profileRow_row {t : Timeval} (ht : NormalTime t) (m : Method) (plus minus : ℕ) : FigureRow m t plus minus (profileRow (profilePadding methods) m t plus minus) := by
  obtain ⟨h1, h2⟩ := profilePadding_spec methods (by decide)
  exact ⟨_, _, _, _, rfl, ⟨_, h1, h2, rfl⟩, timeText_cell ht, printZu_numeral _, printZu_numeral _⟩

/-- The rows of the totals. -/
theorem totalRows_rows (ms : List Method) (ts : List Timeval) (fs : List (ℕ × ℕ)) (h1 : ts.length = ms.length) (h2 : fs.length = ms.length)
    (ht : ∀ t ∈ ts, NormalTime t) : ∃ rows : List (List UInt8), totalRows (profilePadding methods) ms ts fs = rows.flatten ∧ rows.length = ms.length ∧
      ∀ (k : ℕ) (m : Method), ms[k]? = some m → ∃ t f row, ts[k]? = some t ∧ fs[k]? = some f ∧ rows[k]? = some row ∧ FigureRow m t f.1 f.2 row := by
  induction ms generalizing ts fs with
  | nil => exact ⟨[], by simp [totalRows], rfl, by simp⟩
  | cons m ms ih =>
    match ts, fs, h1, h2 with
    | t :: ts, f :: fs, h1, h2 =>
      obtain ⟨rows, k1, k2, k3⟩ := ih ts fs (by simpa using h1) (by simpa using h2) (fun t h => ht t (List.mem_cons_of_mem _ h))
      refine ⟨profileRow (profilePadding methods) m t f.1 f.2 :: rows, ?_, by simp [k2], ?_⟩
      · rw [List.flatten_cons, ← k1]
        rfl
      · intro k m' hk
        cases k with
        | zero =>
          simp only [List.getElem?_cons_zero, Option.some.injEq] at hk
          subst hk
          exact ⟨t, f, _, rfl, rfl, rfl, profileRow_row (ht t List.mem_cons_self) _ _ _⟩
        | succ k => simpa using k3 k m' (by simpa using hk)

/-! ## Percentages of stat -/

theorem stat_percent (x : Fl) : Percent x (padLeft 5 (printF 2 (binary32.mul x (binary32.ofNat 100))) ++ cs "%") := by
  refine ⟨_, rfl, not_mem_printF (by decide) (by decide) _ _, ?_⟩
  rintro s v rfl hv
  have e : ∃ s', binary32.mul (.fin s v) (binary32.ofNat 100) = .fin s' (binary32.rnd (v * 100)) := by
    rw [ofNat_eq (by norm_num)]
    simp only [Fmt.mul, Bool.xor_false, Nat.cast_ofNat]
    unfold Fmt.deliver
    split
    · rename_i h; exact ⟨_, by rw [h, Fmt.rnd_zero]⟩
    · have := Fmt.rnd_lt binary32 binary32_wf (v := v * 100) (by
        rw [abs_mul, show |(100 : ℚ)| = 100 by norm_num]
        have : (2000 : ℚ) ≤ pow2 (binary32.emax - 1) := by norm_num [binary32, pow2_eq, zpow_neg, ← zpow_natCast]
        linarith)
      rw [if_neg (not_le.mpr this)]
      exact ⟨_, rfl⟩
  have h4 : |binary32.rnd (v * 100) - v * 100| ≤ 1 / 10 ^ 4 := by
    refine le_trans (Fmt.rnd_error binary32 (v * 100)) ?_
    rw [abs_mul, show |(100 : ℚ)| = 100 by norm_num]
    have a1 : pow2 (-(binary32.p : ℤ)) = 1 / 2 ^ 24 := by norm_num [binary32, pow2_eq, zpow_neg, ← zpow_natCast]
    have a2 : pow2 (binary32.qmin - 1) = 1 / 2 ^ 150 := by norm_num [binary32, pow2_eq, zpow_neg, ← zpow_natCast]
    rw [a1, a2]
    norm_num
    linarith
  obtain ⟨s', e⟩ := e
  rw [e]
  obtain ⟨q, h2, h3⟩ := printF_gives (k := 2) (by norm_num) s' (binary32.rnd (v * 100))
  refine ⟨q, h2, ?_⟩
  have := abs_add_le (q - binary32.rnd (v * 100)) (binary32.rnd (v * 100) - v * 100)
  rw [sub_add_sub_cancel] at this
  rw [mul_comm 100 v]
  linarith

theorem statText_table (st : Stat) : StatTable st (statText st) := by
  have rows : ∀ l : List Res, List.Forall₂ (StatRow st.median) l (l.map (statLine st.median)) := by
    intro l
    induction l with
    | nil => exact .nil
    | cons r l ih => exact .cons ⟨_, _, _, rfl, printZu_numeral _, stat_percent _, stat_percent _⟩ ih
  refine ⟨_, _, _, _, _, ?_, stat_percent _, stat_percent _, stat_percent _, rows _, rows _⟩
  have : cs "\nmild outliers:\n" = cs "\n" ++ cs "mild outliers:\n" := by decide
  rw [this]
  simp only [statText, List.append_assoc]

theorem getLines_flatten (l : List UInt8) : (getLines l).flatten = l := by
  induction l with
  | nil => rfl
  | cons b t ih =>
    unfold getLines
    split
    · simp [ih]
    · split
      · rename_i h
        rw [h] at ih
        simp only [List.flatten_nil] at ih
        simp [← ih]
      · rename_i l ls h
        rw [h] at ih
        simp [← ih]

/-- Without an output file imgread writes nothing. -/
theorem imgMain_unwritten {s : Sys} {io : Io} {v : CliEnv} {w w' : World} {fuel : ℕ} {input : List UInt8} {e : RDError} {file : Option (List UInt8)} (h : imgMain s io v fuel input false w = some ((e, file), w')) :
    file = none := by
  unfold imgMain at h
  obtain ⟨o, w1, h1, h2⟩ := M.bind_eq_some.mp h
  by_cases h0 : o.error ≠ 0
  · rw [if_pos h0] at h2
    obtain ⟨_, w2, _, h2⟩ := M.bind_eq_some.mp h2
    cases h2
    rfl
  · rw [if_neg h0] at h2
    obtain ⟨out, w2, h3, h2⟩ := M.bind_eq_some.mp h2
    cases h3
    obtain ⟨_, w3, _, h2⟩ := M.bind_eq_some.mp h2
    cases h2
    rfl

end Verif
