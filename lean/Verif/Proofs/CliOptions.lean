import Verif.Spec.Cli
import Verif.Proofs.Scan
import Verif.Proofs.OpenLemmas

/-! The options of the command. -/

namespace Verif

open Spec

variable {c : Cfg} {io : Io} {v : CliEnv}

theorem not_digits {b : UInt8} : ¬ Digits [b] ↔ isdigit b = false := by
  rw [Bool.eq_false_iff, ne_eq, isdigit_iff]
  simp [Digits]

theorem mem_takeWhile {P : UInt8 → Bool} {l : List UInt8} {b : UInt8} (h : b ∈ l.takeWhile P) : P b = true := by
  induction l with
  | nil => cases h
  | cons a l ih =>
    rw [List.takeWhile_cons] at h
    split at h
    · rename_i hp
      rcases List.mem_cons.mp h with rfl | h
      · exact hp
      · exact ih h
    · cases h

theorem takeWhile_numeral {t : List UInt8} (h : t.takeWhile isdigit ≠ []) :
    Numeral (Stream.decimal (t.takeWhile isdigit)) (t.takeWhile isdigit) :=
  ⟨h, fun b hb => (isdigit_iff b).mp (mem_takeWhile hb), (decimal_eq _).symm⟩

theorem head_dropWhile {P : UInt8 → Bool} {t : List UInt8} {b : UInt8} (h : (t.dropWhile P).head? = some b) : P b = false := by
  induction t with
  | nil => cases h
  | cons a l ih =>
    rw [List.dropWhile_cons] at h
    split at h
    · exact ih h
    · rename_i hp
      cases h
      simpa using hp

/-- What `subject` finds is the number at the start. -/
theorem number_iff {t : List UInt8} {neg : Bool} {n : ℕ} :
    Number t neg n ↔ (subject t).2 ≠ [] ∧ neg = (subject t).1 ∧ n = Stream.decimal (subject t).2 := by
  constructor
  · rintro ⟨sp, sg, ds, rest, rfl, hsp, ⟨hd1, hd2, hd3⟩, hr, hs⟩
    have hr' : Stops isdigit rest := fun b hb => not_digits.mp (hr b hb)
    cases ds with
    | nil => exact absurd rfl hd1
    | cons d l =>
      have hdd := hd2.isdigit d (by simp)
      have hstop : Stops isspace (sg ++ (d :: l ++ rest)) := by
        rcases hs with ⟨_, rfl⟩ | ⟨_, rfl | rfl⟩
        · exact stops_cons.mpr (by decide)
        · exact stops_cons.mpr (digit_not_space hdd)
        · exact stops_cons.mpr (by decide)
      have e1 : (sp ++ (sg ++ (d :: l ++ rest))).dropWhile isspace = sg ++ (d :: l ++ rest) := by
        rw [List.dropWhile_append_of_pos hsp.isspace]
        generalize sg ++ (d :: l ++ rest) = q at hstop
        cases q with
        | nil => rfl
        | cons a q => rw [List.dropWhile_cons_of_neg]; simpa using stops_cons.mp hstop
      have e2 := takeWhile_stops hd2.isdigit hr'
      unfold subject
      rw [e1]
      have hm : d ≠ ch '-' := by rintro rfl; revert hdd; decide
      have hp : d ≠ ch '+' := by rintro rfl; revert hdd; decide
      rcases hs with ⟨rfl, rfl⟩ | ⟨rfl, rfl | rfl⟩
      · simp only [List.cons_append, List.nil_append] at e2 ⊢
        simp only [if_true, e2]
        exact ⟨hd1, by simp, by rw [decimal_eq, hd3]⟩
      · simp only [List.cons_append, List.nil_append] at e2 ⊢
        rw [if_neg hm, if_neg hp]
        simp only [e2]
        exact ⟨hd1, by simp, by rw [decimal_eq, hd3]⟩
      · simp only [List.cons_append, List.nil_append] at e2 ⊢
        have : ch '+' ≠ ch '-' := by decide
        simp only [this, if_false, if_true, e2]
        exact ⟨hd1, by simp, by rw [decimal_eq, hd3]⟩
  · rintro ⟨h1, rfl, rfl⟩
    have hsp : Blank (t.takeWhile isspace) := fun b hb => (isspace_iff b).mp (mem_takeWhile hb)
    have ht := (List.takeWhile_append_dropWhile (p := isspace) (l := t))
    unfold subject at h1 ⊢
    cases hq : t.dropWhile isspace with
    | nil => rw [hq] at h1; exact absurd rfl h1
    | cons b q =>
      rw [hq] at h1 ht
      simp only at h1 ⊢
      have key : ∀ l : List UInt8, ∀ b, (l.dropWhile isdigit).head? = some b → ¬ Digits [b] :=
        fun l b hb => not_digits.mpr (head_dropWhile hb)
      by_cases hm : b = ch '-'
      · rw [if_pos hm] at h1 ⊢
        refine ⟨_, [ch '-'], _, q.dropWhile isdigit, ?_, hsp, takeWhile_numeral h1, key q, Or.inl ⟨rfl, rfl⟩⟩
        rw [List.takeWhile_append_dropWhile, ← hm]; exact ht.symm
      · rw [if_neg hm] at h1 ⊢
        by_cases hp : b = ch '+'
        · rw [if_pos hp] at h1 ⊢
          refine ⟨_, [ch '+'], _, q.dropWhile isdigit, ?_, hsp, takeWhile_numeral h1, key q, Or.inr ⟨rfl, Or.inr rfl⟩⟩
          rw [List.takeWhile_append_dropWhile, ← hp]; exact ht.symm
        · rw [if_neg hp] at h1 ⊢
          refine ⟨_, [], _, (b :: q).dropWhile isdigit, ?_, hsp, takeWhile_numeral h1, key (b :: q), Or.inr ⟨rfl, Or.inl rfl⟩⟩
          rw [List.takeWhile_append_dropWhile]; exact ht.symm

theorem strtou_iff {max k : ℕ} {t : List UInt8} : strtou max t = some k ↔ CountsIn max t k := by
  unfold CountsIn
  simp only [number_iff]
  unfold strtou
  generalize subject t = q
  obtain ⟨neg, ds⟩ := q
  simp only
  by_cases hd : ds = []
  · rw [if_pos hd]
    simp [hd]
  · rw [if_neg hd]
    by_cases h1 : max < Stream.decimal ds
    · rw [if_pos h1]
      constructor
      · intro h
        cases h
        exact ⟨neg, _, ⟨hd, rfl, rfl⟩, Or.inl ⟨h1, rfl⟩⟩
      · rintro ⟨_, _, ⟨_, rfl, rfl⟩, ⟨_, h⟩ | ⟨h, _⟩ | ⟨h, _⟩⟩
        · rw [h]
        · omega
        · omega
    · rw [if_neg h1]
      by_cases h2 : neg = true ∧ Stream.decimal ds ≠ 0
      · rw [if_pos h2]
        constructor
        · intro h
          cases h
          exact ⟨neg, _, ⟨hd, rfl, rfl⟩, Or.inr (Or.inr ⟨by omega, h2.1, h2.2, rfl⟩)⟩
        · rintro ⟨_, _, ⟨_, rfl, rfl⟩, ⟨_, h⟩ | ⟨_, h, _⟩ | ⟨_, _, _, h⟩⟩
          · omega
          · rcases h with h | h
            · rw [h2.1] at h; cases h
            · exact absurd h h2.2
          · rw [h]
      · rw [if_neg h2]
        constructor
        · intro h
          cases h
          refine ⟨neg, _, ⟨hd, rfl, rfl⟩, Or.inr (Or.inl ⟨by omega, ?_, rfl⟩)⟩
          by_cases h3 : neg = true
          · right; by_contra h; exact h2 ⟨h3, h⟩
          · left; simpa using h3
        · rintro ⟨_, _, ⟨_, rfl, rfl⟩, ⟨_, h⟩ | ⟨_, _, h⟩ | ⟨_, h3, h4, h⟩⟩
          · omega
          · rw [h]
          · exact absurd ⟨h3, h4⟩ h2

theorem strtou_none {max : ℕ} {t : List UInt8} : strtou max t = none ↔ ∀ k, ¬ CountsIn max t k := by
  constructor
  · intro h k hk
    rw [← strtou_iff, h] at hk
    cases hk
  · intro h
    cases hs : strtou max t with
    | none => rfl
    | some k => exact absurd (strtou_iff.mp hs) (h k)

theorem CountsIn.unique {max k k' : ℕ} {t : List UInt8} (h : CountsIn max t k) (h' : CountsIn max t k') : k = k' := by
  rw [← strtou_iff] at h h'
  rw [h] at h'
  cases h'; rfl

theorem strcaseeq_iff {a b : List UInt8} : strcaseeq a b = true ↔ SameText a b := by
  unfold strcaseeq SameText
  rw [beq_iff_eq, List.map_congr_left (fun x _ => tolower_eq x), List.map_congr_left (l := b) (fun x _ => tolower_eq x)]

theorem last_snoc (f : CliOpt → Option (List UInt8)) (before : List CliOpt) (o : CliOpt) :
    last f (before ++ [o]) = (f o).or (last f before) := by
  unfold last
  rw [List.filterMap_append]
  cases h : f o with
  | none => simp [h]
  | some a => simp [h]

/-- The variables after the options `before`. -/
structure Parsed (c : Cfg) (before : List CliOpt) (st : CliState) : Prop where
  verbosity : st.verbosity = match last CliOpt.vArg before with
    | none => -1
    | some a => toInt c (strtol c a)
  method : st.method = last CliOpt.mArg before
  type : st.type = last CliOpt.tArg before
  imageReader : st.imageReader = last CliOpt.rArg before
  thresholdOpt : st.thresholdOpt = last CliOpt.xArg before
  rangeOpt : st.rangeOpt = last CliOpt.rangeArg before
  filterOpt : st.filterOpt = last CliOpt.fArg before
  offset : Skips before st.offset
  nframes : (last CliOpt.nArg before = none ∧ st.nframes = 0) ∨ ∃ a, last CliOpt.nArg before = some a ∧ Counts a st.nframes ∧ st.nframes ≠ 0
  found : st.foundReader = true ↔ ∃ b, CliOpt.R b ∈ before

/-- No option ends the command. -/
def Goes (io : Io) (opts : List CliOpt) : Prop := ∀ b1 o1 a1 code, opts = b1 ++ o1 :: a1 → ¬ EndsAt io b1 o1 code

theorem Goes.not_ends {opts : List CliOpt} (h : Goes io opts) (code : ℤ) : ¬ Ends io opts code := by
  rintro ⟨b, o, a, he, hend, _⟩
  exact h b o a code he hend

theorem goes_snoc {before : List CliOpt} {o : CliOpt} (h : Goes io before) (ho : ∀ code, ¬ EndsAt io before o code) : Goes io (before ++ [o]) := by
  intro b1 o1 a1 code he hend
  rcases List.eq_nil_or_concat a1 with rfl | ⟨a, x, rfl⟩
  · have := List.append_inj' he rfl
    cases this.1
    cases this.2
    exact ho _ hend
  · rw [List.concat_eq_append, ← List.cons_append, ← List.append_assoc] at he
    have := List.append_inj' he rfl
    exact h _ _ _ _ this.1 hend

theorem names_any {a : List UInt8} : ((listImageReaders io).any (fun n => strcaseeq n a)) = true ↔ NamesReader io a := by
  rw [List.any_eq_true]
  simp only [strcaseeq_iff]
  rfl

/-- What the loop over the options does. -/
theorem options_spec (opts : List CliOpt) {before : List CliOpt} {st : CliState} (hr : Parsed c before st) (hg : Goes io before) :
    (∃ e, cliOptions c io opts st = .inl e ∧ Ends io (before ++ opts) e.code ∧ (e.code = 0 ∨ e.code = 1) ∧ (e.shown = .info ∨ e.shown = .nothing)) ∨
    ∃ st', cliOptions c io opts st = .inr st' ∧ Parsed c (before ++ opts) st' ∧ Goes io (before ++ opts) := by
  induction opts generalizing before st with
  | nil => exact Or.inr ⟨st, rfl, by simpa using hr, by simpa using hg⟩
  | cons o os ih =>
    have next : ∀ st', Parsed c (before ++ [o]) st' → (∀ code, ¬ EndsAt io before o code) → cliOptions c io (o :: os) st = cliOptions c io os st' →
        (∃ e, cliOptions c io (o :: os) st = .inl e ∧ Ends io (before ++ o :: os) e.code ∧ (e.code = 0 ∨ e.code = 1) ∧ (e.shown = .info ∨ e.shown = .nothing)) ∨
        ∃ st', cliOptions c io (o :: os) st = .inr st' ∧ Parsed c (before ++ o :: os) st' ∧ Goes io (before ++ o :: os) := by
      intro st' h1 h2 h3
      have := ih h1 (goes_snoc hg h2)
      rw [List.append_assoc, ← h3] at this
      exact this
    have stop : ∀ e, cliOptions c io (o :: os) st = .inl e → EndsAt io before o e.code → (e.code = 0 ∨ e.code = 1) → (e.shown = .info ∨ e.shown = .nothing) →
        (∃ e, cliOptions c io (o :: os) st = .inl e ∧ Ends io (before ++ o :: os) e.code ∧ (e.code = 0 ∨ e.code = 1) ∧ (e.shown = .info ∨ e.shown = .nothing)) ∨
        ∃ st', cliOptions c io (o :: os) st = .inr st' ∧ Parsed c (before ++ o :: os) st' ∧ Goes io (before ++ o :: os) :=
      fun e h1 h2 h3 h4 => Or.inl ⟨e, h1, ⟨before, o, os, rfl, h2, hg⟩, h3, h4⟩
    obtain ⟨r1, r2, r3, r4, r5, r6, r7, r8, r9, r10⟩ := hr
    unfold Skips at r8
    cases o with
    | v a =>
      refine next _ ⟨?_, ?_, ?_, ?_, ?_, ?_, ?_, ?_, ?_, ?_⟩ (fun code h => by cases h) rfl <;>
        simp only [Skips, last_snoc, CliOpt.vArg, CliOpt.mArg, CliOpt.tArg, CliOpt.rArg, CliOpt.xArg, CliOpt.rangeArg, CliOpt.fArg, CliOpt.oArg, CliOpt.nArg, Option.none_or, Option.some_or] <;>
        first | assumption | simpa using r10
    | m a =>
      refine next _ ⟨?_, ?_, ?_, ?_, ?_, ?_, ?_, ?_, ?_, ?_⟩ (fun code h => by cases h) rfl <;>
        simp only [Skips, last_snoc, CliOpt.vArg, CliOpt.mArg, CliOpt.tArg, CliOpt.rArg, CliOpt.xArg, CliOpt.rangeArg, CliOpt.fArg, CliOpt.oArg, CliOpt.nArg, Option.none_or, Option.some_or] <;>
        first | assumption | simpa using r10
    | t a =>
      refine next _ ⟨?_, ?_, ?_, ?_, ?_, ?_, ?_, ?_, ?_, ?_⟩ (fun code h => by cases h) rfl <;>
        simp only [Skips, last_snoc, CliOpt.vArg, CliOpt.mArg, CliOpt.tArg, CliOpt.rArg, CliOpt.xArg, CliOpt.rangeArg, CliOpt.fArg, CliOpt.oArg, CliOpt.nArg, Option.none_or, Option.some_or] <;>
        first | assumption | simpa using r10
    | x a =>
      refine next _ ⟨?_, ?_, ?_, ?_, ?_, ?_, ?_, ?_, ?_, ?_⟩ (fun code h => by cases h) rfl <;>
        simp only [Skips, last_snoc, CliOpt.vArg, CliOpt.mArg, CliOpt.tArg, CliOpt.rArg, CliOpt.xArg, CliOpt.rangeArg, CliOpt.fArg, CliOpt.oArg, CliOpt.nArg, Option.none_or, Option.some_or] <;>
        first | assumption | simpa using r10
    | r a =>
      refine next _ ⟨?_, ?_, ?_, ?_, ?_, ?_, ?_, ?_, ?_, ?_⟩ (fun code h => by cases h) rfl <;>
        simp only [Skips, last_snoc, CliOpt.vArg, CliOpt.mArg, CliOpt.tArg, CliOpt.rArg, CliOpt.xArg, CliOpt.rangeArg, CliOpt.fArg, CliOpt.oArg, CliOpt.nArg, Option.none_or, Option.some_or] <;>
        first | assumption | simpa using r10
    | f a =>
      refine next _ ⟨?_, ?_, ?_, ?_, ?_, ?_, ?_, ?_, ?_, ?_⟩ (fun code h => by cases h) rfl <;>
        simp only [Skips, last_snoc, CliOpt.vArg, CliOpt.mArg, CliOpt.tArg, CliOpt.rArg, CliOpt.xArg, CliOpt.rangeArg, CliOpt.fArg, CliOpt.oArg, CliOpt.nArg, Option.none_or, Option.some_or] <;>
        first | assumption | simpa using r10
    | p =>
      refine next _ ⟨?_, ?_, ?_, ?_, ?_, ?_, ?_, ?_, ?_, ?_⟩ (fun code h => by cases h) rfl <;>
        simp only [Skips, last_snoc, CliOpt.vArg, CliOpt.mArg, CliOpt.tArg, CliOpt.rArg, CliOpt.xArg, CliOpt.rangeArg, CliOpt.fArg, CliOpt.oArg, CliOpt.nArg, Option.none_or] <;>
        first | assumption | simpa using r10
    | h => exact stop _ rfl .help (Or.inl rfl) (Or.inl rfl)
    | V => exact stop _ rfl .version (Or.inl rfl) (Or.inl rfl)
    | bad => exact stop _ rfl .unknown (Or.inr rfl) (Or.inr rfl)
    | R a =>
      by_cases hf : (st.foundReader || (listImageReaders io).any (fun n => strcaseeq n a)) = true
      · refine next { st with foundReader := true, imageReader := some a } ⟨?_, ?_, ?_, ?_, ?_, ?_, ?_, ?_, ?_, ?_⟩ ?_ ?_
        any_goals
          simp only [Skips, last_snoc, CliOpt.vArg, CliOpt.mArg, CliOpt.tArg, CliOpt.rArg, CliOpt.xArg, CliOpt.rangeArg, CliOpt.fArg, CliOpt.oArg, CliOpt.nArg, Option.none_or, Option.some_or]
          first | assumption | done
        · simp
        · rw [Bool.or_eq_true, names_any, r10] at hf
          intro code h
          cases h with
          | readers h1 h2 _ =>
            rcases hf with ⟨b, hb⟩ | hf
            · exact h1 b hb
            · exact h2 hf
          | reader h1 h2 _ =>
            rcases hf with ⟨b, hb⟩ | hf
            · exact h1 b hb
            · exact h2 hf
        · show (if (!(st.foundReader || (listImageReaders io).any (fun n => strcaseeq n a))) = true then _ else _) = _
          rw [hf]
          rfl
      · have h1 : ∀ b, CliOpt.R b ∉ before := fun b hb => hf (by rw [Bool.or_eq_true]; exact Or.inl (r10.mpr ⟨b, hb⟩))
        have h2 : ¬ NamesReader io a := fun h => hf (by rw [Bool.or_eq_true]; exact Or.inr (names_any.mpr h))
        have h3 : cliOptions c io (.R a :: os) st = .inl ⟨if a = cs "list" then 0 else 1, .info⟩ := by
          show (if (!(st.foundReader || (listImageReaders io).any (fun n => strcaseeq n a))) = true then _ else _) = _
          rw [Bool.eq_false_of_not_eq_true hf]
          rfl
        by_cases hl : a = cs "list"
        · exact stop _ h3 (by rw [if_pos hl]; exact .readers h1 h2 hl) (by simp [hl]) (Or.inl rfl)
        · exact stop _ h3 (by rw [if_neg hl]; exact .reader h1 h2 hl) (by simp [hl]) (Or.inl rfl)
    | o a =>
      cases hs : strtou ullMax a with
      | none =>
        exact stop ⟨1, .nothing⟩ (by simp only [cliOptions, hs]) (.offset (strtou_none.mp hs)) (Or.inr rfl) (Or.inr rfl)
      | some k =>
        refine next { st with offset := k } ⟨?_, ?_, ?_, ?_, ?_, ?_, ?_, ?_, ?_, ?_⟩ ?_ (by simp only [cliOptions, hs])
        any_goals
          simp only [Skips, last_snoc, CliOpt.vArg, CliOpt.mArg, CliOpt.tArg, CliOpt.rArg, CliOpt.xArg, CliOpt.rangeArg, CliOpt.fArg, CliOpt.oArg, CliOpt.nArg, Option.none_or, Option.some_or]
          first | assumption | done
        · exact Or.inr ⟨a, by simp [last_snoc, CliOpt.oArg], strtou_iff.mp hs⟩
        · simpa using r10
        · intro code h
          cases h with
          | offset h => exact h k (strtou_iff.mp hs)
    | n a =>
      cases hs : strtou ullMax a with
      | none =>
        exact stop ⟨1, .nothing⟩ (by simp only [cliOptions, hs]) (.count (fun k _ => strtou_none.mp hs k)) (Or.inr rfl) (Or.inr rfl)
      | some k =>
        by_cases hk : k = 0
        · refine stop ⟨1, .nothing⟩ (by simp only [cliOptions, hs, hk, if_true]) (.count ?_) (Or.inr rfl) (Or.inr rfl)
          intro j hj hc
          have : some k = some j := hs.symm.trans (strtou_iff.mpr hc)
          cases this
          exact hj hk
        · refine next { st with nframes := k } ⟨?_, ?_, ?_, ?_, ?_, ?_, ?_, ?_, ?_, ?_⟩ ?_ (by simp only [cliOptions, hs, hk, if_false])
          any_goals
            simp only [Skips, last_snoc, CliOpt.vArg, CliOpt.mArg, CliOpt.tArg, CliOpt.rArg, CliOpt.xArg, CliOpt.rangeArg, CliOpt.fArg, CliOpt.oArg, CliOpt.nArg, Option.none_or, Option.some_or]
            first | assumption | done
          · exact Or.inr ⟨a, by simp [last_snoc, CliOpt.nArg], strtou_iff.mp hs, hk⟩
          · simpa using r10
          · intro code h
            cases h with
            | count h => exact h k hk (strtou_iff.mp hs)

theorem options_start (c : Cfg) (io : Io) : Parsed c [] {} ∧ Goes io [] := by
  refine ⟨⟨rfl, rfl, rfl, rfl, rfl, rfl, rfl, Or.inl ⟨rfl, rfl⟩, Or.inl ⟨rfl, rfl⟩, by simp⟩, ?_⟩
  intro b1 o1 a1 code h
  simp at h

end Verif
