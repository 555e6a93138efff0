import Verif.Proofs.ProfileOut
import Verif.Props.Profile

/-! # What profile, stat and imgread write (C94, C95) -/

namespace Verif.Props

open Spec

variable {s : Sys} {io : Io} {v : CliEnv} {clock : ℕ → Timeval} {w w' : World} {es : List (DictEntry × Content)} {lines : List (List UInt8)}

/-! ## C94: profile -/

/-- **C94** Printing and measuring change nothing about the figures, the totals or the exit status (C77). -/
theorem C94_same : (fun r => (⟨r.images.map (List.map Timed.figures), r.totals, r.code⟩ : Profile)) <$> profileMainOut s io v clock lines =
    profileMain s io v lines := profileMainOut_fst

/-- **C94** profile with a dictionary whose entries name files of known content.  Standard output names the entries in order, with a row for
every method: its time, which is the time between the two readings of the clock around the detection, and its figures; then the totals, in which
the times of a method over all images are added up without loss.  Standard error names every file that could not be read and gives the reason,
and gives the reason why detection failed.  Memory running out is the only other reason. -/
theorem C94_program (hio : io.Plain) (hs : Build s) (hw : w.WF) (hd : Dict (es.map Prod.fst) lines) (hc : ∀ x ∈ es, Contains s io x.1.name x.2)
    (hn : ∀ x ∈ es, ∀ n ∈ x.1.widths ++ x.1.heights, n ≤ s.cfg.sizeMax ∧ n < 2 ^ 64)
    (he : ∀ x ∈ es, -(s.cfg.intMax : ℤ) ≤ x.2.error ∧ x.2.error ≤ resdetGetMaxError)
    (hh : ∀ x ∈ es, ∀ W H frames, x.2.whole s = some (W, H, frames) → ¬ HugeScores s W H) (hcl : Clock clock) :
    ∃ (r : ProfileRun) (w' : World) (stopped : Bool) (out err : List UInt8) (rows : List (List UInt8)), profileMainOut s io v clock lines w = some (r, w') ∧ EntriesTold s (¬ Plenty w) v clock 0 es r.images stopped out err ∧
      r.code = (if stopped then 1 else 0) ∧ r.output = ⟨out ++ cs "totals\n" ++ rows.flatten, err⟩ ∧ rows.length = methods.length ∧
      ∀ k m, methods[k]? = some m → ∃ t row, r.times[k]? = some t ∧ NormalTime t ∧ micros t = timeSum r.images k ∧ rows[k]? = some row ∧
        FigureRow m t (figureSum (r.images.map (List.map Timed.figures)) k Prod.fst % (s.cfg.sizeMax + 1))
          (figureSum (r.images.map (List.map Timed.figures)) k Prod.snd % (s.cfg.sizeMax + 1)) row := by
  have hF : ∀ x ∈ es, ∀ W H frames, x.2.whole s = some (W, H, frames) → LinesTooBig s.cfg W H → ¬ Plenty w := by
    rintro x hx W H frames h1 h
    refine absurd ?_ (hh x hx W H frames h1)
    rcases h with h | h
    · exact ⟨W, Or.inl rfl, h⟩
    · exact ⟨H, Or.inr rfl, h⟩
  rcases profileLoopOut_act (v := v) (clock := clock) (F := ¬ Plenty w) (L := []) (S := []) hio hs ⟨w, hw⟩ hd hc hn he hF (tail := [])
    (T := fun b o => b = false ∧ o = ⟨[], []⟩) tailOut_nil (Nat.lt_succ_self _) 0
    w w (Own.init hw (fun j hj hp => by rw [hp j] at hj; cases hj)) with
    ⟨_, h⟩ | ⟨⟨⟨images, b⟩, o⟩, w', L', S', k1, ow, rfl, _, ⟨b', out, err, last, k2, k4, k5, k6⟩, k3⟩
  · exact h.elim
  have k4 : o = ⟨out ++ last.out, err ++ last.err⟩ := k4
  subst k4
  obtain ⟨hb, rfl⟩ : b = b' ∧ last = ⟨[], []⟩ := by
    cases b' with
    | true => exact k5 rfl
    | false => exact k6 rfl
  subst hb
  obtain ⟨rows, r1, r2, r3⟩ := totalRows_told hcl k2
  refine ⟨⟨images, images.foldl addTimes (List.replicate methods.length (⟨0, 0⟩ : Timeval)),
    (images.map (List.map Timed.figures)).foldl (addTotals s.cfg) (List.replicate methods.length (0, 0)), if b then 1 else 0,
    Output.then ⟨out ++ [], err ++ []⟩ ⟨cs "totals\n" ++ totalRows (profilePadding methods) methods (images.foldl addTimes (List.replicate methods.length (⟨0, 0⟩ : Timeval)))
      ((images.map (List.map Timed.figures)).foldl (addTotals s.cfg) (List.replicate methods.length (0, 0))), []⟩⟩, w', b, out, err, rows, ?_, k2, rfl, ?_, r2, r3⟩
  · unfold profileMainOut
    rw [List.append_nil] at k1
    rw [M.bind_some k1]
    rfl
  · simp only [Output.then, r1, List.append_nil, List.append_assoc]

/-- **C94** A dictionary that breaks off in its last entry, or whose last entry has a list without a digit (C77): everything is printed as for
the entries before, then the name of the last entry, with the reason on standard error if its file could not be read, then the totals.  Only
the exit status tells of the fault in the dictionary. -/
theorem C94_torn (hio : io.Plain) (hs : Build s) (hw : w.WF) (hd : Dict (es.map Prod.fst) lines) (hc : ∀ x ∈ es, Contains s io x.1.name x.2)
    (hn : ∀ x ∈ es, ∀ n ∈ x.1.widths ++ x.1.heights, n ≤ s.cfg.sizeMax ∧ n < 2 ^ 64)
    (he : ∀ x ∈ es, -(s.cfg.intMax : ℤ) ≤ x.2.error ∧ x.2.error ≤ resdetGetMaxError)
    (hh : ∀ x ∈ es, ∀ W H frames, x.2.whole s = some (W, H, frames) → ¬ HugeScores s W H) (hcl : Clock clock)
    {name : List UInt8} {c : Content} {tail : List (List UInt8)} (ht : Torn s name c tail) (h0 : name ≠ []) (h1 : ∀ b ∈ name, b ≠ 0 ∧ b ≠ ch '\n')
    (hc' : Contains s io name c) (he' : -(s.cfg.intMax : ℤ) ≤ c.error ∧ c.error ≤ resdetGetMaxError) :
    ∃ (r : ProfileRun) (w' : World) (stopped : Bool) (out err last said : List UInt8) (rows : List (List UInt8)),
      profileMainOut s io v clock (lines ++ tail) w = some (r, w') ∧ EntriesTold s (¬ Plenty w) v clock 0 es r.images stopped out err ∧
      (stopped = true → last = [] ∧ said = []) ∧ (stopped = false → TornTold s (¬ Plenty w) v name c last said) ∧ (stopped = true ∨ Plenty w → r.code = 1) ∧
      r.output = ⟨out ++ last ++ cs "totals\n" ++ rows.flatten, err ++ said⟩ ∧ rows.length = methods.length ∧
      ∀ k m, methods[k]? = some m → ∃ t row, r.times[k]? = some t ∧ NormalTime t ∧ micros t = timeSum r.images k ∧ rows[k]? = some row ∧
        FigureRow m t (figureSum (r.images.map (List.map Timed.figures)) k Prod.fst % (s.cfg.sizeMax + 1))
          (figureSum (r.images.map (List.map Timed.figures)) k Prod.snd % (s.cfg.sizeMax + 1)) row := by
  have hF : ∀ x ∈ es, ∀ W H frames, x.2.whole s = some (W, H, frames) → LinesTooBig s.cfg W H → ¬ Plenty w := by
    rintro x hx W H frames h1 h
    refine absurd ?_ (hh x hx W H frames h1)
    rcases h with h | h
    · exact ⟨W, Or.inl rfl, h⟩
    · exact ⟨H, Or.inr rfl, h⟩
  rcases profileLoopOut_act (v := v) (clock := clock) (F := ¬ Plenty w) (L := []) (S := []) hio hs ⟨w, hw⟩ hd hc hn he hF (tail := tail)
    (T := fun b o => (b = true ∨ ¬ Plenty w) ∧ TornTold s (¬ Plenty w) v name c o.out o.err) (tailOut_torn hio ⟨w, hw⟩ ht h0 h1 hc' he') (Nat.lt_succ_self _) 0
    w w (Own.init hw (fun j hj hp => by rw [hp j] at hj; cases hj)) with
    ⟨_, h⟩ | ⟨⟨⟨images, b⟩, o⟩, w', L', S', k1, ow, rfl, _, ⟨b', out, err, last, k2, k4, k5, k6⟩, k3⟩
  · exact h.elim
  have k4 : o = ⟨out ++ last.out, err ++ last.err⟩ := k4
  subst k4
  obtain ⟨rows, r1, r2, r3⟩ := totalRows_told hcl k2
  refine ⟨⟨images, images.foldl addTimes (List.replicate methods.length (⟨0, 0⟩ : Timeval)),
    (images.map (List.map Timed.figures)).foldl (addTotals s.cfg) (List.replicate methods.length (0, 0)), if b then 1 else 0,
    Output.then ⟨out ++ last.out, err ++ last.err⟩ ⟨cs "totals\n" ++ totalRows (profilePadding methods) methods (images.foldl addTimes (List.replicate methods.length (⟨0, 0⟩ : Timeval)))
      ((images.map (List.map Timed.figures)).foldl (addTotals s.cfg) (List.replicate methods.length (0, 0))), []⟩⟩, w', b', out, err, last.out, last.err, rows, ?_, k2, ?_, fun h => (k6 h).2, ?_, ?_, r2, r3⟩
  · unfold profileMainOut
    rw [M.bind_some k1]
    rfl
  · intro h
    rw [(k5 h).2]
    exact ⟨rfl, rfl⟩
  · intro h
    have : b = true := by
      cases b' with
      | true => exact (k5 rfl).1
      | false =>
        rcases h with h | h
        · cases h
        · exact (k6 rfl).1.resolve_right (fun h' => h' h)
    rw [this]
    rfl
  · simp only [Output.then, r1, List.append_nil, List.append_assoc]

/-- **C94** What can be said of the numbers printed for times: the seconds are right, so the number is off by less than a second, and it is
exact if there is no fraction. -/
theorem C94_printed_partial {t : Timeval} (ht : NormalTime t) : ∃ n d q, timeText t = blanks n ++ d ∧ Decimal 9 q d ∧
    |q - (micros t : ℚ) / 10 ^ 6| < 1 ∧ ⌊q⌋ = t.sec ∧ (t.usec = 0 → q = (micros t : ℚ) / 10 ^ 6) := by
  obtain ⟨d, h1, h2⟩ := timeText_cell ht
  obtain ⟨a1, a2, a3⟩ := ht
  have b2 : (0 : ℚ) ≤ t.usec := by exact_mod_cast a2
  have b3 : (t.usec : ℚ) < 1000000 := by exact_mod_cast a3
  refine ⟨_, d, _, h1, h2, ?_, ?_, ?_⟩
  · unfold micros
    push_cast
    rw [abs_lt]
    constructor <;> norm_num <;> linarith
  · rw [Int.floor_eq_iff]
    constructor <;> norm_num
    · positivity
    · linarith
  · intro h0
    unfold micros
    rw [h0]
    push_cast
    norm_num

/-- **C94** But the fraction is a thousand times too small: the microseconds are printed as if they were nanoseconds.  Whatever time is not a
whole number of seconds is misprinted: no number that can be read in the text is the time. -/
theorem C94_printed_fails {t : Timeval} (ht : NormalTime t) (h0 : t.usec ≠ 0) {n k : ℕ} {d : List UInt8} {q : ℚ} (h : timeText t = blanks n ++ d)
    (hd : Decimal k q d) : q ≠ (micros t : ℚ) / 10 ^ 6 ∧ (q - t.sec) * 1000 = (micros t : ℚ) / 10 ^ 6 - t.sec := by
  obtain ⟨d', h1, h2⟩ := timeText_cell ht
  rw [h1] at h
  have := blanks_unique (decimal_head h2) (decimal_head hd) h
  subst this
  have := decimal_unique h2 hd
  subst this
  have hu : (t.usec : ℚ) ≠ 0 := by exact_mod_cast h0
  unfold micros
  push_cast
  constructor
  · intro h
    apply hu
    linarith
  · ring

/-- Half a second. -/
example : diffts ⟨3, 700000⟩ ⟨4, 200000⟩ = ⟨0, 500000⟩ ∧ NormalTime ⟨0, 500000⟩ ∧ timeText ⟨0, 500000⟩ = cs " 0.000500000" := by
  refine ⟨rfl, ?_, by decide +kernel⟩
  unfold NormalTime
  decide

/-- A clock that runs on by half a second between readings. -/
def Demo.tick (i : ℕ) : Timeval := ⟨i / 2, if i % 2 = 0 then 0 else 500000⟩

theorem Demo.tick_ok : Clock Demo.tick := by
  unfold Clock NormalTime micros Demo.tick
  refine ⟨fun i => ?_, fun i => ?_⟩ <;> simp only <;> split <;> (try split) <;> omega

/-- The hypotheses of `C94_program` are met by this clock and by what is listed in the example for `C77_complete`. -/
example : Clock Demo.tick ∧ Demo.io.Plain ∧ Build Demo.sys ∧ Demo.w0.WF ∧
    (profileMainOut Demo.sys Demo.io Demo.cliEnv Demo.tick [cs "a.pgm\n", cs "2\n", cs "1\n"] Demo.w0).map (fun r => (r.1.times, r.1.code, r.1.output.out)) =
      some (List.replicate 4 ⟨0, 500000⟩, 0, cs "a.pgm\nsign     0.000500000   (+0 -2)\nmag      0.000500000   (+0 -2)\norig     0.000500000   (+0 -2)\nzerox    0.000500000   (+0 -2)\ntotals\nsign     0.000500000   (+0 -2)\nmag      0.000500000   (+0 -2)\norig     0.000500000   (+0 -2)\nzerox    0.000500000   (+0 -2)\n") :=
  ⟨Demo.tick_ok, Demo.io_plain, Demo.sys_build, Demo.w0_wf, by decide +kernel⟩

/-- The hypotheses of `C94_torn` are met by this clock and by what is listed in the second example for `C77_torn`. -/
example : (profileMainOut Demo.sys Demo.io Demo.cliEnv Demo.tick [cs "\n", cs "a.pgm\n", cs "2 1\n"] Demo.w0).map (fun r => (r.1.code, r.1.output)) =
    some (1, ⟨cs "a.pgm\ntotals\nsign     0.000000000   (+0 -0)\nmag      0.000000000   (+0 -0)\norig     0.000000000   (+0 -0)\nzerox    0.000000000   (+0 -0)\n", []⟩) := by
  decide +kernel

/-! ## C95: the command lines -/

/-- **C95** Without arguments each of the tools writes a usage text to standard error and nothing else, touches nothing, and exits with 1.
The usage text of stat lists the methods. -/
theorem C95_usage (fuel : ℕ) (dict : List UInt8 → ℤ ⊕ List UInt8) (create : List UInt8 → Option ℤ) (self : List UInt8) (w : World) :
    (∃ t, profileCommand s io v clock dict self [] w = some ((1, ⟨[], cs "Usage: " ++ self ++ cs " dict.txt\n" ++ t⟩), w)) ∧
    imgCommand s io v fuel create self [] w = some ((1, ⟨[], cs "Usage: " ++ self ++ cs " input_image output.pfm\n"⟩, none), w) ∧
    ∃ ls, statCommand s io v fuel self [] w = some ((1, ⟨[], cs "Usage: " ++ self ++ cs " image <method>\n" ++ cs "Methods:\n" ++ ls.flatten⟩), w) ∧
      List.Forall₂ (fun m l => l = cs "\t" ++ cs m.name ++ cs "\n" ∨ some m = methods.head? ∧ l = cs "\t" ++ cs m.name ++ cs " (default)\n") methods ls := by
  refine ⟨⟨cs "\ndict.txt provides a set of images with known resolutions with the format\n\tfilename\n\twidth1 width2 ...\n\theight1 height2 ...\n\n\tfilename\n\t...\n\n" ++
      (cs "one-line example: printf \"resized.png\\n512\\n512\\n\" | " ++ (self ++ cs " /dev/stdin\n")), ?_⟩, rfl, [cs "\tsign (default)\n", cs "\tmag\n", cs "\torig\n", cs "\tzerox\n"], ?_, ?_⟩
  · show some ((1, (⟨[], profileUsage self⟩ : Output)), w) = _
    unfold profileUsage
    simp only [List.append_assoc]
  · show some ((1, (⟨[], statUsage self⟩ : Output)), w) = _
    rfl
  · refine .cons (Or.inr ⟨rfl, rfl⟩) (.cons (Or.inl rfl) (.cons (Or.inl rfl) (.cons (Or.inl rfl) .nil)))

/-- **C95** profile says why the dictionary cannot be opened, and exits with 1. -/
theorem C95_dictionary {dict : List UInt8 → ℤ ⊕ List UInt8} {self name : List UInt8} {rest : List (List UInt8)} {errno : ℤ} (h : dict name = .inl errno) (w : World) :
    profileCommand s io v clock dict self (name :: rest) w =
      some ((1, ⟨[], cs "Error opening dictionary file: " ++ cs (v.strerror errno) ++ cs "\n"⟩), w) := by
  simp only [profileCommand, h]
  rfl

/-- **C95** The lines profile reads make up the file; there is a line break at the end of each but possibly the last, and nowhere else. -/
theorem C95_lines (bytes : List UInt8) : (getLines bytes).flatten = bytes ∧
    ∀ i l, (getLines bytes)[i]? = some l → (∃ t, OneLine t ∧ l = t ++ [ch '\n']) ∨ (i + 1 = (getLines bytes).length ∧ OneLine l ∧ l ≠ []) := by
  refine ⟨getLines_flatten bytes, ?_⟩
  induction bytes with
  | nil => simp [getLines]
  | cons b t ih =>
    unfold getLines
    split
    · rename_i hb
      intro i l h
      cases i with
      | zero =>
        simp only [List.getElem?_cons_zero, Option.some.injEq] at h
        exact Or.inl ⟨[], by simp [OneLine], by rw [← h, hb]; rfl⟩
      | succ i =>
        rcases ih i l (by simpa using h) with h1 | ⟨h1, h2⟩
        · exact Or.inl h1
        · exact Or.inr ⟨by simp [← h1], h2⟩
    · rename_i hb
      have one : ∀ {x : List UInt8}, OneLine x → OneLine (b :: x) := by
        intro x hx hm
        rcases List.mem_cons.mp hm with hm | hm
        · exact hb hm.symm
        · exact hx hm
      split
      · intro i l h
        cases i with
        | zero =>
          simp only [List.getElem?_cons_zero, Option.some.injEq] at h
          subst h
          exact Or.inr ⟨rfl, one (by simp [OneLine]), by simp⟩
        | succ i => simp at h
      · rename_i x xs hx
        intro i l h
        cases i with
        | zero =>
          simp only [List.getElem?_cons_zero, Option.some.injEq] at h
          subst h
          rcases ih 0 x (by rw [hx]; rfl) with ⟨t', h1, rfl⟩ | ⟨h1, h2, _⟩
          · exact Or.inl ⟨b :: t', one h1, rfl⟩
          · refine Or.inr ⟨?_, one h2, by simp⟩
            rw [hx] at h1
            simpa using h1
        | succ i =>
          rcases ih (i + 1) l (by rw [hx]; simpa using h) with h1 | ⟨h1, h2⟩
          · exact Or.inl h1
          · refine Or.inr ⟨?_, h2⟩
            rw [hx] at h1
            simpa using h1

/-- **C95** From the command line on: if the file named contains the lines of a dictionary, profile does with them what C94 says. -/
theorem C95_profile {dict : List UInt8 → ℤ ⊕ List UInt8} {self name : List UInt8} {rest : List (List UInt8)} {es : List DictEntry} (hd : Dict es lines)
    (h : dict name = .inr lines.flatten) :
    profileCommand s io v clock dict self (name :: rest) = (fun r => (r.code, r.output)) <$> profileMainOut s io v clock lines := by
  have key : ∀ ls : List (List UInt8), (∀ l ∈ ls, ∃ t, OneLine t ∧ l = t ++ [ch '\n']) → getLines ls.flatten = ls := by
    intro ls
    induction ls with
    | nil => intro _; rfl
    | cons l ls ih =>
      intro hl
      obtain ⟨t, h1, rfl⟩ := hl l List.mem_cons_self
      have ih := ih (fun l h => hl l (List.mem_cons_of_mem _ h))
      rw [List.flatten_cons]
      clear hl
      induction t with
      | nil => simp [getLines, ih]
      | cons b t iht =>
        have iht := iht (fun h => h1 (List.mem_cons_of_mem _ h))
        have hb : b ≠ ch '\n' := fun h => h1 (by rw [h]; exact List.mem_cons_self)
        rw [List.cons_append, List.cons_append]
        unfold getLines
        rw [if_neg hb, iht]
  have sizes : ∀ {ns t}, SizeLine ns t → OneLine t := by
    intro ns t h
    induction h with
    | last n ds h => exact oneLine_digits h.2.1
    | more n ds ns t h _ ih =>
      refine oneLine_append (oneLine_digits h.2.1) ?_
      intro hm
      rcases List.mem_cons.mp hm with hm | hm
      · exact absurd hm (by decide)
      · exact ih hm
  have all : ∀ l ∈ lines, ∃ t, OneLine t ∧ l = t ++ [ch '\n'] := by
    clear h
    induction hd with
    | nil => simp
    | blank es ls _ ih =>
      intro l hl
      rcases List.mem_cons.mp hl with rfl | hl
      · exact ⟨[], by simp [OneLine], rfl⟩
      · exact ih l hl
    | entry e t1 t2 es ls h1 h2 h3 h4 _ ih =>
      intro l hl
      simp only [List.mem_cons] at hl
      rcases hl with rfl | rfl | rfl | hl
      · exact ⟨_, fun hm => (h2 _ hm).2 rfl, rfl⟩
      · exact ⟨_, sizes h3, rfl⟩
      · exact ⟨_, sizes h4, rfl⟩
      · exact ih l hl
  simp only [profileCommand, h]
  rw [key lines all, ← bind_pure_comp]

/-- **C95** What stat prints: for each dimension median and fences and then the outliers, with percentages right to two digits; after an error nothing
but its message, on standard error. -/
theorem C95_stat {fuel : ℕ} {self input : List UInt8} {rest : List (List UInt8)} {e : RDError} {r : Option (Stat × Stat)}
    (h : statMain s io v fuel input rest.head? w = some ((e, r), w')) :
    ∃ o, statCommand s io v fuel self (input :: rest) w = some ((e, o), w') ∧
      (∀ a b, r = some (a, b) → o.err = [] ∧ ∃ x y, o.out = cs "width:\n" ++ x ++ cs "height:\n" ++ y ∧ StatTable a x ∧ StatTable b y) ∧
      (r = none → o.out = [] ∧ ∃ msg, resdetErrorStr s.cfg v.strerror e = some (some msg) ∧ o.err = cs msg ++ cs "\n") := by
  simp only [statCommand]
  rw [M.bind_some h]
  cases r with
  | some x =>
    obtain ⟨a, b⟩ := x
    refine ⟨_, rfl, ?_, by simp⟩
    rintro a' b' hx
    cases hx
    exact ⟨rfl, _, _, rfl, statText_table _, statText_table _⟩
  | none =>
    have hm : ∃ msg, resdetErrorStr s.cfg v.strerror e = some (some msg) := by
      rw [statMain_eq] at h
      obtain ⟨⟨e', out⟩, w1, h1, h2⟩ := M.bind_eq_some.mp h
      unfold statTail at h2
      simp only at h2
      by_cases h0 : e' ≠ 0
      · rw [if_pos h0] at h2
        obtain ⟨_, w2, _, h2⟩ := M.bind_eq_some.mp h2
        obtain ⟨_, w3, _, h2⟩ := M.bind_eq_some.mp h2
        obtain ⟨m1, w4, h3, h2⟩ := M.bind_eq_some.mp h2
        obtain ⟨m2, w5, h4, h2⟩ := M.bind_eq_some.mp h2
        cases h2
        cases hq : resdetErrorStr s.cfg v.strerror e with
        | none => rw [hq] at h3; cases h3
        | some x =>
          rw [hq] at h3
          cases h3
          cases m1 with
          | none => cases h4
          | some x => exact ⟨x, rfl⟩
      · rw [if_neg h0] at h2
        obtain ⟨_, w2, _, h2⟩ := M.bind_eq_some.mp h2
        obtain ⟨_, w3, _, h2⟩ := M.bind_eq_some.mp h2
        obtain ⟨_, w4, _, h2⟩ := M.bind_eq_some.mp h2
        obtain ⟨_, w5, _, h2⟩ := M.bind_eq_some.mp h2
        obtain ⟨_, w6, _, h2⟩ := M.bind_eq_some.mp h2
        obtain ⟨_, w7, _, h2⟩ := M.bind_eq_some.mp h2
        cases h2
    obtain ⟨msg, hm⟩ := hm
    refine ⟨⟨[], cs msg ++ cs "\n"⟩, ?_, by simp, fun _ => ⟨rfl, msg, hm, rfl⟩⟩
    simp only [hm]
    rfl

/-- **C95** But stat does not notice a method that does not exist: it silently uses the default. -/
theorem C95_stat_method_fails {fuel : ℕ} {self input name : List UInt8} {rest : List (List UInt8)} (h : ∀ m ∈ methods, textOf name ≠ m.name) :
    statCommand s io v fuel self (input :: name :: rest) = statCommand s io v fuel self [input] := by
  have hn : resdetGetMethod (some (textOf name)) = none := by
    rw [C22_lookup.2.2.2.2]
    intro hm
    obtain ⟨m, h1, h2⟩ := List.mem_map.mp hm
    exact h m h1 h2.symm
  have same : resdetectFile s io fuel (some input) none Ptrs.all none none = resdetectFile s io fuel (some input) none Ptrs.all methods.head? none := by
    unfold resdetectFile
    have : ∀ w h, createAnalysis s none w h none = createAnalysis s methods.head? w h none := fun _ _ => rfl
    simp only [this]
  have : statMain s io v fuel input (some name) = statMain s io v fuel input none := by
    rw [statMain_eq, statMain_eq]
    simp only [Option.map_some, Option.map_none, hn]
    rw [same]
    rfl
  unfold statCommand
  simp only [List.head?_cons, List.head?_nil, this]

example : (∀ m ∈ methods, textOf (cs "signs") ≠ m.name) ∧
    (statCommand Demo.sys Demo.io Demo.cliEnv 3 (cs "stat") [cs "a.y4m", cs "signs"] Demo.w0).map (fun r => (r.1.1, r.1.2.err)) = some (0, []) := by
  refine ⟨by decide +kernel, by decide +kernel⟩

/-- **C95** What imgread says and returns if the input is a file of known content: nothing if all is well; why the output could not be opened, or
why reading stopped. -/
theorem C95_imgread_partial {fuel : ℕ} {create : List UInt8 → Option ℤ} {self input output : List UInt8} {rest : List (List UInt8)} {e : RDError}
    {file : Option (List UInt8)} (h : imgMain s io v fuel input (create output).isNone w = some ((e, file), w'))
    (he : e ≠ RDEOK → -(s.cfg.intMax : ℤ) ≤ e ∧ e ≤ resdetGetMaxError) :
    ∃ code err, imgCommand s io v fuel create self (input :: output :: rest) w = some ((code, ⟨[], err⟩, file), w') ∧
      (e ≠ RDEOK → ∃ msg, resdetErrorStr s.cfg v.strerror e = some (some msg) ∧ err = cs msg ++ cs "\n") ∧
      (e = RDEOK → file ≠ none → err = []) ∧
      (e = RDEOK → file = none → ∀ n, create output = some n → err = cs "error opening output: " ++ cs (v.strerror n) ++ cs "\n") := by
  simp only [imgCommand]
  rw [M.bind_some h]
  by_cases h0 : e = 0
  · subst h0
    refine ⟨0, imgPerror v 0 (create output) ++ [], rfl, fun h => absurd rfl h, ?_, ?_⟩
    · rintro _ hf
      cases hc : create output with
      | none => rfl
      | some n =>
        rw [hc] at h
        exact absurd (imgMain_unwritten h) hf
    · rintro _ _ n hn
      rw [hn, List.append_nil]
      rfl
  · obtain ⟨msg, hm⟩ := printable_str (he h0) v.strerror
    refine ⟨0, cs msg ++ cs "\n", ?_, fun _ => ⟨msg, hm, rfl⟩, fun h => absurd h h0, fun h => absurd h h0⟩
    simp only [imgSaid, imgPerror, ne_eq, h0, not_false_eq_true, if_true, hm]
    rfl

/-- **C95** But imgread exits with 0 whatever happens, even if it could not read or write anything. -/
theorem C95_imgread_status_fails {fuel : ℕ} {create : List UInt8 → Option ℤ} {self : List UInt8} {input : List UInt8} {rest : List (List UInt8)} {code : ℤ}
    {o : Output × Option (List UInt8)} (h : imgCommand s io v fuel create self (input :: rest) w = some ((code, o), w')) : code = 0 := by
  cases rest with
  | nil =>
    simp only [imgCommand] at h
    obtain ⟨op, w1, h1, h2⟩ := M.bind_eq_some.mp h
    by_cases h0 : op.error ≠ 0
    · rw [if_pos h0] at h2
      obtain ⟨_, w2, _, h2⟩ := M.bind_eq_some.mp h2
      obtain ⟨_, w3, _, h2⟩ := M.bind_eq_some.mp h2
      obtain ⟨_, w4, _, h2⟩ := M.bind_eq_some.mp h2
      cases h2
      rfl
    · rw [if_neg h0] at h2
      cases h2
  | cons output rest =>
    simp only [imgCommand] at h
    obtain ⟨⟨e, file⟩, w1, h1, h2⟩ := M.bind_eq_some.mp h
    obtain ⟨said, w2, h3, h2⟩ := M.bind_eq_some.mp h2
    cases h2
    rfl

/-- **C95** If the image cannot be opened the output does not matter: imgread does the same whether or not it is named. -/
theorem C95_imgread_unopened {fuel : ℕ} {create : List UInt8 → Option ℤ} {self input output : List UInt8} {rest : List (List UInt8)} {o : Opened}
    (h : resdetOpenImage s io (some input) none true true true w = some (o, w')) (h0 : o.error ≠ RDEOK) :
    imgCommand s io v fuel create self [input] w = imgCommand s io v fuel create self (input :: output :: rest) w := by
  have h0 : o.error ≠ 0 := h0
  simp only [imgCommand, imgMain, imgSaid, imgPerror, bind_assoc]
  rw [M.bind_some h, M.bind_some h, if_pos h0, if_pos h0]
  simp only [bind_assoc, pure_bind, if_pos h0, List.nil_append]

example : (resdetOpenImage Demo.sys Demo.io (some (cs "b.pgm")) none true true true Demo.w0).map (fun r => r.1.error) = some (-2) := by decide +kernel

/-- **C95** And with the name of a readable image but no name for the output, its behaviour is undefined: it passes a null pointer to `fopen`. -/
theorem C95_imgread_output_fails {fuel : ℕ} {create : List UInt8 → Option ℤ} {self input : List UInt8} {W H : ℕ} {frames : List (List Fl)} {e : RDError}
    (hy : Yields (resdetOpenImage s io (some input) none true true true) W H frames e) (hw : w.WF) (hp : Plenty w) :
    imgCommand s io v fuel create self [input] w = none := by
  obtain ⟨i, buf, w1, h1, _⟩ := hy w hw hp
  simp only [imgCommand]
  rw [M.bind_some h1]
  rfl

example : Yields (resdetOpenImage Demo.sys Demo.io (some (cs "a.pgm")) none true true true) 2 1 [[normal 255 0, normal 255 255]] RDEOK ∧ Demo.w0.WF ∧ Plenty Demo.w0 ∧
    (imgCommand Demo.sys Demo.io Demo.cliEnv 2 (fun _ => some 13) (cs "imgread") [cs "a.pgm", cs "/x.pfm"] Demo.w0).map (fun r => r.1.1) = some 0 ∧
    (imgMain Demo.sys Demo.io Demo.cliEnv 2 (cs "a.pgm") false Demo.w0).map Prod.fst = some (RDEOK, none) ∧
    (statMain Demo.sys Demo.io Demo.cliEnv 3 (cs "a.y4m") none Demo.w0).map (fun r => r.1.1) = some RDEOK :=
  ⟨demo_yields, Demo.w0_wf, fun _ => rfl, by decide +kernel, by decide +kernel, by decide +kernel⟩

end Verif.Props
