import Verif.Proofs.Words
import Verif.Proofs.CliRead
import Verif.Props.Cli
import Verif.Props.Open

/-! # The command line means what it says (C80) -/

namespace Verif.Props

open Spec

variable {s : Sys} {io : Io} {v : CliEnv} {opts : List CliOpt} {input : List UInt8} {fuel : ℕ} {w w' : World} {permute : Bool}
  {words operands : List (List UInt8)}

/-- **C80** The command acts on the options and the first operand of its command line; how they are written, together or apart, makes no
difference. -/
theorem C80_words (h : CommandLine permute words opts operands) : cliCommand s io v fuel permute words = cliMain s io v fuel opts operands.head? := by
  unfold cliCommand
  rw [getopt_of_line h]

/-- **C80** Every command line can be read, in one way only. -/
theorem C80_every (permute : Bool) (words : List (List UInt8)) : ∃! x : List CliOpt × List (List UInt8), CommandLine permute words x.1 x.2 := by
  obtain ⟨opts, operands, h⟩ := line_exists permute words.length words le_rfl
  exact ⟨(opts, operands), h, fun x hx => (getopt_of_line hx).symm.trans (getopt_of_line h)⟩

/-- A command line with options in every form. -/
def Demo.line : List (List UInt8) := [cs "-v2", cs "-pr", cs "12", cs "a.y4m", cs "-x", cs "5.5", cs "--", cs "-b"]

theorem Demo.line_reads : CommandLine true Demo.line [.v (cs "2"), .p, .r (cs "12"), .x (cs "5.5")] [cs "a.y4m", cs "-b"] := by
  have h1 : Phrase [cs "-v2"] [.v (cs "2")] := .joined (t := []) (os := []) (c := 'v') (a := cs "2") .nil (by simp [valued]) (by decide)
  have h2 : Phrase [cs "-pr", cs "12"] [.p, .r (cs "12")] :=
    .separate (t := [ch 'p']) (os := [.p]) (c := 'r') (a := cs "12") (.cons (.switch (by simp [switches])) .nil) (by simp [valued])
  have h3 : Phrase [cs "-x", cs "5.5"] [.x (cs "5.5")] := .separate (t := []) (os := []) (c := 'x') (a := cs "5.5") .nil (by simp [valued])
  exact .phrase h1 (.phrase h2 (.operand rfl (Or.inl (by decide)) (.phrase h3 .dashes)))

example : CommandLine true Demo.line [.v (cs "2"), .p, .r (cs "12"), .x (cs "5.5")] [cs "a.y4m", cs "-b"] ∧
    getopt true none Demo.line = ([.v (cs "2"), .p, .r (cs "12"), .x (cs "5.5")], [cs "a.y4m", cs "-b"]) ∧
    getopt false none Demo.line = ([.v (cs "2"), .p, .r (cs "12")], [cs "a.y4m", cs "-x", cs "5.5", cs "--", cs "-b"]) :=
  ⟨Demo.line_reads, by decide, by decide⟩

/-- **C80** Options with arguments as documented are taken at their word: with `m` the method, `p` the parameters and `vb` the verbosity they name, the
command fails, or the image was opened, and what that analysis found is printed as asked.  `C48_window` says what `offset` and `count` do. -/
theorem C80_documented (hio : io.Contract s.cfg) (hs : Build s) (hint : 32767 ≤ s.cfg.intMax) (hv : ReadsDecimals v) (hw : w.WF)
    (h : CommandLine permute words opts (input :: operands)) (hd : ∀ o ∈ opts, Documented s.cfg io o)
    (hone : last CliOpt.tArg opts = none ∨ last CliOpt.rArg opts = none) :
    ∃ m p vb offset count, AtTheirWord s.cfg opts input m p vb offset count ∧
      (Wants s.cfg io v opts input m p ∧ Verbosity s.cfg opts vb ∧ Skips opts offset ∧
        (last CliOpt.nArg opts = none ∧ count = none ∨ ∃ n, Limits opts n ∧ count = some n)) ∧
      ∀ ex w', cliCommand s io v fuel permute words w = some (ex, w') →
        ex = ⟨1, .nothing⟩ ∨ ∃ W H ev a l1 l2, Success s m p W H vb ev a l1 l2 ex ∧ (∀ o ∈ ev, o.2 = .analyzed RDEOK) ∧
          ∃ w1 o w2, w1.WF ∧ opening s io opts input w1 = some (o, w2) ∧ o.error = RDEOK ∧ o.width = W ∧ o.height = H := by
  obtain ⟨m, p, vb, off, cnt, h1, h2, h3, h4, h5⟩ := documented_wants hs.wf hint hv hd hone input
  refine ⟨m, p, vb, off, cnt, h1, ⟨h2, h3, h4, h5⟩, fun ex w' hx => ?_⟩
  rw [C80_words h] at hx
  exact C47_success hio hs hw h2 h3 hx

theorem ratio_unique {q q' : ℚ} {t : List UInt8} (h : Ratio q t) (h' : Ratio q' t) : q = q' := by
  have dot : ∀ {n : ℕ} {l : List UInt8}, Numeral n l → ch '.' ∉ l := fun hn hm => by
    have := hn.2.1 _ hm
    revert this
    decide
  cases h with
  | whole h1 =>
    cases h' with
    | whole h2 => rw [numeral_unique h1 h2]
    | point h2 h3 => exact absurd (by simp) (dot h1)
  | @point n k t f h1 h2 =>
    generalize ht : t ++ ch '.' :: f = u at h'
    cases h' with
    | whole h3 => exact absurd (by rw [← ht]; simp) (dot h3)
    | point h3 h4 =>
      obtain ⟨rfl, rfl⟩ := split_unique (dot h1) (dot h3) ht
      rw [numeral_unique h1 h3, numeral_unique h2 h4]

open Classical in
/-- A `strtod` that knows decimal notation. -/
noncomputable def Demo.decimals : CliEnv := ⟨fun t => if h : ∃ q, Ratio q t then some (binary64.deliver false h.choose) else none, fun _ => "error"⟩

open Classical in
theorem Demo.decimals_reads : ReadsDecimals Demo.decimals := by
  intro q t h
  have he : ∃ q, Ratio q t := ⟨q, h⟩
  show (if h : ∃ q, Ratio q t then some (binary64.deliver false h.choose) else none) = _
  rw [dif_pos he, ratio_unique he.choose_spec h]

theorem Demo.num (n : ℕ) {t : List UInt8} (h1 : t ≠ []) (h2 : t.all (fun b => decide (48 ≤ b.toNat ∧ b.toNat ≤ 57)) = true) (h3 : value t = n) : Numeral n t :=
  ⟨h1, fun b hb => by simpa using List.all_eq_true.mp h2 b hb, h3⟩

example : Demo.io.Contract Demo.sys.cfg ∧ Build Demo.sys ∧ 32767 ≤ Demo.sys.cfg.intMax ∧ ReadsDecimals Demo.decimals ∧ Demo.w0.WF ∧
    CommandLine true Demo.line [.v (cs "2"), .p, .r (cs "12"), .x (cs "5.5")] [cs "a.y4m", cs "-b"] ∧
    ∀ o ∈ [CliOpt.v (cs "2"), .p, .r (cs "12"), .x (cs "5.5")], Documented Demo.sys.cfg Demo.io o := by
  refine ⟨Demo.io_contract _, Demo.sys_build, by decide, Demo.decimals_reads, Demo.w0_wf, Demo.line_reads, ?_⟩
  intro o ho
  simp only [List.mem_cons, List.not_mem_nil, or_false] at ho
  rcases ho with rfl | rfl | rfl | rfl
  · exact .verbosity (by decide)
  · exact .progress
  · exact .range (k := 12) (Demo.num 12 (by decide) (by decide) (by decide)) (by decide) (by decide) (by decide)
  · refine .threshold (q := ((5 : ℕ) : ℚ) + ((5 : ℕ) : ℚ) / 10 ^ (cs "5").length) ?_ (by rw [show (cs "5").length = 1 by decide]; norm_num)
    exact .point (t := cs "5") (f := cs "5") (Demo.num 5 (by decide) (by decide) (by decide)) (Demo.num 5 (by decide) (by decide) (by decide))

/-- **C80** Options that are wrong are refused with exit status 1 and nothing but, possibly, the list of readers, unless an earlier option ends the command.
Not every argument that is not as documented is refused: see below. -/
theorem C80_refused_partial (hs : Build s) (hint : 32767 ≤ s.cfg.intMax) (hw : w.WF) (h : CommandLine permute words opts operands)
    (hno : CliOpt.h ∉ opts ∧ CliOpt.V ∉ opts ∧ CliOpt.R (cs "list") ∉ opts) (hwr : Wrong io v opts ∨ operands = []) :
    ∃ shown w', cliCommand s io v fuel permute words w = some (⟨1, shown⟩, w') ∧ (shown = .info ∨ shown = .nothing) := by
  rw [C80_words h]
  rcases options_cases s.cfg io opts with ⟨e, _, he, _⟩ | ⟨st, _, _, hg⟩
  · obtain ⟨_, shown, h1, h2⟩ := C47_ends (s := s) (v := v) (fuel := fuel) (w := w) (input := operands.head?) he
    have hcode : e.code = 1 := by
      obtain ⟨b, o, a, rfl, he, _⟩ := he
      have hm : o ∈ b ++ o :: a := by simp
      generalize e.code = k at *
      cases he with
      | help => exact absurd hm hno.1
      | version => exact absurd hm hno.2.1
      | readers _ _ ha => subst ha; exact absurd hm hno.2.2
      | _ => rfl
    rw [hcode] at h2
    exact ⟨shown, w, h2, h1⟩
  · obtain ⟨h1, _⟩ := C47_unusable (s := s) (v := v) (fuel := fuel) (input := []) hw hg.not_ends
    cases operands with
    | nil => exact ⟨_, w, h1, Or.inr rfl⟩
    | cons input operands =>
      rcases hwr with hwr | hwr
      · obtain ⟨_, h2⟩ := C47_unusable (s := s) (v := v) (fuel := fuel) (input := input) hw hg.not_ends
        obtain ⟨w', h3⟩ := h2 (wrong_unusable hs.wf hint hg hwr)
        exact ⟨_, w', h3, Or.inr rfl⟩
      · cases hwr

example : CommandLine false [cs "-q", cs "a.y4m"] [.bad] [cs "a.y4m"] ∧ Wrong Demo.io Demo.cliEnv [.bad] := by
  refine ⟨.phrase (ws := [cs "-q"]) (os := [.bad]) (.switches (t := cs "q") (.cons (.unknown ?_ ?_) .nil) (by decide) (by decide)) (.rest rfl (Or.inl (by decide))),
    .letter (by simp)⟩
  · intro c o h
    simp only [switches, List.mem_cons, List.not_mem_nil, or_false, Prod.mk.injEq] at h
    rcases h with ⟨rfl, rfl⟩ | ⟨rfl, rfl⟩ | ⟨rfl, rfl⟩ <;> decide
  · intro c f h
    simp only [valued, List.mem_cons, List.not_mem_nil, or_false, Prod.mk.injEq] at h
    rcases h with ⟨rfl, rfl⟩ | ⟨rfl, rfl⟩ | ⟨rfl, rfl⟩ | ⟨rfl, rfl⟩ | ⟨rfl, rfl⟩ | ⟨rfl, rfl⟩ | ⟨rfl, rfl⟩ | ⟨rfl, rfl⟩ | ⟨rfl, rfl⟩ <;> decide

/-- The options that take a whole number. -/
def Numbered (f : List UInt8 → CliOpt) : Prop := f = .r ∨ f = .f ∨ f = .o ∨ f = .n

theorem exchange_numbered {f : List UInt8 → CliOpt} (hf : Numbered f) {a b : List UInt8} (h : ∀ max, strtou max a = strtou max b) (ha : a ≠ cs "auto")
    (hb : b ≠ cs "auto") (before after : List CliOpt) (input : Option (List UInt8)) :
    cliMain s io v fuel (before ++ f a :: after) input = cliMain s io v fuel (before ++ f b :: after) input := by
  refine main_exchange (fun st => ?_) input
  rcases hf with rfl | rfl | rfl | rfl
  · refine Or.inr ⟨_, _, rfl, rfl, rfl, fun p => ?_, fun _ => rfl, Iff.rfl⟩
    simp only [cliRange, h]
  · refine Or.inr ⟨_, _, rfl, rfl, rfl, fun _ => rfl, fun p => ?_, ?_⟩
    · simp only [cliFilter, h, if_neg ha, if_neg hb]
    · simp only [Option.some.injEq, ha, hb]
  · simp only [cliOptions, h]
    cases strtou ullMax b with
    | none => exact Or.inl ⟨_, rfl, rfl⟩
    | some k => exact Or.inr ⟨_, _, rfl, rfl, SameEffect.refl _⟩
  · simp only [cliOptions, h]
    cases strtou ullMax b with
    | none => exact Or.inl ⟨_, rfl, rfl⟩
    | some k =>
      simp only
      by_cases hk : k = 0
      · exact Or.inl ⟨_, if_pos hk, if_pos hk⟩
      · exact Or.inr ⟨_, _, if_neg hk, if_neg hk, SameEffect.refl _⟩

/-- **C80** Whatever follows a number is ignored: `-r 5x` is `-r 5`. -/
theorem C80_fails_garbage {f : List UInt8 → CliOpt} (hf : Numbered f) {n : ℕ} {ds g : List UInt8} (hn : Numeral n ds) (hg : g ≠ [])
    (hd : ∀ b, g.head? = some b → ¬ Digits [b]) :
    ¬ Documented s.cfg io (f (ds ++ g)) ∧ ∀ before after input,
      cliMain s io v fuel (before ++ f (ds ++ g) :: after) input = cliMain s io v fuel (before ++ f ds :: after) input := by
  have bad : ∀ k, ¬ Numeral k (ds ++ g) := by
    intro k hk
    obtain ⟨b, hb⟩ : ∃ b, g.head? = some b := by
      cases g with
      | nil => exact absurd rfl hg
      | cons b g => exact ⟨b, rfl⟩
    refine hd b hb fun x hx => ?_
    rw [List.mem_singleton] at hx
    subst hx
    exact hk.2.1 x (List.mem_append_right _ (List.mem_of_mem_head? hb))
  have nauto : ds ++ g ≠ cs "auto" := by
    intro e
    cases ds with
    | nil => exact hn.1 rfl
    | cons d l =>
      have e1 : d = ch 'a' := by rw [List.cons_append] at e; exact (List.cons.inj (e.trans (show cs "auto" = ch 'a' :: cs "uto" by decide))).1
      have := hn.2.1 d (by simp)
      rw [e1] at this
      revert this
      decide
  refine ⟨?_, exchange_numbered hf (fun max => strtou_garbage hn hd) nauto (numeral_digit hn)⟩
  intro hdoc
  rcases hf with rfl | rfl | rfl | rfl
  · cases hdoc with | range h => exact bad _ h
  · generalize ht : ds ++ g = t at hdoc
    cases hdoc with
    | filter h => rw [← ht] at h; exact bad _ h
    | auto => exact nauto ht
  · cases hdoc with | offset h => exact bad _ h
  · cases hdoc with | count h => exact bad _ h

example : Numeral 5 (cs "5") ∧ ∀ b, (cs "x").head? = some b → ¬ Digits [b] :=
  ⟨Demo.num 5 (by decide) (by decide) (by decide), fun b h hb => by
    have e : b = ch 'x' := (Option.some.inj (h.symm.trans (show (cs "x").head? = some (ch 'x') by decide)))
    have := hb b (by simp)
    rw [e] at this
    revert this
    decide⟩

/-- **C80** Negative and too large numbers are taken for others: `-n -1` is `-n 18446744073709551615`, and so is any larger number; the same goes for `-o`. -/
theorem C80_fails_wrap {f : List UInt8 → CliOpt} (hf : f = .n ∨ f = .o) {a : List UInt8} (ha : a = cs "-1" ∨ ∃ n, 2 ^ 64 ≤ n ∧ Numeral n a) :
    ¬ Documented s.cfg io (f a) ∧ ∀ before after input, cliMain s io v fuel (before ++ f a :: after) input =
      cliMain s io v fuel (before ++ f (cs "18446744073709551615") :: after) input := by
  have e1 : strtou ullMax a = some ullMax := by
    rcases ha with rfl | ⟨n, h1, h2⟩
    · decide +kernel
    · refine strtou_iff.mpr ⟨false, n, numeral_number h2, Or.inl ⟨?_, rfl⟩⟩
      have : ullMax = 2 ^ 64 - 1 := rfl
      omega
  have e2 : strtou ullMax (cs "18446744073709551615") = some ullMax := by decide +kernel
  have notdoc : ∀ k, Numeral k a → ¬ k < 2 ^ 64 := by
    intro k hk hlt
    rcases ha with rfl | ⟨n, h1, h2⟩
    · have := hk.2.1 (ch '-') (by decide)
      revert this
      decide
    · rw [numeral_unique hk h2] at hlt
      omega
  constructor
  · intro hdoc
    rcases hf with rfl | rfl
    · cases hdoc with | count h1 _ h3 => exact notdoc _ h1 h3
    · cases hdoc with | offset h1 h3 => exact notdoc _ h1 h3
  · intro before after input
    refine main_exchange (fun st => ?_) input
    rcases hf with rfl | rfl
    · simp only [cliOptions, e1, e2]
      exact Or.inr ⟨_, _, if_neg (by decide), if_neg (by decide), SameEffect.refl _⟩
    · simp only [cliOptions, e1, e2]
      exact Or.inr ⟨_, _, rfl, rfl, SameEffect.refl _⟩

theorem list_names (x : List UInt8 × Reader) (hx : x ∈ named s io) : ¬ SameText x.1 (cs "list") := by
  have key : x.1 ∈ [cs "PGM", cs "PFM", cs "Y4M", cs "libjpeg", cs "libpng", cs "FFmpeg", cs "MagickWand"] := by
    unfold named at hx
    simp only [List.mem_append] at hx
    rcases hx with (((((hx | hx) | hx) | hx) | hx) | hx) | hx
    · split at hx
      · cases hx
      · rw [List.mem_singleton] at hx; rw [hx]; simp
    · split at hx
      · cases hx
      · rw [List.mem_singleton] at hx; rw [hx]; simp
    · split at hx
      · cases hx
      · rw [List.mem_singleton] at hx; rw [hx]; simp
    all_goals
      rw [Option.mem_toList, Option.map_eq_some_iff] at hx
      obtain ⟨r, _, rfl⟩ := hx
      simp
  simp only [List.mem_cons, List.not_mem_nil, or_false] at key
  unfold SameText
  rcases key with h | h | h | h | h | h | h <;> rw [h] <;> decide

/-- **C80** After one `-R` with the name of a reader the others are not checked: `-R pgm -R list` lists nothing, but tries to open the image with a reader of
that name and fails. -/
theorem C80_fails_reader (hio : io.Contract s.cfg) (hs : Build s) (hw : w.WF) {r : List UInt8} (hr : NamesReader io r) :
    cliMain s io v fuel [.R (cs "list"), .R r] (some input) w = some (⟨0, .info⟩, w) ∧
    ∀ ex w', cliMain s io v fuel [.R r, .R (cs "list")] (some input) w = some (ex, w') → ex = ⟨1, .nothing⟩ := by
  constructor
  · have hl : ¬ NamesReader io (cs "list") := by
      rintro ⟨n, hn, h⟩
      rw [← named_fst (s := s), List.mem_map] at hn
      obtain ⟨x, hx, rfl⟩ := hn
      exact list_names x hx h
    have h1 : ((listImageReaders io).any (fun n => strcaseeq n (cs "list"))) = false :=
      Bool.eq_false_of_not_eq_true (fun h => hl (names_any.mp h))
    unfold cliMain cliOptions
    simp only [h1, Bool.or_false, Bool.not_false, if_true]
    rfl
  · intro ex w' hx
    have hW : Wants s.cfg io v [.R r, .R (cs "list")] input Demo.sign (defaultParams s.cfg) := by
      refine ⟨Goes.not_ends (fun b1 o1 a1 code h hend => ?_), Or.inl ⟨rfl, rfl⟩, Or.inl ⟨rfl, rfl⟩, Or.inl ⟨rfl, rfl⟩, Or.inl ⟨rfl, rfl⟩, Or.inl rfl⟩
      rcases b1 with _ | ⟨_, _ | ⟨_, b1⟩⟩ <;> simp at h
      · obtain ⟨rfl, _⟩ := h
        cases hend with
        | readers _ h => exact h hr
        | reader _ h => exact h hr
      · obtain ⟨rfl, rfl, _⟩ := h
        cases hend with
        | readers h => exact h r (by simp)
        | reader h => exact h r (by simp)
    rcases C47_success hio hs hw hW (Or.inl ⟨rfl, rfl⟩) hx with h | ⟨_, _, _, _, _, _, _, _, w1, o, w2, h1, h2, h3, _⟩
    · exact h
    · exfalso
      have := (C30_by_name_partial (io := io) (s := s) (name := input) (rname := cs "list") (wantBuf := true) (ascii s.cfg "list" (by decide))).2 list_names
      obtain ⟨o', w3, h4, h5⟩ := this w1 h1
      have e : opening s io [.R r, .R (cs "list")] input = resdetOpenImageWithReader s io (some input) (some (cs "list")) true true true := rfl
      rw [e, h4] at h2
      cases h2
      rcases h5 with h5 | ⟨h5, _⟩ <;> rw [h3] at h5 <;> cases h5

example : Demo.io.Contract Demo.sys.cfg ∧ Build Demo.sys ∧ Demo.w0.WF ∧ NamesReader Demo.io (cs "pgm") ∧
    (cliMain Demo.sys Demo.io Demo.cliEnv 3 [.R (cs "pgm"), .R (cs "list")] (some (cs "a.pgm")) Demo.w0).map (fun r => r.1.code) = some 1 :=
  ⟨Demo.io_contract _, Demo.sys_build, Demo.w0_wf, ⟨cs "PGM", by decide, by unfold SameText; decide⟩, by decide +kernel⟩

end Verif.Props
