import Verif.Proofs.Getopt
import Verif.Proofs.ProfileLemmas
import Verif.Proofs.ScoreLemmas

/-! What the arguments of the options are taken for. -/

namespace Verif

open Spec

variable {c : Cfg} {io : Io} {v : CliEnv} {opts : List CliOpt} {s : Sys}

theorem decimal_nonneg {q : ℚ} {t : List UInt8} (h : Ratio q t) : 0 ≤ q := by
  cases h with
  | whole => positivity
  | point => positivity

/-- A percentage becomes a fraction. -/
theorem percent {q : ℚ} (h0 : 0 ≤ q) (h1 : q ≤ 100) :
    ∃ t, binary32.conv (binary64.div (binary64.deliver false q) (binary64.ofNat 100)) = .fin false t ∧ |t - q / 100| ≤ 1 / 2 ^ 23 ∧ 0 ≤ t ∧ t ≤ 1 := by
  have hF := binary64_wf
  have p100 : (100 : ℕ) ≤ 2 ^ binary64.p := by decide
  have e100 : binary64.rnd 100 = 100 := by
    have := binary64.rnd_natCast hF p100
    simpa using this
  have big : (100 : ℚ) < pow2 binary64.emax := by decide +kernel
  have q0 : 0 ≤ binary64.rnd q := by have := binary64.rnd_mono hF.p_pos h0; rwa [binary64.rnd_zero] at this
  have q1 : binary64.rnd q ≤ 100 := by
    have := binary64.rnd_le_natCast hF p100 (v := q) (by exact_mod_cast h1)
    exact_mod_cast this
  have d1 : binary64.deliver false q = .fin false (binary64.rnd q) := deliver_nn _ h0 (lt_of_le_of_lt q1 big)
  have d2 : binary64.ofNat 100 = .fin false 100 := by
    unfold Fmt.ofNat
    rw [deliver_nn _ (by positivity) (by rw [Nat.cast_ofNat, e100]; exact big), Nat.cast_ofNat, e100]
  have r0 : 0 ≤ binary64.rnd q / 100 := by positivity
  have r1 : binary64.rnd q / 100 ≤ 1 := by rw [div_le_one (by norm_num)]; exact q1
  obtain ⟨s0, s1⟩ := rnd_unit hF r0 r1
  have d3 : binary64.div (binary64.deliver false q) (binary64.ofNat 100) = .fin false (binary64.rnd (binary64.rnd q / 100)) := by
    rw [d1, d2]
    unfold Fmt.div
    simp only
    rw [if_neg (by norm_num)]
    exact deliver_unit hF r0 r1
  obtain ⟨t0, t1⟩ := rnd_unit binary32_wf s0 s1
  refine ⟨_, by rw [d3]; exact deliver_unit binary32_wf s0 s1, ?_, t0, t1⟩
  have b1 := binary64.rnd_err hF (K := 100) (by norm_num) h0 (by exact_mod_cast h1)
  have b2 := binary64.rnd_err hF (K := 1) le_rfl r0 (by exact_mod_cast r1)
  have b3 := binary32.rnd_err binary32_wf (K := 1) le_rfl s0 (by exact_mod_cast s1)
  have e64 : pow2 (-binary64.p) = 1 / 2 ^ 53 := by decide +kernel
  have e32 : pow2 (-binary32.p) = 1 / 2 ^ 24 := by decide +kernel
  rw [e64] at b1 b2
  rw [e32] at b3
  push_cast at b1 b2 b3
  rw [abs_le] at b1 b2 b3 ⊢
  constructor <;> linarith [b1.1, b1.2, b2.1, b2.2, b3.1, b3.2]

theorem numeral_number {n : ℕ} {a : List UInt8} (h : Numeral n a) : Number a false n :=
  ⟨[], [], a, [], by simp, by simp [Blank], h, by simp, Or.inr ⟨rfl, Or.inl rfl⟩⟩

theorem numeral_countsIn {n max : ℕ} {a : List UInt8} (h : Numeral n a) (hn : n ≤ max) : CountsIn max a n :=
  ⟨false, n, numeral_number h, Or.inr (Or.inl ⟨hn, Or.inl rfl, rfl⟩)⟩

theorem last_mem {f : CliOpt → Option (List UInt8)} {a : List UInt8} (h : last f opts = some a) : ∃ o ∈ opts, f o = some a := by
  unfold last at h
  have := List.mem_of_getLast? h
  rwa [List.mem_filterMap] at this

theorem last_or (f : CliOpt → Option (List UInt8)) (opts : List CliOpt) : last f opts = none ∨ ∃ a, last f opts = some a := by
  cases last f opts with
  | none => exact Or.inl rfl
  | some a => exact Or.inr ⟨a, rfl⟩

theorem documented_goes (hd : ∀ o ∈ opts, Documented c io o) : Goes io opts := by
  intro b1 o1 a1 code he hend
  have hd := hd o1 (by rw [he]; simp)
  cases hend with
  | help => cases hd
  | version => cases hd
  | readers _ h => cases hd with | reader hn => exact h hn
  | reader _ h => cases hd with | reader hn => exact h hn
  | offset h => cases hd with | @offset _ k h1 h2 => exact h k (numeral_countsIn h1 (by omega))
  | count h => cases hd with | @count _ k h1 h2 h3 => exact h k (by omega) (numeral_countsIn h1 (by omega))
  | unknown => cases hd

theorem numeral_digit {n : ℕ} {a : List UInt8} (h : Numeral n a) : a ≠ cs "auto" := by
  rintro rfl
  have := h.2.1 (ch 'a') (by decide)
  revert this
  decide

/-- Options that are as documented are taken at their word. -/
theorem documented_wants (hc : c.WF) (hint : 32767 ≤ c.intMax) (hv : ReadsDecimals v) (hd : ∀ o ∈ opts, Documented c io o)
    (hone : last CliOpt.tArg opts = none ∨ last CliOpt.rArg opts = none) (input : List UInt8) :
    ∃ m p vb offset count, AtTheirWord c opts input m p vb offset count ∧ Wants c io v opts input m p ∧ Verbosity c opts vb ∧ Skips opts offset ∧
      (last CliOpt.nArg opts = none ∧ count = none ∨ ∃ n, Limits opts n ∧ count = some n) := by
  have hl := hc.int_long
  obtain ⟨m, hm⟩ : ∃ m, last CliOpt.mArg opts = none ∧ methods.head? = some m ∨ m ∈ methods ∧ last CliOpt.mArg opts = some (cs m.name) := by
    rcases last_or CliOpt.mArg opts with h | ⟨a, h⟩
    · exact ⟨_, Or.inl ⟨h, rfl⟩⟩
    · obtain ⟨o, ho, e⟩ := last_mem h
      cases hd o ho with
      | @method m hm => cases e; exact ⟨m, Or.inr ⟨hm, h⟩⟩
      | _ => cases e
  obtain ⟨vb, hvb1, hvb2⟩ : ∃ vb : ℤ, ((last CliOpt.vArg opts = none ∨ last CliOpt.vArg opts = some (cs "-1")) ∧ vb = -1 ∨
      0 ≤ vb ∧ ∃ a, last CliOpt.vArg opts = some a ∧ Numeral vb.toNat a) ∧ Verbosity c opts vb := by
    rcases last_or CliOpt.vArg opts with h | ⟨a, h⟩
    · exact ⟨-1, Or.inl ⟨Or.inl h, rfl⟩, Or.inl ⟨h, rfl⟩⟩
    · obtain ⟨o, ho, e⟩ := last_mem h
      cases hd o ho with
      | @verbosity a' hm =>
        cases e
        have pos : ∀ k : ℕ, k ≤ 3 → Numeral k a → ∃ vb : ℤ, ((last CliOpt.vArg opts = none ∨ last CliOpt.vArg opts = some (cs "-1")) ∧ vb = -1 ∨
            0 ≤ vb ∧ ∃ a, last CliOpt.vArg opts = some a ∧ Numeral vb.toNat a) ∧ Verbosity c opts vb := fun k hk hn =>
          ⟨k, Or.inr ⟨by omega, a, h, by simpa using hn⟩, Or.inr ⟨a, false, k, h, numeral_number hn, by omega, by simp⟩⟩
        simp only [List.mem_cons, List.not_mem_nil, or_false] at hm
        rcases hm with rfl | rfl | rfl | rfl | rfl
        · exact ⟨-1, Or.inl ⟨Or.inr h, rfl⟩, Or.inr ⟨_, true, 1, h, number_iff.mpr ⟨by decide, by decide, by decide⟩, by omega, by simp⟩⟩
        · exact pos 0 (by omega) ⟨by decide, by unfold Digits; decide, by decide⟩
        · exact pos 1 (by omega) ⟨by decide, by unfold Digits; decide, by decide⟩
        · exact pos 2 (by omega) ⟨by decide, by unfold Digits; decide, by decide⟩
        · exact pos 3 (by omega) ⟨by decide, by unfold Digits; decide, by decide⟩
      | _ => cases e
  obtain ⟨th, hth1, hth2⟩ : ∃ th : Fl, (last CliOpt.xArg opts = none ∧ th = .fin true (-1) ∨
      ∃ a q t, last CliOpt.xArg opts = some a ∧ Ratio q a ∧ th = .fin false t ∧ |t - q / 100| ≤ 1 / 2 ^ 23) ∧ WantsThreshold v opts th := by
    rcases last_or CliOpt.xArg opts with h | ⟨a, h⟩
    · exact ⟨_, Or.inl ⟨h, rfl⟩, Or.inl ⟨h, rfl⟩⟩
    · obtain ⟨o, ho, e⟩ := last_mem h
      cases hd o ho with
      | @threshold a' q h1 h2 =>
        cases e
        obtain ⟨t, e1, e2, e3, e4⟩ := percent (decimal_nonneg h1) h2
        exact ⟨_, Or.inr ⟨a, q, t, h, h1, rfl, e2⟩, Or.inr ⟨a, _, h, hv q a h1, e1.symm, false, t, rfl, e3, e4⟩⟩
      | _ => cases e
  obtain ⟨r, hr1, hr2⟩ : ∃ r, (last CliOpt.rangeArg opts = none ∧ r = c.defaultRange ∨ ∃ a, last CliOpt.rangeArg opts = some a ∧ Numeral r a) ∧
      WantsRange c opts r := by
    rcases last_or CliOpt.rangeArg opts with h | ⟨a, h⟩
    · exact ⟨_, Or.inl ⟨h, rfl⟩, Or.inl ⟨h, rfl⟩⟩
    · obtain ⟨o, ho, e⟩ := last_mem h
      cases hd o ho with
      | @range a' k h1 h2 h3 h4 =>
        cases e
        exact ⟨k, Or.inr ⟨a, h, h1⟩, Or.inr ⟨a, k, h, numeral_countsIn h1 (by omega), (Nat.mod_eq_of_lt (by omega)).symm, by omega⟩⟩
      | _ => cases e
  obtain ⟨f, hf1, hf2⟩ : ∃ f, (last CliOpt.fArg opts = none ∧ f = 0 ∨ last CliOpt.fArg opts = some (cs "auto") ∧ AutoFilter input f ∨
      ∃ a, last CliOpt.fArg opts = some a ∧ Numeral f a) ∧ WantsFilter c opts input f := by
    rcases last_or CliOpt.fArg opts with h | ⟨a, h⟩
    · exact ⟨_, Or.inl ⟨h, rfl⟩, Or.inl ⟨h, rfl⟩⟩
    · obtain ⟨o, ho, e⟩ := last_mem h
      cases hd o ho with
      | @filter a' k h1 h2 =>
        cases e
        exact ⟨k, Or.inr (Or.inr ⟨a, h, h1⟩), Or.inr (Or.inr ⟨a, h, numeral_digit h1, numeral_countsIn h1 (by omega), h2⟩)⟩
      | auto =>
        cases e
        obtain ⟨k, hk, _⟩ := (auto_iff (input := input) (p := defaultParams c) rfl).mp rfl
        exact ⟨k, Or.inr (Or.inl ⟨h, hk⟩), Or.inr (Or.inl ⟨h, hk⟩)⟩
      | _ => cases e
  obtain ⟨off, ho1, ho2⟩ : ∃ off, (last CliOpt.oArg opts = none ∧ off = 0 ∨ ∃ a, last CliOpt.oArg opts = some a ∧ Numeral off a) ∧ Skips opts off := by
    rcases last_or CliOpt.oArg opts with h | ⟨a, h⟩
    · exact ⟨_, Or.inl ⟨h, rfl⟩, Or.inl ⟨h, rfl⟩⟩
    · obtain ⟨o, ho, e⟩ := last_mem h
      cases hd o ho with
      | @offset a' k h1 h2 => cases e; exact ⟨k, Or.inr ⟨a, h, h1⟩, Or.inr ⟨a, h, numeral_countsIn h1 (by omega)⟩⟩
      | _ => cases e
  obtain ⟨cnt, hn1, hn2⟩ : ∃ cnt, (last CliOpt.nArg opts = none ∧ cnt = none ∨ ∃ a n, last CliOpt.nArg opts = some a ∧ Numeral n a ∧ cnt = some n) ∧
      (last CliOpt.nArg opts = none ∧ cnt = none ∨ ∃ n, Limits opts n ∧ cnt = some n) := by
    rcases last_or CliOpt.nArg opts with h | ⟨a, h⟩
    · exact ⟨_, Or.inl ⟨h, rfl⟩, Or.inl ⟨h, rfl⟩⟩
    · obtain ⟨o, ho, e⟩ := last_mem h
      cases hd o ho with
      | @count a' k h1 h2 h3 => cases e; exact ⟨some k, Or.inr ⟨a, k, h, h1, rfl⟩, Or.inr ⟨k, ⟨a, h, numeral_countsIn h1 (by omega)⟩, rfl⟩⟩
      | _ => cases e
  refine ⟨m, { defaultParams c with threshold := th, range := r, compressionFilter := f }, vb, off, cnt, ⟨hvb1, hm, hth1, hr1, hf1, ho1, hn1⟩,
    ⟨(documented_goes hd).not_ends, hm, hth2, hr2, hf2, hone⟩, hvb2, ho2, hn2⟩

theorem counts_zero {a : List UInt8} (h : ∀ neg n, Number a neg n → n = 0) {k max : ℕ} (hk : CountsIn max a k) : k = 0 := by
  obtain ⟨neg, n, h1, h2⟩ := hk
  have := h neg n h1
  omega

theorem first_split {a : List UInt8} (h : (opts.filterMap CliOpt.rArg).head? = some a) : ∃ before after, opts = before ++ .R a :: after ∧ ∀ b, CliOpt.R b ∉ before := by
  induction opts with
  | nil => cases h
  | cons o os ih =>
    by_cases ho : ∃ b, o = .R b
    · obtain ⟨b, rfl⟩ := ho
      simp only [List.filterMap_cons, CliOpt.rArg, List.head?_cons, Option.some.injEq] at h
      subst h
      exact ⟨[], os, rfl, by simp⟩
    · have e : CliOpt.rArg o = none := by
        cases o <;> first | rfl | exact absurd ⟨_, rfl⟩ ho
      rw [List.filterMap_cons_none e] at h
      obtain ⟨b, a', rfl, h2⟩ := ih h
      refine ⟨o :: b, a', rfl, fun x hx => ?_⟩
      rcases List.mem_cons.mp hx with hx | hx
      · exact ho ⟨x, hx.symm⟩
      · exact h2 x hx

/-- Wrong options that do not end the command cannot be used. -/
theorem wrong_unusable {input : List UInt8} (hc : c.WF) (hint : 32767 ≤ c.intMax) (hg : Goes io opts) (hw : Wrong io v opts) (m : Method) (p : Params) :
    ¬ Wants c io v opts input m p := by
  intro hW
  have hl := hc.int_long
  have ends : ∀ o ∈ opts, (∀ before, ∃ code, EndsAt io before o code) → False := by
    intro o ho h
    obtain ⟨b, a, rfl⟩ := List.append_of_mem ho
    obtain ⟨code, h⟩ := h b
    exact hg _ _ _ _ rfl h
  cases hw with
  | letter h => exact ends _ h (fun _ => ⟨1, .unknown⟩)
  | offset h h1 => exact ends _ h (fun _ => ⟨1, .offset (fun k ⟨neg, n, h2, _⟩ => h1 neg n h2)⟩)
  | count h h1 => exact ends _ h (fun _ => ⟨1, .count (fun k hk h2 => hk (counts_zero h1 h2))⟩)
  | @reader a h h1 =>
    obtain ⟨b, a', rfl, h2⟩ := first_split h
    by_cases ha : a = cs "list"
    · exact hg _ _ _ _ rfl (.readers h2 h1 ha)
    · exact hg _ _ _ _ rfl (.reader h2 h1 ha)
  | method h h1 =>
    rcases hW.method with ⟨h2, _⟩ | ⟨h2, h3⟩
    · rw [h] at h2; cases h2
    · rw [h] at h3; cases h3; exact h1 m h2 rfl
  | noThreshold h h1 =>
    rcases hW.threshold with ⟨h2, _⟩ | ⟨a, d, h2, h3, _⟩
    · rw [h] at h2; cases h2
    · rw [h] at h2; cases h2; rw [h1] at h3; cases h3
  | threshold h h1 h4 =>
    rcases hW.threshold with ⟨h2, _⟩ | ⟨a, d, h2, h3, h5, h6⟩
    · rw [h] at h2; cases h2
    · rw [h] at h2; cases h2; rw [h1] at h3; cases h3; rw [h5] at h6; exact h4 h6
  | range h h1 =>
    rcases hW.range with ⟨h2, _⟩ | ⟨a, k, h2, h3, h4, h5⟩
    · rw [h] at h2; cases h2
    · rw [h] at h2; cases h2; rw [counts_zero h1 h3, Nat.zero_mod] at h4; exact h5 h4
  | filter h ha h1 =>
    rcases hW.filter with ⟨h2, _⟩ | ⟨h2, _⟩ | ⟨a, h2, h3, ⟨neg, n, h4, h5⟩, h6⟩
    · rw [h] at h2; cases h2
    · rw [h] at h2; cases h2; exact ha rfl
    · rw [h] at h2; cases h2
      obtain ⟨rfl, h7⟩ := h1 neg n h4
      rcases h5 with ⟨h5, h8⟩ | ⟨_, _, h8⟩ | ⟨_, h8, _⟩
      · omega
      · omega
      · cases h8
  | both h1 h2 =>
    rcases hW.one with h | h
    · rw [h] at h1; cases h1
    · rw [h] at h2; cases h2

/-- States of `main` that lead to the same. -/
structure SameEffect (c : Cfg) (st st' : CliState) : Prop where
  rest : st' = { st with rangeOpt := st'.rangeOpt, filterOpt := st'.filterOpt }
  range : ∀ p, cliRange c st.rangeOpt p = cliRange c st'.rangeOpt p
  filter : ∀ p, cliFilter c st.filterOpt p = cliFilter c st'.filterOpt p
  auto : st.filterOpt = some (cs "auto") ↔ st'.filterOpt = some (cs "auto")

theorem SameEffect.refl (st : CliState) : SameEffect c st st := ⟨rfl, fun _ => rfl, fun _ => rfl, Iff.rfl⟩

theorem effect_options (opts : List CliOpt) {st st' : CliState} (h : SameEffect c st st') :
    (∃ e, cliOptions c io opts st = .inl e ∧ cliOptions c io opts st' = .inl e) ∨
    ∃ a b, cliOptions c io opts st = .inr a ∧ cliOptions c io opts st' = .inr b ∧ SameEffect c a b := by
  induction opts generalizing st st' with
  | nil => exact Or.inr ⟨_, _, rfl, rfl, h⟩
  | cons o os ih =>
    obtain ⟨r1, h1, h2, h3⟩ := h
    cases st with
    | mk a1 a2 a3 a4 a5 a6 a7 a8 a9 a10 a11 =>
    cases st' with
    | mk b1 b2 b3 b4 b5 b6 b7 b8 b9 b10 b11 =>
    simp only [CliState.mk.injEq] at r1
    obtain ⟨rfl, rfl, rfl, rfl, _, rfl, _, rfl, rfl, rfl, rfl⟩ := r1
    simp only at h1 h2 h3
    cases o with
    | v a => exact ih ⟨rfl, h1, h2, h3⟩
    | m a => exact ih ⟨rfl, h1, h2, h3⟩
    | t a => exact ih ⟨rfl, h1, h2, h3⟩
    | x a => exact ih ⟨rfl, h1, h2, h3⟩
    | r a => exact ih ⟨rfl, fun _ => rfl, h2, h3⟩
    | f a => exact ih ⟨rfl, h1, fun _ => rfl, Iff.rfl⟩
    | p => exact ih ⟨rfl, h1, h2, h3⟩
    | h => exact Or.inl ⟨_, rfl, rfl⟩
    | V => exact Or.inl ⟨_, rfl, rfl⟩
    | bad => exact Or.inl ⟨_, rfl, rfl⟩
    | R a =>
      simp only [cliOptions]
      split
      · exact Or.inl ⟨_, rfl, rfl⟩
      · exact ih ⟨rfl, h1, h2, h3⟩
    | o a =>
      simp only [cliOptions]
      split
      · exact Or.inl ⟨_, rfl, rfl⟩
      · exact ih ⟨rfl, h1, h2, h3⟩
    | n a =>
      simp only [cliOptions]
      split
      · exact Or.inl ⟨_, rfl, rfl⟩
      · split
        · exact Or.inl ⟨_, rfl, rfl⟩
        · exact ih ⟨rfl, h1, h2, h3⟩

theorem effect_auto {st st' : CliState} (h : SameEffect c st st') (input : List UInt8) (p : Params) : cliAuto st.filterOpt input p = cliAuto st'.filterOpt input p := by
  unfold cliAuto
  by_cases h1 : st.filterOpt = some (cs "auto")
  · rw [if_pos h1, if_pos (h.auto.mp h1)]
  · rw [if_neg h1, if_neg (fun h2 => h1 (h.auto.mpr h2))]

/-- Lists of options that leave `main` in states that lead to the same. -/
theorem effect_main {fuel : ℕ} {o1 o2 : List CliOpt}
    (h : (∃ e, cliOptions s.cfg io o1 {} = .inl e ∧ cliOptions s.cfg io o2 {} = .inl e) ∨
      ∃ a b, cliOptions s.cfg io o1 {} = .inr a ∧ cliOptions s.cfg io o2 {} = .inr b ∧ SameEffect s.cfg a b) (input : Option (List UInt8)) :
    cliMain s io v fuel o1 input = cliMain s io v fuel o2 input := by
  unfold cliMain
  rcases h with ⟨e, h1, h2⟩ | ⟨a, b, h1, h2, h⟩
  · rw [h1, h2]
  · rw [h1, h2]
    simp only
    have e1 : ∀ p, (cliThreshold v a.thresholdOpt p).bind (fun p => (cliRange s.cfg a.rangeOpt p).bind (cliFilter s.cfg a.filterOpt)) =
        (cliThreshold v b.thresholdOpt p).bind (fun p => (cliRange s.cfg b.rangeOpt p).bind (cliFilter s.cfg b.filterOpt)) := by
      intro p
      have : a.thresholdOpt = b.thresholdOpt := by rw [h.rest]
      rw [this]
      congr 1
      funext p
      rw [h.range]
      congr 1
      funext p
      exact h.filter p
    have e2 : ∀ input m block p, cliRun s io v fuel a input m block p = cliRun s io v fuel b input m block p := by
      intro input m block p
      unfold cliRun
      rw [effect_auto h]
      obtain ⟨r, _, _, _⟩ := h
      cases a; cases b
      simp only [CliState.mk.injEq] at r
      obtain ⟨rfl, rfl, rfl, rfl, _, rfl, _, rfl, rfl, rfl, rfl⟩ := r
      rfl
    simp only [e1, e2]
    have : a.method = b.method ∧ a.type = b.type ∧ a.imageReader = b.imageReader := by rw [h.rest]; exact ⟨rfl, rfl, rfl⟩
    rw [this.1, this.2.1, this.2.2]

theorem options_append (o1 o2 : List CliOpt) (st : CliState) : cliOptions c io (o1 ++ o2) st = match cliOptions c io o1 st with
    | .inl e => .inl e
    | .inr st => cliOptions c io o2 st := by
  induction o1 generalizing st with
  | nil => rfl
  | cons o os ih =>
    cases o <;> simp only [List.cons_append, cliOptions] <;> first | exact ih _ | skip
    all_goals
      split
      · rfl
      · first
        | exact ih _
        | (split
           · rfl
           · exact ih _)

/-- Options of one kind with arguments read alike can be exchanged. -/
theorem main_exchange {fuel : ℕ} {before after : List CliOpt} {o o' : CliOpt} (h : ∀ st, (∃ e, cliOptions s.cfg io [o] st = .inl e ∧ cliOptions s.cfg io [o'] st = .inl e) ∨
      ∃ a b, cliOptions s.cfg io [o] st = .inr a ∧ cliOptions s.cfg io [o'] st = .inr b ∧ SameEffect s.cfg a b) (input : Option (List UInt8)) :
    cliMain s io v fuel (before ++ o :: after) input = cliMain s io v fuel (before ++ o' :: after) input := by
  refine effect_main ?_ input
  rw [options_append, options_append]
  cases cliOptions s.cfg io before {} with
  | inl e => exact Or.inl ⟨e, rfl, rfl⟩
  | inr st =>
    simp only
    rw [show o :: after = [o] ++ after from rfl, show o' :: after = [o'] ++ after from rfl, options_append, options_append]
    rcases h st with ⟨e, h1, h2⟩ | ⟨a, b, h1, h2, h3⟩
    · rw [h1, h2]; exact Or.inl ⟨e, rfl, rfl⟩
    · rw [h1, h2]; exact effect_options after h3

theorem strtou_garbage {n max : ℕ} {ds g : List UInt8} (h : Numeral n ds) (hg : ∀ b, g.head? = some b → ¬ Digits [b]) : strtou max (ds ++ g) = strtou max ds := by
  have h1 : subject (ds ++ g) = subject ds := by
    have a1 : Number (ds ++ g) false n := ⟨[], [], ds, g, by simp, by simp [Blank], h, hg, Or.inr ⟨rfl, Or.inl rfl⟩⟩
    obtain ⟨_, s1, s2⟩ := number_iff.mp a1
    obtain ⟨_, t1, t2⟩ := number_iff.mp (numeral_number h)
    cases ds with
    | nil => exact absurd rfl h.1
    | cons d l =>
      have hd : isdigit d = true := by
        by_contra hh
        exact not_digits.mpr (Bool.eq_false_of_not_eq_true hh) (fun b hb => h.2.1 b (by rw [List.mem_singleton] at hb; rw [hb]; simp))
      have hsp : isspace d = false := by
        refine Bool.eq_false_of_not_eq_true fun hh => ?_
        have a1 := (isspace_iff d).mp hh
        have a2 := h.2.1 d (by simp)
        omega
      have hm : d ≠ ch '-' := by rintro rfl; revert hd; decide
      have hp : d ≠ ch '+' := by rintro rfl; revert hd; decide
      unfold subject
      rw [List.cons_append, List.dropWhile_cons_of_neg (by simp [hsp]), List.dropWhile_cons_of_neg (by simp [hsp])]
      simp only
      rw [if_neg hm, if_neg hp, if_neg hm, if_neg hp]
      have e2 : ((d :: l) ++ g).takeWhile isdigit = d :: l := by
        rw [List.takeWhile_append_of_pos (fun b hb => ?_)]
        · cases g with
          | nil => simp
          | cons x g => rw [List.takeWhile_cons_of_neg, List.append_nil]; rw [not_digits.mp (hg x rfl)]; simp
        · by_contra hh
          exact not_digits.mpr (Bool.eq_false_of_not_eq_true hh) (fun b' hb' => h.2.1 b' (by rw [List.mem_singleton] at hb'; rw [hb']; exact hb))
      have e3 : (d :: l).takeWhile isdigit = d :: l := by
        rw [List.takeWhile_eq_self_iff]
        intro b hb
        by_contra hh
        exact not_digits.mpr (Bool.eq_false_of_not_eq_true hh) (fun b' hb' => h.2.1 b' (by rw [List.mem_singleton] at hb'; rw [hb']; exact hb))
      rw [List.cons_append] at e2
      rw [e2, e3]
  unfold strtou
  rw [h1]

end Verif
