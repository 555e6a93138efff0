import Verif.Proofs.CliOutput
import Verif.Spec.CliOutput
import Verif.Props.Cli

/-! What the command tells, from the options on. -/

namespace Verif

open Spec Props

variable {s : Sys} {io : Io} {v : CliEnv} {nm : Naming} {fuel : ℕ} {opts : List CliOpt} {st : CliState} {input : List UInt8} {m : Method} {p : Params}
  {w w' : World} {ex : Exit} {o : Output}

theorem printZu_text (n : ℕ) : printZu n = decimalText n := by
  have key : ∀ n, printZu n = (Nat.toDigits 10 n).map ch := by
    intro n
    induction n using Nat.strongRecOn with
    | ind n ih =>
      by_cases h : n < 10
      · rw [Nat.toDigits_of_lt_base h]
        interval_cases n <;> decide +kernel
      · have h0 : n ≠ 0 := by omega
        have h1 : n / 10 ≠ 0 := by omega
        rw [Nat.toDigits_of_base_le (by decide) (by omega), List.map_append, ← ih _ (by omega)]
        unfold printZu
        rw [if_neg h0, if_neg h1, Nat.digits_def' (by decide) (by omega), List.reverse_cons, List.map_append]
        congr 1
        have : n % 10 < 10 := Nat.mod_lt _ (by decide)
        generalize n % 10 = d at this
        interval_cases d <;> decide +kernel
  rw [key]
  unfold decimalText cs
  rw [show toString n = String.ofList (Nat.toDigits 10 n) from rfl, String.toList_ofList]

theorem options_progress {c : Cfg} {st' : CliState} (h : cliOptions c io opts st = .inr st') : st'.progress = true ↔ st.progress = true ∨ .p ∈ opts := by
  induction opts generalizing st with
  | nil => cases h; simp
  | cons x xs ih =>
    cases x with
    | R a =>
      simp only [cliOptions] at h
      split at h
      · cases h
      · rw [ih h]; simp
    | o a =>
      simp only [cliOptions] at h
      cases hs : strtou ullMax a with
      | none => rw [hs] at h; cases h
      | some k => rw [hs] at h; rw [ih h]; simp
    | n a =>
      simp only [cliOptions] at h
      cases hs : strtou ullMax a with
      | none => rw [hs] at h; cases h
      | some k =>
        rw [hs] at h
        simp only at h
        split at h
        · cases h
        · rw [ih h]; simp
    | h => cases h
    | V => cases h
    | bad => cases h
    | _ => rw [ih h]; simp

theorem optionsOut_inr {c : Cfg} {st' : CliState} : cliOptionsOut c io nm opts st = .inr st' ↔ cliOptions c io opts st = .inr st' := by
  rw [cliOptionsOut_fst (nm := nm)]
  cases cliOptionsOut c io nm opts st <;> simp

theorem optionsOut_append {c : Cfg} {before rest : List CliOpt} {st' : CliState} (h : cliOptions c io before st = .inr st') :
    cliOptionsOut c io nm (before ++ rest) st = cliOptionsOut c io nm rest st' := by
  induction before generalizing st with
  | nil => cases h; rfl
  | cons x xs ih =>
    cases x with
    | R a =>
      simp only [cliOptions] at h
      simp only [List.cons_append, cliOptionsOut]
      split at h
      · cases h
      · rename_i hf
        rw [if_neg hf]
        exact ih h
    | o a =>
      simp only [cliOptions] at h
      simp only [List.cons_append, cliOptionsOut]
      cases hs : strtou ullMax a with
      | none => rw [hs] at h; cases h
      | some k => rw [hs] at h; exact ih h
    | n a =>
      simp only [cliOptions] at h
      simp only [List.cons_append, cliOptionsOut]
      cases hs : strtou ullMax a with
      | none => rw [hs] at h; cases h
      | some k =>
        rw [hs] at h
        simp only at h ⊢
        split at h
        · cases h
        · rename_i hk
          rw [if_neg hk]
          exact ih h
    | h => cases h
    | V => cases h
    | bad => cases h
    | _ => exact ih h

theorem joinReaders_eq (l : List (List UInt8)) : joinReaders l = if l = [] then [] else (cs ", ").intercalate l ++ cs "\n" := by
  induction l with
  | nil => rfl
  | cons r rs ih =>
    cases rs with
    | nil => simp [joinReaders, List.intercalate, cs, ch]
    | cons r' rs =>
      rw [joinReaders, ih, if_neg (by simp), if_neg (by simp), List.intercalate_cons_cons]
      · simp only [List.append_assoc]
      · simp

/-- An option that ends the command, with its text. -/
theorem options_end {before after : List CliOpt} {x : CliOpt} {code : ℤ} {c : Cfg} (hb : EndsAt io before x code) (hg : Goes io before) :
    ∃ shown o, cliOptionsOut c io nm (before ++ x :: after) {} = .inl (⟨code, shown⟩, o) ∧ EndText io nm x o ∧ (shown = .info ∨ shown = .nothing ∧ o.out = []) := by
  obtain ⟨st, h1, hp⟩ : ∃ st, cliOptions c io before {} = .inr st ∧ Parsed c before st := by
    rcases options_cases c io before with ⟨e, _, h, _⟩ | ⟨st, h1, hp, _⟩
    · exact absurd h (hg.not_ends _)
    · exact ⟨st, h1, hp⟩
  rw [optionsOut_append h1]
  have nf : ∀ a, (∀ b, CliOpt.R b ∉ before) → ¬ NamesReader io a → (!(st.foundReader || (listImageReaders io).any (fun n => strcaseeq n a))) = true := by
    intro a h2 h3
    rw [Bool.not_eq_true', Bool.or_eq_false_iff]
    constructor
    · rw [Bool.eq_false_iff]
      intro h
      obtain ⟨b, hb⟩ := hp.found.mp h
      exact h2 b hb
    · rw [Bool.eq_false_iff]
      exact fun h => h3 (names_any.mp h)
  cases hb with
  | help => exact ⟨_, _, rfl, .help ⟨_, by unfold helpText; simp only [List.append_assoc]; rfl⟩, Or.inl rfl⟩
  | version =>
    refine ⟨_, _, rfl, ?_, Or.inl rfl⟩
    unfold versionText
    rw [joinReaders_eq]
    exact .version
  | readers h2 h3 h4 =>
    subst h4
    refine ⟨.info, _, ?_, .readers, Or.inl rfl⟩
    · simp only [cliOptionsOut]
      rw [if_pos (nf _ h2 h3)]
      exact if_pos trivial
  | reader h2 h3 h4 =>
    refine ⟨.info, _, ?_, .reader h4, Or.inl rfl⟩
    · simp only [cliOptionsOut]
      rw [if_pos (nf _ h2 h3), if_neg h4]
      rfl
  | offset h2 =>
    refine ⟨.nothing, _, ?_, .offset, Or.inr ⟨rfl, rfl⟩⟩
    simp only [cliOptionsOut]
    rw [show strtou ullMax _ = none from strtou_none.mpr h2]
  | count h2 =>
    refine ⟨.nothing, _, ?_, .count, Or.inr ⟨rfl, rfl⟩⟩
    simp only [cliOptionsOut]
    rename_i a
    cases hs : strtou ullMax a with
    | none => rfl
    | some k =>
      have h0 : k = 0 := by
        by_contra h0
        exact h2 k h0 (strtou_iff.mp hs)
      simp only
      rw [if_pos h0]
  | unknown => exact ⟨_, _, rfl, .unknown ⟨_, by unfold usageText; simp only [List.append_assoc]; rfl⟩, Or.inr ⟨rfl, rfl⟩⟩

theorem cliLoopOut_silent {off n ct : ℕ} {i : RDImage} {buf : Buf Fl} {a : Analysis} {r : RDError × ℕ × RDImage × Buf Fl × Analysis}
    {lines : List UInt8} (h : cliLoopOut s false off n fuel ct i buf a w = some ((r, lines), w')) : lines = [] := by
  induction fuel generalizing ct i buf a w lines with
  | zero => cases h
  | succ fuel ih =>
    unfold cliLoopOut at h
    simp only [M.bind_eq_some] at h
    obtain ⟨_, _, _, _, _, _, _, _, _, h⟩ := h
    split at h
    · cases h; rfl
    · simp only [M.bind_eq_some] at h
      obtain ⟨_, _, _, _, _, _, h⟩ := h
      split at h
      · cases h; rfl
      · split at h
        · cases h; rfl
        · simp only [M.bind_eq_some] at h
          obtain ⟨⟨r', rest⟩, _, h6, h7⟩ := h
          cases h7
          exact ih h6

theorem cliFront_silent (hpr : st.progress = false) {e : RDError} {ct : ℕ} {calls : List ℕ} {lines : List UInt8}
    (h : cliFront s io fuel st input m p w = some (.looped e ct calls lines, w')) : lines = [] := by
  have looping : ∀ {p : Params} {i : RDImage} {buf : Buf Fl} {W H : ℕ} {calls' : List ℕ} {w : World},
      cliLooping s fuel st m p i buf W H calls' w = some (.looped e ct calls lines, w') → lines = [] := by
    intro p i buf W H calls' w h
    unfold cliLooping at h
    rw [M.bind_eq_some] at h
    obtain ⟨⟨a, e1⟩, _, _, h⟩ := h
    simp only at h
    split at h
    · cases h
    · simp only [M.bind_eq_some] at h
      obtain ⟨_, _, _, ⟨r, l⟩, _, h1, h⟩ := h
      cases h
      rw [hpr] at h1
      exact cliLoopOut_silent h1
  unfold cliFront at h
  rw [M.bind_eq_some] at h
  obtain ⟨op, _, _, h⟩ := h
  split at h
  · cases h
  · simp only [M.bind_eq_some] at h
    obtain ⟨_, _, _, _, _, _, h⟩ := h
    split at h
    · exact looping h
    · simp only [M.bind_eq_some] at h
      obtain ⟨_, _, _, _, _, _, h⟩ := h
      split at h
      · cases h
      · exact looping h

/-- What a run of `main` is made of. -/
theorem cliMainOut_inv (h : cliMainOut s io v nm fuel opts (some input) w = some ((ex, o), w')) :
    (cliOptionsOut s.cfg io nm opts {} = .inl (ex, o)) ∨
    ∃ st, cliOptions s.cfg io opts {} = .inr st ∧
      ((resdetGetMethod (st.method.map textOf) = none ∧ ex = ⟨1, .nothing⟩ ∧
          o = ⟨[], cs "Invalid method \"" ++ st.method.getD [] ++ cs "\"\nAvailable methods:\n" ++ (methods.map (fun m => cs m.name ++ [ch '\n'])).flatten⟩) ∨
       ∃ m, resdetGetMethod (st.method.map textOf) = some m ∧
        ((∃ w1, resdetAllocDefaultParameters s.cfg w = some (none, w1) ∧ ex = ⟨1, .nothing⟩ ∧ o = ⟨[], cs "Out of memory"⟩) ∨
         ∃ block w1, resdetAllocDefaultParameters s.cfg w = some (some (block, defaultParams s.cfg), w1) ∧
          ((∃ msg, cliParamsOut s.cfg v st (defaultParams s.cfg) = .inl msg ∧ ex = ⟨1, .nothing⟩ ∧ o = ⟨[], msg⟩) ∨
           ∃ p, cliParamsOut s.cfg v st (defaultParams s.cfg) = .inr p ∧
            (((st.type.isSome && st.imageReader.isSome) = true ∧ ex = ⟨1, .nothing⟩ ∧
                o = ⟨[], cs "Type option (-t) cannot be used with an image reader (-R)"⟩) ∨
             ((st.type.isSome && st.imageReader.isSome) = false ∧ cliRunOut s io v fuel st input m block p w1 = some ((ex, o), w')))))) := by
  unfold cliMainOut at h
  cases ho : cliOptionsOut s.cfg io nm opts {} with
  | inl e =>
    rw [ho] at h
    cases h
    exact Or.inl rfl
  | inr st =>
    rw [ho] at h
    simp only at h
    refine Or.inr ⟨st, optionsOut_inr.mp ho, ?_⟩
    cases hm : resdetGetMethod (st.method.map textOf) with
    | none =>
      rw [hm] at h
      cases h
      exact Or.inl ⟨rfl, rfl, rfl⟩
    | some m =>
      rw [hm] at h
      simp only at h
      refine Or.inr ⟨m, rfl, ?_⟩
      rw [M.bind_eq_some] at h
      obtain ⟨r, w1, h1, h⟩ := h
      rcases r with _ | ⟨block, p0⟩
      · cases h
        exact Or.inl ⟨_, h1, rfl, rfl⟩
      · have hp0 : p0 = defaultParams s.cfg := by
          unfold resdetAllocDefaultParameters at h1
          rw [M.bind_eq_some] at h1
          obtain ⟨r, w2, _, h2⟩ := h1
          cases r with
          | none => cases h2
          | some b => cases h2; rfl
        subst hp0
        refine Or.inr ⟨block, w1, h1, ?_⟩
        simp only at h
        cases hp : cliParamsOut s.cfg v st (defaultParams s.cfg) with
        | inl msg =>
          rw [hp] at h
          simp only [M.bind_eq_some] at h
          obtain ⟨_, _, _, h⟩ := h
          cases h
          exact Or.inl ⟨_, rfl, rfl, rfl⟩
        | inr p =>
          rw [hp] at h
          simp only at h
          refine Or.inr ⟨p, rfl, ?_⟩
          split at h
          · cases h
            exact Or.inl ⟨‹_›, rfl, rfl⟩
          · exact Or.inr ⟨Bool.eq_false_of_not_eq_true ‹_›, h⟩

theorem params_some : cliParamsOut s.cfg v st (defaultParams s.cfg) = .inr p ↔
    (cliThreshold v st.thresholdOpt (defaultParams s.cfg)).bind (fun p => (cliRange s.cfg st.rangeOpt p).bind (cliFilter s.cfg st.filterOpt)) = some p := by
  rw [cliParamsOut_eq]
  cases cliParamsOut s.cfg v st (defaultParams s.cfg) <;> simp

/-- The stage a run came to when the options can be used. -/
theorem cliMainOut_front (hW : Wants s.cfg io v opts input m p) (h : cliMainOut s io v nm fuel opts (some input) w = some ((ex, o), w')) :
    ∃ st p0 g w1, Parsed s.cfg opts st ∧ (st.progress = true ↔ .p ∈ opts) ∧ cliAuto st.filterOpt input p0 = p ∧
      (do match ← resdetAllocDefaultParameters s.cfg with
          | none => pure none
          | some _ => some <$> cliFront s io fuel st input m p0 : M (Option Stage)) w = some (g, w1) ∧
      match g with
      | none => ex = ⟨1, .nothing⟩ ∧ o = ⟨[], cs "Out of memory"⟩
      | some g => Told s v st g ex o := by
  rcases cliMainOut_inv h with h1 | ⟨st, h1, h2⟩
  · exfalso
    rcases options_cases s.cfg io opts with ⟨e, _, h, _⟩ | ⟨st, h2, _⟩
    · exact hW.goes _ h
    · rw [optionsOut_inr.mpr h2] at h1
      cases h1
  obtain ⟨hp⟩ : Nonempty (Parsed s.cfg opts st) := by
    rcases options_cases s.cfg io opts with ⟨e, _, h, _⟩ | ⟨st', h2, hp, _⟩
    · exact absurd h (hW.goes _)
    · rw [h1] at h2
      cases h2
      exact ⟨hp⟩
  have hpr := options_progress h1
  simp only [Bool.false_eq_true, false_or] at hpr
  rw [(method_iff hp).mpr hW.method] at h2
  obtain ⟨p0, hp0, hp1⟩ := (params_iff hp).mpr ⟨hW.threshold, hW.range, hW.filter⟩
  rcases h2 with ⟨h2, _⟩ | ⟨m', h2, h3⟩
  · cases h2
  cases h2
  rcases h3 with ⟨w1, h3, rfl, rfl⟩ | ⟨block, w1, h3, h4⟩
  · exact ⟨st, p0, none, w1, hp, hpr, hp1, by rw [M.bind_some h3]; rfl, rfl, rfl⟩
  rw [params_some.mpr hp0] at h4
  rcases h4 with ⟨_, h4, _⟩ | ⟨p1, h4, h5⟩
  · cases h4
  cases h4
  rcases h5 with ⟨h5, _⟩ | ⟨_, h5⟩
  · exfalso
    rw [hp.type, hp.imageReader] at h5
    rcases hW.one with h | h <;> rw [h] at h5 <;> simp at h5
  · obtain ⟨g, w2, h6, h7⟩ := cliRunOut_inv h5
    refine ⟨st, p0, some g, w2, hp, hpr, hp1, ?_, h7⟩
    rw [M.bind_some h3, ← bind_pure_comp]
    simp only
    rw [M.bind_some h6]
    rfl

variable {F : Prop} {k W H : ℕ} {frames : List (List Fl)}

/-- The stage a run came to on a known image. -/
theorem cli_told {e e0 : RDError} {good : Bool} (hs : Build s) (hw : w.WF) (hW : Wants s.cfg io v opts input m p) (hk : Skips opts k)
    (hx : ∀ st, Parsed s.cfg opts st → ∃ r Ok G G0, Outlook s (opening s io opts input) k W H r Ok F G G0 frames e good e0)
    (hF : good = true → LinesTooBig s.cfg W H → F) (hj : ∀ j, w.sched j = false → F) (hfuel : frames.length < fuel) (hlen : frames.length < s.cfg.sizeMax)
    (h : cliMainOut s io v nm fuel opts (some input) w = some ((ex, o), w')) :
    (F ∧ ex = ⟨1, .nothing⟩ ∧ o = ⟨[], cs "Out of memory"⟩) ∨
    ∃ st g, Parsed s.cfg opts st ∧ st.offset = k ∧ (st.progress = true ↔ .p ∈ opts) ∧ Reached s F st W H m p frames e good e0 g ∧ Told s v st g ex o := by
  obtain ⟨st, p0, g, w1, hp, hpr, hp0, hrun, ht⟩ := cliMainOut_front hW h
  have key : Act False F [] [] (do match ← resdetAllocDefaultParameters s.cfg with
          | none => pure none
          | some _ => some <$> cliFront s io fuel st input m p0 : M (Option Stage))
      (fun g _ _ => match g with
        | none => F
        | some g => Reached s F st W H m p frames e good e0 g) := by
    unfold resdetAllocDefaultParameters
    rw [bind_assoc]
    refine Act.bind Act.malloc ?_
    rintro rb L1 S1 ⟨hS1, ⟨rfl, rfl, hF'⟩ | ⟨b, rfl, rfl⟩⟩ <;> subst S1
    · exact Act.pure hF'
    simp only
    rw [pure_bind]
    simp only
    obtain ⟨r, Ok, G, G0, hx⟩ := hx st hp
    rw [← offset_eq hp hk, ← cliOpen_eq hp] at hx
    rw [← bind_pure_comp]
    refine Act.bind (hx.cliFront_act hs (wantsMethod_mem hW.method) (by rw [hp0]; exact valid_params hs hW) hF hfuel hlen) ?_
    intro g _ _ hg
    rw [hp0] at hg
    exact Act.pure hg
  rcases key w w (Own.init hw hj) with ⟨_, h⟩ | ⟨g', w2, _, _, h1, _, h2⟩
  · exact h.elim
  · rw [hrun] at h1
    cases h1
    cases g with
    | none => exact Or.inl ⟨h2, ht⟩
    | some g => exact Or.inr ⟨st, g, hp, offset_eq hp hk, hpr, h2, ht⟩

end Verif
