import Verif.Proofs.CliTold

/-! # What the command writes to standard output and standard error (C92) -/

namespace Verif.Props

open Spec

variable {s : Sys} {io : Io} {v : CliEnv} {nm : Naming} {opts : List CliOpt} {input : List UInt8} {m : Method} {p : Params} {fuel : ℕ} {w w' : World}
  {W H k : ℕ} {frames sel : List (List Fl)} {e : RDError} {vb : ℤ} {ex : Exit} {o : Output}

theorem erased {α β : Type} (f : M (α × β)) (w : World) : (f w).map (fun x => (x.1.1, x.2)) = (Prod.fst <$> f) w := by
  rw [← bind_pure_comp, M.bind_apply]
  cases f w <;> rfl

/-- **C92** The text is collected without changing anything else: exit status and memory are those of the command without its
text, and undefined behaviour happens in the same runs. -/
theorem C92_same {input : Option (List UInt8)} :
    (cliMainOut s io v nm fuel opts input w).map (fun x => (x.1.1, x.2)) = cliMain s io v fuel opts input w := by
  rw [erased, cliMainOut_fst]

/-- **C92** The same from the words of the command line on. -/
theorem C92_command {permute : Bool} {words : List (List UInt8)} :
    (cliCommandOut s io v nm fuel permute words w).map (fun x => (x.1.1, x.2)) = cliCommand s io v fuel permute words w := by
  unfold cliCommandOut cliCommand
  exact C92_same

/-- **C92** An option that ends the command: what is written. -/
theorem C92_ends {before after : List CliOpt} {x : CliOpt} {code : ℤ} {input : Option (List UInt8)} (hx : EndsAt io before x code)
    (hfirst : ∀ b1 o1 a1 c, before = b1 ++ o1 :: a1 → ¬ EndsAt io b1 o1 c) :
    ∃ shown o, cliMainOut s io v nm fuel (before ++ x :: after) input w = some ((⟨code, shown⟩, o), w) ∧ EndText io nm x o := by
  obtain ⟨shown, o, h1, h2, _⟩ := options_end (nm := nm) (after := after) (c := s.cfg) hx (fun b1 o1 a1 c h => hfirst b1 o1 a1 c h)
  refine ⟨shown, o, ?_, h2⟩
  unfold cliMainOut
  rw [h1]
  rfl

example : EndsAt Demo.io [.v (cs "1")] (.o (cs "x")) 1 ∧ ∀ b1 o1 a1 c, [CliOpt.v (cs "1")] = b1 ++ o1 :: a1 → ¬ EndsAt Demo.io b1 o1 c := by
  refine ⟨.offset (strtou_none.mp (by decide)), ?_⟩
  rintro b1 o1 a1 c h hend
  cases b1 with
  | nil => simp only [List.nil_append, List.cons.injEq] at h; obtain ⟨rfl, _⟩ := h; cases hend
  | cons => simp at h

/-- **C92** No file name: the usage, on standard error. -/
theorem C92_no_file (hg : ∀ code, ¬ Ends io opts code) :
    ∃ rest, cliMainOut s io v nm fuel opts none w = some ((⟨1, .nothing⟩, ⟨[], cs "Usage: " ++ nm.self ++ rest⟩), w) := by
  rcases options_cases s.cfg io opts with ⟨e, _, h, _⟩ | ⟨st, h1, _, _⟩
  · exact absurd h (hg _)
  · obtain ⟨rest, hr⟩ : ∃ rest, usageText nm = cs "Usage: " ++ nm.self ++ rest := ⟨_, by unfold usageText; simp only [List.append_assoc]; rfl⟩
    refine ⟨rest, ?_⟩
    unfold cliMainOut
    rw [optionsOut_inr.mpr h1, ← hr]
    rfl

example : ∀ code, ¬ Ends Demo.io [.m (cs "none")] code := by
  refine Goes.not_ends (fun b1 o1 a1 code h hend => ?_)
  cases b1 with
  | nil => simp only [List.nil_append, List.cons.injEq] at h; obtain ⟨rfl, _⟩ := h; cases hend
  | cons => simp at h

theorem params_complaint {st : CliState} {msg : List UInt8} (hp : Parsed s.cfg opts st) (hm : ∃ m, WantsMethod opts m)
    (h : cliParamsOut s.cfg v st (defaultParams s.cfg) = .inl msg) : Complaint s.cfg v opts input msg := by
  unfold cliParamsOut at h
  cases h1 : cliThreshold v st.thresholdOpt (defaultParams s.cfg) with
  | none =>
    rw [h1] at h
    cases h
    have hn : ∀ t, ¬ WantsThreshold v opts t := by
      intro t ht
      have := (threshold_iff (p := defaultParams s.cfg) hp rfl).mpr ⟨t, ht, rfl⟩
      rw [h1] at this
      cases this
    rw [hp.thresholdOpt]
    cases h2 : last CliOpt.xArg opts with
    | none => exact absurd (Or.inl ⟨h2, rfl⟩) (hn _)
    | some a => exact .threshold hm h2 hn
  | some p1 =>
    rw [h1] at h
    simp only at h
    obtain ⟨t, ht, rfl⟩ := (threshold_iff hp rfl).mp h1
    cases h2 : cliRange s.cfg st.rangeOpt { defaultParams s.cfg with threshold := t } with
    | none =>
      rw [h2] at h
      cases h
      have hn : ∀ r, ¬ WantsRange s.cfg opts r := by
        intro r hr
        have := (range_iff (p := { defaultParams s.cfg with threshold := t }) hp rfl).mpr ⟨r, hr, rfl⟩
        rw [h2] at this
        cases this
      rw [hp.rangeOpt]
      cases h3 : last CliOpt.rangeArg opts with
      | none => exact absurd (Or.inl ⟨h3, rfl⟩) (hn _)
      | some a => exact .range hm ⟨t, ht⟩ h3 hn
    | some p2 =>
      rw [h2] at h
      simp only at h
      obtain ⟨r, hr, rfl⟩ := (range_iff hp rfl).mp h2
      cases h3 : cliFilter s.cfg st.filterOpt { defaultParams s.cfg with threshold := t, range := r } with
      | some p3 => rw [h3] at h; cases h
      | none =>
        rw [h3] at h
        cases h
        have hn : ∀ k, ¬ WantsFilter s.cfg opts input k := by
          intro k hk
          obtain ⟨p1, h4, _⟩ := (filter_iff (p := { defaultParams s.cfg with threshold := t, range := r }) hp rfl).mpr ⟨k, hk, rfl⟩
          rw [h3] at h4
          cases h4
        rw [hp.filterOpt]
        cases h4 : last CliOpt.fArg opts with
        | none => exact absurd (Or.inl ⟨h4, rfl⟩) (hn 0)
        | some a => exact .filter hm ⟨t, ht⟩ ⟨r, hr⟩ h4 hn

theorem malloc_fails {w1 : World} (h : resdetAllocDefaultParameters s.cfg w = some (none, w1)) : ¬ Plenty w := by
  intro hpl
  unfold resdetAllocDefaultParameters at h
  rw [M.bind_eq_some] at h
  obtain ⟨r, w2, h1, h2⟩ := h
  unfold malloc at h1
  rw [if_pos (hpl _)] at h1
  cases h1
  cases h2

/-- **C92** Options that cannot be used: the first problem is reported, unless memory runs out before. -/
theorem C92_unusable (hg : ∀ code, ¬ Ends io opts code) (hn : ∀ m p, ¬ Wants s.cfg io v opts input m p)
    (h : cliMainOut s io v nm fuel opts (some input) w = some ((ex, o), w')) :
    ex = ⟨1, .nothing⟩ ∧ o.out = [] ∧ (Complaint s.cfg v opts input o.err ∨ ¬ Plenty w ∧ o.err = cs "Out of memory") := by
  rcases options_cases s.cfg io opts with ⟨e, _, h, _⟩ | ⟨st, h1, hp, _⟩
  · exact absurd h (hg _)
  rcases cliMainOut_inv h with h2 | ⟨st', h2, h3⟩
  · rw [optionsOut_inr.mpr h1] at h2
    cases h2
  rw [h1] at h2
  cases h2
  rcases h3 with ⟨h3, rfl, rfl⟩ | ⟨m, h3, h4⟩
  · refine ⟨rfl, rfl, Or.inl ?_⟩
    have hnm : ∀ m, ¬ WantsMethod opts m := fun m hm => by
      rw [(method_iff hp).mpr hm] at h3
      cases h3
    rw [hp.method]
    cases h4 : last CliOpt.mArg opts with
    | none => exact absurd (Or.inl ⟨h4, rfl⟩) (hnm _)
    | some a =>
      simp only [Option.getD_some]
      rw [List.append_assoc, show cs "\"\nAvailable methods:\n" ++ (methods.map (fun m => cs m.name ++ [ch '\n'])).flatten =
        cs "\"\nAvailable methods:\nsign\nmag\norig\nzerox\n" by decide +kernel]
      exact .method h4 hnm
  have hm : WantsMethod opts m := (method_iff hp).mp h3
  rcases h4 with ⟨w1, h4, rfl, rfl⟩ | ⟨block, w1, h4, h5⟩
  · exact ⟨rfl, rfl, Or.inr ⟨malloc_fails h4, rfl⟩⟩
  rcases h5 with ⟨msg, h5, rfl, rfl⟩ | ⟨p, h5, h6⟩
  · exact ⟨rfl, rfl, Or.inl (params_complaint hp ⟨m, hm⟩ h5)⟩
  have hq := (params_iff (v := v) (input := input) hp).mp ⟨p, params_some.mp h5, rfl⟩
  rw [hp.type, hp.imageReader] at h6
  rcases h6 with ⟨h6, rfl, rfl⟩ | ⟨h6, _⟩
  · rw [Bool.and_eq_true] at h6
    refine ⟨rfl, rfl, Or.inl (.both ⟨m, hm⟩ ⟨_, hq.1⟩ ⟨_, hq.2.1⟩ ⟨_, hq.2.2⟩ ?_ ?_)⟩
    · intro h; rw [h] at h6; simp at h6
    · intro h; rw [h] at h6; simp at h6
  · exfalso
    refine hn m _ ⟨hg, hm, hq.1, hq.2.1, hq.2.2, ?_⟩
    cases h7 : last CliOpt.tArg opts with
    | none => exact Or.inl rfl
    | some _ =>
      cases h8 : last CliOpt.rArg opts with
      | none => exact Or.inr rfl
      | some _ => rw [h7, h8] at h6; cases h6

/-- A run that comes to the image, or ends before. -/
theorem cliMainOut_parts {input : Option (List UInt8)} (h : cliMainOut s io v nm fuel opts input w = some ((ex, o), w')) :
    ((ex.shown = .info ∨ ex.shown = .nothing ∧ o.out = []) ∧ ∃ before x, EndsAt io before x ex.code ∧ EndText io nm x o) ∨
    (ex = ⟨1, .nothing⟩ ∧ o.out = [] ∧ o.err ≠ []) ∨
    ∃ st g, Parsed s.cfg opts st ∧ (st.progress = true ↔ .p ∈ opts) ∧ Told s v st g ex o ∧
      ∀ e ct calls lines, st.progress = false → g = .looped e ct calls lines → lines = [] := by
  rcases options_cases s.cfg io opts with ⟨e, h1, ⟨before, x, after, rfl, hx, hfirst⟩, h2⟩ | ⟨st, h1, hp, hgo⟩
  · left
    obtain ⟨shown, o', h3, h4, h5⟩ := options_end (nm := nm) (after := after) (c := s.cfg) hx hfirst
    unfold cliMainOut at h
    rw [h3] at h
    cases h
    exact ⟨h5, before, x, hx, h4⟩
  · right
    cases input with
    | none =>
      obtain ⟨rest, h2⟩ := C92_no_file (s := s) (v := v) (nm := nm) (fuel := fuel) (w := w) hgo.not_ends
      rw [h] at h2
      cases h2
      exact Or.inl ⟨rfl, rfl, by simp [cs]⟩
    | some input =>
      rcases cliMainOut_inv h with h2 | ⟨st', h2, h3⟩
      · rw [optionsOut_inr.mpr h1] at h2
        cases h2
      rw [h1] at h2
      cases h2
      have hpr := options_progress h1
      simp only [Bool.false_eq_true, false_or] at hpr
      rcases h3 with ⟨h3, rfl, rfl⟩ | ⟨m, h3, ⟨w1, h4, rfl, rfl⟩ | ⟨block, w1, h4, ⟨msg, h5, rfl, rfl⟩ | ⟨p, h5, ⟨h6, rfl, rfl⟩ | ⟨h6, h7⟩⟩⟩⟩
      · exact Or.inl ⟨rfl, rfl, by simp [cs]⟩
      · exact Or.inl ⟨rfl, rfl, by simp [cs]⟩
      · refine Or.inl ⟨rfl, rfl, ?_⟩
        cases params_complaint (input := input) hp ⟨m, (method_iff hp).mp h3⟩ h5 <;> simp [cs]
      · exact Or.inl ⟨rfl, rfl, by simp [cs]⟩
      · obtain ⟨g, w2, h9, h8⟩ := cliRunOut_inv h7
        exact Or.inr ⟨st, g, hp, hpr, h8, fun e ct calls lines h0 hg => cliFront_silent h0 (hg ▸ h9)⟩

/-- **C92** What appears on standard output is the text for what is shown (C79), except for `-h`, `-V` and `-R list`. -/
theorem C92_stdout {input : Option (List UInt8)} (h : cliMainOut s io v nm fuel opts input w = some ((ex, o), w')) (hi : ex.shown ≠ .info) :
    o.out = cliText ex.shown := by
  rcases cliMainOut_parts h with ⟨h1 | ⟨h1, h2⟩, _⟩ | ⟨rfl, h2, _⟩ | ⟨st, g, _, _, ht, _⟩
  · exact absurd h1 hi
  · rw [h1, h2]; rfl
  · rw [h2]; rfl
  · cases ht <;> rfl

/-- **C92** Without `-p`, a command that succeeds writes nothing to standard error. -/
theorem C92_quiet {input : Option (List UInt8)} (h : cliMainOut s io v nm fuel opts input w = some ((ex, o), w')) (h0 : ex.code = 0) (hp : .p ∉ opts) :
    o.err = [] := by
  rcases cliMainOut_parts h with ⟨_, before, x, h1, h2⟩ | ⟨rfl, _⟩ | ⟨st, g, _, hpr, ht, hl⟩
  · rw [h0] at h1
    cases h1 with
    | help => cases h2; rfl
    | version => cases h2; rfl
    | readers _ _ hq =>
      cases h2 with
      | readers => rfl
      | reader h' => exact absurd hq h'
  · cases h0
  · have hpr : st.progress = false := by
      rw [Bool.eq_false_iff]
      exact fun h => hp (hpr.mp h)
    cases ht with
    | done _ _ _ =>
      rw [hl _ _ _ _ hpr rfl]
      simp [soughtText, seekText, endLine, hpr]
    | _ => cases h0

/-- **C92** A command that fails says why, unless the exit status is the answer asked for with `-v 0`. -/
theorem C92_explained {input : Option (List UInt8)} (hs : Build s) (hv : Verbosity s.cfg opts vb) (h0 : vb ≠ 0)
    (h : cliMainOut s io v nm fuel opts input w = some ((ex, o), w')) (hc : ex.code ≠ 0) : o.err ≠ [] := by
  rcases cliMainOut_parts h with ⟨_, before, x, h1, h2⟩ | ⟨rfl, _, h2⟩ | ⟨st, g, hp, hpr, ht, _⟩
  · generalize hcode : ex.code = code at h1 hc
    cases h1 with
    | reader _ _ hq =>
      cases h2 with
      | readers => exact absurd rfl hq
      | reader => simp [cs]
    | offset => cases h2; simp [cs]
    | count => cases h2; simp [cs]
    | unknown =>
      cases h2 with
      | unknown hq =>
        obtain ⟨rest, rfl⟩ := hq
        simp [cs]
    | _ => exact absurd rfl hc
  · exact h2
  · cases ht with
    | done _ h1 _ =>
      rcases h1 with h1 | ⟨h1, _⟩
      · exact absurd h1 hc
      · rw [verbosity_eq hs.wf hp hv] at h1
        exact absurd h1 h0
    | unopened _ ht => obtain ⟨msg, _, rfl⟩ := ht; simp
    | unsought _ _ ht => obtain ⟨msg, _, rfl⟩ := ht; simp
    | uncreated _ ht => obtain ⟨msg, _, rfl⟩ := ht; simp
    | stopped _ ht => obtain ⟨msg, _, rfl⟩ := ht; simp
    | passed => simp [cs]
    | empty => simp [cs]

theorem seekText_eq {st : CliState} {j : ℕ} {calls : List ℕ} (hpr : st.progress = true ↔ .p ∈ opts)
    (hc : st.progress = true → calls = (List.range j).map (· + 1)) : seekText st calls = if .p ∈ opts then skippedLines j else [] := by
  unfold seekText
  by_cases h : st.progress = true
  · rw [if_pos h, if_pos (hpr.mp h), hc h]
    unfold skippedLines
    rw [List.map_map]
    congr 2
    funext j
    simp only [Function.comp_apply, seekLine, printZu_text]
    rfl
  · rw [if_neg h, if_neg (fun h' => h (hpr.mpr h'))]

theorem soughtText_eq {st : CliState} {calls : List ℕ} (hk : st.offset = k) (hpr : st.progress = true ↔ .p ∈ opts)
    (hc : st.progress = true → calls = (List.range st.offset).map (· + 1)) :
    soughtText st calls = if .p ∈ opts then (if k = 0 then [] else skippedLines k ++ cs "\n") else [] := by
  subst hk
  unfold soughtText
  rw [seekText_eq hpr hc]
  unfold endLine
  by_cases h : st.progress = true
  · rw [if_pos h, if_pos (hpr.mp h), if_pos (hpr.mp h)]
    rfl
  · have h' : .p ∉ opts := fun h' => h (hpr.mpr h')
    rw [if_neg h, if_neg h', if_neg h']
    simp

theorem progress_eq {st : CliState} {calls : List ℕ} {n : ℕ} (hk : st.offset = k) (hpr : st.progress = true ↔ .p ∈ opts)
    (hc : st.progress = true → calls = (List.range st.offset).map (· + 1)) :
    soughtText st calls ++ analyzeText st 1 n ++ endLine st = if .p ∈ opts then progressText k n else [] := by
  rw [soughtText_eq hk hpr hc]
  unfold analyzeText endLine
  by_cases h : st.progress = true
  · rw [if_pos h, if_pos h, if_pos (hpr.mp h), if_pos (hpr.mp h)]
    unfold progressText
    congr 4
    funext j
    simp only [analyzeLine, printZu_text, hk]
    rw [show 1 + j + k = k + j + 1 by omega]
    rfl
  · have h' : .p ∉ opts := fun h' => h (hpr.mpr h')
    rw [if_neg h, if_neg h, if_neg h', if_neg h']
    rfl

theorem selected {c : Cfg} {st : CliState} (hst : Parsed c opts st) (hsel : Selects opts frames sel) :
    (if st.nframes = 0 then frames else frames.take (st.nframes + 1 - 1)) = sel := by
  rcases hst.nframes with ⟨h1, h2⟩ | ⟨a, h1, h2, h3⟩
  · rw [if_pos h2]
    rcases hsel with ⟨_, h4⟩ | ⟨n, ⟨b, h4, _⟩, _⟩
    · exact h4.symm
    · rw [h1] at h4; cases h4
  · rw [if_neg h3]
    rcases hsel with ⟨h4, _⟩ | ⟨n, ⟨b, h4, h5⟩, h6⟩
    · rw [h1] at h4; cases h4
    · rw [h1] at h4; cases h4
      rw [h6, counts_unique h5 h2, Nat.add_sub_cancel]

theorem selected_le {c : Cfg} {st : CliState} (hst : Parsed c opts st) (hsel : Selects opts frames sel) : sel.length ≤ frames.length := by
  rw [← selected hst hsel]
  split
  · exact le_rfl
  · exact List.length_take_le' _ _

theorem fed_length {e : RDError} {ev : List (Call × Obs)} (h : Fed frames e ev) (he : e = RDEOK) : ev.length = frames.length := by
  induction h with
  | done => rfl
  | refused _ _ _ _ h => exact absurd he h
  | next _ _ _ _ _ _ ih => rw [List.length_cons, List.length_cons, ih he]

theorem allFinite_iff {f : List Fl} {n : ℕ} : AllFinite f n ↔ (f.take n).all Fl.isfinite = true := by
  rw [List.all_eq_true]
  rfl

/-- The frames fed, unless memory ran out. -/
theorem fed_handed (hs : Build s) {m : Option Method} (hm : ValidMethod? m) {p : Option Params} (hp : ValidParams? s.cfg p)
    {ev : List (Call × Obs)} {a : Analysis} (hr : Reach s m W H p ev a) (hf : Fed frames e ev) (he : e ≠ RDENOMEM) : ev.length = handed W H frames := by
  have key := fun c e f => reach_frame hs hm hp hr (c := c) (e := e) (f := f)
  clear hr
  unfold handed
  induction hf with
  | done => rfl
  | refused f fs e w h =>
    rcases key _ _ f List.mem_cons_self rfl with h' | ⟨h', _⟩ | ⟨_, h'⟩
    · exact absurd h' he
    · exact absurd h' h
    · rw [allFinite_iff] at h'
      rw [List.takeWhile_cons_of_neg (by simpa using h'), List.length_singleton]
      simp
  | next f fs e ev w _ ih =>
    have ih := ih he (fun c e f hc ho => key c e f (List.mem_cons_of_mem _ hc) ho)
    rcases key _ _ f List.mem_cons_self rfl with h' | ⟨_, h'⟩ | ⟨h', _⟩
    · exact absurd h' (by decide)
    · rw [allFinite_iff] at h'
      rw [List.takeWhile_cons_of_pos (by simpa using h'), List.length_cons, List.length_cons, List.length_cons, ih]
      omega
    · exact absurd h' (by decide)

theorem handed_all (h : frameError W H frames = RDEOK) : handed W H frames = frames.length := by
  unfold handed
  have h : ∀ f ∈ frames, ∀ v ∈ f.take (W * H), v.isfinite = true := by
    by_contra hh
    unfold frameError at h
    rw [if_neg hh] at h
    cases h
  rw [List.takeWhile_eq_self_iff.mpr (fun f hf => allFinite_iff.mp (h f hf))]
  omega

/-- The text of a run that succeeds. -/
theorem told_progress {F : Prop} {e0 : RDError} {st : CliState} {g : Stage} (hst : Parsed s.cfg opts st) (hk : st.offset = k)
    (hpr : st.progress = true ↔ .p ∈ opts) (hsel : Selects opts frames sel)
    (hg : Reached s F st W H m p frames e true e0 g) (ht : Told s v st g ex o) (h0 : ex.code = 0 ∨ ex.shown ≠ .nothing) :
    o.err = progressTold opts k sel.length := by
  cases ht with
  | done hct _ _ =>
    obtain ⟨_, ⟨ev, a, _, ⟨e1, h1, h2, h3, _⟩, rfl⟩, hc⟩ := hg
    have he1 : e1 = 0 := by
      by_contra h
      exact h (h2 h).1.1.symm
    rw [selected hst hsel] at h1
    rw [fed_length h1 he1]
    exact progress_eq hk hpr hc
  | _ =>
    rcases h0 with h0 | h0
    · cases h0
    · exact absurd rfl h0

/-- **C92** With `-p`, a command that succeeds has reported every frame it skipped and every frame it analysed, in order and by
its number in the file; without, it has written nothing to standard error. -/
theorem C92_progress (hio : Inbuilt s io (opening s io opts input)) (hs : Build s) (hw : w.WF) (hW : Wants s.cfg io v opts input m p)
    (hk : Skips opts k) (hy : YieldsAfter (opening s io opts input) k W H frames e) (hsel : Selects opts frames sel) (hfuel : frames.length < fuel)
    (hlen : frames.length < s.cfg.sizeMax) (h : cliMainOut s io v nm fuel opts (some input) w = some ((ex, o), w'))
    (h0 : ex.code = 0 ∨ ex.shown ≠ .nothing) :
    o.err = progressTold opts k sel.length := by
  rcases cli_told (F := True) (e0 := RDEOK) (good := true) hs hw hW hk (fun st hst => by
      obtain ⟨name, r, Ok, x, out, hx, hout, hfr⟩ := window_of_yields hio hst hy
      have := hx.outlook (F := True) (fun _ => hfr)
      rw [hout] at this
      exact ⟨_, _, _, _, this.start_good⟩) (fun _ _ => trivial) (fun _ _ => trivial) hfuel hlen h with
    ⟨_, rfl, _⟩ | ⟨st, g, hst, hoff, hpr, hg, ht⟩
  · rcases h0 with h0 | h0
    · cases h0
    · exact absurd rfl h0
  · exact told_progress hst hoff hpr hsel hg ht h0

/-- **C92** The same for every reader. -/
theorem C92_readers (hs : Build s) (hw : w.WF) (hpl : Plenty w) (hsc : ¬ HugeScores s W H) (hW : Wants s.cfg io v opts input m p)
    (hk : Skips opts k) (hy : Presents s io (opening s io opts input) k W H frames) (hsel : Selects opts frames sel)
    (hfuel : frames.length < fuel) (hlen : frames.length < s.cfg.sizeMax)
    (h : cliMainOut s io v nm fuel opts (some input) w = some ((ex, o), w')) (h0 : ex.code = 0 ∨ ex.shown ≠ .nothing) :
    o.err = progressTold opts k sel.length := by
  rcases cli_told (F := False) hs hw hW hk (fun _ _ => hy.reveals)
      (by
        rintro - (h | h)
        · exact hsc ⟨W, Or.inl rfl, h⟩
        · exact hsc ⟨H, Or.inr rfl, h⟩)
      (fun j hj => by rw [hpl j] at hj; cases hj) hfuel hlen h with ⟨h, _⟩ | ⟨st, g, hst, hoff, hpr, hg, ht⟩
  · exact h.elim
  · exact told_progress hst hoff hpr hsel hg ht h0

theorem created_expected {oa : Option Analysis} {e' : RDError} {L L' : List ℕ} {m : Option Method} {p : Option Params} (hc : Created s False L m W H p (oa, e') L')
    (he : e' ≠ 0) : expected s W H = e' := by
  unfold expected
  generalize hv : (oa, e') = r at hc
  cases hc with
  | zero h => cases hv; rw [if_pos h]
  | toobig h1 h2 h3 =>
    cases hv
    rw [if_neg (by omega), if_pos]
    rcases h3 with h3 | h3 | h3
    · unfold Fits at h3; omega
    · exact Or.inr (Or.inr (Or.inl h3))
    · exact Or.inr (Or.inr (Or.inr h3))
  | internal h1 h2 h3 h4 h5 h6 h7 =>
    cases hv
    rw [if_neg (by omega), if_neg, if_pos ⟨h6, h7⟩]
    unfold Fits at h3; omega
  | nomem _ h _ => exact h.elim
  | ok => cases hv; exact absurd rfl he

/-- A run on a known image, with memory: the analysis cannot be created, or the loop has come to an end. -/
theorem told_loop (hio : Inbuilt s io (opening s io opts input)) (hs : Build s) (hw : w.WF) (hpl : Plenty w) (hsc : ¬ HugeScores s W H)
    (hW : Wants s.cfg io v opts input m p) (hk : Skips opts k) (hy : YieldsAfter (opening s io opts input) k W H frames e) (hsel : Selects opts frames sel)
    (hfuel : frames.length < fuel) (hlen : frames.length < s.cfg.sizeMax) (h : cliMainOut s io v nm fuel opts (some input) w = some ((ex, o), w')) :
    (expected s W H ≠ RDEOK ∧ FailsWith s v (expected s W H) (skippingTold opts k) ex o) ∨
    (expected s W H = RDEOK ∧ ∃ st e' ct calls, Told s v st (.looped e' ct calls (analyzeText st 1 (handed W H sel))) ex o ∧
      soughtText st calls = skippingTold opts k ∧ soughtText st calls ++ analyzeText st 1 (handed W H sel) ++ endLine st = progressTold opts k (handed W H sel) ∧
      (frameError W H sel ≠ RDEOK → e' = frameError W H sel) ∧
      (frameError W H sel = RDEOK → ct = 1 + sel.length ∧
        (e' = RDEOK ∧ (e = RDEOK ∨ ∃ n, Limits opts n ∧ n ≤ frames.length) ∨ e' = e ∧ ¬ ∃ n, Limits opts n ∧ n ≤ frames.length))) := by
  rcases cli_told (F := False) (e0 := RDEOK) (good := true) hs hw hW hk (fun st hst => by
      obtain ⟨name, r, Ok, x, out, hx, hout, hfr⟩ := window_of_yields hio hst hy
      have := hx.outlook (F := False) (fun _ => hfr)
      rw [hout] at this
      exact ⟨_, _, _, _, this.start_good⟩)
      (by
        rintro - (h | h)
        · exact hsc ⟨W, Or.inl rfl, h⟩
        · exact hsc ⟨H, Or.inr rfl, h⟩)
      (fun j hj => by rw [hpl j] at hj; cases hj) hfuel hlen h with
    ⟨h, _⟩ | ⟨st, g, hst, hoff, hpr, hg, ht⟩
  · exact h.elim
  have looped : ∀ {e' : RDError} {ct : ℕ} {calls : List ℕ} {lines : List UInt8}, Reached s False st W H m p frames e true RDEOK (.looped e' ct calls lines) →
      Told s v st (.looped e' ct calls lines) ex o → expected s W H = RDEOK ∧ ∃ st e' ct calls, Told s v st (.looped e' ct calls (analyzeText st 1 (handed W H sel))) ex o ∧
      soughtText st calls = skippingTold opts k ∧ soughtText st calls ++ analyzeText st 1 (handed W H sel) ++ endLine st = progressTold opts k (handed W H sel) ∧
      (frameError W H sel ≠ RDEOK → e' = frameError W H sel) ∧
      (frameError W H sel = RDEOK → ct = 1 + sel.length ∧
        (e' = RDEOK ∧ (e = RDEOK ∨ ∃ n, Limits opts n ∧ n ≤ frames.length) ∨ e' = e ∧ ¬ ∃ n, Limits opts n ∧ n ≤ frames.length)) := by
    rintro e' ct calls lines ⟨_, ⟨ev, a, hr, ⟨e1, h1, h2, h3, _⟩, rfl⟩, hc⟩ ht
    have hm' : ValidMethod? (some m) := fun x hx => by cases hx; exact wantsMethod_mem hW.method
    have hp' := valid_params hs hW
    rw [selected hst hsel] at h1 h3
    have hne : e1 ≠ RDENOMEM := fun h => (h2 (by rw [h]; decide)).2 h
    have hfe : e1 = frameError W H sel := (fed_code hs hm' hp' hr h1).resolve_left hne
    rw [fed_handed hs hm' hp' hr h1 hne] at ht
    refine ⟨reach_expected hs hm' hp' hr, st, e', ct, calls, ht, soughtText_eq hoff hpr hc, progress_eq hoff hpr hc, fun h => ?_, fun h => ?_⟩
    · rw [← hfe] at h ⊢
      exact (h2 h).1.1
    · rw [h] at hfe
      obtain ⟨h4, h5⟩ := h3 hfe
      refine ⟨h4, ?_⟩
      have hlim : (st.nframes ≠ 0 ∧ st.nframes + 1 - 1 ≤ frames.length) ↔ ∃ n, Limits opts n ∧ n ≤ frames.length := by
        rw [Nat.add_sub_cancel]
        rcases hst.nframes with ⟨h1, h2⟩ | ⟨a, h1, h2, h3⟩
        · constructor
          · rintro ⟨h3, _⟩; exact absurd h2 h3
          · rintro ⟨n, ⟨b, h5, _⟩, _⟩; rw [h1] at h5; cases h5
        · constructor
          · rintro ⟨_, h7⟩; exact ⟨_, ⟨a, h1, h2⟩, h7⟩
          · rintro ⟨n, ⟨b, h5, h6⟩, h7⟩
            rw [h1] at h5; cases h5
            rw [counts_unique h6 h2] at h7
            exact ⟨h3, h7⟩
      by_cases hq : ∃ n, Limits opts n ∧ n ≤ frames.length
      · rw [if_pos (hlim.mpr hq)] at h5
        exact Or.inl ⟨h5, Or.inr hq⟩
      · rw [if_neg (fun h => hq (hlim.mp h))] at h5
        exact Or.inr ⟨h5, hq⟩
  cases hgs : g with
  | unopened => subst hgs; exact hg.elim
  | unsought => subst hgs; rcases hg.1 with h | ⟨h, _⟩; exacts [h.elim, by cases h]
  | uncreated e' calls =>
    subst hgs
    cases ht with
    | uncreated hne hm =>
    obtain ⟨_, ⟨L, L', hc⟩, hcalls⟩ := hg
    rw [created_expected hc hne]
    obtain ⟨msg, h8, rfl⟩ := hm
    exact Or.inl ⟨hne, rfl, msg, h8, by rw [soughtText_eq hoff hpr hcalls, List.append_assoc]; rfl⟩
  | looped => subst hgs; exact Or.inr (looped hg ht)

/-- **C92** The size is not acceptable: the command gives the reason, after skipping frames. -/
theorem C92_size (hio : Inbuilt s io (opening s io opts input)) (hs : Build s) (hw : w.WF) (hpl : Plenty w) (hsc : ¬ HugeScores s W H)
    (hW : Wants s.cfg io v opts input m p) (hk : Skips opts k) (hy : YieldsAfter (opening s io opts input) k W H frames e)
    (hfuel : frames.length < fuel) (hlen : frames.length < s.cfg.sizeMax) (hbad : expected s W H ≠ RDEOK)
    (h : cliMainOut s io v nm fuel opts (some input) w = some ((ex, o), w')) : FailsWith s v (expected s W H) (skippingTold opts k) ex o := by
  obtain ⟨sel, hsel⟩ : ∃ sel, Selects opts frames sel := by
    obtain ⟨st, hst⟩ : ∃ st, Parsed s.cfg opts st := by
      rcases options_cases s.cfg io opts with ⟨e, _, h, _⟩ | ⟨st, _, hp, _⟩
      · exact absurd h (hW.goes _)
      · exact ⟨st, hp⟩
    rcases hst.nframes with ⟨h1, _⟩ | ⟨a, h1, h2, _⟩
    · exact ⟨_, Or.inl ⟨h1, rfl⟩⟩
    · exact ⟨_, Or.inr ⟨_, ⟨a, h1, h2⟩, rfl⟩⟩
  rcases told_loop hio hs hw hpl hsc hW hk hy hsel hfuel hlen h with ⟨_, h⟩ | ⟨h, _⟩
  · exact h
  · exact absurd h hbad

/-- **C92** A sample is infinite or not a number: the image is invalid, and the frame with that sample is the last one reported. -/
theorem C92_sample (hio : Inbuilt s io (opening s io opts input)) (hs : Build s) (hw : w.WF) (hpl : Plenty w) (hsc : ¬ HugeScores s W H)
    (hW : Wants s.cfg io v opts input m p) (hk : Skips opts k) (hy : YieldsAfter (opening s io opts input) k W H frames e) (hsel : Selects opts frames sel)
    (hfuel : frames.length < fuel) (hlen : frames.length < s.cfg.sizeMax) (hsize : expected s W H = RDEOK) (hbad : frameError W H sel ≠ RDEOK)
    (h : cliMainOut s io v nm fuel opts (some input) w = some ((ex, o), w')) : FailsWith s v RDEINVAL (progressTold opts k (handed W H sel)) ex o := by
  rcases told_loop hio hs hw hpl hsc hW hk hy hsel hfuel hlen h with ⟨h, _⟩ | ⟨_, st, e', ct, calls, ht, ht1, ht2, h1, _⟩
  · exact absurd hsize h
  have h1 := h1 hbad
  rw [← h1] at hbad
  have h2 : e' = RDEINVAL := by
    rw [h1]
    rw [h1] at hbad
    unfold frameError at hbad ⊢
    split
    · rename_i h; rw [if_pos h] at hbad; exact absurd rfl hbad
    · rfl
  cases ht with
  | empty => exact absurd rfl hbad
  | done => exact absurd rfl hbad
  | stopped h3 hm =>
    rcases h3 with ⟨_, rfl⟩ | ⟨h3, _⟩
    · obtain ⟨msg, h8, rfl⟩ := hm
      rw [h2] at h8
      exact ⟨rfl, msg, h8, by rw [← ht2]; simp only [List.append_assoc]; rfl⟩
    · exact absurd h3 hbad

/-- **C92** Reading fails before there are as many frames as asked for: every frame before is reported, then the error. -/
theorem C92_torn (hio : Inbuilt s io (opening s io opts input)) (hs : Build s) (hw : w.WF) (hpl : Plenty w) (hsc : ¬ HugeScores s W H)
    (hW : Wants s.cfg io v opts input m p) (hk : Skips opts k) (hy : YieldsAfter (opening s io opts input) k W H frames e)
    (hfuel : frames.length < fuel) (hlen : frames.length < s.cfg.sizeMax) (hsize : expected s W H = RDEOK) (hfin : frameError W H frames = RDEOK)
    (he : e ≠ RDEOK) (hlim : ¬ ∃ n, Limits opts n ∧ n ≤ frames.length)
    (h : cliMainOut s io v nm fuel opts (some input) w = some ((ex, o), w')) : FailsWith s v e (progressTold opts k frames.length) ex o := by
  have hsel : Selects opts frames frames := by
    obtain ⟨st, hst⟩ : ∃ st, Parsed s.cfg opts st := by
      rcases options_cases s.cfg io opts with ⟨e, _, h, _⟩ | ⟨st, _, hp, _⟩
      · exact absurd h (hW.goes _)
      · exact ⟨st, hp⟩
    rcases hst.nframes with ⟨h1, _⟩ | ⟨a, h1, h2, _⟩
    · exact Or.inl ⟨h1, rfl⟩
    · have : Limits opts st.nframes := ⟨a, h1, h2⟩
      refine Or.inr ⟨_, this, (List.take_of_length_le ?_).symm⟩
      by_contra hh
      exact hlim ⟨_, this, by omega⟩
  rcases told_loop hio hs hw hpl hsc hW hk hy hsel hfuel hlen h with ⟨h, _⟩ | ⟨_, st, e', ct, calls, ht, ht1, ht2, _, h1⟩
  · exact absurd hsize h
  rw [handed_all hfin] at ht ht2
  obtain ⟨_, ⟨_, h2 | h2⟩ | ⟨rfl, _⟩⟩ := h1 hfin
  · exact absurd h2 he
  · exact absurd h2 hlim
  cases ht with
  | empty => exact absurd rfl he
  | done => exact absurd rfl he
  | stopped h3 hm =>
    rcases h3 with ⟨_, rfl⟩ | ⟨h3, _⟩
    · obtain ⟨msg, h8, rfl⟩ := hm
      exact ⟨rfl, msg, h8, by rw [← ht2]; simp only [List.append_assoc]; rfl⟩
    · exact absurd h3 he

/-- **C92** There are no frames left after skipping: the command says so, and exits with 1. -/
theorem C92_empty (hio : Inbuilt s io (opening s io opts input)) (hs : Build s) (hw : w.WF) (hpl : Plenty w) (hsc : ¬ HugeScores s W H)
    (hW : Wants s.cfg io v opts input m p) (hk : Skips opts k) (hy : YieldsAfter (opening s io opts input) k W H [] RDEOK) (hfuel : 0 < fuel)
    (hsize : expected s W H = RDEOK) (h : cliMainOut s io v nm fuel opts (some input) w = some ((ex, o), w')) :
    ex = ⟨1, .nothing⟩ ∧ o = ⟨[], skippingTold opts k ++ cs "No frames left in input.\n"⟩ := by
  have hsel : Selects opts ([] : List (List Fl)) [] := by
    obtain ⟨st, hst⟩ : ∃ st, Parsed s.cfg opts st := by
      rcases options_cases s.cfg io opts with ⟨e, _, h, _⟩ | ⟨st, _, hp, _⟩
      · exact absurd h (hW.goes _)
      · exact ⟨st, hp⟩
    rcases hst.nframes with ⟨h1, _⟩ | ⟨a, h1, h2, _⟩
    · exact Or.inl ⟨h1, rfl⟩
    · exact Or.inr ⟨_, ⟨a, h1, h2⟩, by simp⟩
  rcases told_loop hio hs hw hpl hsc hW hk hy hsel hfuel (hs.wf.pixel_pos.trans_le hs.wf.pixel_le) h with
    ⟨h, _⟩ | ⟨_, st, e', ct, calls, ht, ht1, _, _, h1⟩
  · exact absurd hsize h
  obtain ⟨h2, h3⟩ := h1 (by simp [frameError])
  have h3 : e' = 0 := by
    rcases h3 with ⟨h, _⟩ | ⟨h, _⟩ <;> exact h
  subst h3
  cases h2
  cases ht with
  | empty => exact ⟨rfl, by rw [ht1]; simp [handed, analyzeText]⟩
  | stopped h4 _ =>
    rcases h4 with ⟨h4, _⟩ | ⟨_, h4, _⟩
    · exact absurd rfl h4
    · exact absurd rfl h4
  | done h4 _ _ => exact absurd rfl h4

/-- A run on an image in which `k` frames cannot be skipped, with memory. -/
theorem told_seek (hio : Inbuilt s io (opening s io opts input)) (hs : Build s) (hw : w.WF) (hpl : Plenty w) (hW : Wants s.cfg io v opts input m p)
    (hk : Skips opts k) (h0 : k ≠ 0) (hy : CannotSkip (opening s io opts input) k e) (hfuel : 0 < fuel)
    (h : cliMainOut s io v nm fuel opts (some input) w = some ((ex, o), w')) :
    ∃ st calls, Told s v st (.unsought e calls) ex o ∧ st.offset = k ∧ ∃ j < k, seekText st calls = if .p ∈ opts then skippedLines j else [] := by
  obtain ⟨st0, hst0⟩ : ∃ st, Parsed s.cfg opts st := by
    rcases options_cases s.cfg io opts with ⟨e, _, h, _⟩ | ⟨st, _, hp, _⟩
    · exact absurd h (hW.goes _)
    · exact ⟨st, hp⟩
  have hu := hio.usable
  rw [← cliOpen_eq hst0] at hy hu
  obtain ⟨i, W, H, buf, w1, h1, calls, i', buf', w2, h2⟩ := hy w hw hpl
  obtain ⟨name, r, Ok, hb, hop⟩ := cliOpen_with hu hw h1 rfl
  obtain ⟨x, out, y, o1, o2, hx, e1, e2, e3⟩ := window_of_session hb hop (k := k) (ops := []) hw hpl h1 (by rw [if_neg h0]; exact h2)
  cases e3
  rw [if_neg h0] at e2
  obtain ⟨calls', rfl⟩ := e2
  simp only [List.append_nil, List.cons.injEq, IObs.seek.injEq, and_true] at e1
  obtain ⟨e4, e5, _⟩ := e1
  have hol := hx.outlook (F := False) (frames := []) (e := 0) (fun h => by rw [← e4] at h; cases h)
  rw [← e4, ← e5, cliOpen_eq hst0] at hol
  rcases cli_told (F := False) hs hw hW hk (fun st hst => ⟨_, _, _, _, hol⟩) (fun h => by cases h)
      (fun j hj => by rw [hpl j] at hj; cases hj) hfuel (hs.wf.pixel_pos.trans_le hs.wf.pixel_le) h with
    ⟨h, _⟩ | ⟨st, g, hst, hoff, hpr, hg, ht⟩
  · exact h.elim
  cases hgs : g with
  | unopened => subst hgs; exact hg.elim
  | unsought e' calls =>
    subst hgs
    obtain ⟨h1, hc⟩ := hg
    rcases h1 with h1 | ⟨_, h1⟩
    · exact h1.elim
    subst h1
    refine ⟨st, calls, ht, hoff, ?_⟩
    by_cases hp : st.progress = true
    · obtain ⟨j, j1, j2⟩ := hc hp
      exact ⟨j, hoff ▸ j1, seekText_eq hpr (fun _ => j2)⟩
    · exact ⟨0, by omega, seekText_eq hpr (fun h => absurd h hp)⟩
  | uncreated => subst hgs; cases hg.1
  | looped => subst hgs; cases hg.1

/-- **C92** More frames are to be skipped than there are: the command says which frame it was asked for. -/
theorem C92_past_end (hio : Inbuilt s io (opening s io opts input)) (hs : Build s) (hw : w.WF) (hpl : Plenty w) (hW : Wants s.cfg io v opts input m p)
    (hk : Skips opts k) (h0 : k ≠ 0) (hy : CannotSkip (opening s io opts input) k RDEOK) (hfuel : 0 < fuel)
    (h : cliMainOut s io v nm fuel opts (some input) w = some ((ex, o), w')) :
    ex = ⟨1, .nothing⟩ ∧ ∃ j < k, o = ⟨[], (if .p ∈ opts then skippedLines j else []) ++
      (cs "Passed end of file while seeking to frame " ++ decimalText k ++ cs "\n")⟩ := by
  obtain ⟨st, calls, ht, hoff, j, hj, h1⟩ := told_seek hio hs hw hpl hW hk h0 hy hfuel h
  cases ht with
  | passed => exact ⟨rfl, j, hj, by rw [h1, printZu_text, hoff]⟩
  | unsought _ h2 _ => exact absurd rfl h2

/-- **C92** Skipping frames fails: the message of the error, after the frames that could be skipped. -/
theorem C92_unskippable (hio : Inbuilt s io (opening s io opts input)) (hs : Build s) (hw : w.WF) (hpl : Plenty w) (hW : Wants s.cfg io v opts input m p)
    (hk : Skips opts k) (h0 : k ≠ 0) (hy : CannotSkip (opening s io opts input) k e) (he : e ≠ RDEOK) (hfuel : 0 < fuel)
    (h : cliMainOut s io v nm fuel opts (some input) w = some ((ex, o), w')) :
    ∃ j < k, FailsWith s v e (if .p ∈ opts then skippedLines j else []) ex o := by
  obtain ⟨st, calls, ht, hoff, j, hj, h1⟩ := told_seek hio hs hw hpl hW hk h0 hy hfuel h
  generalize hg : Stage.unsought e calls = g at ht
  cases ht with
  | passed => cases hg; exact absurd rfl he
  | unsought _ _ hm =>
    cases hg
    obtain ⟨msg, h8, rfl⟩ := hm
    exact ⟨j, hj, rfl, msg, h8, by rw [h1, List.append_assoc]; rfl⟩
  | _ => cases hg

/-- **C92** The image cannot be opened: the message of the error. -/
theorem C92_unopened (hw : w.WF) (hpl : Plenty w) (hW : Wants s.cfg io v opts input m p) (he : e ≠ RDEOK)
    (hopen : ∀ w1 o w2, w1.WF → Plenty w1 → opening s io opts input w1 = some (o, w2) → o.error = e)
    (h : cliMainOut s io v nm fuel opts (some input) w = some ((ex, o), w')) :
    FailsWith s v e [] ex o := by
  obtain ⟨st, p0, g, w1, hp, hpr, hp0, hrun, ht⟩ := cliMainOut_front hW h
  rw [M.bind_eq_some] at hrun
  obtain ⟨r, w2, h1, h2⟩ := hrun
  cases r with
  | none => exact absurd hpl (malloc_fails h1)
  | some b =>
    have hw2 : w2.WF ∧ Plenty w2 := by
      have key : Act False (¬ Plenty w) [] [] (resdetAllocDefaultParameters s.cfg) (fun _ _ _ => True) := by
        unfold resdetAllocDefaultParameters
        refine Act.bind Act.malloc ?_
        rintro rb L1 S1 -
        cases rb <;> exact Act.pure trivial
      rcases key w w (Own.init hw (fun j hj hpl => by rw [hpl j] at hj; cases hj)) with ⟨h, _⟩ | ⟨_, w3, _, _, h3, h4, _⟩
      · rw [h1] at h; cases h
      · rw [h1] at h3
        cases h3
        refine ⟨h4.wf, fun j => ?_⟩
        cases hj : w2.sched j with
        | true => rfl
        | false => exact absurd hpl (h4.sched _ hj)
    simp only at h2
    rw [← bind_pure_comp, M.bind_eq_some] at h2
    obtain ⟨g', w3, h3, h4⟩ := h2
    cases h4
    unfold cliFront at h3
    rw [M.bind_eq_some] at h3
    obtain ⟨op, w4, h5, h6⟩ := h3
    rw [cliOpen_eq hp] at h5
    have h7 := hopen _ _ _ hw2.1 hw2.2 h5
    rw [if_pos (by rw [h7]; exact he), h7] at h6
    cases h6
    cases ht with
    | unopened _ hm =>
      obtain ⟨msg, h8, rfl⟩ := hm
      exact ⟨rfl, msg, h8, rfl⟩

/-- The names for examples. -/
def Demo.naming : Naming := ⟨cs "resdet", cs "2.2.2", cs "2.2.2"⟩

/-- Options that skip `k` frames and show progress. -/
def Demo.skip (k : String) : List CliOpt := [.p, .o (cs k)]

theorem Demo.skip_wants {k : String} {n : ℕ} (h : Counts (cs k) n) :
    Wants Demo.sys.cfg Demo.io Demo.cliEnv (Demo.skip k) (cs "a.y4m") Demo.sign (defaultParams Demo.sys.cfg) where
  goes := by
    refine Goes.not_ends (fun b1 o1 a1 code hb hend => ?_)
    rcases b1 with _ | ⟨_, _ | ⟨_, b1⟩⟩ <;> simp [Demo.skip] at hb
    · obtain ⟨rfl, _⟩ := hb; cases hend
    · obtain ⟨_, rfl, _⟩ := hb
      cases hend with
      | offset hb => exact hb n h
  method := Or.inl ⟨rfl, rfl⟩
  threshold := Or.inl ⟨rfl, rfl⟩
  range := Or.inl ⟨rfl, rfl⟩
  filter := Or.inl ⟨rfl, rfl⟩
  one := Or.inl rfl

/-- The exit status and standard error for the frames `[0, 255]` and `[255, 0]`. -/
def Demo.says (opts : List CliOpt) : Option (ℤ × List UInt8) :=
  (cliMainOut Demo.sys Demo.io Demo.cliEnv Demo.naming 4 opts (some (cs "a.y4m")) Demo.w0).map (fun r => (r.1.1.code, r.1.2.err))

example : Wants Demo.sys.cfg Demo.io Demo.cliEnv (Demo.skip "1") (cs "a.y4m") Demo.sign (defaultParams Demo.sys.cfg) ∧ Skips (Demo.skip "1") 1 ∧
    YieldsAfter (opening Demo.sys Demo.io (Demo.skip "1") (cs "a.y4m")) 1 2 1 (lumas 8 [[255, 0]]) RDEOK ∧
    Selects (Demo.skip "1") (lumas 8 [[255, 0]]) (lumas 8 [[255, 0]]) ∧
    Demo.says (Demo.skip "1") = some (0, cs "Seeking past frame 1\r\nAnalyzing frame 2\r\n") ∧
    progressText 1 1 = cs "Seeking past frame 1\r\nAnalyzing frame 2\r\n" :=
  ⟨Demo.skip_wants Demo.counts_one, Or.inr ⟨_, rfl, Demo.counts_one⟩, (C48_plays Demo.y4m_frames).1 (by decide) trivial, Or.inl ⟨rfl, rfl⟩,
    by decide +kernel, by decide +kernel⟩

/-- What is read without skipping. -/
theorem yieldsAfter_zero {m : M Opened} (h : Yields m W H frames e) : YieldsAfter m 0 W H frames e := by
  intro w hw hpl
  obtain ⟨i, buf, w1, h1, _, last, i', buf', w2, h2⟩ := h w hw hpl
  exact ⟨i, buf, w1, h1, [], last, i', buf', w2, h2, Or.inl rfl⟩

theorem Demo.plain_wants {io : Io} {input : List UInt8} : Wants Demo.sys.cfg io Demo.cliEnv [.p] input Demo.sign (defaultParams Demo.sys.cfg) where
  goes := by
    refine Goes.not_ends (fun b1 o1 a1 code hb hend => ?_)
    rcases b1 with _ | ⟨_, b1⟩ <;> simp at hb
    obtain ⟨rfl, _⟩ := hb; cases hend
  method := Or.inl ⟨rfl, rfl⟩
  threshold := Or.inl ⟨rfl, rfl⟩
  range := Or.inl ⟨rfl, rfl⟩
  filter := Or.inl ⟨rfl, rfl⟩
  one := Or.inl rfl

/-- Every file is a PGM with the maximum 0. -/
def Demo.zeroIo : Io := ⟨⟨fun _ => .inr (zeroMax, true), (zeroMax, true)⟩, false, false, false, none, none, none, none⟩

example : ∃ f, YieldsAfter (opening Demo.sys Demo.zeroIo [.p] (cs "a.pgm")) 0 2 1 [f] RDEOK ∧ frameError 2 1 [f] ≠ RDEOK ∧ handed 2 1 [f] = 1 ∧
    Wants Demo.sys.cfg Demo.zeroIo Demo.cliEnv [.p] (cs "a.pgm") Demo.sign (defaultParams Demo.sys.cfg) ∧
    (cliMainOut Demo.sys Demo.zeroIo Demo.cliEnv Demo.naming 4 [.p] (some (cs "a.pgm")) Demo.w0).map (fun r => (r.1.1.code, r.1.2.err)) =
      some (1, cs "Analyzing frame 1\r\nInvalid image\n") := by
  obtain ⟨neg, h⟩ := (C33_pgm_fails (io := Demo.zeroIo) (name := cs "a.pgm") (k := true) rfl
    (.byType (ext := cs "pgm") (.suffix (cs "a") (cs "pgm") (by decide) (by decide)) (Or.inr (by decide)) rfl)).1 (Or.inr ⟨by decide, by decide +kernel⟩)
  exact ⟨_, yieldsAfter_zero h, by cases neg <;> decide, by cases neg <;> decide, Demo.plain_wants, by decide +kernel⟩

/-- FFTW that makes no plans. -/
def Demo.planless : Sys := ⟨lp64 .fftw, { Demo.env with fftwPlans := fun _ _ => false }⟩

example : Build Demo.planless ∧ expected Demo.planless 2 1 = RDEINTERNAL ∧
    (cliMainOut Demo.planless Demo.io Demo.cliEnv Demo.naming 4 (Demo.skip "1") (some (cs "a.y4m")) Demo.w0).map (fun r => (r.1.1.code, r.1.2.err)) =
      some (1, cs "Seeking past frame 1\r\nInternal error\n") := ⟨Demo.lp64_build _ _, by decide +kernel, by decide +kernel⟩

example : (cliMainOut Demo.sys Demo.io Demo.cliEnv Demo.naming 4 [.p] (some (cs "cut.y4m")) Demo.w0).map (fun r => (r.1.1.code, r.1.2.err)) =
      some (1, cs "Analyzing frame 1\r\nInvalid image\n") ∧ frameError 2 1 (lumas 8 [[0, 255]]) = RDEOK := ⟨by decide +kernel, by decide +kernel⟩

theorem Demo.counts_two : Counts (cs "2") 2 := strtou_iff.mp (by decide)
theorem Demo.counts_three : Counts (cs "3") 3 := strtou_iff.mp (by decide)

example : Wants Demo.sys.cfg Demo.io Demo.cliEnv (Demo.skip "2") (cs "a.y4m") Demo.sign (defaultParams Demo.sys.cfg) ∧ Skips (Demo.skip "2") 2 ∧
    YieldsAfter (opening Demo.sys Demo.io (Demo.skip "2") (cs "a.y4m")) 2 2 1 [] RDEOK ∧ expected Demo.sys 2 1 = RDEOK ∧
    Demo.says (Demo.skip "2") = some (1, cs "Seeking past frame 1\rSeeking past frame 2\r\nNo frames left in input.\n") :=
  ⟨Demo.skip_wants Demo.counts_two, Or.inr ⟨_, rfl, Demo.counts_two⟩, (C48_plays Demo.y4m_frames).1 (by decide) trivial, by decide +kernel, by decide +kernel⟩

example : Wants Demo.sys.cfg Demo.io Demo.cliEnv (Demo.skip "3") (cs "a.y4m") Demo.sign (defaultParams Demo.sys.cfg) ∧ Skips (Demo.skip "3") 3 ∧
    CannotSkip (opening Demo.sys Demo.io (Demo.skip "3") (cs "a.y4m")) 3 RDEOK ∧
    Demo.says (Demo.skip "3") = some (1, cs "Seeking past frame 1\rSeeking past frame 2\rPassed end of file while seeking to frame 3\n") :=
  ⟨Demo.skip_wants Demo.counts_three, Or.inr ⟨_, rfl, Demo.counts_three⟩, (C48_plays Demo.y4m_frames).2 (by decide) trivial, by decide +kernel⟩

example : (∀ w1 o w2, w1.WF → Plenty w1 → opening Demo.sys Demo.io [] (cs "none") w1 = some (o, w2) → o.error = RDEUNSUPP) ∧ RDEUNSUPP ≠ RDEOK := by
  refine ⟨fun w1 o w2 _ hpl h => ?_, by decide⟩
  have h2 : (findReader (imageReaders Demo.sys Demo.io) (extension (cs "none") none)).map Option.isNone = some true := by decide +kernel
  change (M.lift (findReader (imageReaders Demo.sys Demo.io) (extension (cs "none") none)) >>= fun reader => openImage Demo.sys reader (cs "none") true) w1 = _ at h
  cases h3 : findReader (imageReaders Demo.sys Demo.io) (extension (cs "none") none) with
  | none => rw [h3] at h2; cases h2
  | some r =>
    rw [h3] at h2 h
    cases r with
    | some r => cases h2
    | none =>
      change openImage Demo.sys none (cs "none") true w1 = _ at h
      unfold openImage at h
      have hm : malloc w1 = some (some w1.next, { w1 with live := w1.next :: w1.live, next := w1.next + 1, sched := advance w1.sched }) := by
        unfold malloc
        rw [if_pos (hpl 0)]
      rw [M.bind_some hm] at h
      simp only at h
      unfold openFail at h
      simp only [M.bind_eq_some] at h
      obtain ⟨_, _, _, h⟩ := h
      cases h
      rfl

example : Demo.says [.o (cs "1")] = some (0, []) ∧ Verbosity Demo.sys.cfg [.x (cs "a")] (-1) ∧
    Demo.says [.x (cs "a")] = some (1, cs "Invalid threshold value a\n") :=
  ⟨by decide +kernel, Or.inl ⟨rfl, rfl⟩, by decide +kernel⟩

/-! ## The help text -/

/-- The pieces of the help text. -/
def helpParts (c : Cfg) (nm : Naming) : List (List UInt8) := [cs "Usage: ", nm.self,
    cs " [-h -V -m <method> -v <verbosity> -t <filetype> -r <range> -x <threshold> -f <value> -p -o <offset> -n <nframes>] image\n",
    cs " -h   This help text.\n",
    cs " -V   Show the resdet CLI and library version.\n",
    cs "\n",
    cs " -m   Optional detection method, see below.\n",
    cs " -v   verbosity: -1 - Human-readable output, default.\n",
    cs "                  0 - Behave like a shell test, returning true if upscaling was detected, false if not or on error.\n",
    cs "                  1 - Print only the best guess width and height.\n",
    cs "                  2 - All detected widths and heights in confidence order.\n",
    cs "                  3 - -v2 plus the floating point confidence value.\n",
    cs " -t   filetype: Override the input type. May be an extension or MIME type.\n",
    cs " -R   image reader: Select a specific image reader to read the file. Mutually exclusive with -t.\n",
    cs "                    Use -R list to see available image readers.\n",
    cs " -r   range: Number of neighboring values to search (", printZu c.defaultRange, cs ").\n",
    cs " -x   threshold: Print all detection results above this method-specific confidence level (0-100).\n",
    cs " -f   Filter out possible compression artifacts. Value: an integer filter value or \"auto\" to set one based on the file type.",
    cs " -p   Show progress in number of frames analyzed so far.\n",
    cs " -o   offset: Seek to this frame number before starting detection.\n",
    cs " -n   nframes: Limit detection to this number of frames.\n",
    cs "\n",
    cs "Available detection methods and default thresholds:\n", methodLines methods]

theorem help_parts {c : Cfg} : helpText c nm = (helpParts c nm).flatten := by
  unfold helpText helpParts
  simp only [List.flatten_cons, List.flatten_nil, List.append_nil, List.append_assoc]

theorem line_of_parts {parts : List (List UInt8)} (i : ℕ) {x y t : List UInt8} (hx : parts[i]? = some x) (hy : parts[i + 1]? = some y)
    (hl : x.getLast? = some 10) (ht : t <+: y) : LineStarts t parts.flatten := by
  obtain ⟨b, rfl⟩ := ht
  have h1 : parts = parts.take i ++ x :: (t ++ b) :: parts.drop (i + 2) := by
    have := List.take_append_drop i parts
    rw [List.drop_eq_getElem?_toList_append, hx, List.drop_eq_getElem?_toList_append, hy] at this
    exact this.symm
  obtain ⟨a, rfl⟩ : ∃ a, x = a ++ [10] := ⟨x.dropLast, (List.dropLast_append_getLast? _ hl).symm⟩
  refine ⟨(parts.take i).flatten ++ a, b ++ (parts.drop (i + 2)).flatten, ?_⟩
  generalize List.take i parts = l1 at h1 ⊢
  generalize List.drop (i + 2) parts = l2 at h1 ⊢
  rw [h1]
  simp [cs, ch]

/-- **C93** The help text names the default range, and ends with the methods and their default thresholds. -/
theorem C93_defaults {input : Option (List UInt8)} :
    ∃ before after, cliMainOut s io v nm fuel [.h] input w = some ((⟨0, .info⟩, ⟨before ++ cs " -r   range: Number of neighboring values to search (" ++
      decimalText s.cfg.defaultRange ++ cs ").\n" ++ after ++ cs "\nAvailable detection methods and default thresholds:\n" ++
      cs "   sign  - 55% (default method)\n   mag   - 40%\n   orig  - 64%\n   zerox - 50%\n", []⟩), w) := by
  refine ⟨((helpParts s.cfg nm).take 15).flatten, (((helpParts s.cfg nm).drop 18).take 5).flatten, ?_⟩
  have h1 : methodLines methods = cs "   sign  - 55% (default method)\n   mag   - 40%\n   orig  - 64%\n   zerox - 50%\n" := by decide +kernel
  have h2 : cs "\nAvailable detection methods and default thresholds:\n" = cs "\n" ++ cs "Available detection methods and default thresholds:\n" := by decide +kernel
  have h3 : helpParts s.cfg nm = (helpParts s.cfg nm).take 15 ++ ([cs " -r   range: Number of neighboring values to search (", printZu s.cfg.defaultRange, cs ").\n"] ++
      (((helpParts s.cfg nm).drop 18).take 5 ++ [cs "\n", cs "Available detection methods and default thresholds:\n", methodLines methods])) := rfl
  have h4 : helpText s.cfg nm = (helpParts s.cfg nm).flatten := help_parts
  show some ((_, (⟨helpText s.cfg nm, []⟩ : Output)), w) = _
  rw [h4, ← h1, h2, ← printZu_text]
  generalize (helpParts s.cfg nm).take 15 = a at h3 ⊢
  generalize ((helpParts s.cfg nm).drop 18).take 5 = b at h3 ⊢
  rw [h3]
  simp only [List.flatten_append, List.flatten_cons, List.flatten_nil, List.append_nil, List.append_assoc]

/-- **C93** Every option but `-p` has a line of its own in the help text. -/
theorem C93_partial {x : Char} (hx : x ∈ ['h', 'V', 'm', 'v', 't', 'R', 'r', 'x', 'f', 'o', 'n']) {input : Option (List UInt8)} :
    ∃ out, cliMainOut s io v nm fuel [.h] input w = some ((⟨0, .info⟩, ⟨out, []⟩), w) ∧ LineStarts (cs " -" ++ [ch x] ++ cs "   ") out := by
  refine ⟨helpText s.cfg nm, rfl, ?_⟩
  rw [help_parts]
  simp only [List.mem_cons, List.not_mem_nil, or_false] at hx
  rcases hx with rfl | rfl | rfl | rfl | rfl | rfl | rfl | rfl | rfl | rfl | rfl
  · exact line_of_parts 2 rfl rfl (by decide +kernel) (by decide +kernel)
  · exact line_of_parts 3 rfl rfl (by decide +kernel) (by decide +kernel)
  · exact line_of_parts 5 rfl rfl (by decide +kernel) (by decide +kernel)
  · exact line_of_parts 6 rfl rfl (by decide +kernel) (by decide +kernel)
  · exact line_of_parts 11 rfl rfl (by decide +kernel) (by decide +kernel)
  · exact line_of_parts 12 rfl rfl (by decide +kernel) (by decide +kernel)
  · exact line_of_parts 14 rfl rfl (by decide +kernel) (by decide +kernel)
  · exact line_of_parts 17 rfl rfl (by decide +kernel) (by decide +kernel)
  · exact line_of_parts 18 rfl rfl (by decide +kernel) (by decide +kernel)
  · exact line_of_parts 20 rfl rfl (by decide +kernel) (by decide +kernel)
  · exact line_of_parts 21 rfl rfl (by decide +kernel) (by decide +kernel)

/-- Whether `t` occurs. -/
def occurs (t : List UInt8) : List UInt8 → Bool
  | [] => t.isEmpty
  | b :: bs => t.isPrefixOf (b :: bs) || occurs t bs

theorem occurs_of_infix {t a b : List UInt8} (h : t ≠ []) : occurs t (a ++ t ++ b) = true := by
  induction a with
  | nil =>
    obtain ⟨x, t, rfl⟩ := List.exists_cons_of_ne_nil h
    simp only [List.nil_append, List.cons_append, occurs]
    rw [Bool.or_eq_true, List.isPrefixOf_iff_prefix]
    exact Or.inl ⟨b, rfl⟩
  | cons x a ih =>
    simp only [List.cons_append, occurs]
    rw [Bool.or_eq_true]
    exact Or.inr ih

/-- **C93** The line for `-p` does not exist: its text continues the line for `-f`. -/
theorem C93_fails : ∃ (s : Sys) (io : Io) (v : CliEnv) (nm : Naming) (w : World) (out : List UInt8),
    cliMainOut s io v nm 1 [.h] none w = some ((⟨0, .info⟩, ⟨out, []⟩), w) ∧ ¬ LineStarts (cs " -p   ") out := by
  refine ⟨Demo.sys, Demo.io, Demo.cliEnv, Demo.naming, Demo.w0, helpText Demo.sys.cfg Demo.naming, rfl, ?_⟩
  rintro ⟨a, b, h⟩
  have h1 : occurs (cs "\n" ++ cs " -p   ") (helpText Demo.sys.cfg Demo.naming) = true := by
    rw [h, List.append_assoc a]
    exact occurs_of_infix (by simp [cs])
  revert h1
  decide +kernel

/-- **C93** The usage printed for wrong options names every option. -/
theorem C93_usage {x : Char} (hx : x ∈ ['h', 'V', 'm', 'v', 't', 'R', 'r', 'x', 'f', 'p', 'o', 'n']) {input : Option (List UInt8)} :
    ∃ err, cliMainOut s io v nm fuel [.bad] input w = some ((⟨1, .nothing⟩, ⟨[], err⟩), w) ∧ cs "-" ++ [ch x] <:+: err := by
  refine ⟨usageText nm, rfl, ?_⟩
  unfold usageText
  refine List.IsInfix.trans ?_ (List.suffix_append _ _).isInfix
  simp only [List.mem_cons, List.not_mem_nil, or_false] at hx
  rcases hx with rfl | rfl | rfl | rfl | rfl | rfl | rfl | rfl | rfl | rfl | rfl | rfl <;> decide +kernel

/-- **C93** (negation) The first line of the help text does not name `-R`. -/
theorem C93_synopsis_fails : ∃ (s : Sys) (io : Io) (v : CliEnv) (nm : Naming) (w : World) (line rest : List UInt8),
    cliMainOut s io v nm 1 [.h] none w = some ((⟨0, .info⟩, ⟨line ++ cs "\n" ++ rest, []⟩), w) ∧ ch '\n' ∉ line ∧ ¬ cs "-R" <:+: line := by
  refine ⟨Demo.sys, Demo.io, Demo.cliEnv, Demo.naming, Demo.w0,
    (helpText Demo.sys.cfg Demo.naming).takeWhile (· ≠ ch '\n'), ((helpText Demo.sys.cfg Demo.naming).dropWhile (· ≠ ch '\n')).tail, ?_, ?_, ?_⟩
  · show some ((_, (⟨helpText Demo.sys.cfg Demo.naming, []⟩ : Output)), Demo.w0) = _
    rw [show (helpText Demo.sys.cfg Demo.naming).takeWhile (· ≠ ch '\n') ++ cs "\n" ++ ((helpText Demo.sys.cfg Demo.naming).dropWhile (· ≠ ch '\n')).tail =
      helpText Demo.sys.cfg Demo.naming by decide +kernel]
  · decide +kernel
  · decide +kernel

end Verif.Props
