import Verif.Model.CliOutput
import Verif.Proofs.CliMain
import Verif.Proofs.CliRun

/-! The command with its output: the same as without, and what the text is made of. -/

namespace Verif

open Spec

variable {s : Sys} {io : Io} {v : CliEnv} {nm : Naming} {fuel : ℕ} {st : CliState} {input : List UInt8} {m : Method} {block : ℕ} {p : Params}

theorem cliOptionsOut_fst {c : Cfg} {opts : List CliOpt} :
    cliOptions c io opts st = (cliOptionsOut c io nm opts st).map Prod.fst id := by
  induction opts generalizing st with
  | nil => rfl
  | cons o opts ih =>
    cases o with
    | R a =>
      simp only [cliOptions, cliOptionsOut]
      split
      · split <;> rfl
      · exact ih
    | o a =>
      simp only [cliOptions, cliOptionsOut]
      cases strtou ullMax a
      · rfl
      · exact ih
    | n a =>
      simp only [cliOptions, cliOptionsOut]
      cases strtou ullMax a
      · rfl
      · simp only
        split
        · rfl
        · exact ih
    | h => rfl
    | V => rfl
    | bad => rfl
    | _ => exact ih

theorem cliLoopOut_fst {pr : Bool} {off n ct : ℕ} {i : RDImage} {buf : Buf Fl} {a : Analysis} :
    Prod.fst <$> cliLoopOut s pr off n fuel ct i buf a = cliLoop s n fuel ct i buf a := by
  induction fuel generalizing ct i buf a with
  | zero => rfl
  | succ fuel ih =>
    unfold cliLoopOut cliLoop
    rw [map_bind]
    refine bind_congr fun ⟨ret, e, buf1, i1⟩ => ?_
    simp only [map_bind]
    refine bind_congr fun buf2 => bind_congr fun i2 => ?_
    split
    · rw [map_pure]
    · rw [map_bind]
      refine bind_congr fun ⟨e2, a2⟩ => ?_
      simp only [map_bind]
      refine bind_congr fun a3 => ?_
      split
      · rw [map_pure]
      · split
        · rw [map_pure]
        · rw [map_bind, ← ih, ← bind_pure_comp]
          refine bind_congr fun r => ?_
          rw [map_pure]

theorem cliEndOut_fst {vb : ℤ} {oa : Option Analysis} {oi : Option RDImage} {ob : Option (Buf Fl)} {rw' rh : Option (Buf Res)} {counts : Option (ℕ × ℕ)}
    {e : RDError} {ret : Bool} {shown : Shown} {err : List UInt8} :
    Prod.fst <$> cliEndOut s v vb block oa oi ob rw' rh counts e ret shown err = cliEnd s v vb block oa oi ob rw' rh counts e ret shown := by
  unfold cliEndOut cliEnd
  simp only [map_bind]
  refine bind_congr fun _ => bind_congr fun _ => bind_congr fun _ => bind_congr fun _ => bind_congr fun _ => bind_congr fun _ => ?_
  split
  · simp only [map_bind, map_pure]
  · split
    · rw [map_pure]
    · split
      · simp only [map_bind, map_pure]
      · rw [map_pure]

theorem cliAnalyzeOut_fst {i : RDImage} {buf : Buf Fl} {W H : ℕ} {err : List UInt8} :
    Prod.fst <$> cliAnalyzeOut s v fuel st m block p i buf W H err = cliAnalyze s v fuel st m block p i buf W H := by
  unfold cliAnalyzeOut cliAnalyze
  rw [map_bind]
  refine bind_congr fun ⟨a, e⟩ => ?_
  simp only
  split
  · exact cliEndOut_fst
  · rw [map_bind]
    refine bind_congr fun a => ?_
    rw [← cliLoopOut_fst (pr := st.progress) (off := st.offset), map_bind, ← bind_pure_comp, bind_assoc]
    refine bind_congr fun ⟨⟨e, ct, i, buf, a⟩, lines⟩ => ?_
    rw [pure_bind]
    simp only
    split
    · exact cliEndOut_fst
    · split
      · exact cliEndOut_fst
      · rw [map_bind]
        refine bind_congr fun ⟨e, out, a⟩ => ?_
        simp only
        split
        · exact cliEndOut_fst
        · simp only [map_bind]
          refine bind_congr fun _ => bind_congr fun _ => bind_congr fun _ => ?_
          exact cliEndOut_fst

theorem cliRunOut_fst : Prod.fst <$> cliRunOut s io v fuel st input m block p = cliRun s io v fuel st input m block p := by
  unfold cliRunOut cliRun
  rw [map_bind]
  refine bind_congr fun o => ?_
  split
  · exact cliEndOut_fst
  · simp only [map_bind]
    refine bind_congr fun i => bind_congr fun buf => ?_
    split
    · exact cliAnalyzeOut_fst
    · rw [map_bind]
      refine bind_congr fun ⟨ret, e, calls, i⟩ => ?_
      simp only [map_bind]
      refine bind_congr fun i => ?_
      split
      · exact cliEndOut_fst
      · exact cliAnalyzeOut_fst

theorem cliParamsOut_eq {c : Cfg} : (cliThreshold v st.thresholdOpt p).bind (fun p => (cliRange c st.rangeOpt p).bind (cliFilter c st.filterOpt)) =
    match cliParamsOut c v st p with
    | .inl _ => none
    | .inr p => some p := by
  unfold cliParamsOut
  cases cliThreshold v st.thresholdOpt p with
  | none => rfl
  | some p =>
    simp only [Option.bind_some]
    cases cliRange c st.rangeOpt p with
    | none => rfl
    | some p =>
      simp only [Option.bind_some]
      cases cliFilter c st.filterOpt p <;> rfl

theorem cliMainOut_fst {opts : List CliOpt} {input : Option (List UInt8)} :
    Prod.fst <$> cliMainOut s io v nm fuel opts input = cliMain s io v fuel opts input := by
  unfold cliMainOut cliMain
  rw [cliOptionsOut_fst (nm := nm)]
  cases cliOptionsOut s.cfg io nm opts {} with
  | inl e => exact map_pure _ _
  | inr st =>
    simp only [Sum.map_inr, id]
    cases input with
    | none => exact map_pure _ _
    | some input =>
      simp only
      cases resdetGetMethod (st.method.map textOf) with
      | none => exact map_pure _ _
      | some m =>
        simp only
        rw [map_bind]
        refine bind_congr fun r => ?_
        rcases r with _ | ⟨block, p⟩
        · exact map_pure _ _
        · simp only [cliParamsOut_eq]
          cases cliParamsOut s.cfg v st p with
          | inl msg => simp only [map_bind, map_pure]
          | inr p =>
            simp only
            split
            · exact map_pure _ _
            · exact cliRunOut_fst

/-! ## What the text is made of -/

theorem need_inv {α : Type} {o : Option α} {w w' : World} {a : α} (h : need o w = some (a, w')) : o = some a ∧ w' = w := by
  cases o with
  | none => cases h
  | some b => cases h; exact ⟨rfl, rfl⟩

/-- The message for an error of the library. -/
def Message (s : Sys) (v : CliEnv) (e : RDError) (t : List UInt8) : Prop :=
  ∃ msg, resdetErrorStr s.cfg v.strerror e = some (some msg) ∧ t = cs msg ++ [ch '\n']

theorem cliEndOut_inv {vb : ℤ} {oa : Option Analysis} {oi : Option RDImage} {ob : Option (Buf Fl)} {rw' rh : Option (Buf Res)} {counts : Option (ℕ × ℕ)}
    {e : RDError} {ret : Bool} {shown : Shown} {err : List UInt8} {w w' : World} {ex : Exit} {o : Output}
    (h : cliEndOut s v vb block oa oi ob rw' rh counts e ret shown err w = some ((ex, o), w')) :
    o.out = cliText shown ∧ ex.shown = shown ∧ ((e ≠ 0 ∧ ex.code = 1 ∧ ∃ t, Message s v e t ∧ o.err = err ++ t) ∨
      (e = 0 ∧ o.err = err ∧ (ret = true ∧ ex.code = 1 ∨ ret = false ∧ (ex.code = 0 ∨ vb = 0 ∧ ex.code = 1)))) := by
  unfold cliEndOut at h
  simp only [M.bind_eq_some] at h
  obtain ⟨_, _, _, _, _, _, _, _, _, _, _, _, _, _, _, _, _, _, h⟩ := h
  split at h
  · rename_i he
    simp only [M.bind_eq_some] at h
    obtain ⟨m1, _, h1, m2, _, h2, h3⟩ := h
    have k1 := (need_inv h1).1
    have k2 := (need_inv h2).1
    subst k2
    cases h3
    exact ⟨rfl, rfl, Or.inl ⟨he, rfl, _, ⟨_, k1, rfl⟩, rfl⟩⟩
  · rename_i he
    have he : e = 0 := not_not.mp he
    split at h
    · cases h
      exact ⟨rfl, rfl, Or.inr ⟨he, rfl, Or.inl ⟨‹_›, rfl⟩⟩⟩
    · rename_i hr
      have hr : ret = false := by simpa using hr
      split at h
      · rename_i hv
        simp only [M.bind_eq_some] at h
        obtain ⟨⟨cw, ch⟩, _, _, h3⟩ := h
        cases h3
        refine ⟨rfl, rfl, Or.inr ⟨he, rfl, Or.inr ⟨hr, ?_⟩⟩⟩
        simp only
        split
        · exact Or.inr ⟨hv, rfl⟩
        · exact Or.inl rfl
      · cases h
        exact ⟨rfl, rfl, Or.inr ⟨he, rfl, Or.inr ⟨hr, Or.inl rfl⟩⟩⟩

/-- How far the command came, with what it had to report until then. -/
inductive Stage where
  | unopened (e : RDError)
  | unsought (e : RDError) (calls : List ℕ)
  | uncreated (e : RDError) (calls : List ℕ)
  | looped (e : RDError) (ct : ℕ) (calls : List ℕ) (lines : List UInt8)

/-- The command from creating the analysis to the end of its loop. -/
def cliLooping (s : Sys) (fuel : ℕ) (st : CliState) (m : Method) (p : Params) (i : RDImage) (buf : Buf Fl) (width height : ℕ) (calls : List ℕ) : M Stage := do
  let (a, e) ← createAnalysis s (some m) width height (some p)
  if e ≠ 0 then return .uncreated e calls
  else
    let a ← need a
    let (r, lines) ← cliLoopOut s st.progress st.offset st.nframes fuel 1 i buf a
    return .looped r.1 r.2.1 calls lines

/-- The command to the end of its loop. -/
def cliFront (s : Sys) (io : Io) (fuel : ℕ) (st : CliState) (input : List UInt8) (m : Method) (p : Params) : M Stage := do
  let o ← cliOpen s io st input
  if o.error ≠ 0 then return .unopened o.error
  else
    let i ← need o.image
    let buf ← need o.buf
    if st.offset = 0 then cliLooping s fuel st m (cliAuto st.filterOpt input p) i buf o.width o.height []
    else
      let (ret, e, calls, i) ← seekFrame (some i) st.offset st.progress
      let i ← need i
      if !ret then return .unsought e calls
      else cliLooping s fuel st m (cliAuto st.filterOpt input p) i buf o.width o.height calls

/-- What seeking wrote to standard error. -/
def seekText (st : CliState) (calls : List ℕ) : List UInt8 := if st.progress then (calls.map seekLine).flatten else []

/-- The end of a line of progress. -/
def endLine (st : CliState) : List UInt8 := if st.progress then [ch '\n'] else []

/-- Everything up to the loop, when it is reached. -/
def soughtText (st : CliState) (calls : List ℕ) : List UInt8 := if st.offset = 0 then [] else seekText st calls ++ endLine st

/-- The exit and the output for a stage. -/
inductive Told (s : Sys) (v : CliEnv) (st : CliState) : Stage → Exit → Output → Prop where
  | unopened {e : RDError} {t : List UInt8} : e ≠ 0 → Message s v e t → Told s v st (.unopened e) ⟨1, .nothing⟩ ⟨[], t⟩
  | passed {calls : List ℕ} : st.offset ≠ 0 → Told s v st (.unsought 0 calls) ⟨1, .nothing⟩
      ⟨[], seekText st calls ++ (cs "Passed end of file while seeking to frame " ++ printZu st.offset ++ cs "\n")⟩
  | unsought {e : RDError} {calls : List ℕ} {t : List UInt8} : st.offset ≠ 0 → e ≠ 0 → Message s v e t →
      Told s v st (.unsought e calls) ⟨1, .nothing⟩ ⟨[], seekText st calls ++ t⟩
  | uncreated {e : RDError} {calls : List ℕ} {t : List UInt8} : e ≠ 0 → Message s v e t →
      Told s v st (.uncreated e calls) ⟨1, .nothing⟩ ⟨[], soughtText st calls ++ t⟩
  | empty {calls : List ℕ} {lines : List UInt8} :
      Told s v st (.looped 0 1 calls lines) ⟨1, .nothing⟩ ⟨[], soughtText st calls ++ lines ++ cs "No frames left in input.\n"⟩
  | stopped {e e1 : RDError} {ct : ℕ} {calls : List ℕ} {lines t : List UInt8} : (e ≠ 0 ∧ e1 = e ∨ e = 0 ∧ ct ≠ 1 ∧ e1 ≠ 0) → Message s v e1 t →
      Told s v st (.looped e ct calls lines) ⟨1, .nothing⟩ ⟨[], soughtText st calls ++ lines ++ endLine st ++ t⟩
  | done {ct : ℕ} {calls : List ℕ} {lines : List UInt8} {code : ℤ} {shown : Shown} : ct ≠ 1 → (code = 0 ∨ st.verbosity = 0 ∧ code = 1) → shown ≠ .info →
      Told s v st (.looped 0 ct calls lines) ⟨code, shown⟩ ⟨cliText shown, soughtText st calls ++ lines ++ endLine st⟩

theorem cliShow_ne_info {c : Cfg} {vb : ℤ} {rw' rh : List Res} {cw ch : ℕ} {shown : Shown} (h : cliShow c vb rw' rh cw ch = some shown) : shown ≠ .info := by
  unfold cliShow at h
  split at h
  · cases h; simp
  split at h
  · simp only [Option.bind_eq_bind, Option.bind_eq_some_iff] at h
    obtain ⟨_, _, _, _, h⟩ := h
    cases h; simp
  split at h
  · simp only [Option.bind_eq_bind, Option.bind_eq_some_iff] at h
    obtain ⟨_, _, _, _, h⟩ := h
    cases h; simp
  · simp only [Option.bind_eq_bind, Option.bind_eq_some_iff] at h
    obtain ⟨_, _, _, _, _, _, _, _, _, _, _, _, h⟩ := h
    cases h; simp

theorem exit_eq {ex : Exit} {code : ℤ} {shown : Shown} (h1 : ex.code = code) (h2 : ex.shown = shown) : ex = ⟨code, shown⟩ := by
  cases ex; simp_all

theorem output_eq {o : Output} {a b : List UInt8} (h1 : o.out = a) (h2 : o.err = b) : o = ⟨a, b⟩ := by
  cases o; simp_all

theorem cliAnalyzeOut_inv {i : RDImage} {buf : Buf Fl} {W H : ℕ} {err : List UInt8} {calls : List ℕ} (herr : err = soughtText st calls) {w w' : World}
    {ex : Exit} {o : Output} (h : cliAnalyzeOut s v fuel st m block p i buf W H err w = some ((ex, o), w')) :
    ∃ g w1, cliLooping s fuel st m p i buf W H calls w = some (g, w1) ∧ Told s v st g ex o := by
  subst herr
  unfold cliAnalyzeOut at h
  rw [M.bind_eq_some] at h
  obtain ⟨⟨a, e⟩, w1, h1, h⟩ := h
  simp only at h
  have front : cliLooping s fuel st m p i buf W H calls w = (if e ≠ 0 then return .uncreated e calls
      else do
        let a ← need a
        let (r, lines) ← cliLoopOut s st.progress st.offset st.nframes fuel 1 i buf a
        return .looped r.1 r.2.1 calls lines : M Stage) w1 := by
    unfold cliLooping
    rw [M.bind_some h1]
  rw [front]
  split at h
  · rename_i he
    rw [if_pos he]
    obtain ⟨h2, h3, ⟨_, h5, t, ht, h6⟩ | ⟨h4, _⟩⟩ := cliEndOut_inv h
    · refine ⟨_, _, rfl, ?_⟩
      rw [exit_eq h5 h3, output_eq h2 h6]
      exact .uncreated he ht
    · exact absurd h4 he
  rename_i he
  rw [if_neg he]
  rw [M.bind_eq_some] at h
  obtain ⟨a, w2, h2, h⟩ := h
  rw [M.bind_some h2]
  rw [M.bind_eq_some] at h
  obtain ⟨⟨⟨e, ct, i', buf', a'⟩, lines⟩, w3, h3, h⟩ := h
  rw [M.bind_some h3]
  refine ⟨_, _, rfl, ?_⟩
  simp only at h ⊢
  split at h
  · rename_i hc
    obtain ⟨rfl, rfl⟩ := hc
    obtain ⟨g1, g2, ⟨g3, _⟩ | ⟨_, g5, ⟨_, g6⟩ | ⟨g6, _⟩⟩⟩ := cliEndOut_inv h
    · exact absurd rfl g3
    · rw [exit_eq g6 g2, output_eq g1 g5]
      exact .empty
    · cases g6
  rename_i hc
  split at h
  · rename_i h0
    obtain ⟨g1, g2, ⟨_, g5, t, ht, g6⟩ | ⟨g4, _⟩⟩ := cliEndOut_inv h
    · rw [exit_eq g5 g2, output_eq g1 g6]
      exact .stopped (Or.inl ⟨h0, rfl⟩) ht
    · exact absurd g4 h0
  rename_i h0
  have h0 : e = 0 := not_not.mp h0
  subst h0
  have hct : ct ≠ 1 := fun h => hc ⟨rfl, h⟩
  rw [M.bind_eq_some] at h
  obtain ⟨⟨e, out, oa⟩, w4, h4, h⟩ := h
  simp only at h
  split at h
  · rename_i h0
    obtain ⟨g1, g2, ⟨_, g5, t, ht, g6⟩ | ⟨g4, _⟩⟩ := cliEndOut_inv h
    · rw [exit_eq g5 g2, output_eq g1 g6]
      exact .stopped (Or.inr ⟨rfl, hct, h0⟩) ht
    · exact absurd g4 h0
  rename_i h0
  simp only [M.bind_eq_some] at h
  obtain ⟨_, _, _, _, _, _, shown, _, h5, h⟩ := h
  have h6 := (need_inv h5).1
  obtain ⟨g1, g2, ⟨g3, _⟩ | ⟨_, g5, ⟨g6, _⟩ | ⟨_, g6⟩⟩⟩ := cliEndOut_inv h
  · exact absurd g3 h0
  · cases g6
  · rw [exit_eq rfl g2, output_eq g1 g5]
    exact .done hct g6 (cliShow_ne_info h6)

theorem cliRunOut_inv {w w' : World} {ex : Exit} {o : Output} (h : cliRunOut s io v fuel st input m block p w = some ((ex, o), w')) :
    ∃ g w1, cliFront s io fuel st input m p w = some (g, w1) ∧ Told s v st g ex o := by
  unfold cliRunOut at h
  unfold cliFront
  rw [M.bind_eq_some] at h
  obtain ⟨op, w1, h1, h⟩ := h
  rw [M.bind_some h1]
  split at h
  · rename_i he
    rw [if_pos he]
    obtain ⟨g1, g2, ⟨_, g5, t, ht, g6⟩ | ⟨g4, _⟩⟩ := cliEndOut_inv h
    · refine ⟨_, _, rfl, ?_⟩
      rw [exit_eq g5 g2, output_eq g1 g6]
      exact .unopened he ht
    · exact absurd g4 he
  rename_i he
  rw [if_neg he]
  rw [M.bind_eq_some] at h
  obtain ⟨i, w2, h2, h⟩ := h
  rw [M.bind_some h2]
  rw [M.bind_eq_some] at h
  obtain ⟨buf, w3, h3, h⟩ := h
  rw [M.bind_some h3]
  split at h
  · rename_i h0
    rw [if_pos h0]
    exact cliAnalyzeOut_inv (by simp [soughtText, h0]) h
  rename_i h0
  rw [if_neg h0]
  rw [M.bind_eq_some] at h
  obtain ⟨⟨ret, e, calls, i'⟩, w4, h4, h⟩ := h
  rw [M.bind_some h4]
  simp only
  rw [M.bind_eq_some] at h
  obtain ⟨i'', w5, h5, h⟩ := h
  rw [M.bind_some h5]
  split at h
  · rename_i hr
    rw [if_pos hr]
    refine ⟨_, _, rfl, ?_⟩
    obtain ⟨g1, g2, ⟨g4, g5, t, ht, g6⟩ | ⟨rfl, g5, ⟨_, g6⟩ | ⟨g6, _⟩⟩⟩ := cliEndOut_inv h
    · rw [if_neg g4, List.append_nil] at g6
      rw [exit_eq g5 g2, output_eq g1 g6]
      exact .unsought h0 g4 ht
    · rw [if_pos rfl] at g5
      rw [exit_eq g6 g2, output_eq g1 g5]
      exact .passed h0
    · simp at g6
  · rename_i hr
    rw [if_neg hr]
    exact cliAnalyzeOut_inv (by simp [soughtText, h0, seekText, endLine]) h

/-! ## The lines of the loop -/

/-- A line of the loop. -/
def analyzeLine (n : ℕ) : List UInt8 := cs "Analyzing frame " ++ printZu (n % 2 ^ 64) ++ [13]

/-- The lines for `k` frames from `ct` on. -/
def analyzeText (st : CliState) (ct k : ℕ) : List UInt8 :=
  if st.progress then ((List.range k).map (fun j => analyzeLine (ct + j + st.offset))).flatten else []

theorem analyzeText_succ {ct k : ℕ} : analyzeText st ct (k + 1) = (if st.progress then analyzeLine (ct + st.offset) else []) ++ analyzeText st (ct + 1) k := by
  unfold analyzeText
  cases st.progress with
  | false => rfl
  | true =>
    simp only [if_true, List.range_succ_eq_map, List.map_cons, List.flatten_cons, List.map_map, Nat.add_zero]
    congr 3
    funext j
    simp only [Function.comp_apply]
    congr 1
    omega

/-- The loop on known frames, with the lines it writes: one for every frame that was handed to the analysis. -/
theorem Feed.cliLoopOut_act {F : Prop} {L S : List ℕ} {W H : ℕ} {r : Reader} {Ok : Ctx → ℕ → ℕ → Prop} {m : Option Method} {p : Option Params} {i : RDImage} {x : Ctx}
    {a : Analysis} {ev : List (Call × Obs)} {G : Ctx → List (List Fl) → RDError → Prop} (hs : Build s)
    (hb : Feed s r W H Ok F G) {L0 : List ℕ} (hL0 : ∀ b ∈ L0, b ∈ L) {frames : List (List Fl)} {e : RDError}
    (hi : Handle s r Ok W H i x) {buf : Buf Fl} (hl : buf.data.length = W * H) (hfr : G x frames e) {n ct : ℕ}
    (hfuel : frames.length < fuel) (hct : ct + frames.length ≤ s.cfg.sizeMax) (hn : n = 0 ∨ ct ≤ n) (ha : InLoop s m p W H L0 ev a) (hF : LinesTooBig s.cfg W H → F) :
    Act False F (held buf.id i x L) (x.files ++ S) (cliLoopOut s st.progress st.offset n fuel ct i buf a)
      (fun v => CliPost s r Ok m p W H L0 L S a (fun e' ct' ev' => ∃ ev1, ev' = ev ++ ev1 ∧ Counted F n ct frames e e' ct' ev1 ∧
        v.2 = analyzeText st ct ev1.length) v.1) := by
  have nil : ∀ c, analyzeText st c 0 = [] := fun c => by unfold analyzeText; simp
  have hline : ∀ ct, (if st.progress then cs "Analyzing frame " ++ printZu ((ct + st.offset) % (ullMax + 1)) ++ [13] else []) =
      (if st.progress then analyzeLine (ct + st.offset) else []) := fun _ => rfl
  induction fuel generalizing i x buf a ev frames ct with
  | zero => omega
  | succ fuel ih =>
    unfold cliLoopOut
    refine Act.bind (hb.frame_act (L := L) (S := S) hi hfr (buf := buf) hl) ?_
    rintro v L1 S1 ⟨x', data, rfl, hdata, hi', rfl, rfl⟩
    simp only
    refine Act.bind (Act.need (Q := fun a l s' => a = _ ∧ l = held buf.id i x' L ∧ s' = x'.files ++ S) rfl ⟨rfl, rfl, rfl⟩) ?_
    rintro _ _ _ ⟨rfl, rfl, rfl⟩
    refine Act.bind (Act.need (Q := fun a l s' => a = _ ∧ l = held buf.id i x' L ∧ s' = x'.files ++ S) rfl ⟨rfl, rfl, rfl⟩) ?_
    rintro _ _ _ ⟨rfl, rfl, rfl⟩
    cases frames with
    | nil =>
      simp only [List.isEmpty_nil, Bool.not_true, Bool.not_false, if_true]
      refine Act.pure ⟨ev, x', ⟨[], by simp, ⟨0, by simp only [List.take_nil, ite_self]; exact Fed.done, fun h => absurd rfl h, fun _ => ⟨by simp, ?_⟩, fun _ h => by cases h⟩, (nil _).symm⟩, ha, rfl, hi', rfl, rfl⟩
      rw [if_neg]
      simp only [List.length_nil]
      omega
    | cons f rest =>
      obtain ⟨rfl, hf2, hfr2⟩ := hdata f rest rfl
      simp only [List.length_cons] at hfuel hct
      have hwin : (if n = 0 then data :: rest else (data :: rest).take (n + 1 - ct)) = data :: (if n = 0 then rest else rest.take (n + 1 - (ct + 1))) := by
        by_cases h0 : n = 0
        · rw [if_pos h0, if_pos h0]
        · rw [if_neg h0, if_neg h0]
          have : n + 1 - ct = (n + 1 - (ct + 1)) + 1 := by omega
          rw [this, List.take_succ_cons]
      simp only [List.isEmpty_cons, Bool.not_false, Bool.not_true, Bool.false_eq_true, if_false]
      refine Act.bind (analyze_world hs ha (by intro b hb; simp [held, hL0 b hb]) hf2.ge) ?_
      rintro ⟨e2, oa⟩ _ _ ⟨rfl, rfl, a', wd, rfl, hbl, hc2, ha', hwd⟩
      refine Act.bind (Act.need (Q := fun a l s' => a = a' ∧ l = held buf.id i x' L ∧ s' = x'.files ++ S) rfl ⟨rfl, rfl, rfl⟩) ?_
      rintro a1 _ _ ⟨e1, rfl, rfl⟩
      subst a1
      have one : (if st.progress then cs "Analyzing frame " ++ printZu ((ct + st.offset) % (ullMax + 1)) ++ [13] else []) = analyzeText st ct 1 := by
        rw [analyzeText_succ, nil, List.append_nil, hline]
      by_cases he : e2 ≠ 0
      · rw [if_pos he]
        refine Act.pure ⟨_, x', ⟨[_], rfl, ⟨e2, ?_, fun _ => ⟨⟨rfl, hc2.1⟩, fun h => hc2.2 h hF⟩, fun h => absurd h he, by simpa using hwd⟩, one⟩, ha', hbl, hi', rfl, rfl⟩
        rw [hwin]
        exact Fed.refused _ _ _ _ he
      · rw [if_neg he]
        have he : e2 = 0 := not_not.mp he
        subst he
        rw [Cfg.sz_eq (by omega)]
        by_cases hstop : n ≠ 0 ∧ ct + 1 > n
        · rw [if_pos hstop]
          have h1 : n + 1 - (ct + 1) = 0 := by omega
          refine Act.pure ⟨_, x', ⟨[_], rfl, ⟨0, ?_, fun h => absurd rfl h, fun _ => ⟨?_, ?_⟩, by simpa using hwd⟩, one⟩, ha', hbl, hi', rfl, rfl⟩
          · rw [hwin, if_neg hstop.1, h1, List.take_zero]
            exact Fed.next _ _ _ _ _ Fed.done
          · rw [hwin, if_neg hstop.1, h1, List.take_zero]
            rfl
          · exact (if_pos ⟨hstop.1, by rw [List.length_cons]; omega⟩).symm
        · rw [if_neg hstop]
          have := ih (i := { i with ctx := some x' }) hi' (buf := ⟨buf.id, data⟩) hf2 (ct := ct + 1) hfr2
            (by omega) (by omega) (by omega) ha'
          refine Act.bind this ?_
          rintro ⟨v, rest'⟩ L' S' hv
          refine Act.pure (hv.trans hbl ?_)
          rintro e3 ct3 ev3 ⟨ev1, rfl, ⟨e1, h2, h3, h4, h8⟩, h9⟩
          refine ⟨_ :: ev1, List.append_assoc _ _ _, ⟨e1, ?_, h3, fun h => ?_, by simpa using ⟨hwd, fun a b hab => h8 (a, b) hab⟩⟩, by
            simp only at h9 ⊢
            rw [List.length_cons, analyzeText_succ, h9, hline]⟩
          · rw [hwin]
            exact Fed.next _ _ _ _ _ h2
          · obtain ⟨h5, h6⟩ := h4 h
            rw [hwin, List.length_cons, h5, h6]
            refine ⟨by omega, ?_⟩
            have : (n ≠ 0 ∧ n + 1 - (ct + 1) ≤ rest.length) ↔ (n ≠ 0 ∧ n + 1 - ct ≤ (data :: rest).length) := by
              simp only [List.length_cons]
              omega
            simp only [this]

/-! ## The stage reached on a known image -/

/-- The stage on an image whose frames are known. -/
def Reached (s : Sys) (F : Prop) (st : CliState) (W H : ℕ) (m : Method) (p : Params) (frames : List (List Fl)) (e : RDError) (good : Bool) (e0 : RDError) :
    Stage → Prop
  | .unopened _ => F
  | .unsought e' calls => (F ∨ good = false ∧ e' = e0) ∧ (st.progress = true → ∃ j, j < st.offset ∧ calls = (List.range j).map (· + 1))
  | .uncreated e' calls => good = true ∧ (∃ L L', Created s F L (some m) W H (some p) (none, e') L') ∧
      (st.progress = true → calls = (List.range st.offset).map (· + 1))
  | .looped e' ct calls lines => good = true ∧
      (∃ ev a, Reach s (some m) W H (some p) ev a ∧ Counted F st.nframes 1 frames e e' ct ev ∧ lines = analyzeText st 1 ev.length) ∧
      (st.progress = true → calls = (List.range st.offset).map (· + 1))

variable {F : Prop} {L S : List ℕ} {W H : ℕ} {r : Reader} {Ok : Ctx → ℕ → ℕ → Prop}

theorem Outlook.cliFront_act (hs : Build s) {G : Ctx → List (List Fl) → RDError → Prop} {G0 : Ctx → Prop} {frames : List (List Fl)} {e e0 : RDError} {good : Bool}
    (hx : Outlook s (cliOpen s io st input) st.offset W H r Ok F G G0 frames e good e0)
    (hm : m ∈ methods) (hp : ValidParams? s.cfg (some (cliAuto st.filterOpt input p)))
    (hF : good = true → LinesTooBig s.cfg W H → F) (hfuel : frames.length < fuel) (hlen : frames.length < s.cfg.sizeMax) :
    Act False F L S (cliFront s io fuel st input m p)
      (fun g _ _ => Reached s F st W H m (cliAuto st.filterOpt input p) frames e good e0 g) := by
  unfold cliFront
  refine Act.bind (hx.fount.opening L S) ?_
  rintro o L1 S1 (⟨i, x', b, ho, hx', hW, hH, hbuf, rfl, rfl⟩ | ⟨rfl, h3, rfl, rfl⟩)
  · have ha := ho.handle
    rw [hW, hH] at ha
    rw [if_neg (by rw [ho.error]; simp)]
    refine Act.bind (Act.need (Q := fun a l s' => a = i ∧ l = held b i x' L ∧ s' = x'.files ++ S) ho.image ⟨rfl, rfl, rfl⟩) ?_
    rintro i1 _ _ ⟨e1, rfl, rfl⟩
    subst i1
    refine Act.bind (Act.need (Q := fun a l s' => a = _ ∧ l = held b i x' L ∧ s' = x'.files ++ S) hbuf ⟨rfl, rfl, rfl⟩) ?_
    rintro _ _ _ ⟨rfl, rfl, rfl⟩
    rw [hW, hH]
    have run : ∀ {i' : RDImage} {x1 : Ctx} {calls : List ℕ}, Handle s r Ok W H i' x1 → good = true → G x1 frames e →
        (st.progress = true → calls = (List.range st.offset).map (· + 1)) →
        Act False F (held b i' x1 L) (x1.files ++ S)
        (cliLooping s fuel st m (cliAuto st.filterOpt input p) i' ⟨b, List.replicate (W * H) s.env.junk⟩ W H calls)
        (fun g _ _ => Reached s F st W H m (cliAuto st.filterOpt input p) frames e good e0 g) := by
      intro i' x1 calls hi' hok hfr1 hcalls
      have hF := hF hok
      unfold cliLooping
      have hm' : ValidMethod? (some m) := fun x hx => by cases hx; exact hm
      refine Act.bind (Act.seen (Act.ofTri (createAnalysis_tri hs hm' hp (fun h => hF h.lines)))) ?_
      rintro ⟨oa, e1⟩ L1 S1 ⟨⟨rfl, hc⟩, w1, w1', hw1, _, he1⟩
      simp only
      by_cases h0 : e1 ≠ 0
      · rw [if_pos h0]
        have hoa : oa = none := by
          cases hc with
          | ok => exact absurd rfl h0
          | _ => rfl
        subst hoa
        exact Act.pure ⟨hok, ⟨_, _, hc⟩, hcalls⟩
      · rw [if_neg h0]
        have h0 : e1 = RDEOK := not_not.mp h0
        subst h0
        generalize hv : (oa, RDEOK) = res at hc
        cases hc with
        | zero => cases hv
        | toobig => cases hv
        | internal => cases hv
        | nomem => cases hv
        | ok a _ hf hperm _ _ _ =>
          cases hv
          have hperm2 : L1.Perm (held b i' x1 (a.blocks ++ L)) := by
            refine hperm.trans ?_
            unfold held
            perm_count
          refine Act.of_perm ?_ hperm2 (List.Perm.refl _)
          refine Act.bind (Act.need (Q := fun b' l s' => b' = a ∧ l = held b i' x1 (a.blocks ++ L) ∧ s' = x1.files ++ S) rfl ⟨rfl, rfl, rfl⟩) ?_
          rintro b' _ _ ⟨e2, rfl, rfl⟩
          subst b'
          refine Act.bind (hx.fount.feed.cliLoopOut_act (L := a.blocks ++ L) (S := S) hs (fun _ h => h) hi' (buf := ⟨b, List.replicate (W * H) s.env.junk⟩) (by simp)
            hfr1 hfuel (by omega) (by omega)
            (⟨Reach.create hw1 he1, hf.good, hf.width, hf.height, fun b hb => List.mem_append_left _ hb⟩ : InLoop s (some m) (some (cliAuto st.filterOpt input p)) W H (a.blocks ++ L) [] a) hF) ?_
          rintro ⟨r1, lines⟩ L2 S2 ⟨ev, x2, ⟨ev1, hev, hcnt, hlines⟩, hin, _⟩
          rw [List.nil_append] at hev
          subst hev
          exact Act.pure ⟨hok, ⟨ev, r1.2.2.2.2, hin.reach, hcnt, hlines⟩, hcalls⟩
    by_cases h0 : st.offset = 0
    · rw [if_pos h0]
      exact run ha (hx.start h0).1 ((hx.start h0).2 _ hx') (fun _ => by rw [h0]; rfl)
    · rw [if_neg h0]
      refine Act.bind (hx.skip h0 b st.progress L S hx' ha) ?_
      rintro a L1 S1 ⟨ret, e1, calls, x2, rfl, hres, hcalls, ha', rfl, rfl⟩
      simp only
      refine Act.bind (Act.need (Q := fun a l s' => a = _ ∧ l = held b i x2 L ∧ s' = x2.files ++ S) rfl ⟨rfl, rfl, rfl⟩) ?_
      rintro _ _ _ ⟨rfl, rfl, rfl⟩
      cases ret with
      | false =>
        rw [if_pos (by decide)]
        refine Act.pure ⟨?_, fun h => ?_⟩
        · rcases hres with ⟨_, _, hf⟩ | ⟨q1, q2, _⟩
          · exact Or.inl hf
          · exact Or.inr ⟨q1.symm, q2 q1.symm⟩
        · obtain ⟨j, j1, j2, j3⟩ := hcalls h
          refine ⟨j, ?_, j2⟩
          have : j ≠ st.offset := fun h => by simp [h] at j3
          omega
      | true =>
        rw [if_neg (by decide)]
        rcases hres with ⟨h, _⟩ | ⟨q1, _, q3⟩
        · cases h
        · refine run ha' q1.symm (q3 q1.symm) (fun h => ?_)
          obtain ⟨j, j1, j2, j3⟩ := hcalls h
          rw [j2, j3.mp rfl]
  · rw [if_pos (show (Failed RDENOMEM).error ≠ 0 by decide)]
    exact Act.pure h3

end Verif
