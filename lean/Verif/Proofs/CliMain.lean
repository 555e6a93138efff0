import Verif.Proofs.CliRun

/-! From the options to the image. -/

namespace Verif

open Spec

variable {s : Sys} {io : Io} {v : CliEnv} {U F : Prop} {L S : List ℕ} {opts : List CliOpt} {input : List UInt8} {fuel : ℕ}

theorem endsAt_unique {before : List CliOpt} {o : CliOpt} {c1 c2 : ℤ} (h1 : EndsAt io before o c1) (h2 : EndsAt io before o c2) : c1 = c2 := by
  cases h1 with
  | readers _ _ h => cases h2 with
    | readers _ _ _ => rfl
    | reader _ _ h' => exact absurd h h'
  | reader _ _ h => cases h2 with
    | readers _ _ h' => exact absurd h' h
    | reader _ _ _ => rfl
  | _ => cases h2; rfl

theorem ends_unique {c1 c2 : ℤ} (h1 : Ends io opts c1) (h2 : Ends io opts c2) : c1 = c2 := by
  obtain ⟨b1, o1, a1, e1, g1, f1⟩ := h1
  obtain ⟨b2, o2, a2, e2, g2, f2⟩ := h2
  rw [e1] at e2
  rcases List.append_eq_append_iff.mp e2 with ⟨l, h3, h4⟩ | ⟨l, h3, h4⟩
  · cases l with
    | nil =>
      rw [List.append_nil] at h3
      subst h3
      simp only [List.nil_append, List.cons.injEq] at h4
      obtain ⟨rfl, _⟩ := h4
      exact endsAt_unique g1 g2
    | cons b l =>
      rw [List.cons_append, List.cons.injEq] at h4
      obtain ⟨rfl, _⟩ := h4
      exact absurd g1 (f2 b1 o1 l c1 h3)
  · cases l with
    | nil =>
      rw [List.append_nil] at h3
      subst h3
      simp only [List.nil_append, List.cons.injEq] at h4
      obtain ⟨rfl, _⟩ := h4
      exact endsAt_unique g1 g2
    | cons b l =>
      rw [List.cons_append, List.cons.injEq] at h4
      obtain ⟨rfl, _⟩ := h4
      exact absurd g2 (f1 b2 o2 l c2 h3)

theorem options_cases (c : Cfg) (io : Io) (opts : List CliOpt) :
    (∃ e, cliOptions c io opts {} = .inl e ∧ Ends io opts e.code ∧ (e.code = 0 ∨ e.code = 1) ∧ (e.shown = .info ∨ e.shown = .nothing)) ∨
    ∃ st, cliOptions c io opts {} = .inr st ∧ Parsed c opts st ∧ Goes io opts := by
  have := options_spec opts (options_start c io).1 (options_start c io).2
  simpa using this

theorem verbosity_eq {c : Cfg} (hc : c.WF) {st : CliState} (hr : Parsed c opts st) {k : ℤ} (hk : Verbosity c opts k) : st.verbosity = k := by
  have h1 := hc.int_long
  have h2 := hc.int_pos
  rw [hr.verbosity]
  rcases hk with ⟨h, rfl⟩ | ⟨a, neg, n, h, hn, hle, rfl⟩
  · rw [h]
  · rw [h]
    simp only
    obtain ⟨_, rfl, rfl⟩ := number_iff.mp hn
    unfold strtol
    generalize subject a = q at *
    obtain ⟨neg, ds⟩ := q
    simp only at *
    generalize Stream.decimal ds = n at *
    unfold toInt
    have hm : ∀ z : ℤ, -(c.intMax : ℤ) ≤ z → z ≤ c.intMax → (z + (c.intMax + 1)) % (2 * (c.intMax + 1)) - (c.intMax + 1) = z := by
      intro z h3 h4
      rw [Int.emod_eq_of_lt (by omega) (by omega)]
      omega
    cases neg with
    | true =>
      simp only [if_true]
      rw [if_pos (by omega)]
      exact hm _ (by omega) (by omega)
    | false =>
      simp only [Bool.false_eq_true, if_false]
      rw [if_pos (by omega)]
      exact hm _ (by omega) (by omega)

/-- The command, when the options can be used. -/
theorem cliMain_act {m : Method} {p : Params} {Q : Exit → List ℕ → List ℕ → Prop} (hW : Wants s.cfg io v opts input m p)
    (hrun : ∀ st p0 block, Parsed s.cfg opts st → cliAuto st.filterOpt input p0 = p →
      Act U F (block :: L) S (cliRun s io v fuel st input m block p0) Q) (hF : F → Q ⟨1, .nothing⟩ L S) :
    Act U F L S (cliMain s io v fuel opts (some input)) Q := by
  unfold cliMain
  rcases options_cases s.cfg io opts with ⟨e, _, h, _⟩ | ⟨st, h1, hp, _⟩
  · exact absurd h (hW.goes _)
  rw [h1]
  simp only
  rw [(method_iff hp).mpr hW.method]
  simp only
  obtain ⟨p0, h2, h3⟩ := (params_iff hp).mpr ⟨hW.threshold, hW.range, hW.filter⟩
  unfold resdetAllocDefaultParameters
  rw [bind_assoc]
  refine Act.bind Act.malloc ?_
  rintro rb L1 S1 ⟨hS1, ⟨rfl, rfl, hF'⟩ | ⟨b, rfl, rfl⟩⟩ <;> subst S1
  · exact Act.pure (hF hF')
  simp only
  rw [pure_bind]
  simp only [h2]
  rw [if_neg]
  · exact hrun st p0 b hp h3
  · rw [hp.type, hp.imageReader]
    rcases hW.one with h | h <;> rw [h] <;> simp

theorem cliMain_unusable {w : World} (hw : w.WF) (hg : ∀ code, ¬ Ends io opts code) (hn : ∀ m p, ¬ Wants s.cfg io v opts input m p) :
    ∃ w', cliMain s io v fuel opts (some input) w = some (⟨1, .nothing⟩, w') := by
  have key : Act False True [] [] (cliMain s io v fuel opts (some input)) (fun ex _ _ => ex = ⟨1, .nothing⟩) := by
    unfold cliMain
    rcases options_cases s.cfg io opts with ⟨e, _, h, _⟩ | ⟨st, h1, hp, _⟩
    · exact absurd h (hg _)
    rw [h1]
    simp only
    cases hm : resdetGetMethod (st.method.map textOf) with
    | none => exact Act.pure rfl
    | some m =>
      simp only
      unfold resdetAllocDefaultParameters
      rw [bind_assoc]
      refine Act.bind Act.malloc ?_
      rintro rb L1 S1 ⟨hS1, ⟨rfl, rfl, hF'⟩ | ⟨b, rfl, rfl⟩⟩ <;> subst S1
      · exact Act.pure rfl
      simp only
      rw [pure_bind]
      simp only
      cases hc : (cliThreshold v st.thresholdOpt (defaultParams s.cfg)).bind
          (fun p => (cliRange s.cfg st.rangeOpt p).bind (cliFilter s.cfg st.filterOpt)) with
      | none =>
        simp only
        refine Act.bind (Act.free (List.Perm.refl _)) ?_
        rintro _ _ _ _
        exact Act.pure rfl
      | some p0 =>
        simp only
        rw [if_pos]
        · exact Act.pure rfl
        · by_contra h
          have h4 := (params_iff (v := v) (input := input) hp).mp ⟨p0, hc, rfl⟩
          refine hn m (cliAuto st.filterOpt input p0) ⟨hg, (method_iff hp).mp hm, h4.1, h4.2.1, h4.2.2, ?_⟩
          rw [hp.type, hp.imageReader] at h
          cases h5 : last CliOpt.tArg opts with
          | none => exact Or.inl rfl
          | some _ =>
            cases h6 : last CliOpt.rArg opts with
            | none => exact Or.inr rfl
            | some _ => rw [h5, h6] at h; exact absurd rfl h
  rcases key w w (Own.init hw (fun _ _ => trivial)) with ⟨_, h⟩ | ⟨a, w', _, _, h1, _, rfl⟩
  · exact h.elim
  · exact ⟨w', h1⟩

end Verif
