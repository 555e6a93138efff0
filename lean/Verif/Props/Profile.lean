import Verif.Proofs.Profile
import Verif.Props.Tools

/-! # The program profile (C77) -/

namespace Verif.Props

open Spec

variable {s : Sys} {io : Io} {v : CliEnv} {w : World} {es : List (DictEntry × Content)} {lines : List (List UInt8)}

/-- **C77** profile with a dictionary whose entries name files of known content goes through the entries in order.  It is free of undefined
behaviour, skips exactly the files that cannot be read whole, and for each other image computes the figures of every method against the
sizes of that entry; it stops at the first image in which a method fails.  The totals are the sums of these figures, and the exit status
tells whether it stopped.  If it did not, everything is released.  Memory running out is the only other reason for skipping or stopping. -/
theorem C77_program (hio : io.Plain) (hs : Build s) (hw : w.WF) (hd : Dict (es.map Prod.fst) lines) (hc : ∀ x ∈ es, Contains s io x.1.name x.2)
    (hn : ∀ x ∈ es, ∀ n ∈ x.1.widths ++ x.1.heights, n ≤ s.cfg.sizeMax ∧ n < 2 ^ 64)
    (he : ∀ x ∈ es, -(s.cfg.intMax : ℤ) ≤ x.2.error ∧ x.2.error ≤ resdetGetMaxError)
    (hh : ∀ x ∈ es, ∀ W H frames, x.2.whole s = some (W, H, frames) → ¬ HugeScores s W H) :
    ∃ p w' stopped, profileMain s io v lines w = some (p, w') ∧ Profiled s (¬ Plenty w) es p.images stopped ∧
      p.totals.length = methods.length ∧
      (∀ k, k < methods.length → p.totals[k]? = some (figureSum p.images k Prod.fst % (s.cfg.sizeMax + 1), figureSum p.images k Prod.snd % (s.cfg.sizeMax + 1))) ∧
      p.code = (if stopped then 1 else 0) ∧ (stopped = false → Unchanged w w') := by
  have hF : ∀ x ∈ es, ∀ W H frames, x.2.whole s = some (W, H, frames) → LinesTooBig s.cfg W H → ¬ Plenty w := by
    rintro x hx W H frames h1 h
    refine absurd ?_ (hh x hx W H frames h1)
    rcases h with h | h
    · exact ⟨W, Or.inl rfl, h⟩
    · exact ⟨H, Or.inr rfl, h⟩
  rcases profileLoop_act (v := v) (F := ¬ Plenty w) (L := []) (S := []) hio hs ⟨w, hw⟩ hd hc hn he hF (tail := []) (T := fun b => b = false) tail_nil
    (Nat.lt_succ_self _) w w (Own.init hw (fun j hj hp => by rw [hp j] at hj; cases hj)) with
    ⟨_, h⟩ | ⟨⟨images, b⟩, w', L', S', k1, ow, rfl, _, ⟨b', k2, k4, k5⟩, k3⟩
  · exact h.elim
  have hb : b' = b := by
    cases b' with
    | true => exact (k4 rfl).symm
    | false => exact (k5 rfl).symm
  subst hb
  rw [List.append_nil] at k1
  · refine ⟨⟨images, images.foldl (addTotals s.cfg) (List.replicate methods.length (0, 0)), if b' then 1 else 0⟩, w', b', ?_, k2, ?_, ?_, rfl, ?_⟩
    · unfold profileMain
      rw [M.bind_some k1]
      rfl
    · simp only [totals_length, List.length_replicate]
    · intro k hk
      simp only
      rw [totals_eq _ _ _ (by intro t ht; rw [List.eq_of_mem_replicate ht]; exact ⟨Nat.zero_le _, Nat.zero_le _⟩), List.getElem?_replicate, if_pos hk]
      simp
    · rintro h
      have := (k3 h).eq_nil
      subst this
      exact ow.same

/-- **C77** With enough memory, if every file can be read whole and detection fails in none, all of them are counted and the program ends well. -/
theorem C77_complete (hio : io.Plain) (hs : Build s) (hw : w.WF) (hp : Plenty w) (hd : Dict (es.map Prod.fst) lines) (hc : ∀ x ∈ es, Contains s io x.1.name x.2)
    (hn : ∀ x ∈ es, ∀ n ∈ x.1.widths ++ x.1.heights, n ≤ s.cfg.sizeMax ∧ n < 2 ^ 64)
    (he : ∀ x ∈ es, -(s.cfg.intMax : ℤ) ≤ x.2.error ∧ x.2.error ≤ resdetGetMaxError)
    (hg : ∀ x ∈ es, ∃ W H frames, x.2.whole s = some (W, H, frames) ∧ ¬ HugeScores s W H ∧ ¬ Failing s W H frames) :
    ∃ p w', profileMain s io v lines w = some (p, w') ∧ p.code = 0 ∧ Unchanged w w' ∧
      List.Forall₂ (fun x figs => ∃ W H frames, x.2.whole s = some (W, H, frames) ∧
        List.Forall₂ (Figure s False (x.1.widths, x.1.heights) W H frames) methods figs ∧ none ∉ figs) es p.images := by
  obtain ⟨p, w', b, h1, h2, _, _, h3, h4⟩ := C77_program (v := v) hio hs hw hd hc hn he (by
    rintro x hx W H frames h
    obtain ⟨W', H', frames', h', g⟩ := hg x hx
    rw [h] at h'
    cases h'
    exact g.1)
  have hpl : (¬ Plenty w) ↔ False := ⟨fun h => h hp, False.elim⟩
  rw [propext hpl] at h2
  suffices b = false ∧ List.Forall₂ (fun x figs => ∃ W H frames, x.2.whole s = some (W, H, frames) ∧
        List.Forall₂ (Figure s False (x.1.widths, x.1.heights) W H frames) methods figs ∧ none ∉ figs) es p.images by
    refine ⟨p, w', h1, ?_, h4 this.1, this.2⟩
    rw [h3, this.1]
    rfl
  clear h1 h3 h4 hd hc hn he
  generalize p.images = images at h2
  induction h2 with
  | nil => exact ⟨rfl, .nil⟩
  | skipped e c rest l b h _ ih =>
    rcases h with h | h
    · obtain ⟨W, H, frames, h', _⟩ := hg _ List.mem_cons_self
      rw [h] at h'
      cases h'
    · exact h.elim
  | lost e c rest h => exact h.elim
  | counted e c rest l b W H frames figs h5 h6 h7 _ ih =>
    have := ih (fun x hx => hg x (List.mem_cons_of_mem _ hx))
    exact ⟨this.1, .cons ⟨W, H, frames, h5, h6, h7⟩ this.2⟩
  | failed e c rest W H frames figs h5 h6 h7 =>
    exfalso
    obtain ⟨W', H', frames', h', g⟩ := hg _ List.mem_cons_self
    rw [h5] at h'
    cases h'
    obtain ⟨i, hi⟩ := List.mem_iff_getElem?.mp h7
    obtain ⟨hl, hf⟩ := List.forall₂_iff_get.mp h6
    obtain ⟨hi', hi2⟩ := List.getElem?_eq_some_iff.mp hi
    have := hf i (by omega) hi'
    rw [List.get_eq_getElem, List.get_eq_getElem, hi2] at this
    rcases this with this | this
    · exact this
    · exact g.2 this

/-- **C77** A dictionary that breaks off in its last entry, or whose last entry has a list without a digit: profile does with the entries before
what it does without that entry, and unless memory ran out the exit status is 1. -/
theorem C77_torn (hio : io.Plain) (hs : Build s) (hw : w.WF) (hd : Dict (es.map Prod.fst) lines) (hc : ∀ x ∈ es, Contains s io x.1.name x.2)
    (hn : ∀ x ∈ es, ∀ n ∈ x.1.widths ++ x.1.heights, n ≤ s.cfg.sizeMax ∧ n < 2 ^ 64)
    (he : ∀ x ∈ es, -(s.cfg.intMax : ℤ) ≤ x.2.error ∧ x.2.error ≤ resdetGetMaxError)
    (hh : ∀ x ∈ es, ∀ W H frames, x.2.whole s = some (W, H, frames) → ¬ HugeScores s W H)
    {name : List UInt8} {c : Content} {tail : List (List UInt8)} (ht : Torn s name c tail) (h0 : name ≠ []) (h1 : ∀ b ∈ name, b ≠ 0 ∧ b ≠ ch '\n')
    (hc' : Contains s io name c) (he' : -(s.cfg.intMax : ℤ) ≤ c.error ∧ c.error ≤ resdetGetMaxError) :
    ∃ p w' stopped, profileMain s io v (lines ++ tail) w = some (p, w') ∧ Profiled s (¬ Plenty w) es p.images stopped ∧
      (∀ k, k < methods.length → p.totals[k]? = some (figureSum p.images k Prod.fst % (s.cfg.sizeMax + 1), figureSum p.images k Prod.snd % (s.cfg.sizeMax + 1))) ∧
      (stopped = true ∨ Plenty w → p.code = 1) := by
  have hF : ∀ x ∈ es, ∀ W H frames, x.2.whole s = some (W, H, frames) → LinesTooBig s.cfg W H → ¬ Plenty w := by
    rintro x hx W H frames h1 h
    refine absurd ?_ (hh x hx W H frames h1)
    rcases h with h | h
    · exact ⟨W, Or.inl rfl, h⟩
    · exact ⟨H, Or.inr rfl, h⟩
  rcases profileLoop_act (v := v) (F := ¬ Plenty w) (L := []) (S := []) hio hs ⟨w, hw⟩ hd hc hn he hF (tail := tail) (T := fun b => b = true ∨ ¬ Plenty w)
    (tail_torn hio ⟨w, hw⟩ ht h0 h1 hc' he') (Nat.lt_succ_self _) w w (Own.init hw (fun j hj hp => by rw [hp j] at hj; cases hj)) with
    ⟨_, h⟩ | ⟨⟨images, b⟩, w', L', S', k1, ow, rfl, _, ⟨b', k2, k4, k5⟩, k3⟩
  · exact h.elim
  · refine ⟨⟨images, images.foldl (addTotals s.cfg) (List.replicate methods.length (0, 0)), if b then 1 else 0⟩, w', b', ?_, k2, ?_, ?_⟩
    · unfold profileMain
      rw [M.bind_some k1]
      rfl
    · intro k hk
      simp only
      rw [totals_eq _ _ _ (by intro t ht; rw [List.eq_of_mem_replicate ht]; exact ⟨Nat.zero_le _, Nat.zero_le _⟩), List.getElem?_replicate, if_pos hk]
      simp
    · intro h
      have : b = true := by
        cases b' with
        | true => exact k4 rfl
        | false =>
          rcases h with h | h
          · cases h
          · exact (k5 rfl).resolve_right (fun h' => h' h)
      rw [this]
      rfl

/-- A dictionary with an empty line and an entry for a.pgm, whose true size is said to be known. -/
def Demo.entries : List (DictEntry × Content) := [(⟨cs "a.pgm", [2, 1], [1]⟩, .frames 2 1 [[normal 255 0, normal 255 255]] RDEOK)]

example : Demo.io.Plain ∧ Build Demo.sys ∧ Demo.w0.WF ∧ Plenty Demo.w0 ∧
    Dict (Demo.entries.map Prod.fst) [cs "\n", cs "a.pgm\n", cs "2 1\n", cs "1\n"] ∧ (∀ x ∈ Demo.entries, Contains Demo.sys Demo.io x.1.name x.2) ∧
    (∀ x ∈ Demo.entries, ∀ n ∈ x.1.widths ++ x.1.heights, n ≤ Demo.sys.cfg.sizeMax ∧ n < 2 ^ 64) ∧
    (∀ x ∈ Demo.entries, -(Demo.sys.cfg.intMax : ℤ) ≤ x.2.error ∧ x.2.error ≤ resdetGetMaxError) ∧
    (∀ x ∈ Demo.entries, ∃ W H frames, x.2.whole Demo.sys = some (W, H, frames) ∧ ¬ HugeScores Demo.sys W H ∧ ¬ Failing Demo.sys W H frames) := by
  refine ⟨Demo.io_plain, Demo.sys_build, Demo.w0_wf, fun _ => rfl, ?_, ?_, by decide +kernel, ?_, ?_⟩
  · refine .blank _ _ (.entry ⟨cs "a.pgm", [2, 1], [1]⟩ (cs "2 1") (cs "1") [] [] (by decide) (by decide) ?_ ?_ .nil)
    · exact .more 2 (cs "2") [1] (cs "1") ⟨by decide, by unfold Digits; decide, by decide⟩ (.last 1 (cs "1") ⟨by decide, by unfold Digits; decide, by decide⟩)
    · exact .last 1 (cs "1") ⟨by decide, by unfold Digits; decide, by decide⟩
  · rintro x hx
    rw [List.mem_singleton.mp hx]
    exact demo_yields
  · rintro x hx
    rw [List.mem_singleton.mp hx]
    exact ⟨by decide +kernel, by decide +kernel⟩
  · rintro x hx
    rw [List.mem_singleton.mp hx]
    refine ⟨2, 1, _, rfl, ?_, ?_⟩
    · rintro ⟨n, rfl | rfl, h⟩ <;> revert h <;> decide +kernel
    · rintro (h | h | h) <;> revert h <;> decide +kernel

/-- The same dictionary without its last line, and with an empty line instead. -/
example : Torn Demo.sys (cs "a.pgm") (.frames 2 1 [[normal 255 0, normal 255 255]] RDEOK) [cs "a.pgm\n", cs "2 1\n"] ∧
    Torn Demo.sys (cs "a.pgm") (.frames 2 1 [[normal 255 0, normal 255 255]] RDEOK) [cs "a.pgm\n", cs "2 1\n", cs "\n"] ∧
    Dict (([] : List (DictEntry × Content)).map Prod.fst) [cs "\n"] ∧
    Contains Demo.sys Demo.io (cs "a.pgm") (.frames 2 1 [[normal 255 0, normal 255 255]] RDEOK) :=
  ⟨.first _, .bad (cs "2 1") [] (ch '\n') (ch '\n') (by decide +kernel) (Or.inr (by simp)), .blank _ _ .nil, demo_yields⟩

end Verif.Props
