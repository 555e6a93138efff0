import Verif.Proofs.CliOptions
import Verif.Props.Params

/-! The method and the parameters the options ask for. -/

namespace Verif

open Spec

variable {c : Cfg} {io : Io} {v : CliEnv} {opts : List CliOpt} {st : CliState}

theorem textOf_inj {a b : List UInt8} (h : textOf a = textOf b) : a = b := by
  unfold textOf at h
  have h1 : a.map (fun x => Char.ofNat x.toNat) = b.map (fun x => Char.ofNat x.toNat) := by
    have := congrArg String.toList h
    simpa using this
  refine List.map_injective_iff.mpr ?_ h1
  intro x y hxy
  have key : ∀ x : UInt8, (Char.ofNat x.toNat).toNat = x.toNat := by
    intro x
    have := x.toNat_lt
    have hv : x.toNat.isValidChar := by unfold Nat.isValidChar; omega
    unfold Char.ofNat
    rw [dif_pos hv]
    rfl
  have := congrArg Char.toNat hxy
  rw [key, key] at this
  exact UInt8.toNat_inj.mp this

theorem textOf_name {m : Method} (hm : m ∈ methods) : textOf (cs m.name) = m.name := by
  unfold methods at hm
  simp only [List.mem_cons, List.not_mem_nil, or_false] at hm
  rcases hm with rfl | rfl | rfl | rfl <;> decide

theorem searchMethod_iff {ms : List Method} (hn : (ms.map Method.name).Nodup) {n : String} {m : Method} :
    searchMethod n ms = some m ↔ m ∈ ms ∧ m.name = n := by
  induction ms with
  | nil => simp [searchMethod]
  | cons a ms ih =>
    rw [List.map_cons, List.nodup_cons] at hn
    unfold searchMethod
    by_cases h : a.name = n
    · rw [if_pos h]
      constructor
      · rintro h; cases h; exact ⟨List.mem_cons_self, h⟩
      · rintro ⟨h1, h2⟩
        rcases List.mem_cons.mp h1 with rfl | h1
        · rfl
        · exact absurd (List.mem_map_of_mem (f := Method.name) h1) (by rw [h2, ← h]; exact hn.1)
    · rw [if_neg h, ih hn.2]
      constructor
      · rintro ⟨h1, h2⟩; exact ⟨List.mem_cons_of_mem _ h1, h2⟩
      · rintro ⟨h1, h2⟩
        rcases List.mem_cons.mp h1 with rfl | h1
        · exact absurd h2 h
        · exact ⟨h1, h2⟩

theorem method_iff (hr : Parsed c opts st) {m : Method} : resdetGetMethod (st.method.map textOf) = some m ↔ WantsMethod opts m := by
  rw [hr.method]
  unfold WantsMethod
  cases last CliOpt.mArg opts with
  | none =>
    simp only [Option.map_none, resdetGetMethod, true_and]
    constructor
    · exact Or.inl
    · rintro (h | ⟨_, h⟩)
      · exact h
      · cases h
  | some a =>
    simp only [Option.map_some, resdetGetMethod]
    rw [searchMethod_iff (by decide)]
    constructor
    · rintro ⟨h1, h2⟩
      refine Or.inr ⟨h1, ?_⟩
      rw [← textOf_name h1] at h2
      rw [textOf_inj h2]
    · rintro (⟨h, _⟩ | ⟨h1, h2⟩)
      · cases h
      · cases h2
        exact ⟨h1, (textOf_name h1).symm⟩

theorem wantsMethod_mem {m : Method} (h : WantsMethod opts m) : m ∈ methods := by
  rcases h with ⟨_, h⟩ | ⟨h, _⟩
  · exact List.mem_of_mem_head? h
  · exact h

theorem threshold_iff (hr : Parsed c opts st) {p q : Params} (hp : p.threshold = .fin true (-1)) :
    cliThreshold v st.thresholdOpt p = some q ↔ ∃ t, WantsThreshold v opts t ∧ q = { p with threshold := t } := by
  rw [hr.thresholdOpt]
  unfold WantsThreshold cliThreshold
  cases last CliOpt.xArg opts with
  | none =>
    simp only [true_and, reduceCtorEq, false_and, exists_false, or_false, Option.some.injEq]
    constructor
    · rintro rfl; exact ⟨_, rfl, by rw [← hp]⟩
    · rintro ⟨_, rfl, rfl⟩; rw [← hp]
  | some a =>
    simp only [reduceCtorEq, false_and, false_or, Option.some.injEq]
    cases hd : v.strtod a with
    | none =>
      simp only [reduceCtorEq, false_iff]
      rintro ⟨t, ⟨a', d, rfl, h, _⟩, _⟩
      rw [hd] at h
      cases h
    | some d =>
      simp only [setThreshold]
      by_cases ht : ((binary32.conv (binary64.div d (binary64.ofNat 100))).isnan || (binary32.conv (binary64.div d (binary64.ofNat 100))).lt (.fin false 0) ||
        (binary32.conv (binary64.div d (binary64.ofNat 100))).gt (.fin false 1)) = true
      · rw [if_pos ht]
        simp only [show RDEPARAM ≠ 0 by decide, ne_eq, not_false_eq_true, if_true, reduceCtorEq, false_iff]
        rintro ⟨t, ⟨a', d', rfl, h, rfl, hu⟩, _⟩
        rw [hd] at h
        cases h
        rw [(Props.threshold_test _).mpr hu] at ht
        cases ht
      · rw [if_neg ht]
        have hu := (Props.threshold_test _).mp (Bool.eq_false_of_not_eq_true ht)
        simp only [show RDEOK = 0 from rfl, ne_eq, not_true_eq_false, if_false, Option.some.injEq]
        constructor
        · rintro rfl
          exact ⟨_, ⟨a, d, rfl, hd, rfl, hu⟩, rfl⟩
        · rintro ⟨t, ⟨a', d', rfl, h, rfl, hu⟩, rfl⟩
          rw [hd] at h
          cases h
          rfl

theorem range_iff (hr : Parsed c opts st) {p q : Params} (hp : p.range = c.defaultRange) :
    cliRange c st.rangeOpt p = some q ↔ ∃ n, WantsRange c opts n ∧ q = { p with range := n } := by
  rw [hr.rangeOpt]
  unfold WantsRange cliRange
  cases last CliOpt.rangeArg opts with
  | none =>
    simp only [true_and, reduceCtorEq, false_and, exists_false, or_false, Option.some.injEq]
    constructor
    · rintro rfl; exact ⟨_, rfl, by rw [← hp]⟩
    · rintro ⟨_, rfl, rfl⟩; rw [← hp]
  | some a =>
    simp only [reduceCtorEq, false_and, false_or, Option.some.injEq]
    cases hd : strtou ullMax a with
    | none =>
      simp only [reduceCtorEq, false_iff]
      rintro ⟨t, ⟨a', k, rfl, h, _⟩, _⟩
      exact strtou_none.mp hd k h
    | some k =>
      have hk := strtou_iff.mp hd
      have huniq : ∀ k', Counts a k' → k' = k := fun k' h => by
        have := (strtou_iff (max := ullMax)).mpr h
        rw [hd] at this
        exact (Option.some.inj this).symm
      simp only [setRange]
      by_cases h0 : c.sz k = 0
      · rw [if_pos h0]
        simp only [show RDEPARAM ≠ 0 by decide, ne_eq, not_false_eq_true, if_true, reduceCtorEq, false_iff]
        rintro ⟨t, ⟨a', k', rfl, h, rfl, hu⟩, _⟩
        rw [huniq k' h] at hu
        exact hu h0
      · rw [if_neg h0]
        simp only [show RDEOK = 0 from rfl, ne_eq, not_true_eq_false, if_false, Option.some.injEq]
        constructor
        · rintro rfl
          exact ⟨_, ⟨a, k, rfl, hk, rfl, h0⟩, rfl⟩
        · rintro ⟨t, ⟨a', k', rfl, h, rfl, hu⟩, rfl⟩
          rw [huniq k' h]
          rfl

/-- The extension with its dot. -/
theorem dotExt_some {input stem ext : List UInt8} (h : input = stem ++ ch '.' :: ext) (hn : ch '.' ∉ ext) : dotExt input = some (ch '.' :: ext) := by
  unfold dotExt
  rw [takeWhile_split input (ch '.') stem ext h hn, if_pos (by rw [h]; simp)]

theorem split_last {l : List UInt8} {b : UInt8} (h : b ∈ l) : ∃ stem ext, l = stem ++ b :: ext ∧ b ∉ ext := by
  induction l with
  | nil => cases h
  | cons a l ih =>
    by_cases hl : b ∈ l
    · obtain ⟨s, e, h1, h2⟩ := ih hl
      exact ⟨a :: s, e, by rw [h1]; rfl, h2⟩
    · rcases List.mem_cons.mp h with rfl | h
      · exact ⟨[], l, rfl, hl⟩
      · exact absurd h hl

theorem strcaseeq_dot {ext : List UInt8} {t : String} : strcaseeq (ch '.' :: ext) (ch '.' :: cs t) = true ↔ SameText ext (cs t) := by
  rw [strcaseeq_iff]
  unfold SameText
  simp

/-- The factor for an extension, spelled out. -/
theorem autoFactor_cases (ext : List UInt8) : (∃ e k, (e, k) ∈ autoFilters ∧ SameText ext e ∧ autoFactor (ch '.' :: ext) = k) ∨
    ((∀ e k, (e, k) ∈ autoFilters → ¬ SameText ext e) ∧ autoFactor (ch '.' :: ext) = 0) := by
  have a1 : strcaseeq (ch '.' :: ext) (cs ".jpeg") = true ↔ SameText ext (cs "jpeg") := by
    rw [show cs ".jpeg" = ch '.' :: cs "jpeg" by decide]; exact strcaseeq_dot
  have a2 : strcaseeq (ch '.' :: ext) (cs ".jpg") = true ↔ SameText ext (cs "jpg") := by
    rw [show cs ".jpg" = ch '.' :: cs "jpg" by decide]; exact strcaseeq_dot
  have a3 : strcaseeq (ch '.' :: ext) (cs ".mp4") = true ↔ SameText ext (cs "mp4") := by
    rw [show cs ".mp4" = ch '.' :: cs "mp4" by decide]; exact strcaseeq_dot
  have a4 : strcaseeq (ch '.' :: ext) (cs ".mkv") = true ↔ SameText ext (cs "mkv") := by
    rw [show cs ".mkv" = ch '.' :: cs "mkv" by decide]; exact strcaseeq_dot
  have a5 : strcaseeq (ch '.' :: ext) (cs ".webp") = true ↔ SameText ext (cs "webp") := by
    rw [show cs ".webp" = ch '.' :: cs "webp" by decide]; exact strcaseeq_dot
  have a6 : strcaseeq (ch '.' :: ext) (cs ".webm") = true ↔ SameText ext (cs "webm") := by
    rw [show cs ".webm" = ch '.' :: cs "webm" by decide]; exact strcaseeq_dot
  have a7 : strcaseeq (ch '.' :: ext) (cs ".avif") = true ↔ SameText ext (cs "avif") := by
    rw [show cs ".avif" = ch '.' :: cs "avif" by decide]; exact strcaseeq_dot
  have a8 : strcaseeq (ch '.' :: ext) (cs ".heic") = true ↔ SameText ext (cs "heic") := by
    rw [show cs ".heic" = ch '.' :: cs "heic" by decide]; exact strcaseeq_dot
  unfold autoFactor
  by_cases h3 : (strcaseeq (ch '.' :: ext) (cs ".avif") || strcaseeq (ch '.' :: ext) (cs ".heic")) = true
  · rw [if_pos h3]
    simp only [Bool.or_eq_true] at h3
    rcases h3 with h | h
    · exact Or.inl ⟨_, 5, by simp [autoFilters], a7.mp h, rfl⟩
    · exact Or.inl ⟨_, 5, by simp [autoFilters], a8.mp h, rfl⟩
  rw [if_neg h3]
  by_cases h2 : (strcaseeq (ch '.' :: ext) (cs ".webp") || strcaseeq (ch '.' :: ext) (cs ".webm")) = true
  · rw [if_pos h2]
    simp only [Bool.or_eq_true] at h2
    rcases h2 with h | h
    · exact Or.inl ⟨_, 2, by simp [autoFilters], a5.mp h, rfl⟩
    · exact Or.inl ⟨_, 2, by simp [autoFilters], a6.mp h, rfl⟩
  rw [if_neg h2]
  by_cases h1 : (strcaseeq (ch '.' :: ext) (cs ".jpeg") || strcaseeq (ch '.' :: ext) (cs ".jpg") || strcaseeq (ch '.' :: ext) (cs ".mp4") || strcaseeq (ch '.' :: ext) (cs ".mkv")) = true
  · rw [if_pos h1]
    simp only [Bool.or_eq_true] at h1
    rcases h1 with ((h | h) | h) | h
    · exact Or.inl ⟨_, 3, by simp [autoFilters], a1.mp h, rfl⟩
    · exact Or.inl ⟨_, 3, by simp [autoFilters], a2.mp h, rfl⟩
    · exact Or.inl ⟨_, 3, by simp [autoFilters], a3.mp h, rfl⟩
    · exact Or.inl ⟨_, 3, by simp [autoFilters], a4.mp h, rfl⟩
  rw [if_neg h1]
  refine Or.inr ⟨?_, rfl⟩
  simp only [Bool.or_eq_true, not_or] at h1 h2 h3
  intro e k he hs
  simp only [autoFilters, List.mem_cons, Prod.mk.injEq, List.not_mem_nil, or_false] at he
  rcases he with ⟨rfl, _⟩ | ⟨rfl, _⟩ | ⟨rfl, _⟩ | ⟨rfl, _⟩ | ⟨rfl, _⟩ | ⟨rfl, _⟩ | ⟨rfl, _⟩ | ⟨rfl, _⟩
  · exact h1.1.1.1 (a1.mpr hs)
  · exact h1.1.1.2 (a2.mpr hs)
  · exact h1.1.2 (a3.mpr hs)
  · exact h1.2 (a4.mpr hs)
  · exact h2.1 (a5.mpr hs)
  · exact h2.2 (a6.mpr hs)
  · exact h3.1 (a7.mpr hs)
  · exact h3.2 (a8.mpr hs)

theorem autoFilters_fun {ext e e' : List UInt8} {k k' : ℕ} (h1 : (e, k) ∈ autoFilters) (h2 : (e', k') ∈ autoFilters) (h3 : SameText ext e)
    (h4 : SameText ext e') : k = k' := by
  have h5 : SameText e e' := by unfold SameText at *; rw [← h3, h4]
  clear h3 h4
  unfold SameText at h5
  simp only [autoFilters, List.mem_cons, Prod.mk.injEq, List.not_mem_nil, or_false] at h1 h2
  rcases h1 with ⟨rfl, rfl⟩ | ⟨rfl, rfl⟩ | ⟨rfl, rfl⟩ | ⟨rfl, rfl⟩ | ⟨rfl, rfl⟩ | ⟨rfl, rfl⟩ | ⟨rfl, rfl⟩ | ⟨rfl, rfl⟩ <;>
  rcases h2 with ⟨rfl, rfl⟩ | ⟨rfl, rfl⟩ | ⟨rfl, rfl⟩ | ⟨rfl, rfl⟩ | ⟨rfl, rfl⟩ | ⟨rfl, rfl⟩ | ⟨rfl, rfl⟩ | ⟨rfl, rfl⟩ <;>
  first | rfl | (revert h5; decide)

/-- What `-f auto` does. -/
theorem auto_iff {input : List UInt8} {p q : Params} (hp : p.compressionFilter = 0) :
    cliAuto (some (cs "auto")) input p = q ↔ ∃ k, AutoFilter input k ∧ q = { p with compressionFilter := k } := by
  unfold cliAuto
  rw [if_pos rfl]
  by_cases hd : ch '.' ∈ input
  · obtain ⟨stem, ext, h1, h2⟩ := split_last hd
    rw [dotExt_some h1 h2]
    have huniq : ∀ stem' ext', input = stem' ++ ch '.' :: ext' → ch '.' ∉ ext' → ext' = ext := by
      intro stem' ext' h3 h4
      have := dotExt_some h3 h4
      rw [dotExt_some h1 h2] at this
      simpa using this.symm
    have hk : autoFactor (ch '.' :: ext) ≤ 31 := by
      rcases autoFactor_cases ext with ⟨e, k, h3, h4, h5⟩ | ⟨_, h5⟩
      · rw [h5]
        revert h3
        simp only [autoFilters, List.mem_cons, Prod.mk.injEq, List.not_mem_nil, or_false]
        omega
      · rw [h5]; omega
    have e1 : (setCompressionFilter (some p) (autoFactor (ch '.' :: ext))).2.getD p = { p with compressionFilter := autoFactor (ch '.' :: ext) } := by
      unfold setCompressionFilter
      simp only
      rw [if_neg (by omega)]
      rfl
    simp only [e1]
    have key : ∀ k, AutoFilter input k ↔ k = autoFactor (ch '.' :: ext) := by
      intro k
      rcases autoFactor_cases ext with ⟨e, k0, h3, h4, h5⟩ | ⟨h3, h5⟩
      · rw [h5]
        constructor
        · rintro (⟨g1, g2, g3, g4⟩ | g)
          · rw [huniq _ _ g1 g2] at g4
            exact autoFilters_fun g3 h3 g4 h4
          · exact absurd h4 (g _ _ _ _ h1 h2 h3)
        · rintro rfl
          exact .known h1 h2 h3 h4
      · rw [h5]
        constructor
        · rintro (⟨g1, g2, g3, g4⟩ | g)
          · rw [huniq _ _ g1 g2] at g4
            exact absurd g4 (h3 _ _ g3)
          · rfl
        · rintro rfl
          refine .other (fun stem' ext' e k g1 g2 g3 g4 => ?_)
          rw [huniq _ _ g1 g2] at g4
          exact h3 _ _ g3 g4
    constructor
    · rintro rfl; exact ⟨_, (key _).mpr rfl, rfl⟩
    · rintro ⟨k, h3, rfl⟩; rw [(key k).mp h3]
  · have e1 : dotExt input = none := by unfold dotExt; rw [if_neg hd]
    rw [e1]
    simp only
    have key : ∀ k, AutoFilter input k ↔ k = 0 := by
      intro k
      constructor
      · rintro (⟨g1, _, _, _⟩ | _)
        · exact absurd (by rw [g1]; simp) hd
        · rfl
      · rintro rfl
        exact .other (fun stem' ext' e k g1 _ _ _ => hd (by rw [g1]; simp))
    constructor
    · rintro rfl; exact ⟨0, (key _).mpr rfl, by rw [← hp]⟩
    · rintro ⟨k, h3, rfl⟩; rw [(key k).mp h3, ← hp]

theorem filter_iff (hr : Parsed c opts st) {input : List UInt8} {p q : Params} (hp : p.compressionFilter = 0) :
    (∃ p1, cliFilter c st.filterOpt p = some p1 ∧ cliAuto st.filterOpt input p1 = q) ↔
      ∃ k, WantsFilter c opts input k ∧ q = { p with compressionFilter := k } := by
  rw [hr.filterOpt]
  unfold WantsFilter
  cases last CliOpt.fArg opts with
  | none =>
    simp only [cliFilter, cliAuto, true_and, reduceCtorEq, false_and, exists_false, or_false, Option.some.injEq, if_false]
    constructor
    · rintro ⟨p1, rfl, rfl⟩; exact ⟨_, rfl, by rw [← hp]⟩
    · rintro ⟨_, rfl, rfl⟩; exact ⟨p, rfl, by rw [← hp]⟩
  | some a =>
    by_cases ha : a = cs "auto"
    · subst ha
      have e1 : cliFilter c (some (cs "auto")) p = some p := by unfold cliFilter; simp
      rw [e1]
      simp only [Option.some.injEq, reduceCtorEq, false_and, false_or, true_and]
      constructor
      · rintro ⟨p1, rfl, h⟩
        obtain ⟨k, h1, h2⟩ := (auto_iff hp).mp h
        exact ⟨k, Or.inl h1, h2⟩
      · rintro ⟨k, h1 | ⟨a, rfl, h, _⟩, h2⟩
        · exact ⟨p, rfl, (auto_iff hp).mpr ⟨k, h1, h2⟩⟩
        · exact absurd rfl h
    · have e2 : ∀ p1, cliAuto (some a) input p1 = p1 := by
        intro p1
        unfold cliAuto
        rw [if_neg (by simpa using ha)]
      simp only [e2, exists_eq_right, Option.some.injEq, reduceCtorEq, false_and, false_or, ha]
      unfold cliFilter
      simp only
      rw [if_neg ha]
      cases hd : strtou (2 * c.longMax + 1) a with
      | none =>
        simp only [reduceCtorEq, false_iff]
        rintro ⟨k, ⟨a', rfl, _, h, _⟩, _⟩
        exact strtou_none.mp hd k h
      | some n =>
        have hk := strtou_iff.mp hd
        have huniq : ∀ k', CountsIn (2 * c.longMax + 1) a k' → k' = n := fun k' h => by
          have := (strtou_iff (max := 2 * c.longMax + 1)).mpr h
          rw [hd] at this
          exact (Option.some.inj this).symm
        simp only
        by_cases h31 : n ≤ 31
        · rw [if_neg (by omega)]
          simp only [setCompressionFilter]
          rw [if_neg (by omega)]
          simp only [show RDEOK = 0 from rfl, ne_eq, not_true_eq_false, if_false, Option.some.injEq]
          constructor
          · rintro rfl; exact ⟨n, ⟨a, rfl, ha, hk, h31⟩, rfl⟩
          · rintro ⟨k, ⟨a', rfl, _, h, _⟩, rfl⟩
            rw [huniq k h]
        · constructor
          · intro h
            exfalso
            by_cases hb : n > 255
            · rw [if_pos hb] at h; cases h
            · rw [if_neg hb] at h
              simp only [setCompressionFilter] at h
              rw [if_pos (by omega)] at h
              simp [RDEPARAM] at h
          · rintro ⟨k, ⟨a', rfl, _, h, h1⟩, _⟩
            rw [huniq k h] at h1
            exact absurd h1 h31

/-- The parameters as the command sets them. -/
theorem params_iff (hr : Parsed c opts st) {input : List UInt8} {q : Params} :
    (∃ p1, (cliThreshold v st.thresholdOpt (defaultParams c)).bind (fun p => (cliRange c st.rangeOpt p).bind (cliFilter c st.filterOpt)) = some p1 ∧
      cliAuto st.filterOpt input p1 = q) ↔
    WantsThreshold v opts q.threshold ∧ WantsRange c opts q.range ∧ WantsFilter c opts input q.compressionFilter := by
  constructor
  · rintro ⟨p1, h1, h2⟩
    obtain ⟨p2, h3, h4⟩ := Option.bind_eq_some_iff.mp h1
    obtain ⟨p3, h5, h6⟩ := Option.bind_eq_some_iff.mp h4
    obtain ⟨t, ht, rfl⟩ := (threshold_iff hr rfl).mp h3
    obtain ⟨n, hn, rfl⟩ := (range_iff hr rfl).mp h5
    obtain ⟨k, hk, rfl⟩ := (filter_iff hr rfl).mp ⟨p1, h6, h2⟩
    exact ⟨ht, hn, hk⟩
  · rintro ⟨ht, hn, hk⟩
    have h3 := (threshold_iff (p := defaultParams c) hr rfl).mpr ⟨_, ht, rfl⟩
    have h5 := (range_iff (p := { defaultParams c with threshold := q.threshold }) hr rfl).mpr ⟨_, hn, rfl⟩
    obtain ⟨p1, h6, h2⟩ := (filter_iff (p := { defaultParams c with threshold := q.threshold, range := q.range }) hr rfl).mpr ⟨_, hk, rfl⟩
    refine ⟨p1, ?_, h2⟩
    rw [h3, Option.bind_some, h5, Option.bind_some]
    exact h6

theorem wantsFilter_le {input : List UInt8} {k : ℕ} (h : WantsFilter c opts input k) : k ≤ 31 := by
  rcases h with ⟨_, rfl⟩ | ⟨_, h⟩ | ⟨_, _, _, _, h⟩
  · omega
  · cases h with
    | known _ _ h3 _ =>
      revert h3
      simp only [autoFilters, List.mem_cons, Prod.mk.injEq, List.not_mem_nil, or_false]
      omega
    | other => omega
  · exact h

theorem Spec.Wants.valid (hc : c.WF) {input : List UInt8} {m : Method} {p : Params} (h : Wants c io v opts input m p) : ValidParams c p := by
  refine ⟨?_, ?_, ?_, wantsFilter_le h.filter⟩
  · rcases h.range with ⟨_, h⟩ | ⟨_, _, _, _, _, h⟩
    · rw [h]; exact hc.range_pos
    · omega
  · rcases h.range with ⟨_, h⟩ | ⟨_, _, _, _, h, _⟩
    · rw [h]; exact hc.range_le
    · rw [h]
      exact Nat.lt_succ_iff.mp (Nat.mod_lt _ (Nat.succ_pos _))
  · rcases h.threshold with ⟨_, h⟩ | ⟨_, _, _, _, _, h⟩
    · exact Or.inl h
    · exact Or.inr h

end Verif
