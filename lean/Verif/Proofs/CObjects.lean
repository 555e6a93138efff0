import Verif.Proofs.PyObjects
import Verif.Spec.CObjects
import Verif.Proofs.Lasting

/-! # Programs that use the library from C keep track of their memory, and analyses do not disturb each other -/

namespace Verif

open Spec Props

variable {s : Sys} {st st' : CState} {base w w' : World} {leak : List ℕ}

def parBlocks (q : Option (ℕ × Params)) : List ℕ := (q.map Prod.fst).toList

def listBlocks (l : Option (Buf Res)) : List ℕ := (l.map Buf.id).toList

def CState.blocks (st : CState) : List ℕ :=
  st.params.flatMap parBlocks ++ (st.analyses.flatMap anaBlocks ++ st.lists.flatMap listBlocks)

/-- What holds between the steps of a program that started in `base`, when the library lost the blocks `leak`. -/
structure Tracks (s : Sys) (base : World) (leak : List ℕ) (st : CState) (w : World) : Prop where
  rel : Rel True base (st.blocks ++ leak) w
  params : ∀ q, some q ∈ st.params → ValidParams s.cfg q.2
  analyses : ∀ a, some a ∈ st.analyses → Good s a

theorem Tracks.init (hw : w.WF) : Tracks s w [] {} w := ⟨Rel.init hw (fun _ _ => trivial), by simp, by simp⟩

theorem Tracks.held (h : Tracks s base leak st w) : ∀ b, b ∈ CState.held st ↔ b ∈ st.blocks := by
  intro b
  unfold CState.held CState.blocks
  rw [List.append_assoc]
  simp only [List.mem_append]
  refine or_congr Iff.rfl (or_congr ?_ Iff.rfl)
  simp only [List.mem_flatMap]
  refine exists_congr fun a => and_congr_right fun ha => ?_
  cases a with
  | none => simp [anaBlocks]
  | some a => exact ⟨(h.analyses a ha).owned_blocks b, blocks_owned b⟩

/-- What a step does to the analyses. -/
def Follows (s : Sys) (st : CState) (op : COp) (w : World) (o : CObs) (st' : CState) : Prop :=
  ∀ (k : ℕ) (a' : Analysis), st'.analyses[k]? = some (some a') →
    (∃ a, st.analyses[k]? = some (some a) ∧ ((onAnalysis k (op, o) = none ∧ a' = a) ∨
      ∃ f ob, onAnalysis k (op, o) = some (f, ob) ∧ Legal a ⟨f, w⟩ ∧ step s a ⟨f, w⟩ = some (ob, a'))) ∨
    (k = st.analyses.length ∧ onAnalysis k (op, o) = none ∧ ∃ name W H q e wd', op = .create name W H q ∧
      createAnalysis s (resdetGetMethod name) W H ((cArg st q).map Prod.snd) w = some ((some a', e), wd'))

/-- One step with everything known about it. -/
structure Moves (s : Sys) (base : World) (leak : List ℕ) (st : CState) (op : COp) (w : World) (o : CObs) (st' : CState) (w' : World) : Prop where
  exec : cStep s st op w = some ((o, st'), w')
  tracks : ∃ base' leak', Tracks s base' leak' st' w' ∧ (Tidy s w op → base' = base ∧ leak' = leak)
  follows : Follows s st op w o st'
  longer : st.analyses.length ≤ st'.analyses.length
  dead : ∀ k : ℕ, st.analyses[k]? = some none → st'.analyses[k]? = some none

/-- A step that leaves the analyses alone. -/
theorem Moves.quiet {op : COp} {o : CObs} (e : cStep s st op w = some ((o, st'), w')) (ha : st'.analyses = st.analyses)
    (hn : ∀ k, onAnalysis k (op, o) = none)
    (h : ∃ base' leak', Tracks s base' leak' st' w' ∧ (Tidy s w op → base' = base ∧ leak' = leak)) : Moves s base leak st op w o st' w' where
  exec := e
  tracks := h
  follows := by
    intro k a' hk
    rw [ha] at hk
    exact Or.inl ⟨a', hk, Or.inl ⟨hn k, rfl⟩⟩
  longer := by rw [ha]
  dead := by intro k hk; rw [ha]; exact hk

theorem touchOpt_run {b : Option ℕ} (h : ∀ x, b = some x → x ∈ w.live) : touchOpt b w = some ((), w) := by
  cases b with
  | none => rfl
  | some x =>
    unfold touchOpt
    simp only
    unfold touch
    rw [if_pos (h x rfl)]

/-- Give the blocks of one object back, or change them. -/
theorem pickParams {k : ℕ} {q : Option (ℕ × Params)} (hk : st.params[k]? = some q) (h : Tracks s base leak st w) :
    Rel True base (parBlocks q ++ ((st.params.eraseIdx k).flatMap parBlocks ++ (st.analyses.flatMap anaBlocks ++ st.lists.flatMap listBlocks) ++ leak)) w :=
  h.rel.perm (by
    unfold CState.blocks
    exact (((flatMap_pick parBlocks hk).append_right _).append_right _).trans (by perm_count))

theorem pickAna {k : ℕ} {a : Option Analysis} (hk : st.analyses[k]? = some a) (h : Tracks s base leak st w) :
    Rel True base (anaBlocks a ++ (st.params.flatMap parBlocks ++ ((st.analyses.eraseIdx k).flatMap anaBlocks ++ st.lists.flatMap listBlocks) ++ leak)) w :=
  h.rel.perm (by
    unfold CState.blocks
    exact ((((flatMap_pick anaBlocks hk).append_right _).append_left _).append_right _).trans (by perm_count))

theorem pickList {k : ℕ} {l : Option (Buf Res)} (hk : st.lists[k]? = some l) (h : Tracks s base leak st w) :
    Rel True base (listBlocks l ++ (st.params.flatMap parBlocks ++ (st.analyses.flatMap anaBlocks ++ (st.lists.eraseIdx k).flatMap listBlocks) ++ leak)) w :=
  h.rel.perm (by
    unfold CState.blocks
    exact ((((flatMap_pick listBlocks hk).append_left _).append_left _).append_right _).trans (by perm_count))

theorem live_params {k : ℕ} {q : Option (ℕ × Params)} (hk : st.params[k]? = some q) (h : Tracks s base leak st w) :
    ∀ x, q.map Prod.fst = some x → x ∈ w.live := by
  intro x hx
  refine ((pickParams hk h).live x).mpr (Or.inr (List.mem_append_left _ ?_))
  simp [parBlocks, hx]

theorem cArg_mem {q : Option ℕ} {x : ℕ × Params} (h : cArg st q = some x) : ∃ k : ℕ, st.params[k]? = some (some x) := by
  unfold cArg at h
  cases q with
  | none => cases h
  | some k =>
    refine ⟨k, ?_⟩
    simp only [Option.bind_some] at h
    cases hk : st.params[k]? with
    | none => rw [hk] at h; cases h
    | some y => rw [hk] at h; simp only [Option.join] at h; exact congrArg some h

theorem cArg_touch (h : Tracks s base leak st w) (q : Option ℕ) : touchOpt ((cArg st q).map Prod.fst) w = some ((), w) := by
  refine touchOpt_run ?_
  cases hq : cArg st q with
  | none => intro x hx; cases hx
  | some y =>
    obtain ⟨k, hk⟩ := cArg_mem hq
    exact live_params hk h

theorem cArg_valid (h : Tracks s base leak st w) (q : Option ℕ) : ValidParams? s.cfg ((cArg st q).map Prod.snd) := by
  intro p hp
  cases hq : cArg st q with
  | none => rw [hq] at hp; cases hp
  | some y =>
    rw [hq] at hp
    cases hp
    obtain ⟨k, hk⟩ := cArg_mem hq
    exact h.params y (List.mem_of_getElem? hk)

def CSet.setter : CSet → Setter
  | .range n => .range n
  | .threshold t => .threshold t
  | .filter v => .filter v

theorem CSet.call_eq (c : CSet) (p : Option Params) : c.call p = c.setter.call p := by cases c <;> rfl

theorem CSet.call_none (c : CSet) : (c.call none).2 = none := by cases c <;> rfl

theorem CSet.call_valid (c : CSet) {p : Params} (hp : ValidParams s.cfg p) (hc : ∀ n, c = .range n → n ≤ s.cfg.sizeMax) :
    ∃ q, (c.call (some p)).2 = some q ∧ ValidParams s.cfg q := by
  rw [c.call_eq]
  have := setAll_valid hp [c.setter] (by
    intro n hn
    rw [List.mem_singleton] at hn
    refine hc n ?_
    cases c <;> simp_all [CSet.setter])
  exact this

theorem go_params (hs : Build s) (h : Tracks s base leak st w) : ∃ o st' w', Moves s base leak st .params w o st' w' := by
  obtain ⟨q, w1, L1, e1, r1, hq⟩ := Tri.malloc base w h.rel
  have e : resdetAllocDefaultParameters s.cfg w = some (q.map (fun b => (b, defaultParams s.cfg)), w1) := by
    unfold resdetAllocDefaultParameters
    rw [M.bind_some e1]
    cases q <;> rfl
  refine ⟨_, _, w1, Moves.quiet ((M.bind_some e).trans rfl) rfl (fun _ => rfl) ⟨base, leak, ⟨?_, ?_, h.analyses⟩, fun _ => ⟨rfl, rfl⟩⟩⟩
  · refine r1.perm ?_
    rcases hq with ⟨rfl, rfl, _⟩ | ⟨b, rfl, rfl⟩
    · simp only [CState.blocks, Option.map_none, List.flatMap_append, List.flatMap_cons, List.flatMap_nil, List.append_nil, parBlocks]
      simp
    · simp only [CState.blocks, Option.map_some, List.flatMap_append, List.flatMap_cons, List.flatMap_nil, List.append_nil, parBlocks, Option.toList_some]
      perm_count
  · intro x hx
    rcases List.mem_append.mp hx with hx | hx
    · exact h.params x hx
    · rw [List.mem_singleton] at hx
      cases q with
      | none => cases hx
      | some b => cases hx; exact defaultParams_valid hs.wf

theorem go_set {k : ℕ} {c : CSet} (h : Tracks s base leak st w) (hc : Careful s st (.set k c)) : ∃ o st' w', Moves s base leak st (.set k c) w o st' w' := by
  have hc' : ∀ n, c = .range n → n ≤ s.cfg.sizeMax := by rintro n rfl; exact hc
  cases hk : st.params[k]? with
  | none =>
    refine ⟨.nothing, st, w, Moves.quiet ?_ rfl (fun _ => rfl) ⟨base, leak, h, fun _ => ⟨rfl, rfl⟩⟩⟩
    simp only [cStep, hk]
    rfl
  | some q =>
    have e : cStep s st (.set k c) w = some ((.code (c.call (q.map Prod.snd)).1,
        { st with params := st.params.set k (q.bind (fun q => (c.call (some q.2)).2.map (fun p => (q.1, p)))) }), w) := by
      simp only [cStep, hk]
      rw [M.bind_some (touchOpt_run (live_params hk h))]
      cases q <;> rfl
    refine ⟨_, _, w, Moves.quiet e rfl (fun _ => rfl) ⟨base, leak, ⟨?_, ?_, h.analyses⟩, fun _ => ⟨rfl, rfl⟩⟩⟩
    · refine (pickParams hk h).perm ?_
      simp only [CState.blocks]
      refine List.Perm.symm ((((flatMap_set parBlocks hk).append_right _).append_right _).trans ?_)
      cases q with
      | none => simp [parBlocks]
      | some q =>
        obtain ⟨p', e', _⟩ := c.call_valid (h.params q (List.mem_of_getElem? hk)) hc'
        simp only [Option.bind_some, e', Option.map_some, parBlocks]
        simp
    · intro x hx
      rcases mem_set hx with hx | hx
      · cases q with
        | none => cases hx
        | some q =>
          obtain ⟨p', e', hv⟩ := c.call_valid (h.params q (List.mem_of_getElem? hk)) hc'
          simp only [Option.bind_some, e', Option.map_some] at hx
          cases hx
          exact hv
      · exact h.params x hx

theorem go_freeParams {k : ℕ} (h : Tracks s base leak st w) : ∃ o st' w', Moves s base leak st (.freeParams k) w o st' w' := by
  cases hk : st.params[k]? with
  | none =>
    refine ⟨.nothing, st, w, Moves.quiet ?_ rfl (fun _ => rfl) ⟨base, leak, h, fun _ => ⟨rfl, rfl⟩⟩⟩
    simp only [cStep, hk]
    rfl
  | some q =>
    obtain ⟨_, w1, L1, e1, r1, rfl⟩ := Tri.freeOpt (o := q.map Prod.fst) (List.Perm.refl _) base w (pickParams hk h)
    refine ⟨.nothing, { st with params := st.params.set k none }, w1, Moves.quiet ?_ rfl (fun _ => rfl)
      ⟨base, leak, ⟨r1.perm ?_, ?_, h.analyses⟩, fun _ => ⟨rfl, rfl⟩⟩⟩
    · simp only [cStep, hk]
      exact (M.bind_some e1).trans rfl
    · simp only [CState.blocks]
      exact List.Perm.symm ((((flatMap_set parBlocks hk).append_right _).append_right _).trans (by simp [parBlocks]))
    · intro x hx
      rcases mem_set hx with hx | hx
      · cases hx
      · exact h.params x hx

theorem go_freeList {k : ℕ} (h : Tracks s base leak st w) : ∃ o st' w', Moves s base leak st (.freeList k) w o st' w' := by
  cases hk : st.lists[k]? with
  | none =>
    refine ⟨.nothing, st, w, Moves.quiet ?_ rfl (fun _ => rfl) ⟨base, leak, h, fun _ => ⟨rfl, rfl⟩⟩⟩
    simp only [cStep, hk]
    rfl
  | some q =>
    obtain ⟨_, w1, L1, e1, r1, rfl⟩ := Tri.freeOpt (o := q.map Buf.id) (List.Perm.refl _) base w (pickList hk h)
    refine ⟨.nothing, { st with lists := st.lists.set k none }, w1, Moves.quiet ?_ rfl (fun _ => rfl)
      ⟨base, leak, ⟨r1.perm ?_, h.params, h.analyses⟩, fun _ => ⟨rfl, rfl⟩⟩⟩
    · simp only [cStep, hk]
      exact (M.bind_some e1).trans rfl
    · simp only [CState.blocks]
      exact List.Perm.symm (((((flatMap_set listBlocks hk).append_left _).append_left _).append_right _).trans (by simp [listBlocks]))

theorem go_read {k : ℕ} (h : Tracks s base leak st w) : ∃ o st' w', Moves s base leak st (.read k) w o st' w' := by
  cases hk : st.lists[k]? with
  | none =>
    refine ⟨.nothing, st, w, Moves.quiet ?_ rfl (fun _ => rfl) ⟨base, leak, h, fun _ => ⟨rfl, rfl⟩⟩⟩
    simp only [cStep, hk]
    rfl
  | some q =>
    refine ⟨.list (q.map Buf.data), st, w, Moves.quiet ?_ rfl (fun _ => rfl) ⟨base, leak, h, fun _ => ⟨rfl, rfl⟩⟩⟩
    simp only [cStep, hk]
    rw [M.bind_some (touchOpt_run ?_)]
    · rfl
    · intro x hx
      refine ((pickList hk h).live x).mpr (Or.inr (List.mem_append_left _ ?_))
      simp [listBlocks, hx]

theorem go_other {w1 : World} (h : Tracks s base leak st w) (hc : Careful s st (.other w1)) :
    ∃ o st' w', Moves s base leak st (.other w1) w o st' w' := by
  obtain ⟨hw, hl⟩ := hc
  have hb : ∀ b ∈ st.blocks, b ∈ w1.live := fun b hb => hl b ((h.held b).mpr hb)
  have hn : st.blocks.Nodup := (List.nodup_append.mp h.rel.nodup).1
  refine ⟨.nothing, st, w1, Moves.quiet rfl rfl (fun _ => rfl)
    ⟨{ w1 with live := w1.live.filter (fun b => b ∉ st.blocks) }, [], ⟨?_, h.params, h.analyses⟩, fun h => h.elim⟩⟩
  rw [List.append_nil]
  refine ⟨⟨?_, hw.files_lt, hw.nodup.filter _, hw.files_nodup⟩, le_rfl, rfl, hn, ?_, ?_, hw.nodup, fun _ _ => trivial⟩
  · intro b h1; exact hw.live_lt b (List.mem_of_mem_filter h1)
  · intro b h1
    exact ⟨by simp [h1], hw.live_lt b (hb b h1)⟩
  · intro b
    simp only [List.mem_filter, decide_eq_true_eq]
    constructor
    · intro h1
      by_cases h2 : b ∈ st.blocks
      · exact Or.inr h2
      · exact Or.inl ⟨h1, h2⟩
    · rintro (h1 | h1)
      · exact h1.1
      · exact hb b h1

/-- Neither allocations can fail nor sizes overflow: no memory error. -/
def Short (s : Sys) (w : World) (W H : ℕ) : Prop := (∃ j, w.sched j = false) ∨ LinesTooBig s.cfg W H

theorem Tidy.no_short {W H : ℕ} (h : Plenty w ∧ ¬ HugeScores s W H) : ¬ Short s w W H := by
  obtain ⟨hpl, hsm⟩ := h
  rintro (⟨k, hk⟩ | hl | hl)
  · rw [hpl k] at hk; cases hk
  · exact hsm ⟨W, Or.inl rfl, hl⟩
  · exact hsm ⟨H, Or.inr rfl, hl⟩

/-- The blocks a failing creation leaves behind. -/
theorem created_leak {m : Option Method} {W H : ℕ} {p : Option Params} {e : RDError} {L L' : List ℕ}
    (h : Created s (Short s w W H) L m W H p (none, e) L') : ∃ x : List ℕ, L' = x ++ L ∧
      ((s.cfg.backend = .fftw ∨ W = H ∨ (Plenty w ∧ ¬ HugeScores s W H)) → x = []) := by
  cases h with
  | zero => exact ⟨[], rfl, fun _ => rfl⟩
  | toobig => exact ⟨[], rfl, fun _ => rfl⟩
  | internal => exact ⟨[], rfl, fun _ => rfl⟩
  | nomem _ hF h' =>
    rcases h' with rfl | ⟨h1, h2, x, rfl⟩
    · exact ⟨[], rfl, fun _ => rfl⟩
    · refine ⟨[x], rfl, ?_⟩
      rintro (hb | hb | hb)
      · rw [hb] at h1; cases h1
      · exact absurd hb h2
      · exact absurd hF (Tidy.no_short hb)

theorem Rel.short {W H : ℕ} {L : List ℕ} (h : Rel True base L w) : Rel (Short s w W H) base L w :=
  { h with sched := fun j hj => Or.inl ⟨j, hj⟩ }

theorem Rel.forget {F : Prop} {L : List ℕ} (h : Rel F base L w) : Rel True base L w :=
  { h with sched := fun _ _ => trivial }

theorem go_create {name : Option String} {W H : ℕ} {q : Option ℕ} (hs : Build s) (h : Tracks s base leak st w) :
    ∃ o st' w', Moves s base leak st (.create name W H q) w o st' w' := by
  have hm : ValidMethod? (resdetGetMethod name) := getMethod_valid name
  have hp := cArg_valid h q
  obtain ⟨⟨oa, e⟩, w1, L1, e1, r1, c1⟩ := createAnalysis_tri (F := Short s w W H) hs hm hp (w := W) (h := H) (fun h => Or.inr h.lines) base w h.rel.short
  have ex : cStep s st (.create name W H q) w = some ((.made e oa.isSome, { st with analyses := st.analyses ++ [oa] }), w1) := by
    simp only [cStep]
    rw [M.bind_some (cArg_touch h q), M.bind_some e1]
    rfl
  refine ⟨_, _, w1, ex, ?_, ?_, ?_, ?_⟩
  · cases oa with
    | none =>
      obtain ⟨x, rfl, hx⟩ := created_leak c1
      refine ⟨base, x ++ leak, ⟨r1.forget.perm ?_, h.params, ?_⟩, fun ht => ⟨rfl, by rw [hx ht]; rfl⟩⟩
      · simp only [CState.blocks, List.flatMap_append, List.flatMap_cons, List.flatMap_nil, List.append_nil, anaBlocks]
        perm_count
      · intro a ha
        rcases List.mem_append.mp ha with ha | ha
        · exact h.analyses a ha
        · rw [List.mem_singleton] at ha; cases ha
    | some a =>
      cases c1 with
      | ok _ _ hf hperm _ _ _ =>
        refine ⟨base, leak, ⟨r1.forget.perm (hperm.trans ?_), h.params, ?_⟩, fun ht => ⟨rfl, rfl⟩⟩
        · simp only [CState.blocks, List.flatMap_append, List.flatMap_cons, List.flatMap_nil, List.append_nil, anaBlocks]
          perm_count
        · intro x hx
          rcases List.mem_append.mp hx with hx | hx
          · exact h.analyses x hx
          · cases List.mem_singleton.mp hx; exact hf.good
  · intro k a' hk
    simp only at hk
    by_cases hlt : k < st.analyses.length
    · rw [List.getElem?_append_left hlt] at hk
      exact Or.inl ⟨a', hk, Or.inl ⟨rfl, rfl⟩⟩
    · rw [List.getElem?_append_right (by omega)] at hk
      obtain ⟨h1, h2⟩ := List.getElem?_eq_some_iff.mp hk
      simp only [List.length_singleton] at h1
      refine Or.inr ⟨by omega, rfl, name, W, H, q, e, w1, rfl, ?_⟩
      have : oa = some a' := by simpa using h2
      rw [e1, this]
  · simp
  · intro k hk
    have := (List.getElem?_eq_some_iff.mp hk).1
    simp only
    rw [List.getElem?_append_left this]
    exact hk

/-- A call on one analysis. -/
theorem Moves.onOne {op : COp} {o : CObs} {k : ℕ} {oa oa' : Option Analysis} {ls : List (Option (Buf Res))} {f : Op} {ob : Obs}
    (hk : st.analyses[k]? = some oa)
    (e : cStep s st op w = some ((o, { st with analyses := st.analyses.set k oa', lists := st.lists ++ ls }), w'))
    (hrel : Rel True base (anaBlocks oa' ++ (ls.flatMap listBlocks ++
      (st.params.flatMap parBlocks ++ ((st.analyses.eraseIdx k).flatMap anaBlocks ++ st.lists.flatMap listBlocks) ++ leak))) w')
    (h : Tracks s base leak st w) (hg : ∀ a', oa' = some a' → Good s a') (hnone : oa = none → oa' = none)
    (hon : ∀ j, onAnalysis j (op, o) = if k = j then some (f, ob) else none)
    (hst : ∀ a a', oa = some a → oa' = some a' → Legal a ⟨f, w⟩ ∧ step s a ⟨f, w⟩ = some (ob, a')) :
    Moves s base leak st op w o { st with analyses := st.analyses.set k oa', lists := st.lists ++ ls } w' where
  exec := e
  tracks := by
    refine ⟨base, leak, ⟨hrel.perm ?_, h.params, ?_⟩, fun _ => ⟨rfl, rfl⟩⟩
    · simp only [CState.blocks, List.flatMap_append]
      refine List.Perm.symm (((((flatMap_set anaBlocks hk).append_right _).append_left _).append_right _).trans ?_)
      perm_count
    · intro a ha
      rcases mem_set ha with ha | ha
      · exact hg a ha.symm
      · exact h.analyses a ha
  follows := by
    intro j a' hj
    simp only at hj
    by_cases hjk : k = j
    · subst hjk
      have hlt := (List.getElem?_eq_some_iff.mp hk).1
      rw [List.getElem?_set_self hlt, Option.some.injEq] at hj
      cases oa with
      | none => rw [hnone rfl] at hj; cases hj
      | some a =>
        obtain ⟨h1, h2⟩ := hst a a' rfl hj
        exact Or.inl ⟨a, hk, Or.inr ⟨f, ob, by rw [hon, if_pos rfl], h1, h2⟩⟩
    · rw [List.getElem?_set_ne hjk] at hj
      exact Or.inl ⟨a', hj, Or.inl ⟨by rw [hon, if_neg hjk], rfl⟩⟩
  longer := by simp
  dead := by
    intro j hj
    simp only
    by_cases hjk : k = j
    · subst hjk
      have hlt := (List.getElem?_eq_some_iff.mp hk).1
      rw [hk, Option.some.injEq] at hj
      rw [List.getElem?_set_self hlt, hnone hj]
    · rw [List.getElem?_set_ne hjk]; exact hj

theorem go_ana_live {k : ℕ} {a : Analysis} (hk : st.analyses[k]? = some (some a)) (h : Tracks s base leak st w) : ∀ b ∈ a.blocks, b ∈ w.live :=
  fun b hb => ((pickAna hk h).live b).mpr (Or.inr (List.mem_append_left _ hb))

theorem go_analyzeC {k : ℕ} {image : Option (List Fl)} (hs : Build s) (h : Tracks s base leak st w) (hc : Careful s st (.analyze k image)) :
    ∃ o st' w', Moves s base leak st (.analyze k image) w o st' w' := by
  cases hk : st.analyses[k]? with
  | none =>
    refine ⟨.nothing, st, w, Moves.quiet ?_ rfl (fun _ => rfl) ⟨base, leak, h, fun _ => ⟨rfl, rfl⟩⟩⟩
    simp only [cStep, hk]
    rfl
  | some oa =>
    have fin : ∀ {e : RDError} {oa' : Option Analysis} {w1 : World}, analyzeImage s oa image w = some ((e, oa'), w1) →
        cStep s st (.analyze k image) w = some ((.analyzed e, { st with analyses := st.analyses.set k oa', lists := st.lists ++ [] }), w1) := by
      intro e oa' w1 e1
      simp only [cStep, hk]
      rw [M.bind_some e1, List.append_nil]
      rfl
    have hon : ∀ (e : RDError) j, onAnalysis j (.analyze k image, .analyzed e) = if k = j then some (.analyze image, .analyzed e) else none :=
      fun _ _ => rfl
    cases oa with
    | none =>
      have e1 : analyzeImage s none image w = some ((RDEPARAM, none), w) := rfl
      exact ⟨_, _, w, Moves.onOne hk (fin e1) (pickAna hk h) h (by simp) (fun _ => rfl) (hon _) (by rintro a a' ha; cases ha)⟩
    | some a =>
      have hg := h.analyses a (List.mem_of_getElem? hk)
      have hl := go_ana_live hk h
      cases image with
      | none =>
        have e1 : analyzeImage s (some a) none w = some ((RDEPARAM, some a), w) := rfl
        refine ⟨_, _, w, Moves.onOne hk (fin e1) (pickAna hk h) h (by rintro _ hx; cases hx; exact hg) (fun h => by cases h) (hon _) ?_⟩
        rintro _ _ hx hy
        cases hx
        cases hy
        exact ⟨⟨h.rel.wf, fun b hb => hl b (hg.owned_blocks b hb), trivial⟩, by simp only [step, e1]⟩
      | some im =>
        obtain ⟨e, a', w1, h1, h2, h3, h4, h5, _⟩ := analyzeImage_rel hs hg (pickAna hk h) (fun b hb => List.mem_append_left _ hb) (hc a hk)
        obtain ⟨hg', hb⟩ := h5.good hg
        refine ⟨_, _, w1, Moves.onOne hk (fin h1) ?_ h (by rintro _ hx; cases hx; exact hg') (fun h => by cases h) (hon _) ?_⟩
        · simp only [anaBlocks, hb]
          exact h2
        · rintro _ _ hx hy
          cases hx
          cases hy
          exact ⟨h3, h4⟩

theorem go_resultsC {k : ℕ} {ptr : Ptrs} (hs : Build s) (h : Tracks s base leak st w) :
    ∃ o st' w', Moves s base leak st (.results k ptr) w o st' w' := by
  cases hk : st.analyses[k]? with
  | none =>
    refine ⟨.nothing, st, w, Moves.quiet ?_ rfl (fun _ => rfl) ⟨base, leak, h, fun _ => ⟨rfl, rfl⟩⟩⟩
    simp only [cStep, hk]
    rfl
  | some oa =>
    have fin : ∀ {e : RDError} {out : Out} {oa' : Option Analysis} {w1 : World}, analysisResults s oa ptr w = some ((e, out, oa'), w1) →
        cStep s st (.results k ptr) w = some ((.results e (out.rw.map Buf.data) out.cw (out.rh.map Buf.data) out.ch,
          { st with analyses := st.analyses.set k oa', lists := st.lists ++ [out.rw, out.rh] }), w1) := by
      intro e out oa' w1 e1
      simp only [cStep, hk]
      rw [M.bind_some e1]
      rfl
    have hon : ∀ (e : RDError) rw cw rh ch j, onAnalysis j (.results k ptr, .results e rw cw rh ch) =
      if k = j then some (.results ptr, .results e rw cw rh ch) else none := fun _ _ _ _ _ _ => rfl
    cases oa with
    | none =>
      have e1 : analysisResults s none ptr w = some ((RDEPARAM, Out.nothing, none), w) := by
        unfold analysisResults
        split_ifs <;> rfl
      exact ⟨_, _, w, Moves.onOne hk (fin e1) (pickAna hk h) h (by simp) (fun _ => rfl) (hon _ _ _ _ _) (by rintro a a' ha; cases ha)⟩
    | some a =>
      have hg := h.analyses a (List.mem_of_getElem? hk)
      have hl := go_ana_live hk h
      obtain ⟨⟨e, out, oa'⟩, w1, L', e1, r1, q1⟩ := resultsProg_tri (F := True) (s := s) (a := a) (ptr := ptr) base w (pickAna hk h)
      rw [← analysisResults_eq hs hg hl] at e1
      have hoa : oa' = some a := by cases q1 <;> rfl
      subst hoa
      have hperm : L'.Perm ((out.rw.map Buf.id).toList ++ (out.rh.map Buf.id).toList ++ (anaBlocks (some a) ++ (st.params.flatMap parBlocks ++
          ((st.analyses.eraseIdx k).flatMap anaBlocks ++ st.lists.flatMap listBlocks) ++ leak))) := by
        cases q1 with
        | param => exact List.Perm.refl _
        | noimg => exact List.Perm.refl _
        | nomem => exact List.Perm.refl _
        | ok _ _ _ _ _ _ _ hp => exact hp
      refine ⟨_, _, w1, Moves.onOne hk (fin e1) (r1.perm (hperm.trans ?_)) h (by rintro _ hx; cases hx; exact hg) (fun h => by cases h) (hon _ _ _ _ _) ?_⟩
      · simp only [List.flatMap_cons, List.flatMap_nil, List.append_nil, listBlocks]
        perm_count
      · rintro _ _ hx hy
        cases hx
        cases hy
        exact ⟨⟨h.rel.wf, fun b hb => hl b (hg.owned_blocks b hb), trivial⟩, by simp only [step, e1]⟩

theorem go_destroyC {k : ℕ} (h : Tracks s base leak st w) : ∃ o st' w', Moves s base leak st (.destroy k) w o st' w' := by
  cases hk : st.analyses[k]? with
  | none =>
    refine ⟨.nothing, st, w, Moves.quiet ?_ rfl (fun _ => rfl) ⟨base, leak, h, fun _ => ⟨rfl, rfl⟩⟩⟩
    simp only [cStep, hk]
    rfl
  | some oa =>
    have key : ∃ w1, destroyAnalysis oa w = some ((), w1) ∧ Rel True base (st.params.flatMap parBlocks ++
        ((st.analyses.eraseIdx k).flatMap anaBlocks ++ st.lists.flatMap listBlocks) ++ leak) w1 := by
      cases oa with
      | none => exact ⟨w, rfl, pickAna hk h⟩
      | some a =>
        obtain ⟨_, w1, L1, e1, r1, rfl⟩ := destroyAnalysis_tri (F := True) (List.Perm.refl _) base w (pickAna hk h)
        exact ⟨w1, e1, r1⟩
    obtain ⟨w1, e1, r1⟩ := key
    have hlt := (List.getElem?_eq_some_iff.mp hk).1
    refine ⟨.nothing, { st with analyses := st.analyses.set k none }, w1, ?_, ⟨base, leak, ⟨r1.perm ?_, h.params, ?_⟩, fun _ => ⟨rfl, rfl⟩⟩, ?_, ?_, ?_⟩
    · simp only [cStep, hk]
      exact (M.bind_some e1).trans rfl
    · simp only [CState.blocks]
      exact List.Perm.symm (((((flatMap_set anaBlocks hk).append_right _).append_left _).append_right _).trans (by simp [anaBlocks]))
    · intro a ha
      rcases mem_set ha with ha | ha
      · cases ha
      · exact h.analyses a ha
    · intro j a' hj
      simp only at hj
      by_cases hjk : k = j
      · subst hjk
        rw [List.getElem?_set_self hlt] at hj
        cases hj
      · rw [List.getElem?_set_ne hjk] at hj
        exact Or.inl ⟨a', hj, Or.inl ⟨rfl, rfl⟩⟩
    · simp
    · intro j hj
      simp only
      by_cases hjk : k = j
      · subst hjk; rw [List.getElem?_set_self hlt]
      · rw [List.getElem?_set_ne hjk]; exact hj

theorem go_resdetectC {image : Option (List Fl)} {n W H : ℕ} {ptr : Ptrs} {name : Option String} {q : Option ℕ} (hs : Build s)
    (h : Tracks s base leak st w) (hc : Careful s st (.resdetect image n W H ptr name q)) :
    ∃ o st' w', Moves s base leak st (.resdetect image n W H ptr name q) w o st' w' := by
  have hm : ValidMethod? (resdetGetMethod name) := getMethod_valid name
  have himg : ∀ im, image = some im → im.length ≤ s.cfg.sizeMax ∧ n * (W * H) ≤ im.length := by rintro im rfl; exact hc
  obtain ⟨⟨e, out⟩, w1, L1, e1, r1, q1⟩ := resdetect_tri (F := Short s w W H) hs hm (cArg_valid h q) (w := W) (h := H) (n := n) (image := image)
    (ptr := ptr) himg Or.inr base w h.rel.short
  have key : ∃ x, L1.Perm ((out.rw.map Buf.id).toList ++ (out.rh.map Buf.id).toList ++ (x ++ (st.blocks ++ leak))) ∧
      ((s.cfg.backend = .fftw ∨ W = H ∨ (Plenty w ∧ ¬ HugeScores s W H)) → x = []) := by
    rcases q1 with ⟨h, hL, _⟩ | ⟨hptr, ⟨_, h, hL, _⟩ | ⟨hn, im, him, hd⟩⟩
    · cases h; rw [hL]; exact ⟨[], List.Perm.refl _, fun _ => rfl⟩
    · cases h; rw [hL]; exact ⟨[], List.Perm.refl _, fun _ => rfl⟩
    · cases hd with
      | create e L' hc =>
        obtain ⟨x, rfl, hx⟩ := created_leak hc
        exact ⟨x, List.Perm.refl _, hx⟩
      | refused => exact ⟨[], List.Perm.refl _, fun _ => rfl⟩
      | results ev a c e out L' h1 h2 h3 h4 h5 h6 _ h8 _ => exact ⟨[], h8, fun _ => rfl⟩
  obtain ⟨x, hx, hx'⟩ := key
  refine ⟨_, _, w1, Moves.quiet (?_ : cStep s st (.resdetect image n W H ptr name q) w = some ((.results e (out.rw.map Buf.data) out.cw (out.rh.map Buf.data) out.ch,
      { st with lists := st.lists ++ [out.rw, out.rh] }), w1)) rfl (fun _ => rfl)
    ⟨base, x ++ leak, ⟨r1.forget.perm (hx.trans ?_), h.params, h.analyses⟩, fun ht => ⟨rfl, by rw [hx' ht]; rfl⟩⟩⟩
  · simp only [cStep]
    rw [M.bind_some (cArg_touch h q), M.bind_some e1]
    rfl
  · simp only [CState.blocks, List.flatMap_append, List.flatMap_cons, List.flatMap_nil, List.append_nil, listBlocks]
    perm_count

theorem go_c {op : COp} (hs : Build s) (h : Tracks s base leak st w) (hc : Careful s st op) : ∃ o st' w', Moves s base leak st op w o st' w' := by
  cases op with
  | params => exact go_params hs h
  | set k c => exact go_set h hc
  | freeParams k => exact go_freeParams h
  | create name W H q => exact go_create hs h
  | analyze k image => exact go_analyzeC hs h hc
  | results k ptr => exact go_resultsC hs h
  | destroy k => exact go_destroyC h
  | resdetect image n W H ptr name q => exact go_resdetectC hs h hc
  | read j => exact go_read h
  | freeList j => exact go_freeList h
  | other w1 => exact go_other h hc

theorem runs_c (hs : Build s) (ops : List COp) : ∀ {base : World} {leak : List ℕ} {st : CState} {w : World}, Tracks s base leak st w → Carefully s st ops w →
    ∃ obs st' w', cRun s st ops w = some ((obs, st'), w') ∧ obs.length = ops.length ∧
      ∃ base' leak', Tracks s base' leak' st' w' ∧ (Tidily s st ops w → base' = base ∧ leak' = leak) := by
  induction ops with
  | nil => intro base leak st w h _; exact ⟨[], st, w, rfl, rfl, base, leak, h, fun _ => ⟨rfl, rfl⟩⟩
  | cons op ops ih =>
    intro base leak st w h hc
    obtain ⟨o, st1, w1, hm⟩ := go_c hs h hc.1
    obtain ⟨base1, leak1, h1, ht1⟩ := hm.tracks
    obtain ⟨obs, st2, w2, e2, hl, base2, leak2, h2, ht2⟩ := ih h1 (hc.2 _ _ _ hm.exec)
    refine ⟨o :: obs, st2, w2, ?_, by simp [hl], base2, leak2, h2, ?_⟩
    · unfold cRun
      rw [M.bind_some hm.exec]
      simp only
      rw [M.bind_some e2]
      rfl
    · intro ht
      obtain ⟨rfl, rfl⟩ := ht1 ht.1
      exact ht2 (ht.2 _ _ _ hm.exec)

theorem dead_stays (hs : Build s) {k : ℕ} (ops : List COp) : ∀ {base : World} {leak : List ℕ} {st : CState} {w : World}, Tracks s base leak st w →
    Carefully s st ops w → st.analyses[k]? = some none → ∀ {obs st' w'}, cRun s st ops w = some ((obs, st'), w') → st'.analyses[k]? = some none := by
  induction ops with
  | nil => intro base leak st w _ _ hk obs st' w' e; cases e; exact hk
  | cons op ops ih =>
    intro base leak st w h hc hk obs st' w' e
    obtain ⟨o, st1, w1, hm⟩ := go_c hs h hc.1
    obtain ⟨base1, leak1, h1, _⟩ := hm.tracks
    obtain ⟨obs2, st2, w2, e2, _⟩ := runs_c hs ops h1 (hc.2 _ _ _ hm.exec)
    have : cRun s st (op :: ops) w = some ((o :: obs2, st2), w2) := by
      unfold cRun
      rw [M.bind_some hm.exec]
      simp only
      rw [M.bind_some e2]
      rfl
    rw [e] at this
    cases this
    exact ih h1 (hc.2 _ _ _ hm.exec) (hm.dead k hk) e2

theorem throughout_true (ops : List COp) : ∀ {st : CState} {w : World}, Throughout s (fun _ => True) st ops w := by
  induction ops with
  | nil => intro _ _; trivial
  | cons op ops ih => intro _ _; exact ⟨trivial, fun _ _ _ _ => ih⟩

/-- Memory that suffices at the beginning suffices throughout, unless it is others who use it up. -/
theorem throughout_plenty (ops : List COp) : ∀ {st : CState} {w : World}, Plenty w → (∀ op ∈ ops, ∀ w, op = .other w → Plenty w) → Throughout s Plenty st ops w := by
  induction ops with
  | nil => intro _ _ _ _; trivial
  | cons op ops ih =>
    intro st w h ho
    refine ⟨h, fun o st' w' e => ih ?_ (fun x hx => ho x (List.mem_cons_of_mem _ hx))⟩
    by_cases hop : ∃ v, op = .other v
    · obtain ⟨v, rfl⟩ := hop
      cases e
      exact ho _ List.mem_cons_self _ rfl
    · exact cStep_lasting (fun v hv => hop ⟨v, hv⟩) _ _ _ e h

theorem throughout_drop {P : World → Prop} {last : List COp} (ops : List COp) : ∀ {st st' : CState} {w w' : World} {obs : List CObs},
    Throughout s P st (ops ++ last) w → cRun s st ops w = some ((obs, st'), w') → Throughout s P st' last w' := by
  induction ops with
  | nil =>
    intro _ _ _ _ _ h e
    cases e
    exact h
  | cons op ops ih =>
    intro _ _ _ _ _ h e
    unfold cRun at e
    simp only [M.bind_eq_some] at e
    obtain ⟨⟨o, st1⟩, w1, e1, ⟨os, st2⟩, w2, e2, e3⟩ := e
    cases e3
    exact ih (h.2 _ _ _ e1) e2

theorem throughout_init {P : World → Prop} {last : List COp} (ops : List COp) : ∀ {st : CState} {w : World}, Throughout s P st (ops ++ last) w → Throughout s P st ops w := by
  induction ops with
  | nil => intro _ _ _; trivial
  | cons op ops ih => intro _ _ h; exact ⟨h.1, fun _ _ _ e => ih (h.2 _ _ _ e)⟩

/-- The steps of a program as they concern one analysis. -/
theorem history_c (hs : Build s) {P : World → Prop} {k : ℕ} {m : Option Method} {W H : ℕ} {p : Option Params} (ops : List COp) :
    ∀ {base : World} {leak : List ℕ} {st : CState} {w : World} {ev : List (Call × Obs)} {a : Analysis}, Tracks s base leak st w → Carefully s st ops w → Throughout s P st ops w →
      st.analyses[k]? = some (some a) → Reach s m W H p ev a →
      ∀ {obs st' w' a'}, cRun s st ops w = some ((obs, st'), w') → st'.analyses[k]? = some (some a') →
        ∃ ev', Reach s m W H p (ev ++ ev') a' ∧ ev'.map (fun x => (x.1.op, x.2)) = callsOn k ops obs ∧ ∀ x ∈ ev', P x.1.world := by
  induction ops with
  | nil =>
    intro base leak st w ev a _ _ _ hk hr obs st' w' a' e hk'
    cases e
    rw [hk] at hk'
    cases hk'
    exact ⟨[], by rw [List.append_nil]; exact hr, rfl, by simp⟩
  | cons op ops ih =>
    intro base leak st w ev a h hc ht hk hr obs st' w' a' e hk'
    obtain ⟨o, st1, w1, hm⟩ := go_c hs h hc.1
    obtain ⟨base1, leak1, h1, _⟩ := hm.tracks
    have hc1 := hc.2 _ _ _ hm.exec
    have ht1 := ht.2 _ _ _ hm.exec
    obtain ⟨obs2, st2, w2, e2, _⟩ := runs_c hs ops h1 hc1
    have : cRun s st (op :: ops) w = some ((o :: obs2, st2), w2) := by
      unfold cRun
      rw [M.bind_some hm.exec]
      simp only
      rw [M.bind_some e2]
      rfl
    rw [e] at this
    cases this
    have hlt := (List.getElem?_eq_some_iff.mp hk).1
    have hlt1 : k < st1.analyses.length := lt_of_lt_of_le hlt hm.longer
    have hk1 : st1.analyses[k]? = some (st1.analyses[k]) := List.getElem?_eq_getElem hlt1
    cases ha1 : st1.analyses[k] with
    | none =>
      rw [ha1] at hk1
      have := dead_stays hs ops h1 hc1 hk1 e2
      rw [hk'] at this
      cases this
    | some a1 =>
      rw [ha1] at hk1
      rcases hm.follows k a1 hk1 with ⟨a0, h0, hcase⟩ | ⟨h0, _⟩
      · rw [hk] at h0
        cases h0
        rcases hcase with ⟨hn, rfl⟩ | ⟨f, ob, hon, hl, hst⟩
        · obtain ⟨ev', hr', he', hP⟩ := ih h1 hc1 ht1 hk1 hr e2 hk'
          refine ⟨ev', hr', ?_, hP⟩
          rw [he']
          unfold callsOn
          rw [List.zip_cons_cons, List.filterMap_cons_none hn]
        · obtain ⟨ev', hr', he', hP⟩ := ih h1 hc1 ht1 hk1 (hr.call hl hst) e2 hk'
          refine ⟨(⟨f, w⟩, ob) :: ev', by rw [List.append_assoc] at hr'; exact hr', ?_, List.forall_mem_cons.mpr ⟨ht.1, hP⟩⟩
          rw [List.map_cons, he']
          unfold callsOn
          rw [List.zip_cons_cons, List.filterMap_cons_some hon]
      · omega

theorem flatMap_disjoint {α : Type} (f : α → List ℕ) {l : List α} (hn : (l.flatMap f).Nodup) {i j : ℕ} (hij : i ≠ j) {a b : α}
    (hi : l[i]? = some a) (hj : l[j]? = some b) : ∀ x ∈ f a, x ∉ f b := by
  intro x hx hx'
  have hn' := (flatMap_pick f hi).nodup_iff.mp hn
  refine (List.nodup_append.mp hn').2.2 x hx x ?_ rfl
  refine List.mem_flatMap.mpr ⟨b, ?_, hx'⟩
  rw [List.mem_eraseIdx_iff_getElem?]
  exact ⟨j, fun h => hij h.symm, hj⟩

/-- The state after a releasing step. -/
def releaseState (st : CState) : COp → CState
  | .freeParams k => { st with params := st.params.set k none }
  | .destroy k => { st with analyses := st.analyses.set k none }
  | .freeList k => { st with lists := st.lists.set k none }
  | _ => st

theorem release_step {op : COp} (hr : releases op = true) {o : CObs} (e : cStep s st op w = some ((o, st'), w')) : st' = releaseState st op := by
  have out : ∀ {α : Type} {l : List α} {k : ℕ} (x : α), l[k]? = none → l.set k x = l := by
    intro α l k x h
    exact List.set_eq_of_length_le (by simpa using h)
  cases op with
  | freeParams k =>
    simp only [cStep] at e
    cases hk : st.params[k]? with
    | none => rw [hk] at e; cases e; simp only [releaseState]; rw [out _ hk]
    | some q =>
      rw [hk] at e
      simp only [M.bind_eq_some] at e
      obtain ⟨_, _, _, e⟩ := e
      cases e
      rfl
  | destroy k =>
    simp only [cStep] at e
    cases hk : st.analyses[k]? with
    | none => rw [hk] at e; cases e; simp only [releaseState]; rw [out _ hk]
    | some q =>
      rw [hk] at e
      simp only [M.bind_eq_some] at e
      obtain ⟨_, _, _, e⟩ := e
      cases e
      rfl
  | freeList k =>
    simp only [cStep] at e
    cases hk : st.lists[k]? with
    | none => rw [hk] at e; cases e; simp only [releaseState]; rw [out _ hk]
    | some q =>
      rw [hk] at e
      simp only [M.bind_eq_some] at e
      obtain ⟨_, _, _, e⟩ := e
      cases e
      rfl
  | _ => cases hr

theorem release_careful {op : COp} (hr : releases op = true) : Careful s st op ∧ Tidy s w op := by
  cases op <;> first | exact ⟨trivial, trivial⟩ | cases hr

theorem releases_careful (ops : List COp) : ∀ {st : CState} {w : World}, (∀ op ∈ ops, releases op = true) → Carefully s st ops w ∧ Tidily s st ops w := by
  induction ops with
  | nil => intro st w _; exact ⟨trivial, trivial⟩
  | cons op ops ih =>
    intro st w h
    have h1 := release_careful (s := s) (st := st) (w := w) (h op (by simp))
    exact ⟨⟨h1.1, fun _ _ _ _ => (ih fun x hx => h x (by simp [hx])).1⟩, ⟨h1.2, fun _ _ _ _ => (ih fun x hx => h x (by simp [hx])).2⟩⟩

theorem releases_run (ops : List COp) : ∀ {st : CState} {w : World}, (∀ op ∈ ops, releases op = true) → ∀ {obs st' w'},
    cRun s st ops w = some ((obs, st'), w') → st' = ops.foldl releaseState st := by
  induction ops with
  | nil => intro st w _ obs st' w' e; cases e; rfl
  | cons op ops ih =>
    intro st w h obs st' w' e
    unfold cRun at e
    simp only [M.bind_eq_some] at e
    obtain ⟨⟨o, st1⟩, w1, e1, ⟨os, st2⟩, w2, e2, e3⟩ := e
    cases e3
    rw [List.foldl_cons, ← release_step (h op (by simp)) e1]
    exact ih (fun x hx => h x (by simp [hx])) e2

/-- What is NULL stays NULL, and nothing is added. -/
theorem release_none {st : CState} (ops : List COp) :
    ((ops.foldl releaseState st).params.length = st.params.length ∧ ∀ k : ℕ, st.params[k]? = some none ∨ (COp.freeParams k ∈ ops ∧ k < st.params.length) →
      (ops.foldl releaseState st).params[k]? = some none) ∧
    ((ops.foldl releaseState st).analyses.length = st.analyses.length ∧ ∀ k : ℕ, st.analyses[k]? = some none ∨ (COp.destroy k ∈ ops ∧ k < st.analyses.length) →
      (ops.foldl releaseState st).analyses[k]? = some none) ∧
    ((ops.foldl releaseState st).lists.length = st.lists.length ∧ ∀ k : ℕ, st.lists[k]? = some none ∨ (COp.freeList k ∈ ops ∧ k < st.lists.length) →
      (ops.foldl releaseState st).lists[k]? = some none) := by
  have put : ∀ {α : Type} {l : List (Option α)} {j k : ℕ}, l[k]? = some none ∨ (k = j ∧ k < l.length) → (l.set j none)[k]? = some none := by
    intro α l j k h
    by_cases hjk : j = k
    · subst hjk
      have : j < l.length := by
        rcases h with h | h
        · exact (List.getElem?_eq_some_iff.mp h).1
        · exact h.2
      rw [List.getElem?_set_self this]
    · rw [List.getElem?_set_ne hjk]
      rcases h with h | h
      · exact h
      · exact absurd h.1.symm hjk
  induction ops generalizing st with
  | nil => simp
  | cons op ops ih =>
    rw [List.foldl_cons]
    obtain ⟨⟨a1, a2⟩, ⟨b1, b2⟩, ⟨c1, c2⟩⟩ := ih (st := releaseState st op)
    have l1 : (releaseState st op).params.length = st.params.length := by cases op <;> simp [releaseState]
    have l2 : (releaseState st op).analyses.length = st.analyses.length := by cases op <;> simp [releaseState]
    have l3 : (releaseState st op).lists.length = st.lists.length := by cases op <;> simp [releaseState]
    refine ⟨⟨a1.trans l1, fun k hk => a2 k ?_⟩, ⟨b1.trans l2, fun k hk => b2 k ?_⟩, ⟨c1.trans l3, fun k hk => c2 k ?_⟩⟩
    · rw [l1]
      rcases hk with hk | ⟨hk, hlt⟩
      · left
        cases op <;> first | exact hk | exact put (Or.inl hk)
      · rcases List.mem_cons.mp hk with rfl | hk
        · exact Or.inl (put (Or.inr ⟨rfl, hlt⟩))
        · exact Or.inr ⟨hk, hlt⟩
    · rw [l2]
      rcases hk with hk | ⟨hk, hlt⟩
      · left
        cases op <;> first | exact hk | exact put (Or.inl hk)
      · rcases List.mem_cons.mp hk with rfl | hk
        · exact Or.inl (put (Or.inr ⟨rfl, hlt⟩))
        · exact Or.inr ⟨hk, hlt⟩
    · rw [l3]
      rcases hk with hk | ⟨hk, hlt⟩
      · left
        cases op <;> first | exact hk | exact put (Or.inl hk)
      · rcases List.mem_cons.mp hk with rfl | hk
        · exact Or.inl (put (Or.inr ⟨rfl, hlt⟩))
        · exact Or.inr ⟨hk, hlt⟩

theorem release_all {ops : List COp} (h : ReleasesAll st ops) : (ops.foldl releaseState st).blocks = [] := by
  obtain ⟨_, h1, h2, h3⟩ := h
  obtain ⟨⟨a1, a2⟩, ⟨b1, b2⟩, ⟨c1, c2⟩⟩ := release_none (st := st) ops
  have all : ∀ {α : Type} {f : Option α → List ℕ} {l : List (Option α)} {n : ℕ}, l.length = n → f none = [] →
      (∀ k : ℕ, k < n → l[k]? = some none) → l.flatMap f = [] := by
    intro α f l n hn hf hl
    rw [List.flatMap_eq_nil_iff]
    intro x hx
    obtain ⟨i, hi, rfl⟩ := List.getElem_of_mem hx
    have := hl i (by omega)
    rw [List.getElem?_eq_getElem hi, Option.some.injEq] at this
    rw [this, hf]
  unfold CState.blocks
  rw [all a1 rfl (fun k hk => a2 k (Or.inr ⟨h1 k hk, hk⟩)), all b1 rfl (fun k hk => b2 k (Or.inr ⟨h2 k hk, hk⟩)),
    all c1 rfl (fun k hk => c2 k (Or.inr ⟨h3 k hk, hk⟩))]
  rfl

theorem cRun_append (xs : List COp) : ∀ {st : CState} {ys : List COp} {w : World} {obs st' w'}, cRun s st (xs ++ ys) w = some ((obs, st'), w') →
    ∃ o1 st1 w1 o2, cRun s st xs w = some ((o1, st1), w1) ∧ cRun s st1 ys w1 = some ((o2, st'), w') ∧ obs = o1 ++ o2 ∧ o1.length = xs.length := by
  induction xs with
  | nil => intro st ys w obs st' w' e; exact ⟨[], st, w, obs, rfl, e, rfl, rfl⟩
  | cons x xs ih =>
    intro st ys w obs st' w' e
    rw [List.cons_append] at e
    unfold cRun at e
    simp only [M.bind_eq_some] at e
    obtain ⟨⟨o, st1⟩, w1, e1, ⟨os, st2⟩, w2, e2, e3⟩ := e
    cases e3
    obtain ⟨o1, st3, w3, o2, h1, h2, rfl, h4⟩ := ih e2
    refine ⟨o :: o1, st3, w3, o2, ?_, h2, rfl, by simp [h4]⟩
    unfold cRun
    rw [M.bind_some e1]
    simp only
    rw [M.bind_some h1]
    rfl

theorem carefully_append (xs : List COp) : ∀ {st : CState} {ys : List COp} {w : World}, Carefully s st (xs ++ ys) w → Carefully s st xs w ∧
    ∀ {obs st' w'}, cRun s st xs w = some ((obs, st'), w') → Carefully s st' ys w' := by
  induction xs with
  | nil => intro st ys w h; exact ⟨trivial, fun e => by cases e; exact h⟩
  | cons x xs ih =>
    intro st ys w h
    refine ⟨⟨h.1, fun o st' w' e => (ih (h.2 o st' w' e)).1⟩, ?_⟩
    intro obs st' w' e
    unfold cRun at e
    simp only [M.bind_eq_some] at e
    obtain ⟨⟨o, st1⟩, w1, e1, ⟨os, st2⟩, w2, e2, e3⟩ := e
    cases e3
    exact (ih (h.2 _ _ _ e1)).2 e2

end Verif
